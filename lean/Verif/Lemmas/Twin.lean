import Verif.Lemmas.RunBy
import Verif.Lemmas.RunLogBy
import Verif.Lemmas.Simulate
import Verif.Lemmas.Alike

/-!
Two runs that differ in the scheduled load scale and in the physics: if every iteration gives the same densities, the runs are the same.
-/
namespace Verif.Run
open Verif Verif.Sched Verif.Spec Verif.Driver

noncomputable section
open Classical

variable {E : Type} [Fintype E] {d : ℕ}

/-! ### One update -/

theorem scheduled_eq {R R' : Common E d} (hm : R'.maxIters = R.maxIters) {k : ℕ} {cfg : Config} {x y : Option ℝ} (h1 : Scheduled R cfg k x)
    (h2 : Scheduled R' cfg k y) : x = y := by
  unfold Scheduled at h1 h2
  rw [hm, h1] at h2
  exact Except.ok.inj h2

theorem allScheduled_twin {R : Common E d} {c : Config} {k : ℕ} {v w : Vals} (h1 : AllScheduled R k v)
    (h2 : AllScheduled { R with cNeumannScale := c } k w) : w = { v with neumannScale := w.neumannScale } := by
  obtain ⟨R', hR'⟩ : ∃ R' : Common E d, R' = { R with cNeumannScale := c } := ⟨_, rfl⟩
  rw [← hR'] at h2
  have hm : R'.maxIters = R.maxIters := by rw [hR']
  have e1 := Option.some.inj (scheduled_eq hm h1.p (by have := h2.p; rwa [show R'.cP = R.cP by rw [hR']] at this))
  have e2 := Option.some.inj (scheduled_eq hm h1.volFrac (by have := h2.volFrac; rwa [show R'.cVolFrac = R.cVolFrac by rw [hR']] at this))
  have e3 := Option.some.inj (scheduled_eq hm h1.moveLimit (by have := h2.moveLimit; rwa [show R'.cMoveLimit = R.cMoveLimit by rw [hR']] at this))
  have e4 := Option.some.inj (scheduled_eq hm h1.beta (by have := h2.beta; rwa [show R'.cBeta = R.cBeta by rw [hR']] at this))
  have e5 := scheduled_eq hm h1.percentile (by have := h2.percentile; rwa [show R'.cPercentile = R.cPercentile by rw [hR']] at this)
  have e6 := Option.some.inj (scheduled_eq hm h1.radius (by have := h2.radius; rwa [show R'.cRadius = R.cRadius by rw [hR']] at this))
  have hec : R'.etaConst = R.etaConst := by rw [hR']
  have e8 : v.eta = w.eta := by
    cases he : R.etaConst with
    | none => exact Option.some.inj (scheduled_eq hm (h1.eta he) (by have := h2.eta (hec.trans he); rwa [show R'.cEta = R.cEta by rw [hR']] at this))
    | some x => rw [h1.etaConst x he, h2.etaConst x (hec.trans he)]
  obtain ⟨a1, a2, a3, a4, a5, a6, a7, a8⟩ := v
  obtain ⟨b1, b2, b3, b4, b5, b6, b7, b8⟩ := w
  simp only at e1 e2 e3 e4 e5 e6 e8
  subst e1 e2 e3 e4 e5 e6 e8
  rfl

theorem allScheduled_eq {R : Common E d} {k : ℕ} {v w : Vals} (h1 : AllScheduled R k v) (h2 : AllScheduled R k w) : w = v := by
  have h3 : AllScheduled { R with cNeumannScale := R.cNeumannScale } k w := h2
  rw [allScheduled_twin h1 h3, ← Option.some.inj (scheduled_eq rfl h1.neumannScale h2.neumannScale)]

theorem isGreatest_eq {S : Set ℝ} {a b : ℝ} (ha : IsGreatest S a) (hb : IsGreatest S b) : a = b := ha.unique hb

theorem bisected_eq {R : Common E d} {F : ℝ → ℝ} {l l' : ℝ} (h : Bisected R F l) (h' : Bisected R F l') : l = l' := by
  obtain ⟨n, h1, h2, rfl⟩ := h
  obtain ⟨k, k1, k2, rfl⟩ := h'
  rcases lt_trichotomy n k with hlt | rfl | hlt
  · exact absurd h1 (k2 n hlt)
  · rfl
  · exact absurd k1 (h2 k hlt)

/-- The OC update is determined by densities, running scale and sensitivities. -/
theorem ocStep_unique {R : Common E d} {v : Vals} {g rho : E → ℝ} {rs : ℝ} {r r' : Rec} {new new' : E → ℝ} {rs1 rs1' : ℝ} (hk : r'.iter = r.iter)
    (h : OCStep R v g rho rs r new rs1) (h' : OCStep R v g rho rs r' new' rs1') :
    new' = new ∧ rs1' = rs1 ∧ r' = { r with compliance := r'.compliance, neumannScale := r'.neumannScale } := by
  obtain ⟨s, i5, i6, i7, i8, i9, i10, i11, i12, i13⟩ := h
  obtain ⟨s', j5, j6, j7, j8, j9, j10, j11, j12, j13⟩ := h'
  have hs : s' = s := by
    cases hq : v.percentile with
    | none => exact isGreatest_eq (j5 hq) (i5 hq)
    | some q => rw [i6 q hq, j6 q hq]
  have hrs : rs1' = rs1 := by rw [i7, j7, hs, hk]
  subst hrs
  have hl : r'.lmid = r.lmid := bisected_eq j8 i8
  have hnew : new' = new := by funext e; rw [i9, j9, hl]
  subst hnew
  have hch : r'.rhoChange = r.rhoChange := isGreatest_eq j11 i11
  have hve : r'.volError = r.volError := by rw [i10, j10, hl]
  rw [hl] at j12 j13
  have hkkt : r'.kkt = r.kkt := by
    by_cases hne : {e | e ∈ R.design ∧ R.rhoMin + 1 / 10 ^ 6 < grown R v rho (fun e => g e / rs1') r.lmid e ∧
        grown R v rho (fun e => g e / rs1') r.lmid e < R.rhoMax - 1 / 10 ^ 6}.Nonempty
    · exact isGreatest_eq (j13 hne) (i13 hne)
    · have hem := Set.not_nonempty_iff_eq_empty.mp hne
      rw [i12 hem, j12 hem]
  refine ⟨rfl, rfl, ?_⟩
  obtain ⟨a1, a2, a3, a4, a5, a6, a7⟩ := r
  obtain ⟨b1, b2, b3, b4, b5, b6, b7⟩ := r'
  simp only at hk hch hve hl hkkt
  subst hk hch hve hl hkkt
  rfl

/-- The LogMOC update is determined by densities, multiplier, running scale and sensitivities. -/
theorem logStep_unique {L : LogCommon E d} {v : Vals} {g rho : E → ℝ} {lam rs : ℝ} {r r' : LogRec} {new new' : E → ℝ} {rs1 rs1' : ℝ}
    (hk : r'.iter = r.iter) (h : LogStep L v g rho lam rs r new rs1) (h' : LogStep L v g rho lam rs r' new' rs1') :
    new' = new ∧ rs1' = rs1 ∧ r' = { r with compliance := r'.compliance, neumannScale := r'.neumannScale } := by
  obtain ⟨s, i1, i2, i3, i4, i5, i6, i7, i8, i9⟩ := h
  obtain ⟨s', j1, j2, j3, j4, j5, j6, j7, j8, j9⟩ := h'
  have h1 : r'.volError = r.volError := by rw [i1, j1]
  have h2 : r'.lambdaV = r.lambdaV := by rw [i2, j2, h1, hk]
  have h3 : r'.coeff = r.coeff := by rw [i3, j3, h1, h2]
  rw [h3] at j4 j6 j9
  have hs : s' = s := by rw [i4, j4]
  have hrs : rs1' = rs1 := by rw [i5, j5, hs, hk]
  subst hrs
  have hnew : new' = new := by funext e; rw [i6, j6]
  subst hnew
  have hch : r'.rhoChange = r.rhoChange := isGreatest_eq j7 i7
  have hkkt : r'.kkt = r.kkt := by
    by_cases hne : {e | e ∈ L.design ∧ L.rhoMin + 1 / 10 ^ 6 < rho e ∧ rho e < L.rhoMax - 1 / 10 ^ 6}.Nonempty
    · exact isGreatest_eq (j9 hne) (i9 hne)
    · have hem := Set.not_nonempty_iff_eq_empty.mp hne
      rw [i8 hem, j8 hem]
  refine ⟨rfl, rfl, ?_⟩
  obtain ⟨a1, a2, a3, a4, a5, a6, a7, a8⟩ := r
  obtain ⟨b1, b2, b3, b4, b5, b6, b7, b8⟩ := r'
  simp only at hk h1 h2 h3 hch hkkt
  subst hk h1 h2 h3 hch hkkt
  rfl

/-! ### The load scale is not read by filter, threshold and update -/

theorem physical_twin (R : Common E d) (c : Config) (v : Vals) (ns : ℝ) (rho : E → ℝ) :
    physical { R with cNeumannScale := c } { v with neumannScale := ns } rho = physical R v rho := rfl

theorem chained_twin (R : Common E d) (c : Config) (v : Vals) (ns : ℝ) (rho : E → ℝ) {n : ℕ} (cols : Fin n → E → ℝ) :
    chained { R with cNeumannScale := c } { v with neumannScale := ns } rho cols = chained R v rho cols := rfl

theorem grown_twin (R : Common E d) (c : Config) (v : Vals) (ns : ℝ) (rho g : E → ℝ) :
    grown { R with cNeumannScale := c } { v with neumannScale := ns } rho g = grown R v rho g := rfl

theorem excess_twin (R : Common E d) (c : Config) (v : Vals) (ns : ℝ) (rho : E → ℝ) :
    excess { R with cNeumannScale := c } { v with neumannScale := ns } rho = excess R v rho := rfl

theorem bracket_twin (R : Common E d) (c : Config) (F : ℝ → ℝ) : ∀ n, bracket { R with cNeumannScale := c } F n = bracket R F n
  | 0 => rfl
  | n + 1 => by unfold bracket; rw [bracket_twin R c F n]

theorem bisected_twin (R : Common E d) (c : Config) (F : ℝ → ℝ) (l : ℝ) : Bisected { R with cNeumannScale := c } F l ↔ Bisected R F l := by
  unfold Bisected Enough middle
  simp only [bracket_twin]

theorem ocStep_twin {R : Common E d} {c : Config} {v : Vals} {ns : ℝ} {g rho : E → ℝ} {rs : ℝ} {r : Rec} {new : E → ℝ} {rs1 : ℝ}
    (h : OCStep { R with cNeumannScale := c } { v with neumannScale := ns } g rho rs r new rs1) : OCStep R v g rho rs r new rs1 := by
  obtain ⟨s, i5, i6, i7, i8, i9, i10, i11, i12, i13⟩ := h
  rw [grown_twin] at i10
  simp only [excess_twin, grown_twin, bisected_twin] at i8 i9 i10 i12 i13
  exact ⟨s, i5, i6, i7, i8, i9, i10, i11, i12, i13⟩

theorem lagrangianSlope_twin (L : LogCommon E d) (c : Config) (v : Vals) (ns : ℝ) (rho g : E → ℝ) (co : ℝ) :
    lagrangianSlope { L with cNeumannScale := c } { v with neumannScale := ns } rho g co = lagrangianSlope L v rho g co := rfl

theorem logStep_twin {L : LogCommon E d} {c : Config} {v : Vals} {ns : ℝ} {g rho : E → ℝ} {lam rs : ℝ} {r : LogRec} {new : E → ℝ} {rs1 : ℝ}
    (h : LogStep { L with cNeumannScale := c } { v with neumannScale := ns } g rho lam rs r new rs1) : LogStep L v g rho lam rs r new rs1 := by
  obtain ⟨s, i1, i2, i3, i4, i5, i6, i7, i8, i9⟩ := h
  simp only [lagrangianSlope_twin] at i4 i6 i9
  exact ⟨s, i1, i2, i3, i4, i5, i6, i7, i8, i9⟩

/-! ### OC runs -/

/-- The two runs so far. -/
structure TwinInv (R : Common E d) (c : Config) (It It' : (E → ℝ) → ℝ → Rec → (E → ℝ) → ℝ → Prop) (G G' : ℝ → Prop) (line : Rec → Rec → Prop)
    (rho0 : E → ℝ) (log0 : List Rec) (w w' : World E ℝ (State E d)) : Prop where
  inv : InvBy R It G rho0 log0 w
  inv' : InvBy { R with cNeumannScale := c } It' G' rho0 log0 w'
  rho : w'.rho = w.rho
  scale : w'.aux.runningScale = w.aux.runningScale
  log : List.Forall₂ line w.aux.log w'.aux.log
  files : w'.files = w.files

theorem forall₂_append_one {α β : Type} {P : α → β → Prop} {l : List α} {l' : List β} (h : List.Forall₂ P l l') {a : α} {b : β} (hab : P a b) :
    List.Forall₂ P (l ++ [a]) (l' ++ [b]) := List.rel_append h (.cons hab .nil)

theorem start_twin {R : Common E d} {c : Config} (h : Basics R) (h' : Basics { R with cNeumannScale := c })
    (st : ℕ → (E → ℝ) → State E d → State E d × Res (E → ℝ)) (st' : ℕ → (E → ℝ) → State E d → State E d × Res (E → ℝ))
    {files : List (Snapshot.Name × (E → ℝ))} (hs : CanStart R files) :
    ∃ k0 rho0, k0 ≤ R.maxIters ∧ RhoOk R rho0 ∧ RhoOk { R with cNeumannScale := c } rho0 ∧
      initializeDensity (sysWith R st) files = .ok (rho0, k0 + 1) ∧
      initializeDensity (sysWith { R with cNeumannScale := c } st') files = .ok (rho0, k0 + 1) := by
  have hsame : initializeDensity (sysWith { R with cNeumannScale := c } st') files = initializeDensity (sysWith R st) files := rfl
  rcases hs with hn | ⟨k, data, hr, hk, hd⟩
  · obtain ⟨rho0, -, hok, hz⟩ := init_new h hn st files
    obtain ⟨rho0', -, hok', hz'⟩ := init_new h' hn st' files
    have : rho0' = rho0 := by
      have := hz'.symm.trans (hsame.trans hz)
      simp only [Except.ok.injEq, Prod.mk.injEq, and_true] at this
      exact this
    subst this
    exact ⟨0, _, Nat.zero_le _, hok, hok', hz, hz'⟩
  · obtain ⟨hok, hz⟩ := init_resumed h st hr hd
    obtain ⟨hok', hz'⟩ := init_resumed h' st' (k := k) (data := data) hr hd
    exact ⟨k, _, hk, hok, hok', hz, hz'⟩

/-- Two OC runs whose iterations agree are the same run. -/
theorem twin_by {R : Common E d} {c : Config} (h : Basics R) (h' : Basics { R with cNeumannScale := c })
    {st st' : ℕ → (E → ℝ) → State E d → State E d × Res (E → ℝ)} {It It' : (E → ℝ) → ℝ → Rec → (E → ℝ) → ℝ → Prop} {G G' : ℝ → Prop}
    (hst : Computes R st It G) (hst' : Computes { R with cNeumannScale := c } st' It' G') (line : Rec → Rec → Prop)
    (hline : ∀ r r', line r r' → r'.rhoChange = r.rhoChange ∧ r'.kkt = r.kkt) (hrefl : ∀ r, line r r)
    (hdet : ∀ k v, ValsOk R k v → ∀ rho, (∀ e, 0 ≤ rho e ∧ rho e ≤ 1) → ∀ rs r r' new new' rs1 rs1', r.iter = k → r'.iter = k →
      It rho rs r new rs1 → It' rho rs r' new' rs1' → new' = new ∧ rs1' = rs1 ∧ line r r')
    {files : List (Snapshot.Name × (E → ℝ))} (hs : CanStart R files) (cs : List Call) :
    ∃ o o', runCalls (sysWith R st) cs (newRun R files) = (o, .ok ()) ∧
      runCalls (sysWith { R with cNeumannScale := c } st') cs (newRun { R with cNeumannScale := c } files) = (o', .ok ()) ∧
      o'.started = o.started ∧ o'.completed = o.completed ∧
      (o.started = true → o'.iterNext = o.iterNext ∧ o'.world.rho = o.world.rho ∧ List.Forall₂ line o.world.aux.log o'.world.aux.log ∧
        o'.world.files = o.world.files) := by
  obtain ⟨k0, rho0, hk0, hok, hok', hz, hz'⟩ := start_twin h h' st st' hs
  obtain ⟨log0, hlog0⟩ : ∃ l, l = if R.restart then R.saved.getD [] else [] := ⟨_, rfl⟩
  have sim : Sim (sysWith R st) (sysWith { R with cNeumannScale := c } st')
      (fun w w' => Inv0 R files w ∧ Inv0 { R with cNeumannScale := c } files w') (fun _ => TwinInv R c It It' G G' line rho0 log0) := by
    refine ⟨rfl, ?_, ?_, fun k w w' hW => ⟨⟨hW.1.1, hW.1.2, hW.1.3, hW.1.4, hW.1.5, hW.1.6⟩,
      ⟨hW.2.1, hW.2.2, hW.2.3, hW.2.4, hW.2.5, hW.2.6⟩, hW.3, hW.4, hW.5, hW.6⟩⟩
    · rintro o o' hs hs' ⟨hN, hN'⟩
      obtain ⟨x, e, e1, e2, e3⟩ := run_init_by h st It G hlog0 hz hok o hs hN
      obtain ⟨x', e', e1', e2', e3'⟩ := run_init_by h' st' It' G' (log0 := log0) hlog0 hz' hok' o' hs' hN'
      refine ⟨_, _, e, e', rfl, ⟨e3, e3', rfl, ?_, ?_, rfl⟩, by show 1 ≤ k0 + 1; omega⟩
      · show x'.runningScale = x.runningScale
        rw [e2, e2']
      · show List.Forall₂ line x.log x'.log
        rw [e1, e1']
        exact List.forall₂_same.mpr fun r _ => hrefl r
    · intro b k w w' hk1 hk2 hW
      obtain ⟨r, new, x, fs, cv, e1, e2, e3, e4, e5, e6, e7⟩ := run_iteration_by h hst b k w hW.inv
      obtain ⟨r', new', x', fs', cv', f1, f2, f3, f4, f5, f6, f7⟩ := run_iteration_by h' hst' b k w' hW.inv'
      obtain ⟨v, -, hv⟩ := hW.inv.ready w.aux rfl k
      rw [hW.scale, hW.rho] at f5
      obtain ⟨g1, g2, g3⟩ := hdet k v hv w.rho hW.inv.rho.unit _ _ _ _ _ _ _ e3 f3 e5 f5
      have hcv : cv' = cv := by
        have : cv' = true ↔ cv = true := by
          rw [e6, f6, (hline _ _ g3).1, (hline _ _ g3).2]
        cases cv <;> cases cv' <;> simp_all
      refine ⟨_, _, cv, e1, hcv ▸ f1, e2, f2, g1, g2, ?_, ?_⟩
      · show List.Forall₂ line x.log x'.log
        rw [e4, f4]
        exact forall₂_append_one hW.log g3
      · show fs' = fs
        rw [e7, f7, hcv, hW.files, g1]
  obtain ⟨o, o', ho, ho', h1, h2, -, h4⟩ := sim.calls cs (newRun R files) (newRun { R with cNeumannScale := c } files)
    ⟨rfl, rfl, fun _ => ⟨⟨rfl, rfl, fits_filter0 R, rfl, rfl, rfl, rfl⟩, ⟨rfl, rfl, fits_filter0 { R with cNeumannScale := c }, rfl, rfl, rfl, rfl⟩⟩,
      fun hf => by simp [newRun, fresh] at hf⟩
  refine ⟨o, o', ho, ho', h1, h2, fun hs => ?_⟩
  obtain ⟨h5, h6, -⟩ := h4 hs
  exact ⟨h5, h6.rho, h6.log, h6.files⟩

/-! ### LogMOC runs -/

/-- The two runs so far. -/
structure LogTwinInv (L : LogCommon E d) (c : Config) (It It' : (E → ℝ) → ℝ → ℝ → LogRec → (E → ℝ) → ℝ → Prop) (G G' : ℝ → Prop)
    (line : LogRec → LogRec → Prop) (rho0 : E → ℝ) (k : ℕ) (w w' : World E ℝ (LogState E d)) : Prop where
  inv : LogInv L It G rho0 0 0 k w
  inv' : LogInv { L with cNeumannScale := c } It' G' rho0 0 0 k w'
  rho : w'.rho = w.rho
  memory : 1 < k → w'.aux.st.lambdaV = w.aux.st.lambdaV ∧ w'.aux.st.runningScale = w.aux.st.runningScale
  log : List.Forall₂ line w.aux.log w'.aux.log
  files : w'.files = w.files

/-- Two new LogMOC runs whose iterations agree are the same run. -/
theorem log_twin_by {L : LogCommon E d} {c : Config} (h : Basics L.toCommon) (h' : Basics { L with cNeumannScale := c : LogCommon E d }.toCommon)
    {st st' : ℕ → (E → ℝ) → LogState E d → LogState E d × Res (E → ℝ)} {It It' : (E → ℝ) → ℝ → ℝ → LogRec → (E → ℝ) → ℝ → Prop} {G G' : ℝ → Prop}
    (hst : LogComputes L st It G) (hst' : LogComputes { L with cNeumannScale := c } st' It' G') (line : LogRec → LogRec → Prop)
    (hline : ∀ r r', line r r' → r'.rhoChange = r.rhoChange ∧ r'.kkt = r.kkt ∧ r'.lambdaV = r.lambdaV)
    (hdet : ∀ k v, ValsOk L.toCommon k v → ∀ rho, (∀ e, 0 ≤ rho e ∧ rho e ≤ 1) → ∀ lam rs r r' new new' rs1 rs1', r.iter = k → r'.iter = k →
      It rho lam rs r new rs1 → It' rho lam rs r' new' rs1' → new' = new ∧ rs1' = rs1 ∧ line r r')
    (hnr : L.restart = false) (files : List (Snapshot.Name × (E → ℝ))) (cs : List Call) :
    ∃ o o', runCalls (logSysWith L st) cs (newLogRun L files) = (o, .ok ()) ∧
      runCalls (logSysWith { L with cNeumannScale := c } st') cs (newLogRun { L with cNeumannScale := c } files) = (o', .ok ()) ∧
      o'.started = o.started ∧ o'.completed = o.completed ∧
      (o.started = true → o'.iterNext = o.iterNext ∧ o'.world.rho = o.world.rho ∧ List.Forall₂ line o.world.aux.log o'.world.aux.log ∧
        o'.world.files = o.world.files) := by
  obtain ⟨rho0, -, hok, hz⟩ := init_new h hnr (fun _ _ x => (x, .error .valueError)) files
  obtain ⟨rho0', -, hok', hz'⟩ := init_new h' hnr (fun _ _ x => (x, .error .valueError)) files
  have : rho0' = rho0 := by
    have := hz'.symm.trans hz
    simp only [Except.ok.injEq, Prod.mk.injEq, and_true] at this
    exact this
  subst this
  have sim : Sim (logSysWith L st) (logSysWith { L with cNeumannScale := c } st')
      (fun w w' => LogInv0 L files w ∧ LogInv0 { L with cNeumannScale := c } files w') (LogTwinInv L c It It' G G' line rho0') := by
    refine ⟨rfl, ?_, ?_, fun k w w' hW => ⟨⟨hW.1.1, hW.1.2, hW.1.3, hW.1.4, hW.1.5, hW.1.6, hW.1.7⟩,
      ⟨hW.2.1, hW.2.2, hW.2.3, hW.2.4, hW.2.5, hW.2.6, hW.2.7⟩, hW.3, hW.4, hW.5, hW.6⟩⟩
    · rintro o o' hs hs' ⟨hN, hN'⟩
      obtain ⟨x, e, e1, e2⟩ := log_init h hst hnr (show initializeDensity (logSysWith L st) files = _ from hz) hok 0 0 o hs hN
      obtain ⟨x', e', e1', e2'⟩ := log_init h' hst' hnr
        (show initializeDensity (logSysWith { L with cNeumannScale := c } st') files = _ from hz') hok' 0 0 o' hs' hN'
      refine ⟨_, _, e, e', rfl, ⟨e2, e2', rfl, fun hk => by simp at hk, ?_, rfl⟩, by show 1 ≤ 0 + 1; omega⟩
      show List.Forall₂ line x.log x'.log
      rw [e1, e1']; exact .nil
    · intro b k w w' hk1 hk2 hW
      obtain ⟨r, new, x, fs, cv, rs, e1, e2, e3, e4, e5, e6, e7, e8, e9⟩ := log_iteration h hst b k w hW.inv
      obtain ⟨r', new', x', fs', cv', rs', f1, f2, f3, f4, f5, f6, f7, f8, f9⟩ := log_iteration h' hst' b k w' hW.inv'
      obtain ⟨v, -, hv⟩ := hW.inv.ready w.aux.base rfl k
      have hmem : ∃ lam r0, (1 < k → lam = w.aux.st.lambdaV ∧ w.aux.st.runningScale = some r0) ∧
          (1 < k → lam = w'.aux.st.lambdaV ∧ w'.aux.st.runningScale = some r0) := by
        by_cases hk : 1 < k
        · obtain ⟨m1, m2⟩ := hW.memory hk
          obtain ⟨r0, hr0, -⟩ := hW.inv.scale hk
          exact ⟨w.aux.st.lambdaV, r0, fun _ => ⟨rfl, hr0⟩, fun _ => ⟨m1.symm, m2.trans hr0⟩⟩
        · exact ⟨0, 0, fun hn => absurd hn hk, fun hn => absurd hn hk⟩
      obtain ⟨lam, r0, m1, m2⟩ := hmem
      have f5' := f5 lam r0 m2
      rw [hW.rho] at f5'
      obtain ⟨g1, g2, g3⟩ := hdet k v hv w.rho hW.inv.rho.unit _ _ _ _ _ _ _ _ e3 f3 (e5 lam r0 m1) f5'
      obtain ⟨l1, l2, l3⟩ := hline _ _ g3
      have hcv : cv' = cv := by
        have : cv' = true ↔ cv = true := by rw [e8, f8, l1, l2]
        cases cv <;> cases cv' <;> simp_all
      refine ⟨_, _, cv, e1, hcv ▸ f1, e2, f2, g1, fun _ => ⟨?_, ?_⟩, ?_, ?_⟩
      · show x'.st.lambdaV = x.st.lambdaV
        rw [e6, f6, l3]
      · show x'.st.runningScale = x.st.runningScale
        rw [e7, f7, g2]
      · show List.Forall₂ line x.log x'.log
        rw [e4, f4]
        exact forall₂_append_one hW.log g3
      · show fs' = fs
        rw [e9, f9, hcv, hW.files, g1]
  obtain ⟨o, o', ho, ho', h1, h2, -, h4⟩ := sim.calls cs (newLogRun L files) (newLogRun { L with cNeumannScale := c } files)
    ⟨rfl, rfl, fun _ => ⟨⟨rfl, rfl, fits_filter0 L.toCommon, rfl, rfl, rfl⟩,
      ⟨rfl, rfl, fits_filter0 ({ L with cNeumannScale := c } : LogCommon E d).toCommon, rfl, rfl, rfl⟩⟩,
      fun hf => by simp [newLogRun, fresh] at hf⟩
  refine ⟨o, o', ho, ho', h1, h2, fun hs => ?_⟩
  obtain ⟨h5, h6, -⟩ := h4 hs
  exact ⟨h5, h6.rho, h6.log, h6.files⟩

end
end Verif.Run
