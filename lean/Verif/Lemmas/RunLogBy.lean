import Verif.Lemmas.RunLog
import Verif.Lemmas.RunBy

/-! Complete LogMOC runs, whatever the physics: invariants and what follows from a working analysis and update (`LogComputes`). -/
namespace Verif.Run
open Verif Verif.Sched Verif.Spec Verif.Driver

variable {ι E Q : Type} [Fintype ι] [Fintype E] [Fintype Q] {d m : ℕ}

noncomputable section
open Classical

/-- One line of the histories of a well-posed LogMOC run. -/
def LogRecOk (L : LogCommon E d) (G : ℝ → Prop) (r : LogRec) : Prop :=
  G r.compliance ∧ (L.lambdaLower ≤ r.lambdaV ∧ r.lambdaV ≤ L.lambdaUpper) ∧ r.coeff = r.lambdaV + L.alMu * r.volError ∧
    ∃ ml, valueOf (.ok { L.cMoveLimit with itersMax := some (L.maxIters : ℤ) }) r.iter = .ok (some ml) ∧
      0 ≤ r.rhoChange ∧ r.rhoChange ≤ ml

/-- The invariant before iteration `k` of a run that began with densities `rho0`. -/
structure LogInv (L : LogCommon E d) (It : (E → ℝ) → ℝ → ℝ → LogRec → (E → ℝ) → ℝ → Prop) (G : ℝ → Prop) (rho0 : E → ℝ) (lam0 rs0 : ℝ) (k : ℕ) (w : World E ℝ (LogState E d)) : Prop where
  ready : Ready L.toCommon w.aux.base.scheds
  fits : Fits L.toCommon w.aux.base.filter
  scale : 1 < k → ∃ rs, w.aux.st.runningScale = some rs ∧ 0 ≤ rs
  rho : RhoOk L.toCommon w.rho
  iters : w.aux.log.map LogRec.iter = w.trace
  recs : ∀ r ∈ w.aux.log, LogRecOk L G r
  traj : ∃ lam rs, LogReached It rho0 lam0 rs0 [] w.rho lam rs w.aux.log ∧ (1 < k → lam = w.aux.st.lambdaV ∧ w.aux.st.runningScale = some rs)

/-- The state before initialization. -/
structure LogInv0 (L : LogCommon E d) (files : List (Snapshot.Name × (E → ℝ))) (w : World E ℝ (LogState E d)) : Prop where
  scheds : w.aux.base.scheds = []
  done : w.aux.base.schedsDone = false
  fits : Fits L.toCommon w.aux.base.filter
  log : w.aux.log = []
  trace : w.trace = []
  files : w.files = files

/-- The last line of the histories satisfies both tolerances. -/
def LogConverged (L : LogCommon E d) (log : List LogRec) : Prop :=
  L.checkConvergence = true ∧ ∃ r, log.getLast? = some r ∧ r.rhoChange < L.tolRho ∧ |r.kkt| < L.tolKkt

theorem unpinned_iff (R : Common E d) (e : E) : (∃ s, R.pinned = some s ∧ e ∉ s) ↔ ¬ Pinned R e := by
  simp only [Pinned, not_forall, exists_prop]

/-- One iteration of a started LogMOC run: it does not raise and does what the specification says; the snapshot is written when due. -/
theorem log_iteration {L : LogCommon E d} (hB : Basics L.toCommon) {st : ℕ → (E → ℝ) → LogState E d → LogState E d × Res (E → ℝ)}
    {It : (E → ℝ) → ℝ → ℝ → LogRec → (E → ℝ) → ℝ → Prop} {G : ℝ → Prop} (hst : LogComputes L st It G) {rho0 : E → ℝ} {lam0 rs0 : ℝ} (b : Bool) (k : ℕ)
    (w : World E ℝ (LogState E d)) (hW : LogInv L It G rho0 lam0 rs0 k w) :
    ∃ (r : LogRec) (rho' : E → ℝ) (x : LogState E d) (files : List (Snapshot.Name × (E → ℝ))) (cv : Bool) (rs' : ℝ),
      iterate (logSysWith L st) b k w = (⟨rho', x, files, w.trace ++ [k]⟩, .ok cv) ∧
      LogInv L It G rho0 lam0 rs0 (k + 1) ⟨rho', x, files, w.trace ++ [k]⟩ ∧ r.iter = k ∧ x.log = w.aux.log ++ [r] ∧
      (∀ lam rs, (1 < k → lam = w.aux.st.lambdaV ∧ w.aux.st.runningScale = some rs) → It w.rho lam rs r rho' rs') ∧
      x.st.lambdaV = r.lambdaV ∧ x.st.runningScale = some rs' ∧
      (cv = true ↔ L.checkConvergence = true ∧ r.rhoChange < L.tolRho ∧ |r.kkt| < L.tolKkt) ∧
      files = if k % (L.maxIters / L.recordTimes) = 0 ∨ k = 1 ∨ cv = true ∨ b = true then
        Snapshot.save w.files (Snapshot.snapshotName k) (designPart L.design rho') else w.files := by
  obtain ⟨v, hv, hvok⟩ := hW.ready w.aux.base rfl k
  obtain ⟨x, new, rs', hc, c1, c2, c3, c4, c5, ⟨kk, c6⟩, c7, c7', c8, c9, c10⟩ := hst k v hvok w.rho hW.rho.unit
    (fun e he hp => ⟨hW.rho.low e he, hW.rho.high e he ((unpinned_iff _ e).2 hp)⟩) w.aux hv hW.fits hW.scale
  have hstep : (logSysWith L st).step k w.rho w.aux = (x, .ok new) := hc
  have hrho' := newRho_ok hB (fun _ _ x => (x, .error .valueError)) hW.rho fun e he => (c9 e he).1
  obtain ⟨rho', hrd⟩ : ∃ rho', rho' = newRho (sysWith L.toCommon (fun _ _ x => (x, .error .valueError))) new w.rho := ⟨_, rfl⟩
  have hrd' : newRho (logSysWith L st) new w.rho = rho' := hrd.symm
  rw [← hrd] at hrho'
  have hnew : ∀ e, rho' e = if Pinned L.toCommon e then 1 else if e ∈ L.design then new e else w.rho e := by
    intro e
    rw [hrd, newRho]
    by_cases hp : Pinned L.toCommon e
    · rw [if_pos hp, pin_one (by rintro ⟨s, hs, hn⟩; exact hn (hp s hs))]
    · rw [if_neg hp, pin_of_unpinned (by
        have : ∃ s, L.pinned = some s ∧ e ∉ s := by simpa only [Pinned, not_forall, exists_prop] using hp
        exact this)]
      rfl
  -- the recorded change
  have hchange : ∀ e ∈ L.design, |rho' e - w.rho e| ≤ v.moveLimit := by
    intro e he
    by_cases hp : Pinned L.toCommon e
    · have hu : ¬ ∃ s, L.pinned = some s ∧ e ∉ s := fun hu => (unpinned_iff _ e).1 hu hp
      rw [hrho'.pinned e hu, hW.rho.pinned e hu]
      simpa using hvok.moveLimit
    · rw [hnew e, if_neg hp, if_pos he]
      exact (c9 e he).2 hp
  obtain ⟨change, hch⟩ : ∃ c, c = L.design.sup' hB.design fun e => |rho' e - w.rho e| := ⟨_, rfl⟩
  have hch1 : change ≤ v.moveLimit := by rw [hch]; exact Finset.sup'_le _ _ hchange
  have hch0 : 0 ≤ change := by
    obtain ⟨e, he⟩ := hB.design
    rw [hch]
    exact (abs_nonneg _).trans (Finset.le_sup' (fun e => |rho' e - w.rho e|) he)
  obtain ⟨r, hr⟩ : ∃ r : LogRec, r = ⟨k, change, x.base.compliance, x.base.neumannScale, x.vErr, x.st.lambdaV, x.coeff,
    x.base.kkt.getD 0⟩ := ⟨_, rfl⟩
  have hrec : ∃ cv, logRecord L k w.rho rho' x = ({ x with log := x.log ++ [r] }, .ok cv) ∧
      (cv = true ↔ L.checkConvergence = true ∧ r.rhoChange < L.tolRho ∧ |r.kkt| < L.tolKkt) := by
    unfold logRecord
    rw [dif_pos hB.design]
    simp only [← hch, ← hr]
    by_cases hcc : L.checkConvergence = true
    · rw [if_pos hcc, c6]
      refine ⟨_, rfl, ?_⟩
      rw [decide_eq_true_iff, hr, c6]
      exact ⟨fun ht => ⟨hcc, ht⟩, fun ht => ht.2⟩
    · rw [if_neg hcc]
      exact ⟨_, rfl, by simp, fun ht => absurd ht.1 hcc⟩
  obtain ⟨cv, hrec, hcv⟩ := hrec
  have hgreat : IsGreatest ((fun e => |rho' e - w.rho e|) '' L.design) change := by
    rw [hch]
    constructor
    · obtain ⟨e, he, hs⟩ := Finset.exists_mem_eq_sup' hB.design fun e => |rho' e - w.rho e|
      exact ⟨e, he, hs.symm⟩
    · rintro _ ⟨e, he, rfl⟩
      exact Finset.le_sup' (fun e => |rho' e - w.rho e|) he
  have hiter : ∀ lam rs, (1 < k → lam = w.aux.st.lambdaV ∧ w.aux.st.runningScale = some rs) →
      It w.rho lam rs r rho' rs' := fun lam rs hlr =>
    c10 lam rs r rho' hlr (by rw [hr]) (by rw [hr]) (by rw [hr]) (by rw [hr]) (by rw [hr]) (by rw [hr]) (by rw [hr, c6]; rfl)
      hnew (by rw [hr]; exact hgreat)
  have hW' : ∀ files, LogInv L It G rho0 lam0 rs0 (k + 1) ⟨rho', { x with log := x.log ++ [r] }, files, w.trace ++ [k]⟩ := by
    intro files
    refine ⟨by show Ready L.toCommon x.base.scheds; rw [c4]; exact hW.ready, c1, fun _ => ⟨rs', c2, c3⟩, hrho', ?_, ?_, ?_⟩
    · show (x.log ++ [r]).map LogRec.iter = w.trace ++ [k]
      rw [c5, List.map_append, hW.iters, hr]; rfl
    · intro r' hr'
      have hr'' : r' ∈ x.log ++ [r] := hr'
      rw [c5, List.mem_append, List.mem_singleton] at hr''
      rcases hr'' with hr'' | rfl
      · exact hW.recs r' hr''
      · have hco : r'.coeff = r'.lambdaV + L.alMu * r'.volError := by rw [hr]; exact c7'
        refine ⟨by rw [hr]; exact c7, by rw [hr]; exact c8, hco, v.moveLimit, by rw [hr]; exact hvok.move, by rw [hr]; exact hch0, by
          rw [hr]; exact hch1⟩
    · obtain ⟨lam, rs, t1, t2⟩ := hW.traj
      refine ⟨r.lambdaV, rs', ?_, fun _ => ⟨by rw [hr], c2⟩⟩
      show LogReached It rho0 lam0 rs0 [] rho' r.lambdaV rs' (x.log ++ [r])
      rw [c5]
      exact t1.next (hiter lam rs t2)
  rcases iterate_cases (logSysWith L st) b k w with ⟨x', e, hs, -⟩ | ⟨x', new', hs, ⟨y, e, hr', -⟩ | ⟨y, c, hr', ⟨hz, -⟩ | ⟨-, hi⟩⟩⟩
  · rw [hstep] at hs; simp at hs
  · rw [hstep] at hs
    simp only [Prod.mk.injEq, Except.ok.injEq] at hs
    obtain ⟨rfl, rfl⟩ := hs
    rw [hrd'] at hr'
    have : (logSysWith L st).record k w.rho rho' x = logRecord L k w.rho rho' x := rfl
    rw [this, hrec] at hr'; simp at hr'
  · exfalso
    have h1 := hB.record
    have : (logSysWith L st).maxIters / (logSysWith L st).recordTimes = L.maxIters / L.recordTimes := rfl
    rw [this, Nat.div_eq_zero_iff] at hz
    omega
  · rw [hstep] at hs
    simp only [Prod.mk.injEq, Except.ok.injEq] at hs
    obtain ⟨rfl, rfl⟩ := hs
    rw [hrd'] at hr' hi
    have : (logSysWith L st).record k w.rho rho' x = logRecord L k w.rho rho' x := rfl
    rw [this, hrec] at hr'
    simp only [Prod.mk.injEq, Except.ok.injEq] at hr'
    obtain ⟨rfl, rfl⟩ := hr'
    exact ⟨r, rho', _, _, _, rs', hi, hW' _, by rw [hr], by simp only [c5], hiter, by rw [hr], c2, hcv, rfl⟩

/-- Initialization of a new LogMOC run. -/
theorem log_init {L : LogCommon E d} (hB : Basics L.toCommon) {st : ℕ → (E → ℝ) → LogState E d → LogState E d × Res (E → ℝ)}
    {It : (E → ℝ) → ℝ → ℝ → LogRec → (E → ℝ) → ℝ → Prop} {G : ℝ → Prop} (hst : LogComputes L st It G) (hnr : L.restart = false) {files : List (Snapshot.Name × (E → ℝ))}
    {rho0 : E → ℝ} (hinit : initializeDensity (logSysWith L st) files = .ok (rho0, 0 + 1)) (hrho0 : RhoOk L.toCommon rho0) (lam0 rs0 : ℝ)
    (o : Opt E ℝ (LogState E d)) (hs : o.started = false) (hN : LogInv0 L files o.world) :
    ∃ x, ensureInit (logSysWith L st) o = (⟨⟨rho0, x, files, o.world.trace⟩, true, 0 + 1, o.completed, o.final⟩, .ok ()) ∧ x.log = [] ∧
      LogInv L It G rho0 lam0 rs0 (0 + 1) ⟨rho0, x, files, o.world.trace⟩ := by
  obtain ⟨ss, r, he, hready⟩ := initSched_ok hB o.world.aux.base hN.scheds hN.done
  unfold ensureInit
  rw [if_neg (by simp [hs])]
  have he' : (logSysWith L st).initSched o.world.aux = ({ o.world.aux with base :=
      { o.world.aux.base with scheds := ss, schedsDone := true, filter := o.world.aux.base.filter.updateRadius r } }, .ok ()) := by
    show logInit L o.world.aux = _
    unfold logInit
    rw [he]
  rw [he', hN.files, hinit]
  have hr : (logSysWith L st).restart = false := hnr
  simp only [hr, Bool.false_eq_true, if_false]
  refine ⟨{ o.world.aux with base :=
      { o.world.aux.base with scheds := ss, schedsDone := true, filter := o.world.aux.base.filter.updateRadius r } }, by simp [hN.files],
    hN.log, hready, hN.fits.updateRadius r, fun hk => by simp at hk, hrho0, ?_, ?_, lam0, rs0, ?_, fun hk => by simp at hk⟩
  · show o.world.aux.log.map LogRec.iter = o.world.trace
    rw [hN.log, hN.trace]; rfl
  · show ∀ r ∈ o.world.aux.log, _
    rw [hN.log]; simp
  · show LogReached It rho0 lam0 rs0 [] rho0 lam0 rs0 o.world.aux.log
    rw [hN.log]
    exact .refl

theorem safe_logRun {L : LogCommon E d} (hB : Basics L.toCommon) {st : ℕ → (E → ℝ) → LogState E d → LogState E d × Res (E → ℝ)}
    {It : (E → ℝ) → ℝ → ℝ → LogRec → (E → ℝ) → ℝ → Prop} {G : ℝ → Prop} (hst : LogComputes L st It G) (hnr : L.restart = false) {files : List (Snapshot.Name × (E → ℝ))}
    {rho0 : E → ℝ} (hinit : initializeDensity (logSysWith L st) files = .ok (rho0, 0 + 1)) (hrho0 : RhoOk L.toCommon rho0) (lam0 rs0 : ℝ) :
    Safe (logSysWith L st) (LogInv0 L files) (LogInv L It G rho0 lam0 rs0) fun w => LogConverged L w.aux.log := by
  refine ⟨?_, ?_, fun k w hw => ⟨hw.1, hw.2, hw.3, hw.4, hw.5, hw.6, hw.7⟩, fun w hw => hw⟩
  · intro o hs hN
    obtain ⟨x, hx, -, hI⟩ := log_init hB hst hnr hinit hrho0 lam0 rs0 o hs hN
    exact ⟨_, hx, hI, by show 1 ≤ 0 + 1; omega, by show 0 + 1 ≤ L.maxIters + 1; omega⟩
  · intro b k w hk1 hk2 hW
    obtain ⟨r, rho', x, fs, cv, rs', hi, hW', -, hl, -, -, -, hcv, -⟩ := log_iteration hB hst b k w hW
    exact ⟨_, _, hi, hW', fun ht => ⟨(hcv.1 ht).1, r, by simp [hl], (hcv.1 ht).2⟩⟩

theorem log_started {L : LogCommon E d} (hB : Basics L.toCommon) {st : ℕ → (E → ℝ) → LogState E d → LogState E d × Res (E → ℝ)}
    {It : (E → ℝ) → ℝ → ℝ → LogRec → (E → ℝ) → ℝ → Prop} {G : ℝ → Prop} (hst : LogComputes L st It G) (hnr : L.restart = false) (files : List (Snapshot.Name × (E → ℝ)))
    (cs : List Call) : ∃ o rho0, InitialDensities L.toCommon rho0 ∧ runCalls (logSysWith L st) cs (newLogRun L files) = (o, .ok ()) ∧
      (∀ lam0 rs0, o.started = true → LogInv L It G rho0 lam0 rs0 o.iterNext o.world) ∧
      (o.started = true → 1 ≤ o.iterNext ∧ o.iterNext ≤ L.maxIters + 1 ∧ o.world.aux.log.map LogRec.iter = List.range' 1 (o.iterNext - 1)) ∧
      (o.completed = true → o.iterNext = L.maxIters + 1 ∨ LogConverged L o.world.aux.log) := by
  obtain ⟨rho0, hi, hrho0, hinit⟩ := init_new hB hnr (fun _ _ x => (x, .error .valueError)) files
  have key := fun lam0 rs0 => (safe_logRun hB hst hnr (show initializeDensity (logSysWith L st) files = _ from hinit) hrho0 lam0 rs0).calls cs (newLogRun L files)
    ⟨fun _ => ⟨⟨rfl, rfl, fits_filter0 L.toCommon, rfl, rfl, rfl⟩, rfl⟩, fun hf => by simp [newLogRun, fresh] at hf,
      fun hf => by simp [newLogRun, fresh] at hf⟩
  obtain ⟨o, ho, -, h1, h2⟩ := key 0 0
  refine ⟨o, rho0, hi, ho, fun lam0 rs0 hs => ?_, fun hs => ?_, h2⟩
  · obtain ⟨o', ho', -, h1', -⟩ := key lam0 rs0
    rw [ho] at ho'
    simp only [Prod.mk.injEq, and_true] at ho'
    subst ho'
    exact (h1' hs).1
  · obtain ⟨hW, hk1, hk2⟩ := h1 hs
    refine ⟨hk1, hk2, ?_⟩
    rw [hW.iters]
    rcases C35_iterations_consecutive (logSysWith L st) _ _ files cs o ho with ⟨hf, -⟩ | ⟨b, n, hb, ht, hi, -⟩
    · rw [hf] at hs; simp at hs
    · have hb1 : b = 1 := by
        have hr : (logSysWith L st).restart = false := hnr
        unfold FirstIteration at hb
        simpa [hr] using hb
      subst hb1
      rw [ht, hi]
      congr 1; omega

/-- Generic version: A well-posed LogMOC run works: whatever calls of `optimize` and `optimize_steps` a program makes, none of them raises.
The histories have one line for each of the iterations `1, …, iter_next - 1`, at most `max_iters`; design densities are in
`[rho_min, rho_max]`, unless pinned to 1; every line has a non-negative compliance, a multiplier in the configured range, the
constraint coefficient that belongs to its multiplier and volume error, and a density change at most the scheduled `move_limit`.
A run is completed only after `max_iters` iterations or when both tolerances are met. -/
theorem log_well_posed_by {L : LogCommon E d} (hB : Basics L.toCommon) {st : ℕ → (E → ℝ) → LogState E d → LogState E d × Res (E → ℝ)}
    {It : (E → ℝ) → ℝ → ℝ → LogRec → (E → ℝ) → ℝ → Prop} {G : ℝ → Prop} (hst : LogComputes L st It G) (hnr : L.restart = false)
    (files : List (Snapshot.Name × (E → ℝ))) (cs : List Call) :
    ∃ o, runCalls (logSysWith L st) cs (newLogRun L files) = (o, .ok ()) ∧
      (o.started = true →
        (∀ e ∈ L.design, L.rhoMin ≤ o.world.rho e ∧ ((∃ s, L.pinned = some s ∧ e ∉ s) → o.world.rho e ≤ L.rhoMax)) ∧
        (∀ s, L.pinned = some s → ∀ e ∈ s, o.world.rho e = 1) ∧
        1 ≤ o.iterNext ∧ o.iterNext ≤ L.maxIters + 1 ∧
        o.world.aux.log.map LogRec.iter = List.range' 1 (o.iterNext - 1) ∧
        ∀ r ∈ o.world.aux.log, G r.compliance ∧ (L.lambdaLower ≤ r.lambdaV ∧ r.lambdaV ≤ L.lambdaUpper) ∧
          r.coeff = r.lambdaV + L.alMu * r.volError ∧
          ∃ ml, valueOf (.ok { L.cMoveLimit with itersMax := some (L.maxIters : ℤ) }) r.iter = .ok (some ml) ∧
            0 ≤ r.rhoChange ∧ r.rhoChange ≤ ml) ∧
      (o.completed = true → o.iterNext = L.maxIters + 1 ∨
        (L.checkConvergence = true ∧ ∃ r, o.world.aux.log.getLast? = some r ∧ r.rhoChange < L.tolRho ∧ |r.kkt| < L.tolKkt)) := by
  obtain ⟨o, rho0, -, ho, h1, h2, h3⟩ := log_started hB hst hnr files cs
  refine ⟨o, ho, fun hs => ?_, h3⟩
  have hW := h1 0 0 hs
  obtain ⟨k1, k2, k3⟩ := h2 hs
  refine ⟨fun e he => ⟨hW.rho.low e he, fun hu => hW.rho.high e he hu⟩, fun s hs' e he => hW.rho.pinned e ?_, k1, k2, k3, hW.recs⟩
  rintro ⟨t, ht, hn⟩
  have ht' : L.pinned = some t := ht
  rw [hs'] at ht'
  exact hn (Option.some.inj ht' ▸ he)

/-- Generic version: Refinement: after any calls, the densities and the histories of a well-posed LogMOC run are those of the documented
algorithm (`Verif.Spec.RunLog`), from the initial volume fraction on, whatever multiplier and scale one takes it to start with:
the configured `lambda_v` has no influence. -/
theorem log_refines_by {L : LogCommon E d} (hB : Basics L.toCommon) {st : ℕ → (E → ℝ) → LogState E d → LogState E d × Res (E → ℝ)}
    {It : (E → ℝ) → ℝ → ℝ → LogRec → (E → ℝ) → ℝ → Prop} {G : ℝ → Prop} (hst : LogComputes L st It G) (hnr : L.restart = false)
    (files : List (Snapshot.Name × (E → ℝ))) (cs : List Call) :
    ∃ o rho0, runCalls (logSysWith L st) cs (newLogRun L files) = (o, .ok ()) ∧
      (o.started = true → o.world.aux.log.map LogRec.iter = List.range' 1 (o.iterNext - 1) ∧ InitialDensities L.toCommon rho0 ∧
        ∀ lam0 rs0, ∃ lam rs, LogReached It rho0 lam0 rs0 [] o.world.rho lam rs o.world.aux.log) := by
  obtain ⟨o, rho0, hi, ho, h1, h2, -⟩ := log_started hB hst hnr files cs
  refine ⟨o, rho0, ho, fun hs => ⟨(h2 hs).2.2, hi, fun lam0 rs0 => ?_⟩⟩
  obtain ⟨lam, rs, t, -⟩ := (h1 lam0 rs0 hs).traj
  exact ⟨lam, rs, t⟩

/-- Generic version: no LogMOC run can be resumed: with a sound problem and a snapshot of any iteration `1 ≤ k < max_iters`, whatever its
densities, `optimize()` and every `optimize_steps(n)` with `n > 0` fail with AttributeError during the first iteration, and the
densities are those of the snapshot. -/
theorem log_restarted_by {n : ℕ} {L : LogCommon E d} (hB : Basics L.toCommon) (h : LogRules L)
    {response : Vals → (E → ℝ) → Res (ℝ × (Fin n → E → ℝ))}
    (hr : ∀ k v, ValsOk L.toCommon k v → ∀ rho : E → ℝ, (∀ e, 0 ≤ rho e ∧ rho e ≤ 1) → ∃ c cols, response v (physical L.toCommon v rho) = .ok (c, cols))
    (files : List (Snapshot.Name × (E → ℝ)))
    (k : ℕ) (data : E → ℝ) (hres : Resumes L.toCommon files k data) (hk1 : 1 ≤ k) (hk : k < L.maxIters)
    (hdata : ∀ e ∈ L.design, Pinned L.toCommon e ∨ L.rhoMin ≤ data e ∧ data e ≤ L.rhoMax) (c : Call)
    (hc : ∀ n, c = .steps n → 0 < n) :
    ∃ o, c.run (logSysWith L (logStepWith L response)) (newLogRun L files) = (o, .error .attributeError) ∧ o.world.rho = resumed L.toCommon data ∧
      o.world.trace = [k + 1] := by
  obtain ⟨hrho0, hinit⟩ := init_resumed hB (fun _ _ x => (x, .error .valueError)) hres hdata
  obtain ⟨ss, r, he, hready⟩ := initSched_ok hB (start L.toCommon) rfl rfl
  obtain ⟨x0, hx0⟩ : ∃ x : LogState E d, x = { logStart L with base :=
        { start L.toCommon with scheds := ss, schedsDone := true, filter := (start L.toCommon).filter.updateRadius r } } := ⟨_, rfl⟩
  have he' : (logSysWith L (logStepWith L response)).initSched (logStart L) = (x0, .ok ()) := by
    show logInit L (logStart L) = _
    unfold logInit
    rw [show (logStart L).base = start L.toCommon from rfl, he, hx0]
  obtain ⟨x1, hx1⟩ : ∃ x : LogState E d, x = if (logSysWith L (logStepWith L response)).restart then (logSysWith L (logStepWith L response)).importHist x0 else x0 := ⟨_, rfl⟩
  have hx1' : x1.base = x0.base ∧ x1.st.runningScale = none := by
    have h0 : x0.st.runningScale = none := by rw [hx0]; rfl
    rw [hx1]
    split_ifs
    · show ((match L.savedLog with | some l => { x0 with log := l } | none => x0 : LogState E d)).base = x0.base ∧
        ((match L.savedLog with | some l => { x0 with log := l } | none => x0 : LogState E d)).st.runningScale = none
      cases L.savedLog <;> exact ⟨rfl, h0⟩
    · exact ⟨rfl, h0⟩
  obtain ⟨rho, hrho⟩ : ∃ rho, rho = resumed L.toCommon data := ⟨_, rfl⟩
  rw [← hrho] at hrho0 hinit ⊢
  obtain ⟨o1, ho1⟩ : ∃ o1 : Opt E ℝ (LogState E d), o1 = ⟨⟨rho, x1, files, []⟩, true, k + 1, false, none⟩ := ⟨_, rfl⟩
  have hens : ensureInit (logSysWith L (logStepWith L response)) (newLogRun L files) = (o1, .ok ()) := by
    unfold ensureInit
    rw [if_neg (by simp [newLogRun, fresh])]
    have h1 : (logSysWith L (logStepWith L response)).initSched (newLogRun L files).world.aux = (x0, .ok ()) := he'
    have h2 : initializeDensity (logSysWith L (logStepWith L response)) (newLogRun L files).world.files = .ok (rho, k + 1) := hinit
    rw [h1]
    simp only
    rw [h2, ho1, hx1]
    rfl
  -- the iteration raises
  have hready' : Ready L.toCommon x1.base.scheds := by rw [hx1'.1, hx0]; exact hready
  have hfit : Fits L.toCommon x1.base.filter := by rw [hx1'.1, hx0]; exact (fits_filter0 L.toCommon).updateRadius r
  obtain ⟨v, hv, hvok⟩ := hready' x1.base rfl (k + 1)
  obtain ⟨cc, cols, hresp⟩ := hr (k + 1) v hvok rho hrho0.unit
  obtain ⟨F, F1, han, -⟩ := analyseWith_ok hB hvok rho x1.base hfit (response v) hresp
  obtain ⟨proj, hproj⟩ : ∃ p, p = physical L.toCommon v rho := ⟨_, rfl⟩
  obtain ⟨dC, hdC⟩ : ∃ g, g = chained L.toCommon v rho cols := ⟨_, rfl⟩
  rw [← hproj, ← hdC] at han
  have hstep : ∃ y, (logSysWith L (logStepWith L response)).step (k + 1) rho x1 = (y, .error .attributeError) := by
    show ∃ y, logStepWith L response (k + 1) rho x1 = _
    unfold logStepWith
    rw [hv]
    simp only
    unfold logComputeWith
    rw [han]
    simp only
    unfold logUpdate
    simp only
    have hlp := h.lagPercentile
    have hcp := h.chainPercentile
    rw [if_neg (by rintro ⟨-, (h1 | h1) | h1 | h1⟩ <;> linarith), if_neg (by
      cases hq : v.percentile with
      | none => simp only [Option.getD_none]; rintro (h1 | h1) <;> linarith
      | some q => simp only [Option.getD_some]; have := h.percentages (k + 1) q (hq ▸ hvok.all.percentile); rintro (h1 | h1) <;> linarith)]
    have hup : LogMOC.rhoUpdate (logCfg L F1) (logArgs (k + 1) v) x1.st rho (fwdOf L.toCommon F rho) proj dC = .error .attributeError := by
      unfold LogMOC.rhoUpdate
      have : 1 < (logArgs (k + 1) v).iterNum := by show 1 < k + 1; omega
      simp only [bind, Except.bind, LogMOC.scaleUpdate, if_pos this, hx1'.2]
    rw [hup]
    exact ⟨_, rfl⟩
  obtain ⟨y, hstep⟩ := hstep
  have hloop : ∀ n, 0 < n → Driver.loop (logSysWith L (logStepWith L response)) n (k + 1) o1.world = (⟨rho, y, files, [k + 1]⟩, .error .attributeError) := by
    intro n hn
    obtain ⟨n, rfl⟩ : ∃ j, n = j + 1 := ⟨n - 1, by omega⟩
    rw [ho1]
    simp only [Driver.loop, iterate, hstep]
    rfl
  have himpl : ∀ ms : Option ℕ, (∀ n, ms = some n → 0 < n) → optimizeImpl (logSysWith L (logStepWith L response)) ms (newLogRun L files) =
      ({ o1 with world := ⟨rho, y, files, [k + 1]⟩ }, .error .attributeError) := by
    intro ms hms
    unfold optimizeImpl
    rw [if_neg (by simp [newLogRun, fresh]), hens]
    simp only
    have h1 : o1.iterNext = k + 1 := by rw [ho1]
    have h2 : (logSysWith L (logStepWith L response)).maxIters = L.maxIters := rfl
    rw [if_neg (by rw [h1, h2]; omega)]
    rw [h1, hloop]
    rw [h2]
    cases ms with
    | none => simp only; omega
    | some n => have := hms n rfl; simp only; omega
  cases c with
  | optimize => exact ⟨_, himpl none (by simp), rfl, rfl⟩
  | steps n =>
    have hn := hc n rfl
    refine ⟨{ o1 with world := ⟨rho, y, files, [k + 1]⟩ }, ?_, rfl, rfl⟩
    · simp only [Call.run, optimizeSteps]
      rw [if_neg (by omega)]
      exact himpl _ (by simp only [Option.some.injEq]; rintro _ rfl; omega)

end
end Verif.Run
