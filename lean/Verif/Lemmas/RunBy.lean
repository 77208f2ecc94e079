import Verif.Lemmas.Run
import Verif.Props.Box
import Verif.Props.Driver
import Verif.Props.Elastic
import Verif.Props.Snapshot
import Verif.Props.NodalMax

/-! Complete runs, whatever the physics: invariants and what follows from a working analysis and update (`Computes`). -/
namespace Verif.Run
open Verif Verif.Sched Verif.Spec Verif.Driver

variable {ι E Q : Type} [Fintype ι] [Fintype E] [Fintype Q] {d m : ℕ}

noncomputable section
open Classical

/-- The densities of a well-posed run. -/
structure RhoOk (R : Common E d) (rho : E → ℝ) : Prop where
  unit : ∀ e, 0 ≤ rho e ∧ rho e ≤ 1
  low : ∀ e ∈ R.design, R.rhoMin ≤ rho e
  high : ∀ e ∈ R.design, (∃ s, R.pinned = some s ∧ e ∉ s) → rho e ≤ R.rhoMax
  pinned : ∀ e, (¬ ∃ s, R.pinned = some s ∧ e ∉ s) → rho e = 1

/-- One line of the histories of a well-posed run. -/
def RecOk (R : Common E d) (G : ℝ → Prop) (r : Rec) : Prop :=
  G r.compliance ∧
    ∃ ml, valueOf (.ok { R.cMoveLimit with itersMax := some (R.maxIters : ℤ) }) r.iter = .ok (some ml) ∧
      0 ≤ r.rhoChange ∧ r.rhoChange ≤ ml

/-- The invariant of a started run that began with densities `rho0` and histories `log0`; `It` relates densities, running scales and
recorded lines of an iteration, `G` holds of the recorded objective values. -/
structure InvBy (R : Common E d) (It : (E → ℝ) → ℝ → Rec → (E → ℝ) → ℝ → Prop) (G : ℝ → Prop) (rho0 : E → ℝ) (log0 : List Rec) (w : World E ℝ (State E d)) : Prop where
  ready : Ready R w.aux.scheds
  fits : Fits R w.aux.filter
  scale : 0 ≤ w.aux.runningScale
  rho : RhoOk R w.rho
  recs : ∃ new, w.aux.log = log0 ++ new ∧ new.map Rec.iter = w.trace ∧ ∀ r ∈ new, RecOk R G r
  traj : Reached It rho0 0 log0 w.rho w.aux.runningScale w.aux.log

/-- The state before initialization. -/
structure Inv0 (R : Common E d) (files : List (Snapshot.Name × (E → ℝ))) (w : World E ℝ (State E d)) : Prop where
  scheds : w.aux.scheds = []
  done : w.aux.schedsDone = false
  fits : Fits R w.aux.filter
  scale : w.aux.runningScale = 0
  log : w.aux.log = []
  trace : w.trace = []
  files : w.files = files

/-- The last line of the histories satisfies both tolerances. -/
def Converged (R : Common E d) (log : List Rec) : Prop :=
  R.checkConvergence = true ∧ ∃ r, log.getLast? = some r ∧ r.rhoChange < R.tolRho ∧ |r.kkt| < R.tolKkt

theorem pin_one {idx : Option (Finset E)} {rho : E → ℝ} {e : E} (h : ¬ ∃ s, idx = some s ∧ e ∉ s) : pin idx rho e = 1 := by
  unfold pin
  cases idx with
  | none => rfl
  | some s =>
    have : e ∈ s := by by_contra hn; exact h ⟨s, rfl, hn⟩
    simp [this]

theorem pin_of_unpinned {idx : Option (Finset E)} {rho : E → ℝ} {e : E} (h : ∃ s, idx = some s ∧ e ∉ s) : pin idx rho e = rho e := by
  obtain ⟨s, rfl, hs⟩ := h
  simp [pin, hs]

theorem newRho_ok {R : Common E d} (h : Basics R) (st : ℕ → (E → ℝ) → State E d → State E d × Res (E → ℝ)) {rho new : E → ℝ} (hr : RhoOk R rho)
    (hn : ∀ e ∈ R.design, R.rhoMin ≤ new e ∧ new e ≤ R.rhoMax) : RhoOk R (newRho (sysWith R st) new rho) := by
  obtain ⟨hb0, hb1, hb2⟩ := h.box
  have hsd : ∀ e, 0 ≤ setDesign R.design new rho e ∧ setDesign R.design new rho e ≤ 1 := by
    intro e
    unfold setDesign
    split_ifs with he
    · exact ⟨hb0.trans (hn e he).1, (hn e he).2.trans hb2⟩
    · exact hr.unit e
  refine ⟨fun e => ?_, fun e he => ?_, fun e he hu => ?_, fun e hu => ?_⟩
  · by_cases hu : ∃ s, R.pinned = some s ∧ e ∉ s
    · rw [newRho, pin_of_unpinned (idx := (sysWith R st).pinned) hu]; exact hsd e
    · rw [newRho, pin_one (idx := (sysWith R st).pinned) hu]; norm_num
  · by_cases hu : ∃ s, R.pinned = some s ∧ e ∉ s
    · rw [newRho, pin_of_unpinned (idx := (sysWith R st).pinned) hu]
      show R.rhoMin ≤ setDesign R.design new rho e
      rw [setDesign, if_pos he]; exact (hn e he).1
    · rw [newRho, pin_one (idx := (sysWith R st).pinned) hu]; exact hb1.trans hb2
  · rw [newRho, pin_of_unpinned (idx := (sysWith R st).pinned) hu]
    show setDesign R.design new rho e ≤ R.rhoMax
    rw [setDesign, if_pos he]; exact (hn e he).2
  · rw [newRho, pin_one (idx := (sysWith R st).pinned) hu]

theorem initRho_ok {R : Common E d} (h : Basics R) (x : ℝ) :
    RhoOk R (pin (some R.fixed) (pin R.pinned fun _ => min R.rhoMax (max R.rhoMin x))) := by
  obtain ⟨hb0, hb1, hb2⟩ := h.box
  have hx : R.rhoMin ≤ min R.rhoMax (max R.rhoMin x) ∧ min R.rhoMax (max R.rhoMin x) ≤ R.rhoMax :=
    ⟨le_min hb1 (le_max_left _ _), min_le_left _ _⟩
  have hp : ∀ e, R.rhoMin ≤ pin R.pinned (fun _ => min R.rhoMax (max R.rhoMin x)) e ∧
      pin R.pinned (fun _ => min R.rhoMax (max R.rhoMin x)) e ≤ 1 := by
    intro e
    by_cases hu : ∃ s, R.pinned = some s ∧ e ∉ s
    · rw [pin_of_unpinned hu]; exact ⟨hx.1, hx.2.trans hb2⟩
    · rw [pin_one hu]; exact ⟨hb1.trans hb2, le_rfl⟩
  have hq : ∀ e, R.rhoMin ≤ pin (some R.fixed) (pin R.pinned fun _ => min R.rhoMax (max R.rhoMin x)) e ∧
      pin (some R.fixed) (pin R.pinned fun _ => min R.rhoMax (max R.rhoMin x)) e ≤ 1 := by
    intro e
    by_cases hu : ∃ s, some R.fixed = some s ∧ e ∉ s
    · rw [pin_of_unpinned hu]; exact hp e
    · rw [pin_one hu]; exact ⟨hb1.trans hb2, le_rfl⟩
  refine ⟨fun e => ⟨hb0.trans (hq e).1, (hq e).2⟩, fun e _ => (hq e).1, fun e he hu => ?_, fun e hu => ?_⟩
  · rw [pin_of_unpinned ⟨_, rfl, Finset.disjoint_left.mp h.separate he⟩, pin_of_unpinned (idx := R.pinned) hu]
    exact hx.2
  · by_cases hf : ∃ s, some R.fixed = some s ∧ e ∉ s
    · rw [pin_of_unpinned hf, pin_one (idx := R.pinned) hu]
    · rw [pin_one hf]

/-- `valInit` is the initial value of the configured volume fraction schedule. -/
theorem initialValue_ok {R : Common E d} (h : Basics R) : InitialValue R.cVolFrac (valInit R) := by
  obtain ⟨⟨c0, hc0⟩, hnn, -, -, -⟩ := h.volFrac
  unfold valInit InitialValue
  generalize R.cVolFrac = c at hc0 hnn
  obtain ⟨nm0, ini, tgt, ns, im, cu, ty⟩ := c0
  revert ty
  apply type_cases
  case h =>
    intro ty hty h
    rw [fromDefaults_unknown (c := ⟨nm0, ini, tgt, ns, im, cu, ty⟩) hty] at h
    exact absurd h (by simp)
  case h1 =>
    intro h
    cases tgt with
    | none => simp [fromDefaults] at h
    | some t =>
      simp [fromDefaults] at h
      subst h
      simp [Sched.fromConfig]
  case h2 => intro h; simp [fromDefaults] at h; subst h; simp [Sched.fromConfig]
  case h3 =>
    intro h
    cases ini <;> cases tgt <;> cases ns <;> simp [fromDefaults] at h
    subst h
    simp [Sched.fromConfig]
  case h9 =>
    intro h
    cases ini <;> cases tgt <;> cases ns <;> simp [fromDefaults] at h
    subst h
    simp [Sched.fromConfig]
  case h10 => intro h; simp [fromDefaults] at h; subst h; exact absurd rfl hnn
  case h4 =>
    intro h
    simp only [fromDefaults] at h
    simp at h
    obtain ⟨n, hn, h0, rfl⟩ := toOne_result h
    simp at hn; subst hn
    have hn0 : n ≠ 0 := by omega
    simp [Sched.fromConfig, toOneMutate, hn0]
  case h5 =>
    intro h
    simp only [fromDefaults] at h
    simp at h
    obtain ⟨n, hn, h0, rfl⟩ := toOne_result h
    simp at hn; subst hn
    have hn0 : n ≠ 0 := by omega
    simp [Sched.fromConfig, toOneMutate, hn0]
  case h6 =>
    intro h
    simp only [fromDefaults] at h
    simp at h
    obtain ⟨n, hn, h0, rfl⟩ := toOne_result h
    simp at hn; subst hn
    have hn0 : n ≠ 0 := by omega
    simp [Sched.fromConfig, toOneMutate, hn0]
  case h7 =>
    intro h
    cases ini <;> cases tgt <;> cases ns <;> cases cu <;> simp [fromDefaults] at h
    subst h
    simp [Sched.fromConfig]
  case h8 =>
    intro h
    cases ini <;> cases tgt <;> cases ns <;> cases cu <;> simp [fromDefaults] at h
    subst h
    simp [Sched.fromConfig]

/-- One iteration of a started run: it does not raise and does what the specification says; the snapshot is written when due. -/
theorem run_iteration_by {R : Common E d} (h : Basics R) {st : ℕ → (E → ℝ) → State E d → State E d × Res (E → ℝ)}
    {It : (E → ℝ) → ℝ → Rec → (E → ℝ) → ℝ → Prop} {G : ℝ → Prop} (hst : Computes R st It G) {rho0 : E → ℝ} {log0 : List Rec} (b : Bool) (k : ℕ)
    (w : World E ℝ (State E d)) (hW : InvBy R It G rho0 log0 w) :
    ∃ (r : Rec) (rho' : E → ℝ) (x : State E d) (files : List (Snapshot.Name × (E → ℝ))) (cv : Bool),
      iterate (sysWith R st) b k w = (⟨rho', x, files, w.trace ++ [k]⟩, .ok cv) ∧ InvBy R It G rho0 log0 ⟨rho', x, files, w.trace ++ [k]⟩ ∧
      r.iter = k ∧ x.log = w.aux.log ++ [r] ∧ It w.rho w.aux.runningScale r rho' x.runningScale ∧
      (cv = true ↔ R.checkConvergence = true ∧ r.rhoChange < R.tolRho ∧ |r.kkt| < R.tolKkt) ∧
      files = if k % (R.maxIters / R.recordTimes) = 0 ∨ k = 1 ∨ cv = true ∨ b = true then
        Snapshot.save w.files (Snapshot.snapshotName k) (designPart R.design rho') else w.files := by
  obtain ⟨v, hv, hvok⟩ := hW.ready w.aux rfl k
  obtain ⟨x, new, hc, c1, c2, c3, c4, c5, ⟨kk, c6⟩, c7, c8, c9⟩ := hst k v hvok w.rho hW.rho.unit hW.rho.low w.aux
    hv hW.fits hW.scale
  have hstep : (sysWith R st).step k w.rho w.aux = (x, .ok new) := by
    exact hc
  have hrho' := newRho_ok h st hW.rho fun e he => (c8 e he).1
  obtain ⟨rho', hrd⟩ : ∃ rho', rho' = newRho (sysWith R st) new w.rho := ⟨_, rfl⟩
  rw [← hrd] at hrho'
  -- the recorded change
  have hchange : ∀ e ∈ R.design, |rho' e - w.rho e| ≤ v.moveLimit := by
    intro e he
    by_cases hu : ∃ s, R.pinned = some s ∧ e ∉ s
    · have : rho' e = new e := by
        rw [hrd, newRho, pin_of_unpinned (idx := (sysWith R st).pinned) hu]
        show setDesign R.design new w.rho e = _
        rw [setDesign, if_pos he]
      rw [this]
      exact (c8 e he).2 (hW.rho.high e he hu)
    · rw [hrho'.pinned e hu, hW.rho.pinned e hu]
      simpa using hvok.moveLimit
  obtain ⟨change, hch⟩ : ∃ c, c = R.design.sup' h.design fun e => |rho' e - w.rho e| := ⟨_, rfl⟩
  have hch1 : change ≤ v.moveLimit := by rw [hch]; exact Finset.sup'_le _ _ hchange
  have hch0 : 0 ≤ change := by
    obtain ⟨e, he⟩ := h.design
    rw [hch]
    exact (abs_nonneg _).trans (Finset.le_sup' (fun e => |rho' e - w.rho e|) he)
  obtain ⟨r, hr⟩ : ∃ r : Rec, r = ⟨k, change, x.compliance, x.neumannScale, x.volError, x.lmid, x.kkt.getD 0⟩ := ⟨_, rfl⟩
  have hrec : ∃ cv, record R k w.rho rho' x = ({ x with log := x.log ++ [r] }, .ok cv) ∧
      (cv = true ↔ R.checkConvergence = true ∧ r.rhoChange < R.tolRho ∧ |r.kkt| < R.tolKkt) := by
    unfold record
    rw [dif_pos h.design]
    simp only [← hch, ← hr]
    by_cases hcc : R.checkConvergence = true
    · rw [if_pos hcc, c6]
      refine ⟨_, rfl, ?_⟩
      rw [decide_eq_true_iff, hr, c6]
      exact ⟨fun ht => ⟨hcc, ht⟩, fun ht => ht.2⟩
    · rw [if_neg hcc]
      exact ⟨_, rfl, by simp, fun ht => absurd ht.1 hcc⟩
  obtain ⟨cv, hrec, hcv⟩ := hrec
  have hiter : It w.rho w.aux.runningScale r rho' x.runningScale := by
    refine c9 r rho' (by rw [hr]) (by rw [hr]) (by rw [hr]) (by rw [hr]) (by rw [hr]) (by rw [hr, c6]; rfl) (fun e => ?_) ?_
    · rw [hrd, newRho]
      by_cases hp : Pinned R e
      · rw [if_pos hp, pin_one (by rintro ⟨s, hs, hn⟩; exact hn (hp s hs))]
      · rw [if_neg hp, pin_of_unpinned (by
          have : ∃ s, R.pinned = some s ∧ e ∉ s := by simpa only [Pinned, not_forall, exists_prop] using hp
          exact this)]
        rfl
    · rw [hr]
      show IsGreatest _ change
      rw [hch]
      constructor
      · obtain ⟨e, he, hs⟩ := Finset.exists_mem_eq_sup' h.design fun e => |rho' e - w.rho e|
        exact ⟨e, he, hs.symm⟩
      · rintro _ ⟨e, he, rfl⟩
        exact Finset.le_sup' (fun e => |rho' e - w.rho e|) he
  have hW' : ∀ files, InvBy R It G rho0 log0 ⟨rho', { x with log := x.log ++ [r] }, files, w.trace ++ [k]⟩ := by
    intro files
    refine ⟨by show Ready R x.scheds; rw [c3]; exact hW.ready, c1, c2, hrho', ?_, ?_⟩
    · obtain ⟨nw, n1, n2, n3⟩ := hW.recs
      refine ⟨nw ++ [r], ?_, ?_, ?_⟩
      · simp only [c5, n1, List.append_assoc]
      · simp only [List.map_append, List.map_cons, List.map_nil, n2, hr]
      · intro r' hr'
        simp only [List.mem_append, List.mem_singleton] at hr'
        rcases hr' with hr' | rfl
        · exact n3 r' hr'
        · rw [hr]
          exact ⟨c7, v.moveLimit, hvok.move, hch0, hch1⟩
    · show Reached It rho0 0 log0 rho' x.runningScale (x.log ++ [r])
      rw [c5]
      exact hW.traj.next hiter
  rcases iterate_cases (sysWith R st) b k w with ⟨x', e, hs, -⟩ | ⟨x', new', hs, ⟨y, e, hr', -⟩ | ⟨y, c, hr', ⟨hz, -⟩ | ⟨-, hi⟩⟩⟩
  · rw [hstep] at hs; simp at hs
  · rw [hstep] at hs
    simp only [Prod.mk.injEq, Except.ok.injEq] at hs
    obtain ⟨rfl, rfl⟩ := hs
    rw [← hrd] at hr'
    have : (sysWith R st).record k w.rho rho' x = record R k w.rho rho' x := rfl
    rw [this, hrec] at hr'; simp at hr'
  · exfalso
    have h1 := h.record
    have : (sysWith R st).maxIters / (sysWith R st).recordTimes = R.maxIters / R.recordTimes := rfl
    rw [this, Nat.div_eq_zero_iff] at hz
    omega
  · rw [hstep] at hs
    simp only [Prod.mk.injEq, Except.ok.injEq] at hs
    obtain ⟨rfl, rfl⟩ := hs
    rw [← hrd] at hr' hi
    have : (sysWith R st).record k w.rho rho' x = record R k w.rho rho' x := rfl
    rw [this, hrec] at hr'
    simp only [Prod.mk.injEq, Except.ok.injEq] at hr'
    obtain ⟨rfl, rfl⟩ := hr'
    exact ⟨r, rho', _, _, _, hi, hW' _, by rw [hr], by simp only [c5], hiter, hcv, rfl⟩

/-- Initialization of a run whose start densities are `rho0`. -/
theorem run_init_by {R : Common E d} (h : Basics R) (st : ℕ → (E → ℝ) → State E d → State E d × Res (E → ℝ))
    (It : (E → ℝ) → ℝ → Rec → (E → ℝ) → ℝ → Prop) (G : ℝ → Prop) {files : List (Snapshot.Name × (E → ℝ))} {rho0 : E → ℝ} {k0 : ℕ}
    {log0 : List Rec} (hlog0 : log0 = if R.restart then R.saved.getD [] else [])
    (hinit : initializeDensity (sysWith R st) files = .ok (rho0, k0 + 1)) (hrho0 : RhoOk R rho0)
    (o : Opt E ℝ (State E d)) (hs : o.started = false) (hN : Inv0 R files o.world) :
    ∃ x, ensureInit (sysWith R st) o = (⟨⟨rho0, x, files, o.world.trace⟩, true, k0 + 1, o.completed, o.final⟩, .ok ()) ∧ x.log = log0 ∧
      x.runningScale = 0 ∧ InvBy R It G rho0 log0 ⟨rho0, x, files, o.world.trace⟩ := by
  obtain ⟨ss, r, he, hready⟩ := initSched_ok h o.world.aux hN.scheds hN.done
  unfold ensureInit
  rw [if_neg (by simp [hs])]
  have he' : (sysWith R st).initSched o.world.aux = _ := he
  rw [he', hN.files, hinit]
  simp only
  obtain ⟨y, hy⟩ : ∃ y : State E d, y = { o.world.aux with scheds := ss, schedsDone := true, filter := o.world.aux.filter.updateRadius r } := ⟨_, rfl⟩
  have hx : (if (sysWith R st).restart then (sysWith R st).importHist y else y) = { y with log := log0 } := by
    have hyl : y.log = [] := by rw [hy]; exact hN.log
    have hr : (sysWith R st).restart = R.restart := rfl
    rw [hr, hlog0]
    show (if R.restart then (match R.saved with | some l => { y with log := l } | none => y) else y) = _
    cases R.restart with
    | false =>
      simp only [Bool.false_eq_true, if_false]
      rw [← hyl]
    | true =>
      simp only [if_true]
      cases R.saved with
      | none =>
        simp only [Option.getD_none]
        rw [← hyl]
      | some l => rfl
  have hsc : y.runningScale = 0 := by rw [hy]; exact hN.scale
  refine ⟨{ y with log := log0 }, by rw [← hy, hx]; simp [hN.files], rfl, hsc, ?_, ?_, hsc.ge, hrho0, ⟨[], by simp, by simp [hN.trace], by simp⟩, ?_⟩
  · rw [hy]; exact hready
  · rw [hy]; exact hN.fits.updateRadius r
  · simp only [hsc]
    exact .refl

/-- If initialization gives densities `rho0` and iteration `k0 + 1`, everything works. -/
theorem safe_run_by {R : Common E d} (h : Basics R) {st : ℕ → (E → ℝ) → State E d → State E d × Res (E → ℝ)}
    {It : (E → ℝ) → ℝ → Rec → (E → ℝ) → ℝ → Prop} {G : ℝ → Prop} (hst : Computes R st It G) {files : List (Snapshot.Name × (E → ℝ))} {rho0 : E → ℝ} {k0 : ℕ}
    (hk0 : k0 ≤ R.maxIters) (hinit : initializeDensity (sysWith R st) files = .ok (rho0, k0 + 1)) (hrho0 : RhoOk R rho0) :
    Safe (sysWith R st) (Inv0 R files) (fun _ => InvBy R It G rho0 (if R.restart then R.saved.getD [] else [])) fun w => Converged R w.aux.log := by
  obtain ⟨log0, hlog0⟩ : ∃ l, l = if R.restart then R.saved.getD [] else [] := ⟨_, rfl⟩
  rw [← hlog0]
  refine ⟨?_, ?_, fun k w hw => ⟨hw.1, hw.2, hw.3, hw.4, hw.5, hw.6⟩, fun w hw => hw⟩
  · -- initialization
    intro o hs hN
    obtain ⟨x, hx, -, -, hI⟩ := run_init_by h st It G hlog0 hinit hrho0 o hs hN
    exact ⟨_, hx, hI, by show 1 ≤ k0 + 1; omega, by show k0 + 1 ≤ R.maxIters + 1; omega⟩
  · -- one iteration
    intro b k w hk1 hk2 hW
    obtain ⟨r, rho', x, fs, cv, hi, hW', -, hl, -, hcv, -⟩ := run_iteration_by h hst b k w hW
    exact ⟨_, _, hi, hW', fun ht => ⟨(hcv.1 ht).1, r, by simp [hl], (hcv.1 ht).2⟩⟩

/-- The start densities of a new run. -/
theorem init_new {R : Common E d} (h : Basics R) (hr : R.restart = false) (st : ℕ → (E → ℝ) → State E d → State E d × Res (E → ℝ))
    (files : List (Snapshot.Name × (E → ℝ))) :
    ∃ rho0, InitialDensities R rho0 ∧ RhoOk R rho0 ∧ initializeDensity (sysWith R st) files = .ok (rho0, 0 + 1) := by
  refine ⟨pin (some R.fixed) (pin R.pinned fun _ => min R.rhoMax (max R.rhoMin (valInit R))),
    ⟨valInit R, initialValue_ok h, fun e => ?_⟩, initRho_ok h _, ?_⟩
  · by_cases hf : e ∈ R.fixed
    · rw [if_pos (Or.inr hf), pin_one (by simp [hf])]
    · rw [pin_of_unpinned ⟨_, rfl, hf⟩]
      by_cases hp : Pinned R e
      · rw [if_pos (Or.inl hp), pin_one (by rintro ⟨s, hs, hn⟩; exact hn (hp s hs))]
      · rw [if_neg (by rintro (hp' | hf'); exacts [hp hp', hf hf']), pin_of_unpinned (by
          simpa only [Pinned, not_forall, exists_prop] using hp)]
  · unfold initializeDensity
    have : (sysWith R st).restart = false := hr
    simp only [this, Bool.false_eq_true, if_false]
    rfl

/-- The start densities of a restarted run. -/
theorem init_resumed {R : Common E d} (h : Basics R) (st : ℕ → (E → ℝ) → State E d → State E d × Res (E → ℝ)) {files : List (Snapshot.Name × (E → ℝ))} {k : ℕ} {data : E → ℝ}
    (hres : Resumes R files k data) (hdata : ∀ e ∈ R.design, Pinned R e ∨ R.rhoMin ≤ data e ∧ data e ≤ R.rhoMax) :
    RhoOk R (resumed R data) ∧ initializeDensity (sysWith R st) files = .ok (resumed R data, k + 1) := by
  obtain ⟨hb0, hb1, hb2⟩ := h.box
  have hpin : ∀ e, (∃ s, R.pinned = some s ∧ e ∉ s) ↔ ¬ Pinned R e := by
    intro e
    simp only [Pinned, not_forall, exists_prop]
  constructor
  · refine ⟨fun e => ?_, fun e he => ?_, fun e he hu => ?_, fun e hu => ?_⟩
    · unfold resumed
      split_ifs with h1 h2
      · norm_num
      · rcases hdata e h2 with h3 | h3
        · exact absurd (Or.inl h3) h1
        · exact ⟨hb0.trans h3.1, h3.2.trans hb2⟩
      · norm_num
    · unfold resumed
      split_ifs with h1
      · exact hb1.trans hb2
      · rcases hdata e he with h3 | h3
        · exact absurd (Or.inl h3) h1
        · exact h3.1
    · have hnp := (hpin e).1 hu
      unfold resumed
      rw [if_neg (by rintro (h1 | h1); exacts [hnp h1, Finset.disjoint_left.mp h.separate he h1]), if_pos he]
      exact ((hdata e he).resolve_left hnp).2
    · unfold resumed
      rw [if_pos (Or.inl (not_not.mp (fun hn => hu ((hpin e).2 hn))))]
  · have hrho : resumed R data = pin (some R.fixed) (pin R.pinned (designPart R.design data)) := by
      funext e
      unfold resumed
      by_cases hf : e ∈ R.fixed
      · rw [if_pos (Or.inr hf), pin_one (by simp [hf])]
      · rw [pin_of_unpinned ⟨_, rfl, hf⟩]
        by_cases hp : Pinned R e
        · rw [if_pos (Or.inl hp), pin_one (by rintro ⟨s, hs, hn⟩; exact hn (hp s hs))]
        · rw [if_neg (by rintro (hp' | hf'); exacts [hp hp', hf hf']), pin_of_unpinned (by
            simpa only [Pinned, not_forall, exists_prop] using hp)]
          rfl
    rw [hrho]
    obtain ⟨hr, hl, ⟨hk, hf⟩ | ⟨hf, hk, hown, hmax⟩⟩ := hres
    · exact (C39_restart_from_chosen (sysWith R st) hr k hk hf files).1 data hl
    · have hfind := Snapshot.C39_newest_snapshot_partial (files.map Prod.fst) k hk (mem_of_load hl) hown hmax
      unfold initializeDensity
      have hr' : (sysWith R st).restart = true := hr
      have hf' : ¬ 0 < (sysWith R st).restartFrom := not_lt.2 hf
      simp only [hr', if_true, if_neg hf', hfind, hl]
      congr 1

/-- Generic version: A well-posed run works: whatever calls of `optimize` and `optimize_steps` a program makes, in whatever
directory, none of them raises. Once the run has started, the histories have one line for each of the iterations
`1, …, iter_next - 1`, at most `max_iters`; every design element has a density in `[rho_min, rho_max]`, unless it is
pinned to 1; every line has a non-negative compliance and a largest density change at most the value of the configured
`move_limit` schedule at its iteration. A run is completed only after `max_iters` iterations or when convergence checking
is on and the last line is below both tolerances. -/
theorem well_posed_by {R : Common E d} (h : Basics R) {st : ℕ → (E → ℝ) → State E d → State E d × Res (E → ℝ)}
    {It : (E → ℝ) → ℝ → Rec → (E → ℝ) → ℝ → Prop} {G : ℝ → Prop} (hst : Computes R st It G) (hnr : R.restart = false)
    (files : List (Snapshot.Name × (E → ℝ))) (cs : List Call) :
    ∃ o, runCalls (sysWith R st) cs (newRun R files) = (o, .ok ()) ∧
      (o.started = true →
        (∀ e ∈ R.design, R.rhoMin ≤ o.world.rho e ∧ ((∃ s, R.pinned = some s ∧ e ∉ s) → o.world.rho e ≤ R.rhoMax)) ∧
        (∀ s, R.pinned = some s → ∀ e ∈ s, o.world.rho e = 1) ∧
        1 ≤ o.iterNext ∧ o.iterNext ≤ R.maxIters + 1 ∧
        o.world.aux.log.map Rec.iter = List.range' 1 (o.iterNext - 1) ∧
        ∀ r ∈ o.world.aux.log, G r.compliance ∧
          ∃ ml, valueOf (.ok { R.cMoveLimit with itersMax := some (R.maxIters : ℤ) }) r.iter = .ok (some ml) ∧
            0 ≤ r.rhoChange ∧ r.rhoChange ≤ ml) ∧
      (o.completed = true → o.iterNext = R.maxIters + 1 ∨
        (R.checkConvergence = true ∧ ∃ r, o.world.aux.log.getLast? = some r ∧ r.rhoChange < R.tolRho ∧ |r.kkt| < R.tolKkt)) := by
  obtain ⟨rho0, -, hrho0, hinit⟩ := init_new h hnr st files
  obtain ⟨o, ho, h0, h1, h2⟩ := (safe_run_by h hst (Nat.zero_le _) hinit hrho0).calls cs (newRun R files)
    ⟨fun _ => ⟨⟨rfl, rfl, fits_filter0 R, rfl, rfl, rfl, rfl⟩, rfl⟩, fun hf => by simp [newRun, fresh] at hf, fun hf => by simp [newRun, fresh] at hf⟩
  refine ⟨o, ho, fun hs => ?_, h2⟩
  obtain ⟨hW, hk1, hk2⟩ := h1 hs
  obtain ⟨new, n1, n2, n3⟩ := hW.recs
  have hlog : o.world.aux.log = new := by rw [n1, hnr]; simp
  refine ⟨fun e he => ⟨hW.rho.low e he, fun hu => hW.rho.high e he hu⟩, fun s hs' e he => hW.rho.pinned e ?_, hk1, hk2, ?_,
    by rw [hlog]; exact n3⟩
  · rintro ⟨t, ht, hn⟩
    have ht' : R.pinned = some t := ht
    rw [hs'] at ht'
    exact hn (Option.some.inj ht' ▸ he)
  · rw [hlog, n2]
    rcases C35_iterations_consecutive (sysWith R st) _ _ files cs o ho with ⟨hf, -⟩ | ⟨b, n, hb, ht, hi, -⟩
    · rw [hf] at hs; simp at hs
    · have hb1 : b = 1 := by
        have hr : (sysWith R st).restart = false := hnr
        unfold FirstIteration at hb
        simpa [hr] using hb
      subst hb1
      rw [ht, hi]
      congr 1; omega

/-- Generic version: Refinement: after any calls, the densities and the histories of a well-posed run are those of the documented
algorithm (`Verif.Spec.Trajectory`): one line for each iteration `1, …, iter_next - 1`, each of them the documented iteration
with the scheduled values of its number, applied to the densities the previous one left behind; the first one starts from the
initial volume fraction. -/
theorem refines_by {R : Common E d} (h : Basics R) {st : ℕ → (E → ℝ) → State E d → State E d × Res (E → ℝ)}
    {It : (E → ℝ) → ℝ → Rec → (E → ℝ) → ℝ → Prop} {G : ℝ → Prop} (hst : Computes R st It G) (hnr : R.restart = false)
    (files : List (Snapshot.Name × (E → ℝ))) (cs : List Call) :
    ∃ o, runCalls (sysWith R st) cs (newRun R files) = (o, .ok ()) ∧
      (o.started = true → o.world.aux.log.map Rec.iter = List.range' 1 (o.iterNext - 1) ∧
        ∃ rho0 rs, InitialDensities R rho0 ∧ Reached It rho0 0 [] o.world.rho rs o.world.aux.log) := by
  obtain ⟨o, ho, h1, -⟩ := well_posed_by h hst hnr files cs
  obtain ⟨rho0, hi, hrho0, hinit⟩ := init_new h hnr st files
  obtain ⟨o', ho', -, h1', -⟩ := (safe_run_by h hst (Nat.zero_le _) hinit hrho0).calls cs (newRun R files)
    ⟨fun _ => ⟨⟨rfl, rfl, fits_filter0 R, rfl, rfl, rfl, rfl⟩, rfl⟩, fun hf => by simp [newRun, fresh] at hf, fun hf => by simp [newRun, fresh] at hf⟩
  rw [ho] at ho'
  simp only [Prod.mk.injEq, and_true] at ho'
  subst ho'
  refine ⟨o, ho, fun hs => ⟨(h1 hs).2.2.2.2.1, rho0, o.world.aux.runningScale, hi, ?_⟩⟩
  have := (h1' hs).1.traj
  rw [hnr] at this
  exact this

/-- Generic version: A well-posed restarted run works too. If the snapshot it finds is that of an iteration `k ≤ max_iters` with
admissible design densities, no call raises; the iterations executed are `k + 1, …, iter_next - 1`, appended to the stored
histories (if there are any); each is the documented iteration with the scheduled values of its number, the first one applied
to the saved densities and a running scale of zero; the box is respected. -/
theorem restarted_by {R : Common E d} (h : Basics R) {st : ℕ → (E → ℝ) → State E d → State E d × Res (E → ℝ)}
    {It : (E → ℝ) → ℝ → Rec → (E → ℝ) → ℝ → Prop} {G : ℝ → Prop} (hst : Computes R st It G) (files : List (Snapshot.Name × (E → ℝ))) (k : ℕ) (data : E → ℝ)
    (hres : Resumes R files k data) (hk : k ≤ R.maxIters)
    (hdata : ∀ e ∈ R.design, Pinned R e ∨ R.rhoMin ≤ data e ∧ data e ≤ R.rhoMax) (cs : List Call) :
    ∃ o, runCalls (sysWith R st) cs (newRun R files) = (o, .ok ()) ∧
      (o.started = true →
        k + 1 ≤ o.iterNext ∧ o.iterNext ≤ R.maxIters + 1 ∧
        (∃ new, o.world.aux.log = R.saved.getD [] ++ new ∧ new.map Rec.iter = List.range' (k + 1) (o.iterNext - (k + 1)) ∧
          ∀ r ∈ new, G r.compliance) ∧
        (∃ rs, Reached It (resumed R data) 0 (R.saved.getD []) o.world.rho rs o.world.aux.log) ∧
        ∀ e ∈ R.design, Pinned R e ∧ o.world.rho e = 1 ∨ R.rhoMin ≤ o.world.rho e ∧ o.world.rho e ≤ R.rhoMax) ∧
      (o.completed = true → o.iterNext = R.maxIters + 1 ∨
        (R.checkConvergence = true ∧ ∃ r, o.world.aux.log.getLast? = some r ∧ r.rhoChange < R.tolRho ∧ |r.kkt| < R.tolKkt)) := by
  obtain ⟨hrho0, hinit⟩ := init_resumed h st hres hdata
  have hr : R.restart = true := hres.1
  obtain ⟨o, ho, -, h1, h2⟩ := (safe_run_by h hst hk hinit hrho0).calls cs (newRun R files)
    ⟨fun _ => ⟨⟨rfl, rfl, fits_filter0 R, rfl, rfl, rfl, rfl⟩, rfl⟩, fun hf => by simp [newRun, fresh] at hf, fun hf => by simp [newRun, fresh] at hf⟩
  refine ⟨o, ho, fun hs => ?_, h2⟩
  obtain ⟨hW, hk1, hk2⟩ := h1 hs
  rw [hr] at hW
  simp only [if_true] at hW
  obtain ⟨new, n1, n2, n3⟩ := hW.recs
  rcases C35_iterations_consecutive (sysWith R st) _ _ files cs o ho with ⟨hf, -⟩ | ⟨b, n, hb, ht, hi, -⟩
  · rw [hf] at hs; simp at hs
  · have hb1 : b = k + 1 := by
      have hb' := initializeDensity_first hinit
      unfold FirstIteration at hb hb'
      have hr' : (sysWith R st).restart = true := hr
      simp only [hr', if_true] at hb hb'
      split_ifs at hb hb' <;> omega
    subst hb1
    refine ⟨by omega, hk2, ⟨new, n1, ?_, fun r hr => (n3 r hr).1⟩, ⟨_, hW.traj⟩, fun e he => ?_⟩
    · rw [n2, ht, hi]
      congr 1; omega
    · by_cases hp : Pinned R e
      · exact Or.inl ⟨hp, hW.rho.pinned e fun hu => by obtain ⟨s, hs, hn⟩ := hu; exact hn (hp s hs)⟩
      · exact Or.inr ⟨hW.rho.low e he, hW.rho.high e he (by
          have : ∃ s, R.pinned = some s ∧ e ∉ s := by simpa only [Pinned, not_forall, exists_prop] using hp
          exact this)⟩

/-- Generic version: `optimize()` on a new well-posed run returns, the run is completed, and if convergence checking is off the
histories have exactly the lines `1, …, max_iters`. -/
theorem optimize_by {R : Common E d} (h : Basics R) {st : ℕ → (E → ℝ) → State E d → State E d × Res (E → ℝ)}
    {It : (E → ℝ) → ℝ → Rec → (E → ℝ) → ℝ → Prop} {G : ℝ → Prop} (hst : Computes R st It G) (hnr : R.restart = false) (files : List (Snapshot.Name × (E → ℝ))) :
    ∃ o, optimize (sysWith R st) (newRun R files) = (o, .ok ()) ∧ o.completed = true ∧
      (R.checkConvergence = false → o.world.aux.log.map Rec.iter = List.range' 1 R.maxIters) := by
  obtain ⟨o, ho, h1, h2⟩ := well_posed_by h hst hnr files [.optimize]
  have hopt : optimize (sysWith R st) (newRun R files) = (o, .ok ()) := by
    simp only [runCalls, Call.run] at ho
    rcases hq : optimize (sysWith R st) (newRun R files) with ⟨o', e | u⟩
    · rw [hq] at ho; simp at ho
    · rw [hq] at ho
      simp only [Prod.mk.injEq, and_true] at ho
      rw [ho]
  have hcomp := C34_optimize_completes _ hopt
  refine ⟨o, hopt, hcomp, fun hcc => ?_⟩
  have hs : o.started = true := by
    have := hopt
    rw [optimize, optimizeImpl_eq, if_neg (by simp [newRun, fresh])] at this
    rcases he : ensureInit (sysWith R st) (newRun R files) with ⟨o1, e | u⟩
    · rw [he] at this; simp at this
    · rw [he] at this
      have hs1 := (ensureInit_ok he).1
      simp only at this
      rcases continueRun_cases (sysWith R st) none o1 with ⟨-, h'⟩ | ⟨-, n, -, -, ⟨w, e, -, h'⟩ | ⟨w, k, c', -, ⟨-, h'⟩ | ⟨-, h'⟩⟩⟩ <;>
        rw [h'] at this <;> simp only [Prod.mk.injEq, reduceCtorEq, and_false, and_true] at this <;> rw [← this] <;>
        simp [finalize, hs1]
  have hk : o.iterNext = R.maxIters + 1 := by
    rcases h2 hcomp with hk | ⟨hc, -⟩
    · exact hk
    · rw [hcc] at hc; simp at hc
  rw [(h1 hs).2.2.2.2.1, hk]
  simp

end
end Verif.Run
