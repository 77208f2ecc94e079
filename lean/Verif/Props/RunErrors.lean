import Verif.Props.RunLog

/-!
C96: misconfigured runs. A percentile that is not a percentage is reported by the first call that iterates, before any
density changes or any file is written; an inadmissible load scale is reported before the densities are initialized.
-/
namespace Verif.Run
open Verif Verif.Sched Verif.Spec Verif.Driver

variable {ι E Q : Type} [Fintype ι] [Fintype E] [Fintype Q] {d m : ℕ}

noncomputable section
open Classical

/-- If initialization succeeds and the first iteration raises, so does every call that would iterate. -/
theorem first_step_raises {X : Type} (S : Sys E ℝ X) (o o1 : Opt E ℝ X) (hnc : o.completed = false) (hi : ensureInit S o = (o1, .ok ()))
    (hk : o1.iterNext ≤ S.maxIters) {y : X} {err : Err} (hs : S.step o1.iterNext o1.world.rho o1.world.aux = (y, .error err)) (c : Call)
    (hc : ∀ n, c = .steps n → 0 < n) :
    c.run S o = ({ o1 with world := ⟨o1.world.rho, y, o1.world.files, o1.world.trace ++ [o1.iterNext]⟩ }, .error err) := by
  have hloop : ∀ n, 0 < n → Driver.loop S n o1.iterNext o1.world =
      (⟨o1.world.rho, y, o1.world.files, o1.world.trace ++ [o1.iterNext]⟩, .error err) := by
    intro n hn
    obtain ⟨n, rfl⟩ : ∃ j, n = j + 1 := ⟨n - 1, by omega⟩
    simp only [Driver.loop, iterate, hs]
  have himpl : ∀ ms : Option ℕ, (∀ n, ms = some n → 0 < n) → optimizeImpl S ms o =
      ({ o1 with world := ⟨o1.world.rho, y, o1.world.files, o1.world.trace ++ [o1.iterNext]⟩ }, .error err) := by
    intro ms hms
    unfold optimizeImpl
    rw [if_neg (by simp [hnc]), hi]
    simp only
    rw [if_neg (by omega), hloop]
    cases ms with
    | none => simp only; omega
    | some n => have := hms n rfl; simp only; omega
  cases c with
  | optimize => exact himpl none (by simp)
  | steps n =>
    have hn := hc n rfl
    simp only [Call.run, optimizeSteps]
    rw [if_neg (by omega)]
    exact himpl _ (by simp only [Option.some.injEq]; rintro _ rfl; omega)

/-- The object after the first initialization of a new OC run. -/
theorem new_initialized {R : Common E d} (h : Basics R) (st : ℕ → (E → ℝ) → State E d → State E d × Res (E → ℝ)) (hnr : R.restart = false) (files : List (Snapshot.Name × (E → ℝ))) :
    ∃ o1 : Opt E ℝ (State E d), ensureInit (sysWith R st) (newRun R files) = (o1, .ok ()) ∧ o1.iterNext = 1 ∧ InitialDensities R o1.world.rho ∧
      RhoOk R o1.world.rho ∧ o1.world.files = files ∧ o1.world.trace = [] ∧ Ready R o1.world.aux.scheds ∧ Fits R o1.world.aux.filter ∧
      o1.world.aux.runningScale = 0 := by
  obtain ⟨rho0, hid, hok, hinit⟩ := init_new h hnr st files
  obtain ⟨ss, r, he, hready⟩ := initSched_ok h (start R) rfl rfl
  refine ⟨⟨⟨rho0, { start R with scheds := ss, schedsDone := true, filter := (start R).filter.updateRadius r }, files, []⟩, true, 1, false, none⟩,
    ?_, rfl, hid, hok, rfl, rfl, hready, (fits_filter0 R).updateRadius r, rfl⟩
  unfold ensureInit
  rw [if_neg (by simp [newRun, fresh])]
  have h1 : (sysWith R st).initSched (newRun R files).world.aux = _ := he
  have h2 : initializeDensity (sysWith R st) (newRun R files).world.files = .ok (rho0, 0 + 1) := hinit
  have h3 : (sysWith R st).restart = false := hnr
  rw [h1]
  simp only
  rw [h2, h3]
  rfl

/-- Generic version: if the percentile scheduled for the first iteration is not a percentage, every call that iterates raises ValueError in
iteration 1; the densities are the initial ones and no file has been written. -/
theorem bad_percentage_by {R : Common E d} (h : Basics R) {n : ℕ} {response : Vals → (E → ℝ) → Res (ℝ × (Fin n → E → ℝ))}
    (hresp : ∀ k v, ValsOk R k v → ∀ rho : E → ℝ, (∀ e, 0 ≤ rho e ∧ rho e ≤ 1) → ∃ c cols, response v (physical R v rho) = .ok (c, cols))
    (hnr : R.restart = false) (files : List (Snapshot.Name × (E → ℝ)))
    (q : ℝ) (hq : Scheduled R R.cPercentile 1 (some q)) (hbad : q < 0 ∨ 100 < q) (c : Call) (hc : ∀ n, c = .steps n → 0 < n) :
    ∃ o, c.run (sysWith R (stepWith R response)) (newRun R files) = (o, .error .valueError) ∧ InitialDensities R o.world.rho ∧ o.world.files = files ∧
      o.world.trace = [1] := by
  obtain ⟨o1, hi, hn, hid, hok, hf, ht, hready, hfit, -⟩ := new_initialized h (stepWith R response) hnr files
  obtain ⟨v, hv, hvok⟩ := hready o1.world.aux rfl 1
  obtain ⟨cc, cols, hre⟩ := hresp 1 v hvok o1.world.rho hok.unit
  obtain ⟨F, F1, han, -⟩ := analyseWith_ok h hvok o1.world.rho o1.world.aux hfit (response v) hre
  have hvq : v.percentile = some q := by
    have := hvok.all.percentile.symm.trans hq
    injection this
  have hstep : ∃ y, (sysWith R (stepWith R response)).step o1.iterNext o1.world.rho o1.world.aux = (y, .error .valueError) := by
    rw [hn]
    show ∃ y, stepWith R response 1 o1.world.rho o1.world.aux = _
    unfold stepWith
    rw [hv]
    simp only
    unfold computeWith
    rw [han]
    simp only
    unfold ocUpdate
    rw [if_pos ⟨q, hvq, hbad⟩]
    exact ⟨_, rfl⟩
  obtain ⟨y, hstep⟩ := hstep
  have hmax : o1.iterNext ≤ (sysWith R (stepWith R response)).maxIters := by rw [hn]; exact h.record.1.trans h.record.2
  refine ⟨_, first_step_raises _ _ o1 rfl hi hmax hstep c hc, hid, hf, ?_⟩
  show o1.world.trace ++ [o1.iterNext] = [1]
  rw [ht, hn]; rfl

/-- Generic version: the same for LogMOC, whose percentile falls back to `lagrangian_percentile` and which uses two more percentages when the
volume chain is normalised. -/
theorem log_bad_percentage_by {L : LogCommon E d} (h : Basics L.toCommon) {n : ℕ} {response : Vals → (E → ℝ) → Res (ℝ × (Fin n → E → ℝ))}
    (hresp : ∀ k v, ValsOk L.toCommon k v → ∀ rho : E → ℝ, (∀ e, 0 ≤ rho e ∧ rho e ≤ 1) → ∃ c cols, response v (physical L.toCommon v rho) = .ok (c, cols))
    (hnr : L.restart = false)
    (files : List (Snapshot.Name × (E → ℝ))) (q : Option ℝ) (hq : Scheduled L.toCommon L.cPercentile 1 q)
    (hbad : (∃ x, (x = q.getD L.lagPercentile ∨ L.normalizeVolumeChain = true ∧ (x = L.lagPercentile ∨ x = L.volumeChainPercentile)) ∧
      (x < 0 ∨ 100 < x)))
    (c : Call) (hc : ∀ n, c = .steps n → 0 < n) :
    ∃ o, c.run (logSysWith L (logStepWith L response)) (newLogRun L files) = (o, .error .valueError) ∧ InitialDensities L.toCommon o.world.rho ∧ o.world.files = files ∧
      o.world.trace = [1] := by
  obtain ⟨rho0, hid, hok, hinit⟩ := init_new h hnr (fun _ _ x => (x, .error .valueError)) files
  obtain ⟨ss, r, he, hready⟩ := initSched_ok h (start L.toCommon) rfl rfl
  obtain ⟨b, hb⟩ : ∃ b : State E d, b = { start L.toCommon with
    scheds := ss, schedsDone := true, filter := (start L.toCommon).filter.updateRadius r } := ⟨_, rfl⟩
  have hfit : Fits L.toCommon b.filter := by rw [hb]; exact (fits_filter0 L.toCommon).updateRadius r
  have hbs : b.scheds = ss := by rw [hb]
  rw [← hb] at he
  have hi : ensureInit (logSysWith L (logStepWith L response)) (newLogRun L files) = (⟨⟨rho0, { logStart L with base := b }, files, []⟩, true, 1, false, none⟩, .ok ()) := by
    unfold ensureInit
    rw [if_neg (by simp [newLogRun, fresh])]
    have h1 : (logSysWith L (logStepWith L response)).initSched (newLogRun L files).world.aux = ({ logStart L with base := b }, .ok ()) := by
      show logInit L (logStart L) = _
      unfold logInit
      rw [show (logStart L).base = start L.toCommon from rfl, he]
    have h2 : initializeDensity (logSysWith L (logStepWith L response)) (newLogRun L files).world.files = .ok (rho0, 0 + 1) := hinit
    have h3 : (logSysWith L (logStepWith L response)).restart = false := hnr
    rw [h1]
    simp only
    rw [h2, h3]
    rfl
  obtain ⟨v, hv, hvok⟩ := hready b hbs 1
  obtain ⟨cc, cols, hre⟩ := hresp 1 v hvok rho0 hok.unit
  obtain ⟨F, F1, han, -⟩ := analyseWith_ok h hvok rho0 b hfit (response v) hre
  have hvq : v.percentile = q := by
    have := hvok.all.percentile.symm.trans hq
    injection this
  have hstep : ∃ y, (logSysWith L (logStepWith L response)).step 1 rho0 { logStart L with base := b } = (y, .error .valueError) := by
    show ∃ y, logStepWith L response 1 rho0 { logStart L with base := b } = _
    unfold logStepWith
    simp only
    rw [hv]
    simp only
    unfold logComputeWith
    simp only
    rw [han]
    simp only
    unfold logUpdate
    simp only
    by_cases h1 : L.normalizeVolumeChain = true ∧ (BadPct L.lagPercentile ∨ BadPct L.volumeChainPercentile)
    · rw [if_pos h1]
      exact ⟨_, rfl⟩
    · rw [if_neg h1]
      have h2 : BadPct (v.percentile.getD L.lagPercentile) := by
        obtain ⟨x, hx, hx'⟩ := hbad
        rcases hx with rfl | ⟨hn, rfl | rfl⟩
        · rw [hvq]; exact hx'
        · exact absurd ⟨hn, Or.inl hx'⟩ h1
        · exact absurd ⟨hn, Or.inr hx'⟩ h1
      rw [if_pos h2]
      exact ⟨_, rfl⟩
  obtain ⟨y, hstep⟩ := hstep
  exact ⟨_, first_step_raises _ _ _ rfl hi (h.record.1.trans h.record.2) hstep c hc, hid, rfl, rfl⟩

/-- Generic version: a load scale of a type that does not end at 1 is reported before the densities are initialized, whatever the snapshot
files are and whether or not the run is a restart. -/
theorem bad_load_scale_by {R : Common E d} (h : Basics R) (st : ℕ → (E → ℝ) → State E d → State E d × Res (E → ℝ)) (c : Config)
    (hbad : c.schedType ∉ ["ConstantOne", "StepToOne", "StepAcceleratingToOne", "StepDeceleratingToOne"])
    (files : List (Snapshot.Name × (E → ℝ))) (call : Call) (hc : ∀ n, call = .steps n → 0 < n) :
    ∃ o, call.run (sysWith { R with cNeumannScale := c } st) (newRun { R with cNeumannScale := c } files) = (o, .error .valueError) ∧
      o.started = false ∧ o.world.files = files ∧ o.world.trace = [] := by
  obtain ⟨s1, c1, e1, n1, v1⟩ := GoodSchedule.run h.p Set.ordConnected_Ici "p"
  obtain ⟨s2, c2, e2, n2, v2⟩ := GoodSchedule.run h.volFrac Set.ordConnected_univ "vol_frac"
  obtain ⟨s3, c3, e3, n3, v3⟩ := GoodSchedule.run h.moveLimit Set.ordConnected_Ici "move_limit"
  obtain ⟨s4, c4, e4, n4, v4⟩ := GoodSchedule.run h.beta Set.ordConnected_Ioi "beta"
  obtain ⟨s6, c6, e6, n6, v6⟩ := GoodSchedule.run h.radius Set.ordConnected_Ioi "filter_radius"
  have h5 : ∃ s c', Sched.fromConfig { R.cPercentile with name := some "percentile" } = .ok (s, c') := by
    rcases h.percentile with hp | ⟨hp1, hp2⟩
    · obtain ⟨s, c, e, n, v⟩ := GoodSchedule.run hp Set.ordConnected_univ "percentile"
      exact ⟨s, c, e⟩
    · generalize R.cPercentile = c at hp1 hp2
      obtain ⟨nm, ini, tgt, ns, im, cu, ty⟩ := c
      simp only at hp1 hp2
      subst hp1 hp2
      exact ⟨_, _, rfl⟩
  obtain ⟨s5, c5, e5⟩ := h5
  obtain ⟨R', hR'⟩ : ∃ R', R' = { R with cNeumannScale := c } := ⟨_, rfl⟩
  rw [← hR']
  have hinit : ∃ x, (sysWith R' st).initSched (newRun R' files).world.aux = (x, .error .valueError) := by
    show ∃ x, initSched R' (start R') = _
    unfold initSched
    rw [if_neg (by simp [start]), hR']
    simp only
    rw [show (start { R with cNeumannScale := c }).scheds = [] from rfl]
    rw [addAll_cons e1, addAll_cons e2, addAll_cons e3, addAll_cons e4, addAll_cons e5, addAll_cons e6]
    rw [show ∀ ss, addAll [] ss = (ss, .ok ()) from fun _ => rfl]
    dsimp only
    rw [if_pos (show c.schedType ∉ allowedForceTypes from hbad)]
    exact ⟨_, rfl⟩
  obtain ⟨x, hinit⟩ := hinit
  have himpl : ∀ ms, optimizeImpl (sysWith R' st) ms (newRun R' files) =
      ({ newRun R' files with world := { (newRun R' files).world with aux := x } }, .error .valueError) := by
    intro ms
    unfold optimizeImpl ensureInit
    rw [if_neg (by simp [newRun, fresh]), if_neg (by simp [newRun, fresh]), hinit]
  cases call with
  | optimize => exact ⟨_, himpl none, rfl, rfl, rfl⟩
  | steps n =>
    have hn := hc n rfl
    refine ⟨{ newRun R' files with world := { (newRun R' files).world with aux := x } }, ?_, rfl, rfl, rfl⟩
    · simp only [Call.run, optimizeSteps]
      rw [if_neg (by omega)]
      exact himpl _

/-- C96: if the percentile scheduled for the first iteration is not a percentage, every call that iterates raises ValueError in
iteration 1; the densities are the initial ones and no file has been written. -/
theorem C96_bad_percentage_oc (R : Setup ι E Q d m) (h : Sound R) (hnr : R.restart = false) (files : List (Snapshot.Name × (E → ℝ)))
    (q : ℝ) (hq : Scheduled R.toCommon R.cPercentile 1 (some q)) (hbad : q < 0 ∨ 100 < q) (c : Call) (hc : ∀ n, c = .steps n → 0 < n) :
    ∃ o, c.run (sys R) (newRun R.toCommon files) = (o, .error .valueError) ∧ InitialDensities R.toCommon o.world.rho ∧ o.world.files = files ∧
      o.world.trace = [1] := by
  refine bad_percentage_by h.toBasics (response := response R) (fun k v hv rho hrho => ?_) hnr files q hq hbad c hc
  obtain ⟨c, cols, h1, -⟩ := response_ok h hv.p (physical R.toCommon v rho) fun e => (physical_range h.toBasics hv hrho e).1
  exact ⟨c, cols, h1⟩

/-- C96: the same for LogMOC, whose percentile falls back to `lagrangian_percentile` and which uses two more percentages when the
volume chain is normalised. -/
theorem C96_bad_percentage_logmoc (L : LogSetup ι E Q d m) (h : Sound L.toSetup) (hnr : L.restart = false)
    (files : List (Snapshot.Name × (E → ℝ))) (q : Option ℝ) (hq : Scheduled L.toCommon L.cPercentile 1 q)
    (hbad : (∃ x, (x = q.getD L.lagPercentile ∨ L.normalizeVolumeChain = true ∧ (x = L.lagPercentile ∨ x = L.volumeChainPercentile)) ∧
      (x < 0 ∨ 100 < x)))
    (c : Call) (hc : ∀ n, c = .steps n → 0 < n) :
    ∃ o, c.run (logSys L) (newLogRun L.common files) = (o, .error .valueError) ∧ InitialDensities L.toCommon o.world.rho ∧ o.world.files = files ∧
      o.world.trace = [1] := by
  refine log_bad_percentage_by (L := L.common) h.toBasics (response := response L.toSetup) (fun k v hv rho hrho => ?_) hnr files q hq hbad c hc
  obtain ⟨c, cols, h1, -⟩ := response_ok h hv.p (physical L.toCommon v rho) fun e => (physical_range h.toBasics hv hrho e).1
  exact ⟨c, cols, h1⟩

/-- C96: a load scale of a type that does not end at 1 is reported before the densities are initialized, whatever the snapshot
files are and whether or not the run is a restart. -/
theorem C96_bad_load_scale (R : Setup ι E Q d m) (h : Sound R) (c : Config)
    (hbad : c.schedType ∉ ["ConstantOne", "StepToOne", "StepAcceleratingToOne", "StepDeceleratingToOne"])
    (files : List (Snapshot.Name × (E → ℝ))) (call : Call) (hc : ∀ n, call = .steps n → 0 < n) :
    ∃ o, call.run (sys { R with cNeumannScale := c }) (newRun { R.toCommon with cNeumannScale := c } files) = (o, .error .valueError) ∧
      o.started = false ∧ o.world.files = files ∧ o.world.trace = [] :=
  bad_load_scale_by h.toBasics (step { R with cNeumannScale := c }) c hbad files call hc

/-! Witnesses. -/

/-- A percentile of 120. -/
def chainBad : Setup (Fin 4) (Fin 3) (Fin 1) 1 2 := { chainRun with
  cPercentile := { name := some "percentile", initValue := some 120, targetValue := some 120, schedType := "Constant" } }

theorem chainBad_sound : Sound chainBad :=
  let h := chainRun_wellPosed
  { h with
    percentile := Or.inl ⟨⟨chainBad.cPercentile, rfl⟩, by simp [chainBad], by simp [chainBad], by simp [chainBad], by simp⟩
    nodal := by simp [chainBad, chainRun] }

/-- Non-vacuity. -/
example := C96_bad_percentage_oc chainBad chainBad_sound rfl [] 120 rfl (Or.inr (by norm_num)) .optimize (by simp)
example := C96_bad_percentage_logmoc { logOf chainRun with lagPercentile := -1 } chainRun_wellPosed.toSound rfl [] none rfl
  ⟨-1, Or.inl rfl, Or.inl (by norm_num)⟩ (.steps 2) (by rintro n h; cases h; norm_num)
example := C96_bad_load_scale chainRun chainRun_wellPosed.toSound { name := some "neumann_scale", schedType := "Constant" }
  (by simp) [] .optimize (by simp)

end
end Verif.Run
