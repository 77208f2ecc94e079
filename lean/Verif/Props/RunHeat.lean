import Verif.Lemmas.RunHeat
import Verif.Props.Run
import Verif.Props.RunLog
import Verif.Props.Box
import Verif.Props.RunErrors

/-!
C100–C102: complete OC and LogMOC runs on a heat task.
-/
namespace Verif.Run
open Verif Verif.Sched Verif.Spec Verif.Driver Verif.Heat

variable {ι Q : Type} [Fintype ι] [Fintype Q] {d nE k : ℕ}

noncomputable section
open Classical

/-- **C100.** A well-posed OC run on a heat task works, for each of the three objectives: whatever calls of `optimize` and
`optimize_steps` a program makes, in whatever directory, none of them raises. Once the run has started, the histories have one line for each
of the iterations `1, …, iter_next - 1`, at most `max_iters`; every design element has a density in `[rho_min, rho_max]`, unless it is pinned
to 1; every line has a density change at most the scheduled `move_limit`, and a non-negative objective if the objective is the compliance.
A run is completed only after `max_iters` iterations or when convergence checking is on and the last line is below both tolerances. The
task's Robin terms are never changed. -/
theorem C100_well_posed_run (R : HeatSetup ι Q d nE k) (h : HeatWellPosed R) (hnr : R.restart = false)
    (files : List (Snapshot.Name × (Fin nE → ℝ))) (cs : List Call) :
    ∃ o, runCalls (heatSys R) cs (newHeatRun R files) = (o, .ok ()) ∧ o.world.aux.2 = R.task ∧
      (o.started = true →
        (∀ e ∈ R.design, R.rhoMin ≤ o.world.rho e ∧ ((∃ s, R.pinned = some s ∧ e ∉ s) → o.world.rho e ≤ R.rhoMax)) ∧
        (∀ s, R.pinned = some s → ∀ e ∈ s, o.world.rho e = 1) ∧
        1 ≤ o.iterNext ∧ o.iterNext ≤ R.maxIters + 1 ∧
        o.world.aux.1.log.map Rec.iter = List.range' 1 (o.iterNext - 1) ∧
        ∀ r ∈ o.world.aux.1.log, (R.task.objective = .compliance → 0 ≤ r.compliance) ∧
          ∃ ml, valueOf (.ok { R.cMoveLimit with itersMax := some (R.maxIters : ℤ) }) r.iter = .ok (some ml) ∧
            0 ≤ r.rhoChange ∧ r.rhoChange ≤ ml) ∧
      (o.completed = true → o.iterNext = R.maxIters + 1 ∨
        (R.checkConvergence = true ∧ ∃ r, o.world.aux.1.log.getLast? = some r ∧ r.rhoChange < R.tolRho ∧ |r.kkt| < R.tolKkt)) := by
  obtain ⟨o, ho, h1, h2⟩ := well_posed_by h.toBasics (heat_computes h) hnr files cs
  exact ⟨_, heat_run h.toHeatSound ho, rfl, h1, h2⟩

/-- **C100.** `optimize()` on a new well-posed heat run returns, the run is completed, and if convergence checking is off the histories have
exactly the lines `1, …, max_iters`. -/
theorem C100_optimize_completes (R : HeatSetup ι Q d nE k) (h : HeatWellPosed R) (hnr : R.restart = false)
    (files : List (Snapshot.Name × (Fin nE → ℝ))) :
    ∃ o, optimize (heatSys R) (newHeatRun R files) = (o, .ok ()) ∧ o.completed = true ∧
      (R.checkConvergence = false → o.world.aux.1.log.map Rec.iter = List.range' 1 R.maxIters) := by
  obtain ⟨o, ho, h1, h2⟩ := optimize_by h.toBasics (heat_computes h) hnr files
  exact ⟨_, heat_call (c := .optimize) h.toHeatSound ho, h1, h2⟩

/-- **C101.** Refinement: after any calls, the densities and the histories of a well-posed heat run are those of the documented algorithm
(`Verif.Spec.RunHeat`): one line for each iteration `1, …, iter_next - 1`, each of them the documented iteration — filter, threshold, heat
balance of every load case, objective, sensitivities, OC update — with the scheduled values of its number, applied to the densities the
previous one left behind; the first one starts from the initial volume fraction. -/
theorem C101_run_refines_algorithm (R : HeatSetup ι Q d nE k) (h : HeatWellPosed R) (hnr : R.restart = false)
    (files : List (Snapshot.Name × (Fin nE → ℝ))) (cs : List Call) :
    ∃ o, runCalls (heatSys R) cs (newHeatRun R files) = (o, .ok ()) ∧
      (o.started = true → o.world.aux.1.log.map Rec.iter = List.range' 1 (o.iterNext - 1) ∧
        ∃ rho0 rs, InitialDensities R.toCommon rho0 ∧ Reached (HeatIteration R) rho0 0 [] o.world.rho rs o.world.aux.1.log) := by
  obtain ⟨o, ho, h1⟩ := refines_by h.toBasics (heat_computes h) hnr files cs
  exact ⟨_, heat_run h.toHeatSound ho, h1⟩

/-- **C101.** The same for a restarted run: iterations `k + 1, …` appended to the stored histories, from the saved densities and a running
scale of zero; the box is respected. -/
theorem C101_restarted_run (R : HeatSetup ι Q d nE k) (h : HeatWellPosed R) (files : List (Snapshot.Name × (Fin nE → ℝ))) (n : ℕ)
    (data : Fin nE → ℝ) (hres : Resumes R.toCommon files n data) (hn : n ≤ R.maxIters)
    (hdata : ∀ e ∈ R.design, Pinned R.toCommon e ∨ R.rhoMin ≤ data e ∧ data e ≤ R.rhoMax) (cs : List Call) :
    ∃ o, runCalls (heatSys R) cs (newHeatRun R files) = (o, .ok ()) ∧
      (o.started = true →
        n + 1 ≤ o.iterNext ∧ o.iterNext ≤ R.maxIters + 1 ∧
        (∃ new, o.world.aux.1.log = R.saved.getD [] ++ new ∧ new.map Rec.iter = List.range' (n + 1) (o.iterNext - (n + 1)) ∧
          ∀ r ∈ new, R.task.objective = .compliance → 0 ≤ r.compliance) ∧
        (∃ rs, Reached (HeatIteration R) (resumed R.toCommon data) 0 (R.saved.getD []) o.world.rho rs o.world.aux.1.log) ∧
        ∀ e ∈ R.design, Pinned R.toCommon e ∧ o.world.rho e = 1 ∨ R.rhoMin ≤ o.world.rho e ∧ o.world.rho e ≤ R.rhoMax) ∧
      (o.completed = true → o.iterNext = R.maxIters + 1 ∨
        (R.checkConvergence = true ∧ ∃ r, o.world.aux.1.log.getLast? = some r ∧ r.rhoChange < R.tolRho ∧ |r.kkt| < R.tolKkt)) := by
  obtain ⟨o, ho, h1, h2⟩ := restarted_by h.toBasics (heat_computes h) files n data hres hn hdata cs
  exact ⟨_, heat_run h.toHeatSound ho, h1, h2⟩

/-- **C102.** A well-posed LogMOC run on a heat task works, for each of the three objectives and with either filter, whatever the sign of the
sensitivities: no call raises; iterations are consecutive; densities stay in the box; multipliers in their range; changes below the
scheduled move limit. -/
theorem C102_well_posed_run (L : HeatLogSetup ι Q d nE k) (h : HeatLogWellPosed L) (hnr : L.restart = false)
    (files : List (Snapshot.Name × (Fin nE → ℝ))) (cs : List Call) :
    ∃ o, runCalls (heatLogSys L) cs (newHeatLogRun L files) = (o, .ok ()) ∧ o.world.aux.2 = L.task ∧
      (o.started = true →
        (∀ e ∈ L.design, L.rhoMin ≤ o.world.rho e ∧ ((∃ s, L.pinned = some s ∧ e ∉ s) → o.world.rho e ≤ L.rhoMax)) ∧
        (∀ s, L.pinned = some s → ∀ e ∈ s, o.world.rho e = 1) ∧
        1 ≤ o.iterNext ∧ o.iterNext ≤ L.maxIters + 1 ∧
        o.world.aux.1.log.map LogRec.iter = List.range' 1 (o.iterNext - 1) ∧
        ∀ r ∈ o.world.aux.1.log, (L.task.objective = .compliance → 0 ≤ r.compliance) ∧
          (L.lambdaLower ≤ r.lambdaV ∧ r.lambdaV ≤ L.lambdaUpper) ∧
          r.coeff = r.lambdaV + L.alMu * r.volError ∧
          ∃ ml, valueOf (.ok { L.cMoveLimit with itersMax := some (L.maxIters : ℤ) }) r.iter = .ok (some ml) ∧
            0 ≤ r.rhoChange ∧ r.rhoChange ≤ ml) ∧
      (o.completed = true → o.iterNext = L.maxIters + 1 ∨
        (L.checkConvergence = true ∧ ∃ r, o.world.aux.1.log.getLast? = some r ∧ r.rhoChange < L.tolRho ∧ |r.kkt| < L.tolKkt)) := by
  obtain ⟨o, ho, h1, h2⟩ := log_well_posed_by (L := L.common) h.toBasics (heatLog_computes h) hnr files cs
  exact ⟨_, heatLog_run h.toHeatSound ho, rfl, h1, h2⟩

/-- **C102.** Refinement: after any calls, the densities and histories of a well-posed LogMOC run on a heat task are those of the documented
algorithm, whatever multiplier and scale one takes it to start with. -/
theorem C102_run_refines_algorithm (L : HeatLogSetup ι Q d nE k) (h : HeatLogWellPosed L) (hnr : L.restart = false)
    (files : List (Snapshot.Name × (Fin nE → ℝ))) (cs : List Call) :
    ∃ o rho0, runCalls (heatLogSys L) cs (newHeatLogRun L files) = (o, .ok ()) ∧
      (o.started = true → o.world.aux.1.log.map LogRec.iter = List.range' 1 (o.iterNext - 1) ∧ InitialDensities L.toCommon rho0 ∧
        ∀ lam0 rs0, ∃ lam rs, LogReached (HeatLogIteration L) rho0 lam0 rs0 [] o.world.rho lam rs o.world.aux.1.log) := by
  obtain ⟨o, rho0, ho, h1⟩ := log_refines_by (L := L.common) h.toBasics (heatLog_computes h) hnr files cs
  exact ⟨_, rho0, heatLog_run h.toHeatSound ho, h1⟩

/-- **C102.** As on elasticity tasks (C54), no LogMOC run on a heat task can be resumed. -/
theorem C102_restarted_run_raises (L : HeatLogSetup ι Q d nE k) (h : HeatLogWellPosed L) (files : List (Snapshot.Name × (Fin nE → ℝ)))
    (n : ℕ) (data : Fin nE → ℝ) (hres : Resumes L.toCommon files n data) (hn1 : 1 ≤ n) (hn : n < L.maxIters)
    (hdata : ∀ e ∈ L.design, Pinned L.toCommon e ∨ L.rhoMin ≤ data e ∧ data e ≤ L.rhoMax) (c : Call) (hc : ∀ m, c = .steps m → 0 < m) :
    ∃ o, c.run (heatLogSys L) (newHeatLogRun L files) = (o, .error .attributeError) ∧ o.world.rho = resumed L.toCommon data ∧
      o.world.trace = [n + 1] := by
  obtain ⟨o, ho, h1, h2⟩ := log_restarted_by (L := L.common) h.toBasics h.toLogRules (response := heatResponse L.toHeatSetup L.task)
    (heatLog_response h.toHeatSound) files n data hres hn1 hn hdata c hc
  exact ⟨_, heatLog_call h.toHeatSound ho, h1, h2⟩

/-! ### Concrete runs: two rods in a row -/

/-- Both elements are designed; film coefficient 1, ambient temperature 1, two load cases with 0 and 1 degrees at the left end. -/
def rodsRun (obj : Objective) : HeatSetup (Fin 3) (Fin 1) 1 2 2 where
  cP := chainRun.cP
  cVolFrac := chainRun.cVolFrac
  cMoveLimit := chainRun.cMoveLimit
  cBeta := chainRun.cBeta
  cPercentile := chainRun.cPercentile
  cRadius := chainRun.cRadius
  cNeumannScale := chainRun.cNeumannScale
  cEta := chainRun.cEta
  maxIters := 20
  recordTimes := 4
  restart := false
  restartFrom := -1
  rhoMin := 1 / 100
  rhoMax := 1
  betaEta := 1 / 2
  lambdaLower := 1 / 10 ^ 7
  lambdaUpper := 10 ^ 7
  rateMin := 1 / 2
  rateMax := 2
  scaleFloor := 1 / 10 ^ 12
  eMinCoeff := 1 / 1000
  sensFilter := false
  checkConvergence := true
  tolRho := 1 / 100
  tolKkt := 1 / 100
  centers e := WithLp.toLp 2 fun _ => (e : ℝ)
  volume _ := 1
  design := {0, 1}
  pinned := some ∅
  fixed := ∅
  pct _ _ := 0
  task := { rodsTask with objective := obj }
  backend :=
    { cgJacobi := fun _ _ _ _ => .error .runtimeError
      cgPyamg := fun _ _ _ _ => .error .runtimeError
      spsolve := fun k f => .ok (k⁻¹.mulVec f)
      petsc := fun _ _ _ _ _ => .error .runtimeError
      splu := fun k fs => .ok (fs.map fun f => k⁻¹.mulVec f)
      petscMulti := fun _ _ _ _ _ => .error .runtimeError }
  solver := { solver := "auto", rtol := 1 / 10 ^ 8 }

theorem rods_connected (w : Fin 3 → ℝ) (h0 : w 0 = 0) (h : ∀ e q a, Spec.Heat.slope rods w e q a = 0) : w = 0 := by
  have h1 := h 0 0 0
  have h2 := h 1 0 0
  simp [Spec.Heat.slope, rods, Fin.sum_univ_three, twoRods] at h1 h2
  funext i
  fin_cases i
  · exact h0
  · show w 1 = 0; linarith
  · show w 2 = 0; linarith

theorem rodsRun_basics (obj : Objective) : Basics (rodsRun obj).toCommon :=
  let h := chainRun_wellPosed
  { record := by simp [rodsRun]
    p := h.p
    volFrac := h.volFrac
    moveLimit := h.moveLimit
    beta := h.beta
    percentile := h.percentile
    radius := h.radius
    neumannScale := h.neumannScale
    neumannType := h.neumannType
    eta := fun _ => h.eta rfl
    box := by norm_num [rodsRun]
    design := ⟨0, by simp [rodsRun]⟩
    separate := by simp [rodsRun]
    volume := by intro e; norm_num [rodsRun]
    nodal := by simp [rodsRun] }

theorem rodsRun_rules (obj : Objective) : OCRules (rodsRun obj).toCommon where
  percentages := chainRun_wellPosed.percentages
  bracket := by norm_num [rodsRun]
  scaleFloor := by norm_num [rodsRun]

theorem rodsRun_sound (obj : Objective) : HeatSound (rodsRun obj) :=
  { toBasics := rodsRun_basics obj
    built := ⟨(rodsRun obj).task, by
      unfold Task.build rodsRun rodsTask
      simp only [assembleRobin_one, Except.map]
      rfl⟩
    weights := by intro e q; norm_num [rodsRun, rodsTask, rods]
    shapes := by
      intro i e q
      show 0 ≤ rods.val i e q
      unfold rods
      simp only
      split_ifs <;> norm_num
    partition := rods_one
    corners := by
      show ∀ e, Function.Injective fun a => twoRods a e
      decide
    surfaces := by simp [rodsRun, rodsTask]
    film := by
      intro h Tenv hr
      simp only [rodsRun, rodsTask, Option.some.injEq, Prod.mk.injEq] at hr
      rw [← hr.1]; norm_num
    material := by norm_num [rodsRun, rodsTask]
    loadCases := by simp [rodsRun, rodsTask]
    regions := rfl
    same := by simp [rodsRun, rodsTask]
    connected := by
      intro D hD w hw hs
      have : D = {0} := by simpa [rodsRun, rodsTask] using hD
      exact rods_connected w (hw 0 (by simp [this])) hs
    robin := by simp [rodsRun, rodsTask]
    direct := fun k _ => ⟨fun f => by
      show Except.ok _ = Except.ok _
      congr!, fun fs => by
      show Except.ok _ = Except.ok _
      congr!⟩
    solver := Or.inl rfl }

theorem rodsRun_wellPosed (obj : Objective) (ho : obj ≠ .compliance) : HeatWellPosed (rodsRun obj) :=
  { toHeatSound := rodsRun_sound obj
    toOCRules := rodsRun_rules obj
    sign := fun h => absurd h ho }

/-- Non-vacuity of C100 and C101. -/
example := C100_optimize_completes (rodsRun .heatExchange) (rodsRun_wellPosed _ (by simp)) rfl []
example := C101_run_refines_algorithm (rodsRun .averagedTemp) (rodsRun_wellPosed _ (by simp)) rfl [] [.steps 3, .optimize]

end
end Verif.Run
