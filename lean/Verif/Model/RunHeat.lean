import Verif.Model.RunLog
import Verif.Model.Heat

/-!
Complete OC and LogMOC runs on a heat task (`LinearHeatConduction`): the driver, schedulers, filters, projection and updates of
`Verif.Model.Run` and `Verif.Model.RunLog` with the analysis of `Verif.Model.Heat`, as chained by
`/repo/scikit-topt/sktopt/core/optimizers/common_density.py` lines 1014–1107 and `fea/solver_heat.py` lines 705–980. As there,
`interpolation = "SIMP"`. The task object is part of the state, since `update_robin_bc` replaces its Robin terms.

The column means of `energy_multi_load` (common_density.py 1060–1064) are handed to `rho_update` but not read there, and
`energy_multi_load` does not raise after a successful `objectives_multi_load`; it is left out.
-/
namespace Verif.Run
open Verif Verif.Driver

noncomputable section
open Classical

variable {ι Q : Type} [Fintype ι] [Fintype Q] {d nE k : ℕ}

/-- A run on a heat task. The scheduled `neumann_scale` is passed on but has no effect (solver_heat.py:709). -/
structure HeatSetup (ι Q : Type) (d nE k : ℕ) extends Common (Fin nE) d where
  task : Heat.Task ι Q d nE k
  backend : Solver.Backend ℝ (Matrix ι ι ℝ) (ι → ℝ)
  solver : Solver.Cfg ℝ

/-- A LogMOC run on a heat task. -/
structure HeatLogSetup (ι Q : Type) (d nE k : ℕ) extends HeatSetup ι Q d nE k, LogOpts

/-- What does not depend on the physics. -/
abbrev HeatLogSetup.common (L : HeatLogSetup ι Q d nE k) : LogCommon (Fin nE) d := ⟨L.toHeatSetup.toCommon, L.toLogOpts⟩

/-- The finite element part on a heat task (common_density.py:1055–1080): `objectives_multi_load(...).mean()` and, for every load case
(`n_tasks` is the number of prescribed temperatures, task_heat.py:161–169), the column of `compliance_sensitivity_multi_load`, whatever
the objective is. `T` is the task object at that moment. -/
def heatResponse (R : HeatSetup ι Q d nE k) (T : Heat.Task ι Q d nE k) (v : Vals) (proj : Fin nE → ℝ) :
    Res (ℝ × (Fin R.task.values.length → Fin nE → ℝ)) :=
  match T.objectives R.backend R.solver Material.simp R.eMinCoeff proj v.p with
  | .error e => .error e
  | .ok (T', Js, Ts, _) =>
    .ok (Js.sum / Js.length, fun j e => T'.sensitivity Material.simp R.eMinCoeff proj v.p (Ts.getD j 0) e)

/-- The task object after an iteration: `update_robin_bc` runs inside `objectives_multi_load` before anything there can raise
(solver_heat.py:749–750), so it has happened whenever filter and projection went through. -/
def taskAfter (R : HeatSetup ι Q d nE k) (n : ℕ) (rho : Fin nE → ℝ) (x : State (Fin nE) d) (T : Heat.Task ι Q d nE k) : Heat.Task ι Q d nE k :=
  match readVals x n with
  | .error _ => T
  | .ok v =>
    let F := if v.radius ≠ x.filter.radius then x.filter.updateRadius v.radius else x.filter
    match F.forward R.toCommon rho with
    | .error _ => T
    | .ok _ =>
      if T.designRobin then
        match T.updateRobin (Pipeline.projected (fwdOf R.toCommon F) v.beta R.betaEta rho) v.p with
        | .ok T' => T'
        | .error _ => T
      else T

/-- common_density.py:1014–1130 for iteration `n` of an OC run on a heat task. -/
def heatStep (R : HeatSetup ι Q d nE k) (n : ℕ) (rho : Fin nE → ℝ) (x : State (Fin nE) d × Heat.Task ι Q d nE k) :
    (State (Fin nE) d × Heat.Task ι Q d nE k) × Res (Fin nE → ℝ) :=
  let r := stepWith R.toCommon (heatResponse R x.2) n rho x.1
  ((r.1, taskAfter R n rho x.1 x.2), r.2)

/-- common_density.py:1014–1130 for iteration `n` of a LogMOC run on a heat task. -/
def heatLogStep (L : HeatLogSetup ι Q d nE k) (n : ℕ) (rho : Fin nE → ℝ) (x : LogState (Fin nE) d × Heat.Task ι Q d nE k) :
    (LogState (Fin nE) d × Heat.Task ι Q d nE k) × Res (Fin nE → ℝ) :=
  let r := logStepWith L.common (heatResponse L.toHeatSetup x.2) n rho x.1
  ((r.1, taskAfter L.toHeatSetup n rho x.1.base x.2), r.2)

/-- A system whose state also holds the task object; nothing but the iteration itself touches it. -/
def carry {E X Y : Type} (S : Sys E ℝ X) (step : ℕ → (E → ℝ) → X × Y → (X × Y) × Res (E → ℝ)) : Sys E ℝ (X × Y) where
  maxIters := S.maxIters
  recordTimes := S.recordTimes
  restart := S.restart
  restartFrom := S.restartFrom
  valInit := S.valInit
  rhoMin := S.rhoMin
  rhoMax := S.rhoMax
  design := S.design
  pinned := S.pinned
  fixed := S.fixed
  step := step
  record n rho rho' x := (((S.record n rho rho' x.1).1, x.2), (S.record n rho rho' x.1).2)
  exportHist x := (S.exportHist x.1, x.2)
  importHist x := (S.importHist x.1, x.2)
  initSched x := (((S.initSched x.1).1, x.2), (S.initSched x.1).2)

/-- An OC run on a heat task. -/
def heatSys (R : HeatSetup ι Q d nE k) : Sys (Fin nE) ℝ (State (Fin nE) d × Heat.Task ι Q d nE k) :=
  carry (sysWith R.toCommon fun _ _ x => (x, .error .runtimeError)) (heatStep R)

/-- A LogMOC run on a heat task. -/
def heatLogSys (L : HeatLogSetup ι Q d nE k) : Sys (Fin nE) ℝ (LogState (Fin nE) d × Heat.Task ι Q d nE k) :=
  carry (logSysWith L.common fun _ _ x => (x, .error .runtimeError)) (heatLogStep L)

/-- A new optimizer in a directory with the given snapshot files. -/
def newHeatRun (R : HeatSetup ι Q d nE k) (files : List (Snapshot.Name × (Fin nE → ℝ))) :
    Opt (Fin nE) ℝ (State (Fin nE) d × Heat.Task ι Q d nE k) :=
  fresh (fun _ => 0) (start R.toCommon, R.task) files

/-- A new LogMOC optimizer in a directory with the given snapshot files. -/
def newHeatLogRun (L : HeatLogSetup ι Q d nE k) (files : List (Snapshot.Name × (Fin nE → ℝ))) :
    Opt (Fin nE) ℝ (LogState (Fin nE) d × Heat.Task ι Q d nE k) :=
  fresh (fun _ => 0) (logStart L.common, L.task) files

end
end Verif.Run
