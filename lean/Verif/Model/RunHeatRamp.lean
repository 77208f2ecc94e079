import Verif.Model.RunHeat

/-!
Runs on a heat task with a chosen material law (`interpolation="SIMP"` or `"RAMP"`):
`/repo/scikit-topt/sktopt/core/optimizers/common_density.py` lines 392–404, 553–572, 973, 1055–1080, `fea/solver_heat.py` lines 686–694,
745–770, 928–980. `Verif.Model.RunHeat` is the case "SIMP".
-/
namespace Verif.Run
open Verif Verif.Driver

noncomputable section
open Classical

variable {ι Q : Type} [Fintype ι] [Fintype Q] {d nE k : ℕ}

/-- The finite element part (common_density.py:1055–1080) for the material law `law`: `density_interpolation` is used for the heat balance,
the objective and the energy (solver_heat.py:762, 905, 937). The sensitivity is always that of `compliance_sensitivity_multi_load`
(common_density.py:1069–1080), so the sensitivity `dC_drho_func` selected with the law is not used on a heat task. -/
def heatResponseWith (R : HeatSetup ι Q d nE k) (law : ℝ → ℝ → ℝ → ℝ → ℝ) (T : Heat.Task ι Q d nE k) (v : Vals) (proj : Fin nE → ℝ) :
    Res (ℝ × (Fin R.task.values.length → Fin nE → ℝ)) :=
  match T.objectives R.backend R.solver law R.eMinCoeff proj v.p with
  | .error e => .error e
  | .ok (T', Js, Ts, _) =>
    .ok (Js.sum / Js.length, fun j e => T'.sensitivity law R.eMinCoeff proj v.p (Ts.getD j 0) e)

/-- common_density.py:1014–1130 for iteration `n` of an OC run. -/
def heatStepWith (R : HeatSetup ι Q d nE k) (law : ℝ → ℝ → ℝ → ℝ → ℝ) (n : ℕ) (rho : Fin nE → ℝ) (x : State (Fin nE) d × Heat.Task ι Q d nE k) :
    (State (Fin nE) d × Heat.Task ι Q d nE k) × Res (Fin nE → ℝ) :=
  let r := stepWith R.toCommon (heatResponseWith R law x.2) n rho x.1
  ((r.1, taskAfter R n rho x.1 x.2), r.2)

/-- common_density.py:1014–1130 for iteration `n` of a LogMOC run. -/
def heatLogStepWith (L : HeatLogSetup ι Q d nE k) (law : ℝ → ℝ → ℝ → ℝ → ℝ) (n : ℕ) (rho : Fin nE → ℝ)
    (x : LogState (Fin nE) d × Heat.Task ι Q d nE k) : (LogState (Fin nE) d × Heat.Task ι Q d nE k) × Res (Fin nE → ℝ) :=
  let r := logStepWith L.common (heatResponseWith L.toHeatSetup law x.2) n rho x.1
  ((r.1, taskAfter L.toHeatSetup n rho x.1.base x.2), r.2)

/-- An OC optimizer for the configured law (common_density.py:553–572): the constructor raises ValueError for an unknown name. -/
def heatSysFor (R : HeatSetup ι Q d nE k) (interpolation : String) : Res (Sys (Fin nE) ℝ (State (Fin nE) d × Heat.Task ι Q d nE k)) :=
  match Material.interpolationFuncs interpolation with
  | .error e => .error e
  | .ok (law, _) => .ok (carry (sysWith R.toCommon fun _ _ x => (x, .error .runtimeError)) (heatStepWith R law))

/-- … and a LogMOC optimizer. -/
def heatLogSysFor (L : HeatLogSetup ι Q d nE k) (interpolation : String) :
    Res (Sys (Fin nE) ℝ (LogState (Fin nE) d × Heat.Task ι Q d nE k)) :=
  match Material.interpolationFuncs interpolation with
  | .error e => .error e
  | .ok (law, _) => .ok (carry (logSysWith L.common fun _ _ x => (x, .error .runtimeError)) (heatLogStepWith L law))

end
end Verif.Run
