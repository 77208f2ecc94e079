import Verif.Model.Run
import Verif.Model.RunLog

/-!
Runs with a chosen material law (`interpolation="SIMP"` or `"RAMP"`) on an elasticity task:
`/repo/scikit-topt/sktopt/core/optimizers/common_density.py` lines 392–404, 553–572, 973, 1055–1095. `Verif.Model.Run` is the case "SIMP".
-/
namespace Verif.Run
open Verif Verif.Driver

noncomputable section

variable {ι E Q : Type} [Fintype ι] [Fintype E] [Fintype Q] {d m : ℕ}

/-- The finite element part (lines 1055–1064, 1085–1095) for the material law `law` and the sensitivity `dC`, both as functions of
density, (energy,) `E0`, `E_min` and `p`. -/
def responseWith (R : Setup ι E Q d m) (law : ℝ → ℝ → ℝ → ℝ → ℝ) (dC : ℝ → ℝ → ℝ → ℝ → ℝ → ℝ) (v : Vals) (proj : E → ℝ) :
    Res (ℝ × (Fin m → E → ℝ)) :=
  open Classical in
  let Em := fun e => law (proj e) R.E0 (R.E0 * R.eMinCoeff) v.p
  match Elastic.objectives R.backend R.solver (Elastic.stiffness R.fe Em R.nu) R.dirichlet (List.ofFn R.loads) v.neumannScale with
  | .error e => .error e
  | .ok (cs, us) =>
    .ok (cs.sum / m, fun j e => dC (proj e) (Elastic.elemEnergy R.fe Em R.nu (us.getD j 0) e) R.E0 (R.E0 * R.eMinCoeff) v.p)

/-- An OC optimizer for the configured law (553–572, 973): the constructor raises ValueError for an unknown name. -/
def sysFor (R : Setup ι E Q d m) (interpolation : String) : Res (Sys E ℝ (State E d)) :=
  match Material.interpolationFuncs interpolation with
  | .error e => .error e
  | .ok (law, dC) => .ok (sysWith R.toCommon (stepWith R.toCommon (responseWith R law dC)))

/-- … and a LogMOC optimizer. -/
def logSysFor (L : LogSetup ι E Q d m) (interpolation : String) : Res (Sys E ℝ (LogState E d)) :=
  match Material.interpolationFuncs interpolation with
  | .error e => .error e
  | .ok (law, dC) => .ok (logSysWith L.common (logStepWith L.common (responseWith L.toSetup law dC)))

end
end Verif.Run
