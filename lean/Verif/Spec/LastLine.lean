import Verif.Spec.Trajectory

/-! The objective value of a design. -/
namespace Verif.Spec
open Verif.Run

variable {ι E Q : Type} [Fintype ι] [Fintype E] [Fintype Q] {d m : ℕ}

/-- `c` is the objective value of the design densities `rho` for the scheduled values `v`: the mean over the load cases of the work of
the load on the displacement it causes in the structure with the physical densities that belong to `rho`. -/
def ObjectiveOf (R : Setup ι E Q d m) (v : Vals) (rho : E → ℝ) (c : ℝ) : Prop :=
  ∃ u : Fin m → ι → ℝ,
    (∀ j, Displaced R (fun e => young R v.p (physical R.toCommon v rho e)) (fun i => R.loads j i * v.neumannScale) (u j)) ∧
    c = (∑ j, ∑ i, R.loads j i * v.neumannScale * u j i) / m

end Verif.Spec
