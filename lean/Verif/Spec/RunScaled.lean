import Verif.Spec.Trajectory

/-! What a run with `scaling=True` computes, in terms of the problem the user posed. -/
namespace Verif.Spec
open Verif.Sched Verif.Run

noncomputable section
open Classical

variable {ι E Q : Type} [Fintype ι] [Fintype E] [Fintype Q] {d m : ℕ}

/-- The unit of work after scaling: lengths are divided by `L`, forces by `10^5`, Young's modulus is the same. -/
def scaledWork (d : ℕ) (L : ℝ) : ℝ := L ^ d / L ^ 2 / 10 ^ 10

/-- The factor by which the sensitivities change: the unit of work and, for one load case, division by the number of degrees of
freedom `n`. -/
def scaledSens (d m n : ℕ) (L : ℝ) : ℝ := scaledWork d L / if m = 1 then (n : ℝ) else 1

/-- The scheduled values, with a filter radius `L` times as large. -/
def widened (L : ℝ) (v : Vals) : Vals := { v with radius := L * v.radius }

/-- One iteration with `scaling=True`, in terms of the original problem: the filter radius is `L` times the scheduled one, the recorded
compliance and the sensitivities are in other units. -/
def ScaledIteration (R : Setup ι E Q d m) (L : ℝ) (rho : E → ℝ) (rs : ℝ) (r : Rec) (rho' : E → ℝ) (rs' : ℝ) : Prop :=
  ∃ (v : Vals) (u : Fin m → ι → ℝ), AllScheduled R.toCommon r.iter v ∧
    (∀ j, Displaced R (fun e => young R v.p (physical R.toCommon (widened L v) rho e)) (fun i => R.loads j i * v.neumannScale) (u j)) ∧
    r.compliance = scaledWork d L * ((∑ j, ∑ i, R.loads j i * v.neumannScale * u j i) / m) ∧ r.neumannScale = v.neumannScale ∧
    OCStep R.toCommon (widened L v) (fun e => scaledSens d m (Fintype.card ι) L * gradient R (widened L v) rho u e) rho rs r rho' rs'

end
end Verif.Spec
