import Verif.Spec.RunLog

/-! What a run with the RAMP law computes, in mathematical terms only. -/
namespace Verif.Spec
open Verif.Sched Verif.Run

noncomputable section
open Classical

variable {ι E Q : Type} [Fintype ι] [Fintype E] [Fintype Q] {d m : ℕ}

/-- RAMP: Young's modulus at physical density `x`. -/
def rampYoung (R : Setup ι E Q d m) (p x : ℝ) : ℝ := R.E0 * R.eMinCoeff + (R.E0 - R.E0 * R.eMinCoeff) * (x / (1 + p * (1 - x)))

/-- What the code uses as `dC/dx` of one load case for physical density `x` and element energy `U` (not the derivative, see C26), with
the modulus floor `1e-12`. -/
def rampSlope (R : Setup ι E Q d m) (p x U : ℝ) : ℝ :=
  -2 * U * ((R.E0 - R.E0 * R.eMinCoeff) * (1 + p - 2 * p * x) / (1 + p * (1 - x)) ^ 2) / max (rampYoung R p x) (1 / 10 ^ 12)

/-- The sensitivity handed to the update, for the displacements `u` of the load cases. -/
def rampGradient (R : Setup ι E Q d m) (v : Vals) (rho : E → ℝ) (u : Fin m → ι → ℝ) : E → ℝ :=
  let Em := fun e => rampYoung R v.p (physical R.toCommon v rho e)
  chained R.toCommon v rho fun j e => rampSlope R v.p (physical R.toCommon v rho e) (innerWork R Em (u j) (u j) e / 2)

/-- One OC iteration. -/
def RampIteration (R : Setup ι E Q d m) (rho : E → ℝ) (rs : ℝ) (r : Rec) (rho' : E → ℝ) (rs' : ℝ) : Prop :=
  ∃ (v : Vals) (u : Fin m → ι → ℝ), AllScheduled R.toCommon r.iter v ∧
    (∀ j, Displaced R (fun e => rampYoung R v.p (physical R.toCommon v rho e)) (fun i => R.loads j i * v.neumannScale) (u j)) ∧
    r.compliance = (∑ j, ∑ i, R.loads j i * v.neumannScale * u j i) / m ∧ r.neumannScale = v.neumannScale ∧
    OCStep R.toCommon v (rampGradient R v rho u) rho rs r rho' rs'

/-- One LogMOC iteration. -/
def RampLogIteration (L : LogSetup ι E Q d m) (rho : E → ℝ) (lam rs : ℝ) (r : LogRec) (rho' : E → ℝ) (rs' : ℝ) : Prop :=
  ∃ (v : Vals) (u : Fin m → ι → ℝ), AllScheduled L.toCommon r.iter v ∧
    (∀ j, Displaced L.toSetup (fun e => rampYoung L.toSetup v.p (physical L.toCommon v rho e)) (fun i => L.loads j i * v.neumannScale) (u j)) ∧
    r.compliance = (∑ j, ∑ i, L.loads j i * v.neumannScale * u j i) / m ∧ r.neumannScale = v.neumannScale ∧
    LogStep L.common v (rampGradient L.toSetup v rho u) rho lam rs r rho' rs'

end
end Verif.Spec
