import Verif.Model.Projection
import Mathlib.Analysis.SpecialFunctions.Pow.Real
import Mathlib.Algebra.BigOperators.Group.Finset.Basic
import Mathlib.Data.Finset.BooleanAlgebra

/-! The optimality criteria law as the textbooks give it (with the damping and the box the library documents), for the statements
C16-C18. Nothing of the optimizer's code is used here; the projection is the tanh projection of C22. -/
namespace Verif.Spec

/-- The user-visible limits of one OC update. -/
structure OCLimits where
  rhoMin : ℝ
  rhoMax : ℝ
  move : ℝ
  eta : ℝ
  /-- the update factor is kept between `rateMin` and `rateMax` -/
  rateMin : ℝ
  rateMax : ℝ

/-- `x`, or the bound it exceeds. -/
noncomputable def pulled (lo x hi : ℝ) : ℝ := min (max lo x) hi

/-- The new density of an element of density `rho` whose objective falls at rate `gain` (relative to the scale): the density is
multiplied by `(gain / (lam + 1e-12)) ^ eta`, this factor being kept in its range, and the result is kept within the move limit and
the box. -/
noncomputable def ocDensity (L : OCLimits) (rho gain lam : ℝ) : ℝ :=
  pulled (max (rho - L.move) L.rhoMin) (rho * pulled L.rateMin ((gain / (lam + 1 / 10 ^ 12)) ^ L.eta) L.rateMax)
    (min (rho + L.move) L.rhoMax)

variable {E : Type} [Fintype E]

open Classical in
/-- The field with the design elements updated and the other elements left alone. -/
noncomputable def ocField (L : OCLimits) (design : Finset E) (state rho gain : E → ℝ) (lam : ℝ) : E → ℝ :=
  fun e => if e ∈ design then ocDensity L (rho e) (gain e) lam else state e

/-- The share of the design volume that is solid after filtering and projecting. -/
noncomputable def solidShare (design : Finset E) (volume : E → ℝ) (filter : (E → ℝ) → E → ℝ) (beta threshold : ℝ) (x : E → ℝ) : ℝ :=
  (∑ e ∈ design, Projection.heaviside (filter x e) beta threshold * volume e) / ∑ e ∈ design, volume e

/-- The new density of an element of density `rho` under the logarithmic update: it is multiplied by `exp (-eta * slope)`, the slope being
kept within `± clip`; the factor is kept between `1 / (1 + move / rho)` and `1 + move / rho`, and the result in the box. -/
noncomputable def logDensity (rhoMin rhoMax move eta clip rho slope : ℝ) : ℝ :=
  pulled rhoMin (rho * pulled (1 / (1 + move / rho)) (Real.exp (-eta * pulled (-clip) slope clip)) (1 + move / rho)) rhoMax

/-- The multiplier of LogMOC after the volume errors `errs 1, …, errs k`, in the default mode: an exponential moving average of
`gain * err` with the given decay, kept in its range after every iteration. -/
noncomputable def emaMultiplier (gain decay lower upper : ℝ) (errs : ℕ → ℝ) : ℕ → ℝ
  | 0 => 0
  | 1 => pulled lower (gain * errs 1) upper
  | k + 2 => pulled lower (decay * emaMultiplier gain decay lower upper errs (k + 1) + (1 - decay) * (gain * errs (k + 2))) upper

/-- The multiplier in the `augmented` mode: the running sum of `gain * err`, kept in its range after every iteration. -/
noncomputable def summedMultiplier (gain lower upper : ℝ) (errs : ℕ → ℝ) : ℕ → ℝ
  | 0 => 0
  | 1 => pulled lower (gain * errs 1) upper
  | k + 2 => pulled lower (summedMultiplier gain lower upper errs (k + 1) + gain * errs (k + 2)) upper

end Verif.Spec
