import Verif.Model.RoundedRun
import Verif.Spec.RoundedMaterial

/-! What a double-precision run of ordinary size is. -/
namespace Verif.Spec
open Verif.Rounded

/-- A finite number of the format between `lo` and `hi`. -/
def Within (f : Format) (lo hi : ℝ) (x : Flt f.Num) : Prop :=
  ∃ z : f.F, x = some ((z : WithTop f.F) : WithBot (WithTop f.F)) ∧ lo ≤ z ∧ (z : ℝ) ≤ hi

/-- A library `tanh` that is not absurdly small at 1/4 (its value is 0.24…). -/
structure GoodTanh (f : Format) (tanh : Flt f.Num → Flt f.Num) : Prop extends FairTanh f tanh where
  quarter : Within f (1 / 8) 1 (tanh (some (f.fl (1 / 4))))

/-- Round to nearest, with any rule for ties, for numbers that do not overflow. -/
def NearestRounding (fl : ℝ → WithBot (WithTop doubles)) : Prop :=
  ∀ x : ℝ, |x| ≤ 2 ^ 1000 → ∃ y : doubles, fl x = ((y : WithTop doubles) : WithBot (WithTop doubles)) ∧ ∀ z : doubles, |(y : ℝ) - x| ≤ |(z : ℝ) - x|

variable {E X : Type}

/-- Kernel values of the spatial filter: at most `2 ^ 20` neighbours, values in `[0, 1]`, the element itself among them with the value 1.0
(`exp(-0.0)`). -/
structure KernelRow (f : Format) (row : List (E × Flt f.Num)) : Prop where
  count : row.length ≤ 2 ^ 20
  values : ∀ e ∈ row, Within f 0 1 e.2
  self : ∃ e ∈ row, e.2 = some (f.fl 1)

/-- Ordinary sizes: moduli at most `2 ^ 200`, at most `2 ^ 30` design elements, rows as above among them. -/
structure UsualSetup (f : Format) (S : Setup f.Num E X) : Prop where
  count : S.ids.length ≤ 2 ^ 30
  rows : ∀ k, ∀ i ∈ S.ids, KernelRow f (S.rows k i) ∧ ∀ e ∈ S.rows k i, e.1 ∈ S.ids
  modulus : Within f 0 (2 ^ 200) S.E0
  coeff : Within f 0 1 S.coeff
  threshold : Within f 0 1 S.betaEta

/-- A run of ordinary size: energies and move limits at most `2 ^ 200`, `1/2 ≤ p ≤ 32`, `1/2 ≤ beta ≤ 2 ^ 20`, at most `2 ^ 20` load cases;
the statistic of finite numbers is a number. -/
structure UsualRun (f : Format) (S : Setup f.Num E X) : Prop extends UsualSetup f S where
  schedules : ∀ k x y v, S.values k x = (y, .ok v) →
    Within f (1 / 2) 32 v.p ∧ Within f (1 / 2) (2 ^ 20) v.beta ∧ Within f 0 (2 ^ 200) v.moveLimit ∧ v.eta ≠ none
  loads : ∀ k p r x y Us, S.energies k p r x = (y, .ok Us) →
    Us ≠ [] ∧ Us.length ≤ 2 ^ 20 ∧ ∀ U ∈ Us, ∀ i ∈ S.ids, Within f 0 (2 ^ 200) (U i)
  stat : ∀ k x (d : E → Flt f.Num), (∀ i ∈ S.ids, ∃ b, Within f (-b) 0 (d i)) → S.stat k x d ≠ none

end Verif.Spec
