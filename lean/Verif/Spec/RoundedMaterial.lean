import Verif.Spec.Format

/-! What the theorems about projection and material law in rounded arithmetic assume of the format and the mathematical library. -/
namespace Verif.Spec
open Verif.Rounded

/-- Rounding commutes with the change of sign (round to nearest does), and the format has a 4. -/
structure Format.Symmetric (f : Format) : Prop where
  odd : ∀ x, f.fl (-x) = f.negate (f.fl x)
  four : (4 : ℝ) ∈ f.F

/-- A library `tanh`: a monotone odd function with finite values in `[-1, 1]` that keeps NaN. -/
structure FairTanh (f : Format) (tanh : Flt f.Num → Flt f.Num) : Prop where
  value : ∀ a, ∃ c : f.F, tanh (some a) = some (c : WithTop f.F) ∧ -1 ≤ (c : ℝ) ∧ (c : ℝ) ≤ 1
  mono : ∀ a b c d, a ≤ b → tanh (some a) = some c → tanh (some b) = some d → c ≤ d
  odd : ∀ a c, tanh (some a) = some c → tanh (some (f.negate a)) = some (f.negate c)

/-- A library `cosh`: at least 1, possibly infinite. -/
def FairCosh (f : Format) (cosh : Flt f.Num → Flt f.Num) : Prop := ∀ a, ∃ c, cosh (some a) = some c ∧ f.fl 1 ≤ c

end Verif.Spec
