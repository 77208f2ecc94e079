import Mathlib.Data.Real.Basic

/-! Small order-theoretic vocabulary used in the statements. -/
namespace Verif.Spec

/-- `x` lies between `a` and `b`, whichever is larger. -/
def Between (a b x : ℝ) : Prop := min a b ≤ x ∧ x ≤ max a b

/-- Going from `x` to `y` is a (possibly empty) move in the direction from `a` to `b`. -/
def MovesToward (a b x y : ℝ) : Prop := (a ≤ b → x ≤ y) ∧ (b ≤ a → y ≤ x)

end Verif.Spec
