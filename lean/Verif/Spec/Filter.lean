import Mathlib.Algebra.BigOperators.Ring.Finset
import Mathlib.Data.Real.Basic
import Mathlib.Data.Fintype.BigOperators

/-! Specification vocabulary for density filters, independent of the model. -/
namespace Verif.Spec
variable {E : Type} [Fintype E]

/-- `F` keeps every output between the smallest and the largest input (over the index set `S`). -/
def StaysInRange (S : Finset E) (F : (E → ℝ) → (E → ℝ)) : Prop :=
  ∀ (x : E → ℝ) (lo hi : ℝ), (∀ e ∈ S, lo ≤ x e ∧ x e ≤ hi) → ∀ e ∈ S, lo ≤ F x e ∧ F x e ≤ hi

/-- `F` reproduces constant fields. -/
def PreservesConstants (S : Finset E) (F : (E → ℝ) → (E → ℝ)) : Prop :=
  ∀ c : ℝ, ∀ e ∈ S, F (fun _ => c) e = c

/-- `F` is linear. -/
def IsLinear (F : (E → ℝ) → (E → ℝ)) : Prop :=
  ∀ (x y : E → ℝ) (a b : ℝ), F (fun e => a * x e + b * y e) = fun e => a * F x e + b * F y e

/-- The inner product of two element fields. -/
def dotP (x y : E → ℝ) : ℝ := ∑ e, x e * y e

/-- `G` is the adjoint (transpose) of `F`. -/
def IsAdjoint (F G : (E → ℝ) → (E → ℝ)) : Prop := ∀ x y, dotP (G x) y = dotP x (F y)

end Verif.Spec
