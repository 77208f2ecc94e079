import Verif.Model.HeatBasis
import Mathlib.Logic.Relation

/-! Specification for C145: pieces of a mesh, and what fixes their temperature. -/
namespace Verif.Spec.Supported
open Verif.FEBasis

variable {N E C Q : Type} {d : ℕ}

/-- Two nodes are corners of the same element. -/
def Neighbours (M : Mesh N E C d) (n m : N) : Prop := ∃ e, (∃ c, M.t e c = n) ∧ ∃ c, M.t e c = m

/-- Every piece of the mesh has one of the nodes `D`: from every node such a node can be reached through elements. -/
def Anchored (M : Mesh N E C d) (D : Finset N) : Prop := ∀ n, ∃ m ∈ D, Relation.ReflTransGen (Neighbours M) n m

/-- The reference mapping is invertible at the integration points (no element is flat or collapsed there). -/
def NonDegenerate [Fintype C] (M : Mesh N E C d) (R : Ref C Q d) : Prop := ∀ e q, (jac M R e q).det ≠ 0

/-- A node of an element that has a cooled surface: one of the surface points, with positive weight, belongs to the element. -/
def Cooled (M : Mesh N E C d) (surfaces : List (List (SurfacePoint E C))) (n : N) : Prop :=
  ∃ ps ∈ surfaces, ∃ x ∈ ps, 0 < x.dx ∧ ∃ c, M.t x.element c = n

end Verif.Spec.Supported
