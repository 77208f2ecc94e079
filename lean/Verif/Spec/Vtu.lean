import Verif.Model.Geometry
import Mathlib.Order.Interval.Set.Basic

/-! The solids meant by the elements of a mesh and by the cells of a VTK file. -/
namespace Verif.Spec
open Verif Verif.Geometry

/-- The image of the unit cube under the trilinear map with value `c i j k` at the corner `(i, j, k)`. -/
def trilinear (c : Fin 2 → Fin 2 → Fin 2 → Vec) : Set Vec :=
  {v | ∃ r s t : ℝ, (0 ≤ r ∧ r ≤ 1) ∧ (0 ≤ s ∧ s ≤ 1) ∧ (0 ≤ t ∧ t ≤ 1) ∧
    v = (1 - r) • ((1 - s) • ((1 - t) • c 0 0 0 + t • c 0 0 1) + s • ((1 - t) • c 0 1 0 + t • c 0 1 1)) +
      r • ((1 - s) • ((1 - t) • c 1 0 0 + t • c 1 0 1) + s • ((1 - t) • c 1 1 0 + t • c 1 1 1))}

/-- The hexahedron with corners in the order of `skfem` (`RefHex`): 000, 001, 010, 100, 011, 101, 110, 111. -/
def hexElement (q : Fin 8 → Vec) : Set Vec :=
  trilinear ![![![q 0, q 1], ![q 2, q 4]], ![![q 3, q 5], ![q 6, q 7]]]

/-- The VTK cell of type `hexahedron`: the bottom face 000, 100, 110, 010 round, then the top face 001, 101, 111, 011. -/
def vtkHexahedron (q : Fin 8 → Vec) : Set Vec :=
  trilinear ![![![q 0, q 4], ![q 3, q 7]], ![![q 1, q 5], ![q 2, q 6]]]

/-- The tetrahedron with the given corners: all their weighted means. Tetrahedral elements and VTK cells of type `tetra` agree. -/
def tetrahedron (q : Fin 4 → Vec) : Set Vec :=
  {v | ∃ w : Fin 4 → ℝ, (∀ i, 0 ≤ w i) ∧ w 0 + w 1 + w 2 + w 3 = 1 ∧ v = w 0 • q 0 + w 1 • q 1 + w 2 • q 2 + w 3 • q 3}

/-- The corner points named by a list of point numbers. -/
def cornersAt {n : ℕ} (points : List Vec) (nodes : List ℕ) : Fin n → Vec := fun i => points.getD (nodes.getD i 0) 0

end Verif.Spec
