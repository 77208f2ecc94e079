import Verif.Model.BoxMesh
import Verif.Model.Load

/-!
The predefined problem `toy2` (`/repo/scikit-topt/sktopt/mesh/toy_problem.py` lines 103–144): tags on the boundary of a box mesh, then
`LinearElasticity.from_mesh_tags` (modelled in `Verif.Model.Load`). `skfem`'s `with_boundaries` is modelled from its documentation: a tag given by
a test gets the facets of the surface (`boundaries_only=True`) whose midpoint passes.

Simplification: `skfem` gives a facet between two elements one number; here every side of every element has its own number `6 * element + side`.
For the facets of the surface, the only ones the tags contain, the two numberings differ by a renaming.
-/
namespace Verif.BoxMesh
open Verif.Snapshot (Name)
open Verif.Load Verif.Geometry

noncomputable section

/-- Side number `k` of the mesh: the element and the four point numbers (toy_problem.py line 111, the mesh). -/
def facet (M : HexMesh) (k : ℕ) : ℕ × (Fin 4 → ℕ) :=
  (k / 6, fun c => M.t.getD (k / 6) (fun _ => 0) (hexFaces.getD (k % 6) (fun _ => 0) c))

/-- A facet of the surface: no other side has the same corners (`mesh.boundary_facets()`, within toy_problem.py line 130). -/
def Exterior (M : HexMesh) (k : ℕ) : Prop := ∀ j < 6 * M.t.length, Set.range (facet M j).2 = Set.range (facet M k).2 → j = k

/-- `mesh.facets_satisfying(test, boundaries_only=True)` (within `with_boundaries`, toy_problem.py line 130). -/
def boundarySatisfying (M : HexMesh) (test : Vec → Prop) : List ℕ :=
  open Classical in
  (List.range (6 * M.t.length)).filter fun k => decide (Exterior M k ∧ test ((1 / 4 : ℝ) • ∑ c : Fin 4, M.p ((facet M k).2 c)))

/-- What `toy2` passes on to `from_facets` by way of `from_mesh_tags` (toy_problem.py lines 137–144). -/
structure Toy2 where
  mesh : HexMesh
  dirichlet : Option Task.Arrays
  dirichletDir : String
  neumann : Option Task.Arrays
  neumannDir : List Name
  neumannValue : List ℝ
  design : List ℕ

/-- toy_problem.py:103–144 `toy2`. -/
def toy2 : Res Toy2 :=
  let xLen : ℝ := 8
  let yLen : ℝ := 8
  let zLen : ℝ := 1
  let meshSize : ℝ := 3 / 10
  match createBoxHex xLen yLen zLen meshSize with
  | .error e => .error e
  | .ok M =>
    let eps := meshSize
    let boundaries : List (Name × List ℕ) :=
      [("dirichlet".toList, boundarySatisfying M (inRange (0, 5 / 100) (0, yLen) (0, zLen))),
       ("neumann_0".toList, boundarySatisfying M (inRange (xLen, xLen) (yLen - eps, yLen) (0, zLen))),
       ("neumann_1".toList, boundarySatisfying M (inRange (xLen, xLen) (0, eps) (0, zLen)))]
    .ok {
      mesh := M
      dirichlet := elasticDirichlet boundaries
      dirichletDir := "all"
      neumann := elasticNeumann boundaries
      neumannDir := ["u^2".toList, "u^2".toList]
      neumannValue := [-1, 1]
      design := List.range M.t.length }

end
end Verif.BoxMesh
