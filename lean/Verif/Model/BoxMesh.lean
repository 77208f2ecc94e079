import Verif.Model.Geometry
import Mathlib.Algebra.Order.Floor.Ring
import Mathlib.Data.Real.Archimedean
import Mathlib.Algebra.BigOperators.Fin

/-!
The box meshes of the toy problems: `/repo/scikit-topt/sktopt/mesh/toy_problem.py` lines 10–36 (`create_box_hex`) and
`/repo/scikit-topt/sktopt/mesh/utils.py` lines 8–15 (`get_points_in_range`), with the functions of `skfem` they call
(`MeshHex.init_tensor`, `Mesh.elements_satisfying`, `Mesh.facets_satisfying`), whose source is not part of the repository and is modelled
from its documentation. Coordinates are real numbers.
-/
namespace Verif.BoxMesh
open Verif Verif.Geometry

noncomputable section

/-- A hexahedral mesh: `mesh.p` (point `k` for `k < npoints`) and the columns of `mesh.t`. -/
structure HexMesh where
  npoints : ℕ
  p : ℕ → Vec
  t : List (Fin 8 → ℕ)

/-- toy_problem.py:26–28 `int(np.ceil(len / mesh_size))` (for `mesh_size = 0` Python raises ZeroDivisionError). -/
def count (len h : ℝ) : Res ℤ := if h = 0 then .error .zeroDivision else .ok ⌈len / h⌉

/-- toy_problem.py:30–32 `np.linspace(0, len, n + 1)[i]`. -/
def linspace (len : ℝ) (n i : ℕ) : ℝ := i * (len / n)

/-- The number of the point with indices `ix`, `iy`, `iz` in `init_tensor`: `np.arange(npx * npy * npz).reshape(npy, npx, npz, order='F')`. -/
def pointId (nx ny ix iy iz : ℕ) : ℕ := iy + (ny + 1) * (ix + (nx + 1) * iz)

/-- The coordinates `init_tensor` gives to point `k` (`np.meshgrid` flattened in Fortran order: `y` runs fastest, then `x`, then `z`). -/
def point (x y z : ℝ) (nx ny nz k : ℕ) : Vec :=
  ![linspace x nx (k / (ny + 1) % (nx + 1)), linspace y ny (k % (ny + 1)), linspace z nz (k / (ny + 1) / (nx + 1))]

/-- The eight corners of the cell with indices `ix`, `iy`, `iz` in the order of `init_tensor`. -/
def cell (nx ny ix iy iz : ℕ) : Fin 8 → ℕ :=
  ![pointId nx ny ix iy iz, pointId nx ny ix (iy + 1) iz, pointId nx ny (ix + 1) iy iz, pointId nx ny ix iy (iz + 1),
    pointId nx ny (ix + 1) (iy + 1) iz, pointId nx ny ix (iy + 1) (iz + 1), pointId nx ny (ix + 1) iy (iz + 1),
    pointId nx ny (ix + 1) (iy + 1) (iz + 1)]

/-- `skfem.MeshHex.init_tensor(x, y, z)`. -/
def initTensor (x y z : ℝ) (nx ny nz : ℕ) : HexMesh where
  npoints := (nx + 1) * (ny + 1) * (nz + 1)
  p := point x y z nx ny nz
  t := (List.range (nx * ny * nz)).map fun e => cell nx ny (e / ny % nx) (e % ny) (e / ny / nx)

/-- toy_problem.py:10–36 `create_box_hex`. `np.linspace` raises ValueError for a negative number of points; fewer than two points in a
direction give a mesh without elements. -/
def createBoxHex (x y z h : ℝ) : Res HexMesh :=
  match count x h, count y h, count z h with
  | .ok nx, .ok ny, .ok nz =>
    if nx + 1 < 0 ∨ ny + 1 < 0 ∨ nz + 1 < 0 then .error .valueError
    else
      let M := initTensor x y z nx.toNat ny.toNat nz.toNat
      .ok { M with t := M.t.map (fixHex M.p) }
  | _, _, _ => .error .zeroDivision

/-- utils.py:8–15 `get_points_in_range` at one point. -/
def inRange (xr yr zr : ℝ × ℝ) (v : Vec) : Prop :=
  v 0 ≥ xr.1 ∧ v 0 ≤ xr.2 ∧ v 1 ≥ yr.1 ∧ v 1 ≤ yr.2 ∧ v 2 ≥ zr.1 ∧ v 2 ≤ zr.2

/-- `mesh.elements_satisfying(test)`: the elements whose midpoint (mean of the corners) passes the test. -/
def elementsSatisfying (M : HexMesh) (test : Vec → Prop) : List ℕ :=
  open Classical in
  (List.range M.t.length).filter fun e =>
    decide (test ((1 / 8 : ℝ) • ∑ c : Fin 8, M.p (M.t.getD e (fun _ => 0) c)))

/-- The faces of `skfem.refdom.RefHex`, as corner positions. -/
def hexFaces : List (Fin 4 → Fin 8) :=
  [![0, 1, 4, 2], ![0, 2, 6, 3], ![0, 3, 5, 1], ![2, 4, 7, 6], ![1, 5, 7, 4], ![3, 6, 7, 5]]

/-- The faces of the elements (each given by its four point numbers) whose midpoint passes the test, as selected by
`mesh.facets_satisfying(test)` (without `boundaries_only`). Simplification: `skfem` numbers the facets; here a facet is its corners, and
an interior facet occurs once per element. -/
def facetsSatisfying (M : HexMesh) (test : Vec → Prop) : List (ℕ × (Fin 4 → ℕ)) :=
  open Classical in
  ((List.range M.t.length).flatMap fun e => hexFaces.map fun f => (e, fun c => M.t.getD e (fun _ => 0) (f c))).filter fun F =>
    decide (test ((1 / 4 : ℝ) • ∑ c : Fin 4, M.p (F.2 c)))

/-- What `toy_base` passes on to the task (`LinearElasticity.from_facets`). -/
structure ToyBase where
  mesh : HexMesh
  support : List (ℕ × (Fin 4 → ℕ))
  loaded : List (ℕ × (Fin 4 → ℕ))
  design : List ℕ

/-- toy_problem.py:51–77 `toy_base`, up to the call of `from_facets`. -/
def toyBase (meshSize : ℝ) : Res ToyBase :=
  let xLen : ℝ := 8
  let yLen : ℝ := 6
  let zLen : ℝ := 4
  let eps : ℝ := 12 / 10
  match createBoxHex xLen yLen zLen meshSize with
  | .error e => .error e
  | .ok M => .ok {
      mesh := M
      support := facetsSatisfying M (inRange (0, 3 / 100) (0, yLen) (0, zLen))
      loaded := facetsSatisfying M (inRange (xLen - eps, xLen + 1 / 10) (yLen * 2 / 5, yLen * 3 / 5) (zLen - eps, zLen))
      design := elementsSatisfying M (inRange (0, xLen) (0, yLen) (0, zLen)) }

end
end Verif.BoxMesh
