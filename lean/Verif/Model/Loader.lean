import Verif.Model.Elastic
import Verif.Model.Py

/-!
Meshes and stiffness matrices from files: `/repo/scikit-topt/sktopt/mesh/loader.py` lines 9–42 and
`/repo/scikit-topt/sktopt/mesh/toy_problem.py` lines 147–155. The `skfem` form `linear_elasticity(Lambda, Mu)`, whose source is not
part of the repository, is modelled from its documentation. Not modelled: reading the file; the line
`if hasattr(mesh_skfem, "mesh_skfem")` (loader.py:26–27) never applies, because no `skfem` mesh has an attribute of that name.
-/
namespace Verif.Loader
open Verif Verif.Elastic Matrix

/-- The mesh class that is loaded. -/
inductive MeshClass where
  | hex
  | tet
  deriving DecidableEq

/-- loader.py:15–24: which class `basis_from_file` loads for a file with cells of the given types. -/
def basisFromFile (cellTypes : List String) : Res MeshClass :=
  if "hexahedron" ∈ cellTypes then .ok .hex
  else if "tetra" ∈ cellTypes then .ok .tet
  else .error .valueError

/-- toy_problem.py:147–155 `load_mesh_auto`. -/
def loadMeshAuto (cellTypes : List String) : Res MeshClass :=
  if "tetra" ∈ cellTypes then .ok .tet
  else if "hexahedron" ∈ cellTypes then .ok .hex
  else .error .valueError

noncomputable section
variable {ι E Q : Type} [Fintype ι] [Fintype E] [Fintype Q] {d : ℕ}

/-- The integrand of `skfem.models.elasticity.linear_elasticity(Lambda, Mu)`: the stress of the first gradient against the strain of the
second. -/
def linearElasticity (Lambda Mu : ℝ) (gu gv : Matrix (Fin d) (Fin d) ℝ) : ℝ :=
  ddot ((2 * Mu) • sym gu + eye (Lambda * (sym gu).trace)) (sym gv)

/-- loader.py:34–42 `load_stiffness_matrix` on the basis of the file. -/
def loadStiffness (B : FE ι E Q d) (E0 nu : ℝ) : Matrix ι ι ℝ :=
  fun i j => ∑ e, ∑ q, linearElasticity E0 nu (B.grad j e q) (B.grad i e q) * B.dx e q

end
end Verif.Loader
