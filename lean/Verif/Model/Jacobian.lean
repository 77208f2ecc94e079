import Verif.Model.FilterElement
import Mathlib.Data.Matrix.Mul

/-!
`compute_filter_gradient_matrix` (`/repo/scikit-topt/sktopt/filters/helmholtz_filter_element.py` lines 237–261): the Jacobian of the element
Helmholtz filter. No other function of the package calls it.

As in `Verif.Model.FilterElement`, a sparse matrix is the map `x ↦ A @ x` and `splu(A).solve` is `Ext.lu A`. Simplification: a mesh has at
least one element (`np.column_stack([])` raises).
-/
namespace Verif.Jacobian
open Verif.Helmholtz Verif.FilterElement

noncomputable section
open Classical

variable {n : ℕ}

/-- Lines 242–244: `M = csc_matrix(np.diag(volumes / np.mean(volumes)))`. -/
def matM (mesh : Mesh n) : Op n := (Matrix.diagonal fun i => vnorm mesh i).mulVec

/-- Line 245: `A = M + radius**2 * laplacian`. -/
def matA (mesh : Mesh n) (radius : ℝ) : Op n := fun x i => matM mesh x i + radius ^ 2 * laplacian mesh radius x i

/-- `filter_grad_vec` (lines 249–253): `A_solver = splu(A)` and `A_solver.solve(M @ v)`. -/
def filterGradVec (E : Ext n) (mesh : Mesh n) (radius : ℝ) (v : Vec n) : Vec n := E.lu (matA mesh radius) (matM mesh v)

/-- `filter_jacobian_matrix` (lines 255–259): column `i` is `filter_grad_vec(Imat[:, i])`. -/
def filterJacobianMatrix (E : Ext n) (mesh : Mesh n) (radius : ℝ) : Matrix (Fin n) (Fin n) ℝ :=
  Matrix.of fun row i => filterGradVec E mesh radius (fun k => (1 : Matrix (Fin n) (Fin n) ℝ) k i) row

end
end Verif.Jacobian
