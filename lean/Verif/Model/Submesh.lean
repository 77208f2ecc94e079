import Verif.Model.Mesh
import Mathlib.Data.Real.Basic

/-!
The final mesh of a run: `/repo/scikit-topt/sktopt/mesh/visualization.py` (`setdiff1d`, `export_submesh`), called by
`_finalize` (`core/optimizers/common_density.py` lines 960–962).

A mesh is the list of its points (`mesh.p.T`) and the list of its elements (`mesh.t.T`), as in `Verif.Model.Mesh`; `α` is the type of
points. An index outside an array is answered by a default value instead of IndexError (excluded by the hypotheses of the theorems).
Writing the file itself is not modelled, nor the sorting of the corners of a simplex by `skfem` (the renumbering is monotone, so sorted
corners stay sorted).
-/
namespace Verif.Submesh
open Verif Verif.Mesh

noncomputable section

variable {α : Type}

/-- mesh/visualization.py:5–8 `setdiff1d`: the entries of `a` not in `b`, in their order. -/
def setdiff (a b : List ℕ) : List ℕ := a.filter fun e => decide (e ∉ b)

/-- mesh/visualization.py:18–20: design elements at or below the threshold. -/
def removed (design : List ℕ) (rho : ℕ → ℝ) (threshold : ℝ) : List ℕ :=
  open Classical in design.filter fun e => decide (rho e ≤ threshold)

/-- mesh/visualization.py:21–23. -/
def kept (all design : List ℕ) (rho : ℕ → ℝ) (threshold : ℝ) : List ℕ := setdiff all (removed design rho threshold)

/-- mesh/visualization.py:27–29: the dictionary from old to new vertex numbers. -/
def indexMap (vertices : List ℕ) : List (ℕ × ℕ) := vertices.zipIdx

/-- mesh/visualization.py:11–34 `export_submesh`: the points and elements of the mesh that is saved. `np.vectorize(index_map.get)` raises
ValueError for an empty array of corners. A missing key would give `None`, here 0; it does not occur. -/
def exportSubmesh [Inhabited α] (p : List α) (t : Conn) (all design : List ℕ) (rho : ℕ → ℝ) (threshold : ℝ) : Res (List α × Conn) :=
  let keptT := (kept all design rho threshold).map fun e => t.getD e []
  let vertices := unique keptT.flatten
  let newPoints := vertices.map fun v => p.getD v default
  if keptT.flatten = [] then .error .valueError
  else .ok (newPoints, keptT.map fun el => el.map fun v => ((indexMap vertices).lookup v).getD 0)

end
end Verif.Submesh
