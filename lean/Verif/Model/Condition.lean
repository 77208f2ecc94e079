import Verif.Model.Task

/-!
The file `condition.vtu` an optimizer writes before its first iteration:
`/repo/scikit-topt/sktopt/mesh/task_common.py` lines 353–396 (called at
`/repo/scikit-topt/sktopt/core/optimizers/common_density.py`:969).

Only the two colour arrays are modelled, not the XML file `meshio` makes of them.  Node and element
numbers are natural numbers (Python would also accept negative indices).
-/
namespace Verif.Condition
open Verif.Mesh Verif.Task

/-- The class of `basis.mesh`. -/
inductive MeshKind where
  | tet
  | hex
  | other

/-- `np.zeros(n, dtype=int)`. -/
def zeros (n : ℕ) : List ℕ := List.replicate n 0

/-- `colors[idx] = c` for an integer array `idx`; an index outside the array raises. -/
def setAt (colors idx : List ℕ) (c : ℕ) : Res (List ℕ) :=
  if idx.all (· < colors.length) then .ok (colors.mapIdx fun i v => if i ∈ idx then c else v) else .error .indexError

/-- `colors[idx] = c` for `idx` an array, a list of arrays (numpy makes one array of it; unequal lengths raise) or
`None` (numpy reads `None` as `np.newaxis`, the assignment reaches every entry). -/
def paint (colors : List ℕ) (idx : Option Arrays) (c : ℕ) : Res (List ℕ) :=
  match idx with
  | none => .ok (colors.map fun _ => c)
  | some a => do
    let l ← a.stacked
    setAt colors l c

/-- task_common.py:353–358 `neumann_nodes_all`. -/
def neumannNodesAll (nodes : Option Arrays) : Res (Option Arrays) :=
  match nodes with
  | some (.lst ls) => do
    let l ← concatenate ls
    pure (some (.arr (unique l)))
  | x => .ok x

/-- The two arrays written to the file. -/
structure Colours where
  nodes : List ℕ
  elements : List ℕ

/-- task_common.py:360–396 `export_analysis_condition_on_mesh` of a task `T` that was built from the node arrays in `a`
(`from_nodes` stores them unchanged, lines 246–263); `nNodes` is `mesh.p.shape[1]`, `nElements` is `mesh.nelements`. -/
def exportCondition (kind : MeshKind) (nNodes nElements : ℕ) (a : Args) (T : Task) : Res Colours :=
  match kind with
  | .other => .error .valueError
  | _ => do
    let neumann ← neumannNodesAll a.neumannNodes
    let c1 ← paint (zeros nNodes) neumann 1
    let c2 ← paint c1 a.dirichletNodes 2
    let c3 ← paint c2 a.robinNodes 3
    let e1 ← setAt (zeros nElements) T.freeElements 1
    let e2 ← setAt e1 T.fixed 2
    let e3 ← setAt e2 T.design 3
    pure ⟨c3, e3⟩

/-- task_common.py:291–324: the node arrays `from_facets` passes on to `from_nodes`. -/
def nodeArgs (b : Basis) (a : FacetArgs) : Res Args := do
  let dn ← optionalDirichlet b a.dirichletFacets
  let nn ← mergedFacetNodes b a.neumannFacets
  let rn ← mergedFacetNodes b a.robinFacets
  pure {
    dirichletNodes := dn, dirichletDir := a.dirichletDir, dirichletValues := a.dirichletValues
    neumannNodes := nn, robinNodes := rn
    designRobin := if a.robinFacets.isNone then none else a.designRobin
    design := a.design }

/-- A task built from facets and the file written for it after the optimizer's constructor acted on the task
(common_density.py:546–547, 969). -/
def facetCondition (kind : MeshKind) (nNodes : ℕ) (b : Basis) (a : FacetArgs) (designDirichlet : Bool) :
    Res Colours := do
  let args ← nodeArgs b a
  let T ← fromNodes b args
  exportCondition kind nNodes b.t.length args (T.construct designDirichlet)

end Verif.Condition
