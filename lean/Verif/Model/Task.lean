import Verif.Model.Mesh

/-!
Task construction: `/repo/scikit-topt/sktopt/mesh/task_common.py` lines 18–21, 104–350, 398–401.

The finite element basis enters through the mesh connectivity, the facets, the number of degrees of
freedom and the node → degree-of-freedom maps of `basis.get_dofs`.  Element volumes
(`composer.get_elements_volume`) are in `Verif.Model.Geometry`; here their computation succeeds or
raises (`volumes`).  Arrays are assumed one-dimensional with an integer type.  The cache of
`get_elements_by_nodes` is assumed fresh (see `Verif.Model.Mesh` for the cache).
-/
namespace Verif.Task
open Verif.Mesh

/-- `skfem.Basis` as far as task construction reads it. -/
structure Basis where
  /-- `mesh.t.T` -/
  t : Conn
  /-- `mesh.facets.T` -/
  facets : List (List ℕ)
  /-- `basis.N` -/
  nDofs : ℕ
  /-- `basis.get_dofs(nodes=…).all()` -/
  dofsAll : List ℕ → List ℕ
  /-- `basis.get_dofs(nodes=…).nodal[direction]`; an unknown direction raises `KeyError` -/
  dofsDir : List ℕ → String → Res (List ℕ)
  /-- `composer.get_elements_volume(mesh)` -/
  volumes : Res Unit

/-- An argument that is one array or a list of arrays. -/
inductive Arrays where
  | arr (l : List ℕ)
  | lst (ls : List (List ℕ))

/-- `dirichlet_dir`: a string or a list of strings. -/
inductive Dir where
  | one (s : String)
  | many (ss : List String)

/-- `dirichlet_values`: a float or a list of floats (only the shape matters here). -/
inductive Val where
  | float
  | list (n : ℕ)

/-- task_common.py:18–21 `setdiff1d(a, b)`: entries of `a` not in `b`, in the order of `a`. -/
def setdiff1d (a b : List ℕ) : List ℕ := a.filter fun e => decide (e ∉ b)

/-- `np.asarray` of a list of arrays and flattening: arrays of different lengths raise `ValueError` (numpy ≥ 1.24). -/
def stack (ls : List (List ℕ)) : Res (List ℕ) :=
  if ls.all (fun l => l.length == (ls.headD []).length) then .ok ls.flatten else .error .valueError

/-- Flatten an `Arrays` the way `np.asarray` does. -/
def Arrays.stacked : Arrays → Res (List ℕ)
  | .arr l => .ok l
  | .lst ls => stack ls

/-- `np.concatenate(list)`: an empty list raises. -/
def concatenate (ls : List (List ℕ)) : Res (List ℕ) := if ls.isEmpty then .error .valueError else .ok ls.flatten

/-- Concatenation as done for Neumann and Robin nodes (task_common.py:178–189, 195–206). -/
def Arrays.concatenated : Arrays → Res (List ℕ)
  | .arr l => .ok l
  | .lst ls => concatenate ls

/-- The result of `FEMDomain.from_nodes`; fields the theorems do not mention are left out. -/
structure Task where
  dirichletDofs : Option Arrays
  dirichletElements : Option (List ℕ)
  neumannElements : Option (List ℕ)
  robinElements : Option (List ℕ)
  design : List ℕ
  freeDofs : List ℕ
  freeElements : List ℕ
  all : List ℕ
  fixed : List ℕ
  dirichletNeumann : List ℕ

/-- task_common.py:122–139: the assertions on the Dirichlet arguments. -/
def checkDirichlet (nodes : Arrays) (dir : Option Dir) (vals : Option Val) : Res Unit :=
  match nodes with
  | .lst ls => do
    match dir, vals with
    | none, none => .error .assertionError
    | none, some (.list n) => if ls.length = n then pure () else .error .assertionError
    | none, some .float => pure ()
    | some _, _ => pure ()
    match vals, dir with
    | none, some (.many ds) => if ls.length = ds.length then pure () else .error .assertionError
    | none, _ => .error .assertionError
    | some _, _ => pure ()
  | .arr _ =>
    match dir with
    | some (.one _) => .ok ()
    | _ => .error .assertionError

/-- `basis.get_dofs(nodes=nodes)` restricted to a direction. -/
def dofsFor (b : Basis) (nodes : List ℕ) (d : String) : Res (List ℕ) :=
  if d = "all" then .ok (b.dofsAll nodes) else b.dofsDir nodes d

/-- task_common.py:144–165: the Dirichlet degrees of freedom.  A string given with a list of node arrays is iterated
character by character (`zip`). -/
def dirichletDofs (b : Basis) (nodes : Arrays) (dir : Option Dir) : Res Arrays :=
  match nodes with
  | .lst ls =>
    match dir with
    | some (.many ds) => (List.mapM (fun x : List ℕ × String => dofsFor b x.1 x.2) (ls.zip ds)).map .lst
    | some (.one s) => (List.mapM (fun x : List ℕ × String => dofsFor b x.1 x.2)
        (ls.zip (s.toList.map fun c => String.singleton c))).map .lst
    | none => .ok (.lst (ls.map b.dofsAll))
  | .arr l =>
    match dir with
    | some (.one s) => (dofsFor b l s).map .arr
    | _ => .error .assertionError

/-- task_common.py:177–189 and 194–206: the elements touching the nodes; none raises. -/
def boundaryElements (b : Basis) (nodes : Option Arrays) : Res (Option (List ℕ)) :=
  match nodes with
  | none => .ok none
  | some a => do
    let l ← a.concatenated
    let els := elementsByNodes b.t l
    if els.isEmpty then .error .valueError else .ok (some els)

/-- task_common.py:216–225: the elements taken out of the design domain.  `None` cannot be concatenated. -/
def excluded (neumann robin : Option (List ℕ)) (designRobin : Option Bool) : Res (List ℕ) :=
  let l := neumann.getD []
  if designRobin = some false then
    match robin with
    | none => .error .valueError
    | some r => .ok (l ++ r)
  else .ok l

/-- The arguments of `FEMDomain.from_nodes`. -/
structure Args where
  dirichletNodes : Option Arrays
  dirichletDir : Option Dir
  dirichletValues : Option Val
  neumannNodes : Option Arrays
  robinNodes : Option Arrays
  designRobin : Option Bool
  design : List ℕ

/-- task_common.py:122–173: degrees of freedom and elements of the Dirichlet boundary. -/
def dirichletPart (b : Basis) (a : Args) : Res (Option Arrays × Option (List ℕ)) :=
  match a.dirichletNodes with
  | none => .ok (none, none)
  | some nodes => do
    checkDirichlet nodes a.dirichletDir a.dirichletValues
    let dofs ← dirichletDofs b nodes a.dirichletDir
    let l ← nodes.stacked
    pure (some dofs, some (elementsByNodes b.t l))

/-- task_common.py:234: the argument of `np.isin`; `None` contains nothing. -/
def constrainedDofs : Option Arrays → Res (List ℕ)
  | none => .ok []
  | some dofs => dofs.stacked

/-- task_common.py:104–270 `FEMDomain.from_nodes`. -/
def fromNodes (b : Basis) (a : Args) : Res Task := do
  let d ← dirichletPart b a
  let neumann ← boundaryElements b a.neumannNodes
  let robin ← boundaryElements b a.robinNodes
  let ex ← excluded neumann robin a.designRobin
  let design := setdiff1d a.design ex
  if design.isEmpty then .error .valueError
  else do
    let all := List.range b.t.length
    let fixedDofs ← constrainedDofs d.1
    let freeDofs := setdiff1d (List.range b.nDofs) fixedDofs
    b.volumes
    pure {
      dirichletDofs := d.1
      dirichletElements := d.2
      neumannElements := neumann
      robinElements := robin
      design := design
      freeDofs := freeDofs
      freeElements := elementsByNodes b.t freeDofs
      all := all
      fixed := setdiff1d all design
      dirichletNeumann := d.2.getD [] ++ neumann.getD [] }

/-- `np.unique(facets[:, ids].ravel())`; an index outside the facets raises. -/
def facetNodes (b : Basis) (ids : List ℕ) : Res (List ℕ) :=
  if ids.all (· < b.facets.length) then .ok (unique (ids.flatMap fun i => b.facets.getD i [])) else .error .indexError

/-- The arguments of `FEMDomain.from_facets`. -/
structure FacetArgs where
  dirichletFacets : Option Arrays
  dirichletDir : Option Dir
  dirichletValues : Option Val
  neumannFacets : Option Arrays
  robinFacets : Option Arrays
  designRobin : Option Bool
  design : List ℕ

/-- task_common.py:291–305: nodes of the Dirichlet facets, region by region. -/
def dirichletFacetNodes (b : Basis) : Arrays → Res Arrays
  | .arr ids => (facetNodes b ids).map .arr
  | .lst ids => (List.mapM (facetNodes b) ids).map .lst

/-- task_common.py:291–292: no Dirichlet facets, no nodes. -/
def optionalDirichlet (b : Basis) : Option Arrays → Res (Option Arrays)
  | none => .ok none
  | some f => (dirichletFacetNodes b f).map some

/-- task_common.py:307–312, 319–324: nodes of the Neumann or Robin facets, all regions together. -/
def mergedFacetNodes (b : Basis) (ids : Option Arrays) : Res (Option Arrays) :=
  match ids with
  | none => .ok none
  | some a => do
    let l ← a.concatenated
    let n ← facetNodes b l
    pure (some (.arr n))

/-- task_common.py:273–350 `FEMDomain.from_facets`. -/
def fromFacets (b : Basis) (a : FacetArgs) : Res Task := do
  let dn ← optionalDirichlet b a.dirichletFacets
  let nn ← mergedFacetNodes b a.neumannFacets
  let rn ← mergedFacetNodes b a.robinFacets
  fromNodes b {
    dirichletNodes := dn, dirichletDir := a.dirichletDir, dirichletValues := a.dirichletValues
    neumannNodes := nn, robinNodes := rn
    designRobin := if a.robinFacets.isNone then none else a.designRobin
    design := a.design }

/-- task_common.py:398–401 `exlude_dirichlet_from_design`, called by the optimizer's constructor when
`cfg.design_dirichlet is False` (common_density.py:546–547).  `np.isin(a, None)` is nowhere true. -/
def Task.excludeDirichlet (T : Task) : Task :=
  { T with design := setdiff1d T.design (T.dirichletElements.getD []) }

/-- common_density.py:546–547, the optimizer's constructor acting on the task. -/
def Task.construct (T : Task) (designDirichlet : Bool) : Task :=
  if designDirichlet then T else T.excludeDirichlet

/-- common_density.py:740–743: the elements whose density is reset to 1. -/
def Task.pinned (T : Task) (designDirichlet : Bool) : Option (List ℕ) :=
  if designDirichlet then T.neumannElements else some T.dirichletNeumann

end Verif.Task
