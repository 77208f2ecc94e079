import Verif.Model.Task
import Verif.Model.Snapshot
import Mathlib.Data.Real.Basic
import Mathlib.Algebra.BigOperators.Fin

/-!
Load vectors, mesh tags and scaling:
`/repo/scikit-topt/sktopt/mesh/task_elastic.py` lines 15–80, 104–124, 268–318,
`/repo/scikit-topt/sktopt/mesh/task_heat.py` lines 250–320 and
`/repo/scikit-topt/sktopt/mesh/task_common.py` lines 403–422.
-/
namespace Verif.Load
open Verif.Task Verif.Snapshot

/-! ### Surface forces -/

/-- What `assemble_surface_forces` asks the finite element library for. -/
structure Facets (ι : Type) where
  /-- number of displacement components -/
  dim : ℕ
  /-- `asm(l_one, FacetBasis(facets))`: area of a set of facets -/
  area : List ℕ → ℝ
  /-- `asm(v ↦ v[comp], FacetBasis(facets))`: load vector of a unit traction in one component -/
  unit : List ℕ → ℕ → ι → ℝ

/-- task_elastic.py:24–33 `_dir_to_comp`. -/
def dirToComp (s : Name) : Res ℕ :=
  match s with
  | 'u' :: '^' :: ds =>
    if ds ≠ [] ∧ ds.all Char.isDigit then
      let n := Nat.ofDigitChars 10 ds 0
      if n = 0 then .error .valueError else .ok (n - 1)
    else .error .valueError
  | _ => .error .valueError

/-- task_elastic.py:52–67, one region: traction `val / A` in one component.  (Simplification: a region of area zero gives
`inf`/`nan` in numpy, here `val / 0 = 0`.) -/
noncomputable def regionForce {ι : Type} (F : Facets ι) (facets : List ℕ) (dir : Name) (val : ℝ) : Res (ι → ℝ) := do
  let comp ← dirToComp dir
  if comp < F.dim then .ok fun i => val / F.area facets * F.unit facets comp i
  else .error .indexError

/-- task_elastic.py:52–80, the loop over the regions. -/
noncomputable def regionForces {ι : Type} (F : Facets ι) : List (List ℕ) → List Name → List ℝ → Res (List (ι → ℝ))
  | f :: fs, d :: ds, v :: vs => do
    let x ← regionForce F f d v
    let xs ← regionForces F fs ds vs
    pure (x :: xs)
  | _, _, _ => .ok []

/-- task_elastic.py:15–80 `assemble_surface_forces`, after turning scalars into lists, together with 221–229: the list of
load vectors.  (Not modelled: no region at all.) -/
noncomputable def assembleForces {ι : Type} (F : Facets ι) (facets : List (List ℕ)) (dirs : List Name) (vals : List ℝ) :
    Res (List (ι → ℝ)) :=
  if facets.length = dirs.length ∧ dirs.length = vals.length then regionForces F facets dirs vals
  else .error .valueError

/-! ### Boundary tags -/

/-- `re.match(prefix + r"\d+$", k)` and `int(re.search(r"\d+$", k).group())`, for a prefix that ends in a non-digit.
(Simplification: ASCII digits, no trailing newline.) -/
def tagNumber (pre : Name) (k : Name) : Option ℕ :=
  if pre <+: k ∧ k.drop pre.length ≠ [] ∧ (k.drop pre.length).all Char.isDigit then
    some (Nat.ofDigitChars 10 (k.drop pre.length) 0)
  else none

/-- task_elastic.py:283–290: the facets of all numbered tags, sorted by number. -/
def numbered (pre : Name) (bs : List (Name × List ℕ)) : List (List ℕ) :=
  ((bs.filterMap fun b => (tagNumber pre b.1).map fun n => (n, b.2)).insertionSort fun x y => x.1 ≤ y.1).map Prod.snd

/-- "dirichlete_" — the prefix in task_elastic.py:284. -/
def elasticPrefix : Name := ['d', 'i', 'r', 'i', 'c', 'h', 'l', 'e', 't', 'e', '_']
/-- "dirichlet" -/
def dirichletName : Name := ['d', 'i', 'r', 'i', 'c', 'h', 'l', 'e', 't']
/-- "neumann" -/
def neumannName : Name := ['n', 'e', 'u', 'm', 'a', 'n', 'n']
/-- "robin" -/
def robinName : Name := ['r', 'o', 'b', 'i', 'n']

/-- task_elastic.py:283–294: Dirichlet facets of an elasticity task.  `none` is the empty float array, which cannot index the
facets. -/
def elasticDirichlet (bs : List (Name × List ℕ)) : Option Arrays :=
  if numbered elasticPrefix bs ≠ [] then some (.lst (numbered elasticPrefix bs))
  else (bs.find? fun b => b.1 = dirichletName).map fun b => .arr b.2

/-- task_elastic.py:296–307: Neumann facets of an elasticity task; `none` as above. -/
def elasticNeumann (bs : List (Name × List ℕ)) : Option Arrays :=
  if numbered (neumannName ++ ['_']) bs ≠ [] then some (.lst (numbered (neumannName ++ ['_']) bs))
  else (bs.find? fun b => b.1 = neumannName).map fun b => .lst [b.2]

/-- task_heat.py:266–281 and 283–296: Dirichlet or Robin facets of a heat task; `none` is `None`. -/
def heatTag (name : Name) (bs : List (Name × List ℕ)) : Option Arrays :=
  if numbered (name ++ ['_']) bs ≠ [] then some (.lst (numbered (name ++ ['_']) bs))
  else (bs.find? fun b => b.1 = name).map fun b => .arr b.2

/-- task_elastic.py:268–318 `LinearElasticity.from_mesh_tags` up to the common task (the load vectors are `assembleForces`). -/
def elasticFromTags (b : Basis) (bs : List (Name × List ℕ)) (dir : Dir) (design : List ℕ) : Res Task :=
  match elasticDirichlet bs, elasticNeumann bs with
  | some d, some n => fromFacets b {
      dirichletFacets := some d, dirichletDir := some dir, dirichletValues := none, neumannFacets := some n
      robinFacets := none, designRobin := none, design := design }
  | _, _ => .error .indexError

/-- task_heat.py:250–320 `LinearHeatConduction.from_mesh_tags` up to the common task. -/
def heatFromTags (b : Basis) (bs : List (Name × List ℕ)) (vals : Val) (designRobin : Option Bool) (design : List ℕ) :
    Res Task :=
  fromFacets b {
    dirichletFacets := heatTag dirichletName bs, dirichletDir := none, dirichletValues := some vals
    neumannFacets := none, robinFacets := heatTag robinName bs, designRobin := designRobin, design := design }

/-! ### Scaling -/

/-- `task.neumann_linear`: a list of vectors or, after scaling a single load, one bare array. -/
inductive Loads (n : ℕ) where
  | list (ls : List (Fin n → ℝ))
  | bare (v : Fin n → ℝ)

/-- The part of an elasticity task that `scale` acts on; `n` is the number of degrees of freedom. -/
structure Scaled (n : ℕ) where
  /-- `mesh.p` -/
  coords : ℕ → Fin 3 → ℝ
  loads : Loads n
  /-- `elements_volume` -/
  volumes : List ℝ

/-- task_elastic.py:112–114 `n_tasks`. -/
def Scaled.nTasks {n : ℕ} (s : Scaled n) : ℕ :=
  match s.loads with
  | .list ls => ls.length
  | .bare _ => n

/-- task_common.py:403–422 `scale` with the property `force` of task_elastic.py:116–124.  Reading `force` gives the only
entry of a list of length one; assigning it replaces the list.  A bare array of length one reads as a scalar, which is
rejected. -/
noncomputable def Scaled.scale {n : ℕ} (s : Scaled n) (L F : ℝ) : Res (Scaled n) :=
  let p := fun i j => s.coords i j * L
  match s.loads with
  | .list [v] => .ok { s with coords := p, loads := .bare fun i => v i * F }
  | .list ls => .ok { s with coords := p, loads := .list (ls.map fun v i => v i * F) }
  | .bare v => if n = 1 then .error .valueError else .ok { s with coords := p, loads := .bare fun i => v i * F }

/-- common_density.py:626–636 `DensityMethod.scale` for bounding box size `Lmax`, and 638–641 `unscale`. -/
noncomputable def Scaled.optimizerScale {n : ℕ} (s : Scaled n) (Lmax : ℝ) : Res (Scaled n) :=
  s.scale (1 / Lmax) (1 / 10 ^ 5)

/-- common_density.py:638–641 `unscale`. -/
noncomputable def Scaled.optimizerUnscale {n : ℕ} (s : Scaled n) (Lmax : ℝ) : Res (Scaled n) := s.scale Lmax (10 ^ 5)

/-- solver_elastic.py:651–654: the load vectors the solver uses. -/
def Scaled.forceList {n : ℕ} (s : Scaled n) : List (Fin n → ℝ) :=
  match s.loads with
  | .list ls => ls
  | .bare v => [v]

/-- common_density.py:1073–1101: the sum of the per-task sensitivities, divided by `n_tasks`. -/
noncomputable def averaged (nTasks : ℕ) (sens : ℕ → ℝ) : ℝ := (∑ j : Fin nTasks, sens j) / nTasks

end Verif.Load
