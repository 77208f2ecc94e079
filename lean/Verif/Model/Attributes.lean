import Verif.Model.Load

/-!
The attributes of an elasticity task under their public names: `/repo/scikit-topt/sktopt/mesh/task_elastic.py:107–150, 261–263`
(`LinearElasticity`) and `/repo/scikit-topt/sktopt/mesh/task_common.py:92–98` (`FEMDomain.design_mask`).

A Python value is an element of an arbitrary type `V` (the methods below never look into it), except for `neumann_linear`, which is a
`Loads` (Model/Load.lean). The dataclass fields that no property touches are left out.
-/
namespace Verif.Attributes
open Verif.Load

/-- The dataclass fields behind the properties (task_common.py:64–90, task_elastic.py:102–105). -/
structure Fields (V : Type) (n : ℕ) where
  neumannNodes : V
  neumannElements : V
  dirichletNeumannElements : V
  neumannLinear : Loads n

/-- The properties with a setter, except `force`. -/
inductive Alias where
  | forceElements
  | forceNodes
  | dirichletForceElements

variable {V : Type} {n : ℕ}

/-- Reading a property: task_elastic.py:126–128 (`force_elements`), 134–136 (`force_nodes`), 142–144 (`dirichlet_force_elements`). -/
def get (o : Fields V n) : Alias → V
  | .forceElements => o.neumannElements
  | .forceNodes => o.neumannElements
  | .dirichletForceElements => o.dirichletNeumannElements

/-- Assigning a property: task_elastic.py:130–132 (`force_elements`), 138–140 (`force_nodes`), 146–148
(`dirichlet_force_elements`). -/
def set (o : Fields V n) (a : Alias) (v : V) : Fields V n :=
  match a with
  | .forceElements => { o with neumannElements := v }
  | .forceNodes => { o with neumannNodes := v }
  | .dirichletForceElements => { o with dirichletNeumannElements := v }

/-- Attribute access by name (task_common.py:64–90: the names of the dataclass fields that start with `neumann` or `dirichlet_neumann`,
with values in `V`; everything else that a task has is called differently). -/
def attr (o : Fields V n) (name : String) : Res V :=
  if name = "neumann_nodes" then .ok o.neumannNodes
  else if name = "neumann_elements" then .ok o.neumannElements
  else if name = "dirichlet_neumann_elements" then .ok o.dirichletNeumannElements
  else .error .attributeError

/-- task_elastic.py:261–263 `force_elements_all`. -/
def forceElementsAll (o : Fields V n) : Res V := attr o "neumann_elements_all"

/-- What reading `force` gives: a list of vectors, one vector, or (from a bare array of length one) a number. -/
inductive Force (n : ℕ) where
  | list (ls : List (Fin n → ℝ))
  | vector (v : Fin n → ℝ)
  | number (x : ℝ)

/-- task_elastic.py:116–120, reading `force`: `neumann_linear[0]` if `len(neumann_linear) == 1`, else `neumann_linear` itself. -/
def force (o : Fields V n) : Force n :=
  match o.neumannLinear with
  | .list [v] => .vector v
  | .list ls => .list ls
  | .bare v => if h : n = 1 then .number (v ⟨0, by omega⟩) else .vector v

/-- task_elastic.py:122–124, assigning a list or a vector to `force`. -/
def setForce (o : Fields V n) (f : Loads n) : Fields V n := { o with neumannLinear := f }

/-- task_elastic.py:112–114 `n_tasks`. -/
def nTasks (o : Fields V n) : ℕ :=
  match o.neumannLinear with
  | .list ls => ls.length
  | .bare _ => n

/-- solver_elastic.py:651–654: the load vectors that are solved for. -/
def solved (o : Fields V n) : List (Fin n → ℝ) :=
  match o.neumannLinear with
  | .list ls => ls
  | .bare v => [v]

/-- task_common.py:96–98 `design_mask`: `np.isin(all_elements, design_elements)`. -/
def designMask (all design : List ℕ) : List Bool := all.map fun e => decide (e ∈ design)

/-- spacial.py:64 `np.nonzero(design_mask)[0]`: the positions of the true entries, in increasing order. -/
def nonzero (mask : List Bool) : List ℕ := (List.range mask.length).filter fun i => mask.getD i false

end Verif.Attributes
