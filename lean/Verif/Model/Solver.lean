import Verif.Model.Py

/-!
Linear solver selection and PETSc options: `/repo/scikit-topt/sktopt/fea/solver_elastic.py` lines 34–467,
`/repo/scikit-topt/sktopt/fea/solver_petsc.py` lines 11–125, `/repo/scikit-topt/sktopt/fea/_petsc_compat.py` and the solver part of
`DensityMethodConfig.__post_init__` (`core/optimizers/common_density.py` lines 270–311).

The numerical back ends (SciPy, PyAMG, PETSc) are an arbitrary `Backend`: each call either raises or returns a vector, together with
the integer status the library reports. Matrices and vectors are arbitrary types.
-/
namespace Verif.Solver

/-! ### PETSc options -/

/-- `PETScOptions` (solver_petsc.py lines 11–17). -/
structure Opts where
  ksp : String := "cg"
  pc : String := "gamg"
  factor : Option String := none
  pfx : Option String := none
  useSet : Bool := true
  deriving DecidableEq, Repr

/-- `direct_petsc_options()` (solver_petsc.py lines 20–29, called without arguments everywhere). -/
def directOpts : Opts := { ksp := "preonly", pc := "lu" }

/-- A value stored in an options dictionary. Simplification: only strings, Booleans and `None`. -/
inductive Val where
  | str (s : String)
  | bool (b : Bool)
  | none
  deriving DecidableEq, Repr

/-- `str(v)`. -/
def Val.toStr : Val → String
  | .str s => s
  | .bool true => "True"
  | .bool false => "False"
  | .none => "None"

/-- `bool(v)`. -/
def Val.truthy : Val → Bool
  | .str s => s ≠ ""
  | .bool b => b
  | .none => false

/-- `None if v is None else str(v)`, where a missing key also reads as `None` (`dict.get`). -/
def optStr : Option Val → Option String
  | .none => .none
  | .some .none => .none
  | .some v => .some v.toStr

/-- An options dictionary: the values of the five keys the code reads (other keys are ignored by the code). -/
structure Dict where
  ksp : Option Val := .none
  pc : Option Val := .none
  factor : Option Val := .none
  pfx : Option Val := .none
  useSet : Option Val := .none
  deriving DecidableEq, Repr

/-- What a user may pass as `petsc_options`. -/
inductive Input where
  | obj (o : Opts)
  | dict (d : Dict)
  | none
  deriving DecidableEq, Repr

/-- The dictionary branch of `normalize_petsc_options` (solver_petsc.py lines 80–99) for the base options `base`. -/
def dictOpts (base : Opts) (d : Dict) : Opts where
  ksp := (d.ksp.map Val.toStr).getD base.ksp
  pc := (d.pc.map Val.toStr).getD base.pc
  factor := optStr d.factor
  pfx := optStr d.pfx
  useSet := (d.useSet.map Val.truthy).getD base.useSet

/-- `normalize_petsc_options` (solver_petsc.py lines 74–100; identical in _petsc_compat.py lines 32–62). -/
def normalizeOpts (i : Input) (direct : Bool) : Opts :=
  match i with
  | .obj o => o
  | .dict d => dictOpts (if direct then directOpts else {}) d
  | .none => if direct then directOpts else {}

/-- The object branch of `merge_petsc_options` (solver_petsc.py lines 57–71). -/
def mergeObj (base o : Opts) : Opts where
  ksp := o.ksp
  pc := o.pc
  factor := o.factor.orElse fun _ => base.factor
  pfx := o.pfx.orElse fun _ => base.pfx
  useSet := o.useSet

/-- The dictionary branch of `merge_petsc_options` (solver_petsc.py lines 38–56). -/
def mergeDict (base : Opts) (d : Dict) : Opts where
  ksp := (d.ksp.map Val.toStr).getD base.ksp
  pc := (d.pc.map Val.toStr).getD base.pc
  factor := (optStr d.factor).orElse fun _ => base.factor
  pfx := (optStr d.pfx).orElse fun _ => base.pfx
  useSet := (d.useSet.map Val.truthy).getD base.useSet

/-- `merge_petsc_options` (solver_petsc.py lines 32–71). -/
def mergeOpts (base : Opts) (i : Input) : Opts :=
  match i with
  | .none => base
  | .dict d => mergeDict base d
  | .obj o => mergeObj base o

/-- `petsc_options_for_solver` (solver_petsc.py lines 103–125). -/
def optsForSolver (solver : String) (i : Input) : Res (Option Opts) :=
  if solver ≠ "petsc_spdirect" then
    .ok (if i = .none then .none else some (normalizeOpts i false))
  else if i = .none then .ok (some directOpts)
  else if (mergeOpts directOpts i).ksp ≠ directOpts.ksp then .error .valueError
  else if (mergeOpts directOpts i).pc ≠ directOpts.pc then .error .valueError
  else .ok (some (mergeOpts directOpts (.obj (mergeOpts directOpts i))))

/-- `petsc_options_for_solver` when `sktopt.fea.solver_petsc` cannot be imported (_petsc_compat.py lines 64–72). -/
def optsForSolverMissing (solver : String) (i : Input) : Res (Option Opts) :=
  if solver ≠ "petsc" ∧ solver ≠ "petsc_spdirect" then
    .ok (if i = .none then .none else some (normalizeOpts i false))
  else .error .runtimeError

/-- The override dictionary built by `DensityMethodConfig.__post_init__` from an options object (common_density.py lines 272–293):
only fields that differ from the defaults. -/
def overrideDict (o : Opts) : Dict where
  ksp := if o.ksp ≠ ({} : Opts).ksp then some (.str o.ksp) else .none
  pc := if o.pc ≠ ({} : Opts).pc then some (.str o.pc) else .none
  factor := o.factor.map .str
  pfx := o.pfx.map .str
  useSet := if o.useSet ≠ ({} : Opts).useSet then some (.bool o.useSet) else .none

/-- `override or None` (common_density.py lines 292–294), and the non-object case (lines 295–296). -/
def overrideInput : Input → Input
  | .obj o => if overrideDict o = {} then .none else .dict (overrideDict o)
  | i => i

/-- `DensityMethodConfig.__post_init__` (common_density.py lines 270–307): the options stored in the configuration. `avail` tells
whether `sktopt.fea.solver_petsc` can be imported. -/
def configOpts (avail : Bool) (solver : String) (i : Input) : Res (Option Opts) :=
  let resolve := if avail then optsForSolver else optsForSolverMissing
  if solver = "petsc_spdirect" then resolve solver (overrideInput i)
  else if solver = "petsc" then resolve solver i
  else .ok (some (normalizeOpts i false))

/-! ### Solver dispatch -/

/-- `LinearSolverConfig` (solver_elastic.py lines 34–40). `R` is the type of floats. The options are stored as given by the user. -/
structure Cfg (R : Type) where
  solver : String
  rtol : R
  maxiter : Option Nat := .none
  petsc : Input := .none
  allowFallback : Bool := false

/-- The numerical libraries. `K` is the type of matrices, `V` of vectors, `R` of floats. The integer is the status reported by an
iterative solver. -/
structure Backend (R K V : Type) where
  /-- diagonal preconditioner and `scipy.sparse.linalg.cg` (solver_elastic.py lines 84–92) -/
  cgJacobi : R → Option Nat → K → V → Res (V × Int)
  /-- `pyamg.smoothed_aggregation_solver` and `scipy.sparse.linalg.cg` (lines 94–104) -/
  cgPyamg : R → Option Nat → K → V → Res (V × Int)
  /-- `scipy.sparse.linalg.spsolve` (line 107) -/
  spsolve : K → V → Res V
  /-- `solve_u_petsc` with the options it ends up with (line 112; solver_petsc.py lines 188–201) -/
  petsc : R → Option Nat → Opts → K → V → Res (V × Int)
  /-- `scipy.sparse.linalg.splu(K).solve(F)`, one column per load (lines 384–390) -/
  splu : K → List V → Res (List V)
  /-- `solve_u_petsc_multi` (line 375; solver_petsc.py lines 204–237) -/
  petscMulti : R → Option Nat → Opts → K → List V → Res (List V × List Int)

variable {R K V : Type}

/-- The `try` block of `solve_u` (solver_elastic.py lines 83–135). `solve_u_petsc` normalises the options it receives. -/
def dispatch (B : Backend R K V) (c : Cfg R) (k : K) (f : V) : Res V :=
  if c.solver = "cg_jacobi" then (B.cgJacobi c.rtol c.maxiter k f).map Prod.fst
  else if c.solver = "cg_pyamg" then (B.cgPyamg c.rtol c.maxiter k f).map Prod.fst
  else if c.solver = "spsolve" then B.spsolve k f
  else if c.solver = "petsc" then (B.petsc c.rtol c.maxiter (normalizeOpts c.petsc false) k f).map Prod.fst
  else if c.solver = "petsc_spdirect" then
    match optsForSolver c.solver c.petsc with
    | .error e => .error e
    | .ok .none => (B.petsc c.rtol c.maxiter {} k f).map Prod.fst
    | .ok (some o) => (B.petsc c.rtol c.maxiter o k f).map Prod.fst
  else .error .valueError

/-- `solve_u` (solver_elastic.py lines 61–143). -/
def solveU (B : Backend R K V) (c : Cfg R) (k : K) (f : V) : Res V :=
  match dispatch B c k f with
  | .ok u => .ok u
  | .error e => if c.allowFallback then B.spsolve k f else .error e

/-- The solver `compute_compliance_basis` uses on a system with `n` unknowns (solver_elastic.py lines 189–199). -/
def choose (s : String) (n : Nat) : String :=
  if s = "auto" then (if n < 1000 then "spsolve" else "cg_pyamg") else s

/-- The iteration limit used when none is configured (solver_elastic.py lines 201–204). -/
def iterLimit (m : Option Nat) (n : Nat) : Option Nat :=
  match m with
  | .none => some (min 1000 (max 300 (n / 5)))
  | some k => some k

/-- The call of `solve_u` in `compute_compliance_basis` (solver_elastic.py lines 211–223); `n` is the number of unknowns, `k`, `f` the
enforced system. -/
def solveSingle (B : Backend R K V) (c : Cfg R) (n : Nat) (k : K) (f : V) : Res V :=
  solveU B { solver := choose c.solver n, rtol := c.rtol, maxiter := iterLimit c.maxiter n, petsc := c.petsc,
             allowFallback := decide (c.solver = "auto") } k f

/-- Solution vectors of `compute_compliance_basis_multi_load` for a list of enforced load vectors
(solver_elastic.py lines 240–396, 398–467). An empty list fails at `force_list[0]` (line 361). -/
def solveMulti (B : Backend R K V) (c : Cfg R) (n : Nat) (k : K) (fs : List V) : Res (List V) :=
  match fs with
  | [f] => (solveSingle B c n k f).map fun u => [u]
  | _ =>
    if c.solver ≠ "auto" ∧ c.solver ≠ "spsolve" ∧ c.solver ≠ "petsc" ∧ c.solver ≠ "petsc_spdirect" then .error .notImplemented
    else if fs.isEmpty then .error .indexError
    else if c.solver = "petsc" ∨ c.solver = "petsc_spdirect" then
      match optsForSolver c.solver c.petsc with
      | .error e => .error e
      | .ok o => (B.petscMulti c.rtol c.maxiter (o.getD {}) k fs).map Prod.fst
    else B.splu k fs

end Verif.Solver
