import Verif.Model.Solver

/-!
Model of how `/repo/scikit-topt/sktopt/fea/solver_petsc.py` lines 128–237 drives the PETSc library.

The library itself is a parameter (`Lib`): what its option database contains, which optional methods its Python objects have, what its
defaults are and what its solver returns for given settings. Assumptions on it (PETSc manual): `setFromOptions` replaces a setting exactly
when the option database has an entry for it under the solver's prefix; a factorization package can be chosen only for preconditioners that
factorize (the call is ignored for others, and choosing a new preconditioner type forgets the package); a solve depends on the settings, the
matrix and the right-hand side only (every solve starts from a new zero vector, line 182). `_create_mat` (lines 140–149) copies the matrix
and is the identity here.
-/
namespace Verif.Petsc
open Verif Verif.Solver

variable {R K V : Type}

/-- The settings of a `PETSc.KSP` object: prefix of its option names, Krylov method, preconditioner, factorization package, relative tolerance
and iteration limit (the attributes that solver_petsc.py lines 159–177 set). -/
structure Ksp (R K : Type) where
  op : K
  pfx : Option String
  ksp : String
  pc : String
  factor : Option String
  rtol : R
  maxIt : Nat

/-- Entries of the option database under one prefix (`-ksp_type`, `-pc_type`, `-pc_factor_mat_solver_type`, `-ksp_rtol`, `-ksp_max_it`);
read by `setFromOptions` (solver_petsc.py line 176). -/
structure Entries (R : Type) where
  ksp : Option String := none
  pc : Option String := none
  factor : Option String := none
  rtol : Option R := none
  maxIt : Option Nat := none

/-- The library, as seen from solver_petsc.py lines 128–185. -/
structure Lib (R K V : Type) where
  /-- whether `from petsc4py import PETSc` succeeds (line 130) -/
  available : Bool
  /-- the option database, by prefix -/
  db : Option String → Entries R
  /-- `hasattr(ksp, "setOptionsPrefix")` (line 161) -/
  hasPrefix : Bool
  /-- `hasattr(pc, "setFactorSolverType")` (line 168) -/
  hasFactor : Bool
  /-- whether a preconditioner type factorizes -/
  factorizes : String → Bool
  /-- a newly created solver's settings -/
  fresh : K → Ksp R K
  /-- `ksp.solve(b, x)`, then `x` and `ksp.getConvergedReason()` (lines 183–184) -/
  solve : Ksp R K → V → Res (V × Int)

/-- `pc.setType(t)` (solver_petsc.py line 165). -/
def Ksp.setPcType (s : Ksp R K) (t : String) : Ksp R K :=
  if t = s.pc then s else { s with pc := t, factor := none }

/-- `pc.setFactorSolverType(t)` (solver_petsc.py line 170). -/
def Ksp.setFactorType (L : Lib R K V) (s : Ksp R K) (t : String) : Ksp R K :=
  if L.factorizes s.pc then { s with factor := some t } else s

/-- `ksp.setTolerances(rtol=rtol)` or `ksp.setTolerances(rtol=rtol, max_it=maxiter)` (solver_petsc.py lines 171–174). -/
def Ksp.setTolerances (s : Ksp R K) (rtol : R) (maxIt : Option Nat) : Ksp R K :=
  { s with rtol := rtol, maxIt := maxIt.getD s.maxIt }

/-- `ksp.setFromOptions()` (solver_petsc.py line 176). -/
def Ksp.setFromOptions (L : Lib R K V) (s : Ksp R K) : Ksp R K :=
  let e := L.db s.pfx
  let s := { s with ksp := e.ksp.getD s.ksp }
  let s := match e.pc with
    | some t => s.setPcType t
    | none => s
  let s := match e.factor with
    | some t => s.setFactorType L t
    | none => s
  { s with rtol := e.rtol.getD s.rtol, maxIt := e.maxIt.getD s.maxIt }

/-- `_create_ksp` (solver_petsc.py lines 152–177), statement by statement. -/
def createKsp (L : Lib R K V) (A : K) (rtol : R) (maxiter : Option Nat) (o : Opts) : Ksp R K :=
  let s := L.fresh A                                                                -- 159–160
  let s := match o.pfx with                                                         -- 161–162
    | some p => if L.hasPrefix then { s with pfx := some p } else s
    | none => s
  let s := { s with ksp := o.ksp }                                                  -- 163
  let s := s.setPcType o.pc                                                         -- 164–165
  let s := match o.factor with                                                      -- 166–170
    | some t => if L.hasFactor then s.setFactorType L t else s
    | none => s
  let s := s.setTolerances rtol maxiter                                             -- 171–174
  if o.useSet then s.setFromOptions L else s                                        -- 175–176

/-- `solve_u_petsc` (solver_petsc.py lines 188–201; `_import_petsc` 128–137, `_solve_with_ksp` 180–185). -/
def solveOne (L : Lib R K V) (A : K) (f : V) (rtol : R) (maxiter : Option Nat) (i : Input) : Res (V × Int) :=
  if ¬ L.available then .error .runtimeError
  else L.solve (createKsp L A rtol maxiter (normalizeOpts i false)) f

/-- The loop over the columns (solver_petsc.py lines 229–235): the solutions and infos found so far, then the rest. -/
def solveColumns (L : Lib R K V) (s : Ksp R K) : List V → List V × List Int → Res (List V × List Int)
  | [], acc => .ok acc
  | f :: fs, acc => do
    let (u, info) ← L.solve s f
    solveColumns L s fs (acc.1 ++ [u], acc.2 ++ [info])

/-- The right-hand sides `solve_u_petsc_multi` can be given: one vector or the columns of a matrix (solver_petsc.py line 214). -/
inductive Rhs (V : Type) where
  | vector (f : V)
  | columns (fs : List V)

/-- `solve_u_petsc_multi` (solver_petsc.py lines 204–237). -/
def solveMany (L : Lib R K V) (A : K) (rhs : Rhs V) (rtol : R) (maxiter : Option Nat) (i : Input) : Res (List V × List Int) :=
  if ¬ L.available then .error .runtimeError                                         -- 211
  else
    let o := normalizeOpts i false                                                   -- 213
    match rhs with
    | .vector f => (solveOne L A f rtol maxiter (.obj o)).map fun r => ([r.1], [r.2]) -- 214–222
    | .columns fs => solveColumns L (createKsp L A rtol maxiter o) fs ([], [])         -- 224–237

/-- The PETSc part of the numerical libraries `solve_u` and `solve_multi_load` use (solver_elastic.py lines 112–118, 121–130, 375–382), with
the rest as in `B`. -/
def backend (B : Backend R K V) (L : Lib R K V) : Backend R K V :=
  { B with
    petsc := fun rtol m o A f => solveOne L A f rtol m (.obj o)
    petscMulti := fun rtol m o A fs => solveMany L A (.columns fs) rtol m (.obj o) }

end Verif.Petsc
