import Verif.Model.Elastic
import Verif.Model.Heat

/-!
The public analysis functions with their arguments: `/repo/scikit-topt/sktopt/fea/solver_elastic.py` lines 34–467, the compatibility module
`/repo/scikit-topt/sktopt/fea/solver.py`, and the two direct heat solvers `/repo/scikit-topt/sktopt/fea/solver_heat.py` lines 27–133.

The numerical libraries are an arbitrary `Solver.Backend`, floats are real numbers. Not modelled: timers, arrays `u_all` whose number of
columns is not the number of load cases (elasticity).
-/
namespace Verif.Entry

open Matrix Elastic Solver

variable {ι E Q : Type} [Fintype ι] [Fintype E] [Fintype Q] {d : ℕ}

/-- A `solver` argument: a name or a `LinearSolverConfig`. -/
inductive Choice where
  | name (s : String)
  | config (c : Cfg ℝ)

/-- `normalize_linear_solver_config` (solver_elastic.py lines 43–58). -/
def normalize (s : Choice) (rtol : ℝ) (maxiter : Option ℕ) (petsc : Input) (fallback : Bool) : Cfg ℝ :=
  match s with
  | .config c => c
  | .name n =>
    { solver := n
      rtol := rtol
      maxiter := maxiter
      petsc := petsc
      allowFallback := fallback }

/-- `_normalize_solver_arg` (solver.py lines 18–30). A `LinearSolverConfig` never equals the string `"auto"`, but it is returned before the
comparison. -/
def compatNormalize (s : Choice) (rtol : ℝ) (maxiter : Option ℕ) : Cfg ℝ :=
  match s with
  | .config c => c
  | .name n =>
    { solver := n
      rtol := rtol
      maxiter := maxiter
      petsc := .none
      allowFallback := decide (n = "auto") }

/-- The positional arguments of the elasticity functions, except the load(s): `basis`, `dirichlet_dofs`, `E0`, `Emin`, `p`, `nu0`, `rho`
(`free_dofs` is recomputed by the code, solver_elastic.py line 207), and the keyword argument `elem_func`. -/
structure Problem (ι E Q : Type) (d : ℕ) where
  fe : Elastic.FE ι E Q d
  dirichlet : Finset ι
  E0 : ℝ
  Emin : ℝ
  p : ℝ
  nu0 : ℝ
  rho : E → ℝ
  elemFunc : ℝ → ℝ → ℝ → ℝ → ℝ := Material.simp

/-- The keyword arguments selecting the solver: `solver_config`, `solver`, `rtol`, `maxiter`, `petsc_options`, with the defaults of
solver_elastic.py lines 151–155, 247–252, 405–410. -/
structure Args where
  config : Option (Cfg ℝ) := none
  solver : Choice := .name "auto"
  rtol : ℝ := 1 / 10 ^ 5
  maxiter : Option ℕ := none
  petsc : Input := .none

/-- `solver_cfg` (solver_elastic.py lines 184–189, 311–316, 427–432). -/
def Args.cfg (a : Args) : Cfg ℝ := a.config.getD (normalize a.solver a.rtol a.maxiter a.petsc false)

noncomputable section

/-- The assembled stiffness matrix (solver_elastic.py lines 178–181, 351–354). -/
def Problem.matrix (P : Problem ι E Q d) : Matrix ι ι ℝ :=
  stiffness P.fe (fun e => P.elemFunc (P.rho e) P.E0 P.Emin P.p) P.nu0

/-- `solver_elastic.compute_compliance_basis` (lines 146–237). -/
def complianceBasis (B : Backend ℝ (Matrix ι ι ℝ) (ι → ℝ)) (P : Problem ι E Q d) (f : ι → ℝ) (a : Args) : Res (ℝ × (ι → ℝ)) :=
  computeSingle B a.cfg P.matrix P.dirichlet f

/-- What `solver_elastic.solve_multi_load` returns: the compliances (line 329), or the stacked load vectors (line 395). -/
inductive Returned (ι : Type) where
  | compliances (cs : List ℝ)
  | loads (F : List (ι → ℝ))

/-- `solver_elastic.solve_multi_load` (lines 240–395): the returned value and the columns written to `u_all`. -/
def solveMultiLoad (B : Backend ℝ (Matrix ι ι ℝ) (ι → ℝ)) (P : Problem ι E Q d) (fs : List (ι → ℝ)) (a : Args) :
    Res (Returned ι × List (ι → ℝ)) :=
  match fs with
  | [f] => (complianceBasis B P f { config := some a.cfg }).map fun r => (.compliances [r.1], [r.2])
  | _ => (solveMulti B a.cfg (Fintype.card ι) (enforceK P.matrix P.dirichlet) (fs.map fun f => enforceF f P.dirichlet)).map fun us =>
      (.loads (fs.map fun f => enforceF f P.dirichlet), us)

/-- `solver_elastic.compute_compliance_basis_multi_load` (lines 398–467). For several load cases it calls `solve_multi_load`, which then
returns the stacked load vectors. -/
def complianceBasisMulti (B : Backend ℝ (Matrix ι ι ℝ) (ι → ℝ)) (P : Problem ι E Q d) (fs : List (ι → ℝ)) (a : Args) :
    Res (List ℝ × List (ι → ℝ)) :=
  match fs with
  | [f] => (complianceBasis B P f { config := some a.cfg }).map fun r => ([r.1], [r.2])
  | _ => do
    let (r, us) ← solveMultiLoad B P fs { config := some a.cfg }
    match r with
    | .compliances cs => pure (cs, us)
    | .loads F => pure (List.zipWith (fun f u => ∑ i, f i * u i) F us, us)

/-- Calling a Python function with keyword arguments `given`: an unexpected one is a `TypeError`. -/
def keywords (parameters given : List String) : Res Unit :=
  if ∀ g ∈ given, g ∈ parameters then .ok () else .error .typeError

/-- The parameters of `solver_elastic.compute_compliance_basis` (lines 146–157). -/
def singleParameters : List String :=
  ["basis", "free_dofs", "dirichlet_dofs", "force", "E0", "Emin", "p", "nu0", "rho", "elem_func", "solver_config", "solver", "rtol",
    "maxiter", "petsc_options", "timer"]

/-- The parameters of `solver_elastic.solve_multi_load` and `compute_compliance_basis_multi_load` (lines 240–254, 398–412). -/
def multiParameters : List String :=
  ["basis", "free_dofs", "dirichlet_dofs", "force_list", "E0", "Emin", "p", "nu0", "rho", "u_all", "solver", "solver_config", "elem_func",
    "rtol", "maxiter", "petsc_options", "timer"]

/-- `solver.solve_u` (solver.py lines 58–69; its defaults are `"auto"`, `1e-8`, `None`): the call of `solver_elastic.solve_u` (lines 61–143)
with the normalised configuration. -/
def compatSolveU (B : Backend ℝ (Matrix ι ι ℝ) (ι → ℝ)) (K : Matrix ι ι ℝ) (F : ι → ℝ) (s : Choice := .name "auto")
    (rtol : ℝ := 1 / 10 ^ 8) (maxiter : Option ℕ := none) : Res (ι → ℝ) :=
  solveU B (normalize (.config (compatNormalize s rtol maxiter)) (1 / 10 ^ 8) none .none false) K F

/-- `solver.compute_compliance_basis` (solver.py lines 72–101). -/
def compatSingle (B : Backend ℝ (Matrix ι ι ℝ) (ι → ℝ)) (P : Problem ι E Q d) (f : ι → ℝ) (s : Choice := .name "auto")
    (rtol : ℝ := 1 / 10 ^ 5) (maxiter : Option ℕ := none) : Res (ℝ × (ι → ℝ)) := do
  keywords singleParameters ["elem_func", "solver", "rtol", "maxiter"]
  complianceBasis B P f
    { solver := s
      rtol := rtol
      maxiter := maxiter }

/-- `solver.compute_compliance_basis_numba` (solver.py lines 104–133). -/
def compatNumba (B : Backend ℝ (Matrix ι ι ℝ) (ι → ℝ)) (P : Problem ι E Q d) (f : ι → ℝ) (s : Choice := .name "auto")
    (rtol : ℝ := 1 / 10 ^ 5) (maxiter : Option ℕ := none) : Res (ℝ × (ι → ℝ)) :=
  compatSingle B P f s rtol maxiter

/-- `solver.compute_compliance_simp_basis` (solver.py lines 33–55). -/
def compatSimp (B : Backend ℝ (Matrix ι ι ℝ) (ι → ℝ)) (P : Problem ι E Q d) (f : ι → ℝ) : Res (ℝ × (ι → ℝ)) := do
  keywords singleParameters ["elem_func"]
  complianceBasis B { P with elemFunc := Material.simp } f {}

/-- `solver.solve_multi_load` (solver.py lines 136–169). `n_joblib` is passed on. -/
def compatMultiLoad (B : Backend ℝ (Matrix ι ι ℝ) (ι → ℝ)) (P : Problem ι E Q d) (fs : List (ι → ℝ)) (s : Choice := .name "auto")
    (rtol : ℝ := 1 / 10 ^ 5) (maxiter : Option ℕ := none) : Res (Returned ι × List (ι → ℝ)) := do
  keywords multiParameters ["solver", "elem_func", "rtol", "maxiter", "n_joblib"]
  solveMultiLoad B P fs
    { solver := s
      rtol := rtol
      maxiter := maxiter }

/-- `solver.compute_compliance_basis_multi_load` (solver.py lines 172–205). `n_joblib` is passed on. -/
def compatMulti (B : Backend ℝ (Matrix ι ι ℝ) (ι → ℝ)) (P : Problem ι E Q d) (fs : List (ι → ℝ)) (s : Choice := .name "auto")
    (rtol : ℝ := 1 / 10 ^ 5) (maxiter : Option ℕ := none) : Res (List ℝ × List (ι → ℝ)) := do
  keywords multiParameters ["solver", "elem_func", "rtol", "maxiter", "n_joblib"]
  complianceBasisMulti B P fs
    { solver := s
      rtol := rtol
      maxiter := maxiter }

/-! ### The direct heat solvers -/

/-- One pass of the loop of `solve_scipy_heat_multi_enforce` (solver_heat.py lines 43–54): the column of load case `i`. -/
def heatColumn (B : Backend ℝ (Matrix ι ι ℝ) (ι → ℝ)) (K : Matrix ι ι ℝ) (emit : ι → ℝ) (Ds : List (Finset ι)) (i : ℕ) (v : ℝ) :
    Res (ι → ℝ) :=
  match Ds[i]? with
  | none => .error .indexError
  | some D => do
    let us ← B.splu (enforceK K D) [Heat.enforceRhs emit D v]
    match us with
    | [u] => pure u
    | _ => .error .valueError

/-- `solve_scipy_heat_multi_enforce` (solver_heat.py lines 27–54) with an array `u_all` of `m` columns: the columns it writes. -/
def heatEnforce (B : Backend ℝ (Matrix ι ι ℝ) (ι → ℝ)) (K : Matrix ι ι ℝ) (emit : ι → ℝ) (Ds : List (Finset ι)) (vals : List ℝ) (m : ℕ) :
    Res (List (ι → ℝ)) :=
  if m ≠ vals.length then .error .assertionError
  else (vals.zipIdx).mapM fun x => heatColumn B K emit Ds x.2 x.1

/-- `solve_scipy` of solver_heat.py (lines 57–133) with an array `u_all` of `m` columns: the columns it writes. Without load cases it
returns at once; without a Dirichlet set it fails at `dirichlet_dofs_list[0]`. -/
def heatShared (B : Backend ℝ (Matrix ι ι ℝ) (ι → ℝ)) (K : Matrix ι ι ℝ) (emit : ι → ℝ) (Ds : List (Finset ι)) (vals : List ℝ) (m : ℕ) :
    Res (List (ι → ℝ)) :=
  if vals.length = 0 then .ok []
  else match Ds with
    | [] => .error .indexError
    | D0 :: _ => B.splu (enforceK K D0) (List.zipWith (fun D v => Heat.enforceRhs emit D v) Ds vals) >>= Heat.broadcast m

end
end Verif.Entry
