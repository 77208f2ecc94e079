import Verif.Model.Helmholtz
import Verif.Model.Py
import Mathlib.Analysis.SpecialFunctions.Sqrt

/-!
The object `HelmholtzFilterElement` (`/repo/scikit-topt/sktopt/filters/helmholtz_filter_element.py` lines 281–426, 429–583): its
attributes, how they change, and which linear solver `forward` and `gradient` call.

A matrix is the map `x ↦ A @ x`; a solver handle (`SuperLU`, `MultilevelSolver`) is the matrix it was built from, and what it
answers is the parameter `Ext`. `scipy.sparse.linalg.cg` is modelled in exact arithmetic (`cg`). Simplifications: building a handle
does not raise; the object comes from `from_defaults`, so `A` and `V` are never `None`; assignments to `rtol` and `maxiter` are
modelled, assignments to other attributes are not.
-/
namespace Verif.FilterElement
open Verif.Helmholtz

noncomputable section
open Classical

variable {n : ℕ}

abbrev Vec (n : ℕ) := Fin n → ℝ

/-- A sparse matrix, as a map. -/
abbrev Op (n : ℕ) := Vec n → Vec n

/-- `np.linalg.norm`. -/
def norm2 (x : Vec n) : ℝ := Real.sqrt (∑ i, x i ^ 2)

/-- `np.dot`. -/
def dot (x y : Vec n) : ℝ := ∑ i, x i * y i

/-- The variables of the loop of `scipy.sparse.linalg.cg`. -/
structure CG (n : ℕ) where
  x : Vec n
  r : Vec n
  p : Vec n
  rho : ℝ

/-- The loop body of `scipy.sparse.linalg.cg`; `first` is `iteration == 0`. -/
def cgStep (A M : Op n) (first : Bool) (s : CG n) : CG n :=
  let z := M s.r
  let rho := dot s.r z
  let p : Vec n := if first then z else fun i => rho / s.rho * s.p i + z i
  let q := A p
  let α := rho / dot p q
  { x := fun i => s.x i + α * p i
    r := fun i => s.r i - α * q i
    p := p
    rho := rho }

/-- `for iteration in range(maxiter)` of `scipy.sparse.linalg.cg` with `k` passes left. The residual is compared with the tolerance
before each pass; after the last one the answer is `maxiter`. -/
def cgLoop (A M : Op n) (tol : ℝ) (maxiter : ℕ) : ℕ → Bool → CG n → Vec n × ℕ
  | 0, _, s => (s.x, maxiter)
  | k + 1, first, s => if norm2 s.r < tol then (s.x, 0) else cgLoop A M tol maxiter k false (cgStep A M first s)

/-- `scipy.sparse.linalg.cg(A, b, M=M, rtol=rtol, maxiter=maxiter)` (`x0` and `atol` not given): the vector and `info`. -/
def cg (A M : Op n) (b : Vec n) (rtol : ℝ) (maxiter : ℕ) : Vec n × ℕ :=
  if norm2 b = 0 then (b, 0)
  else cgLoop A M (rtol * norm2 b) maxiter maxiter true
    { x := fun _ => 0
      r := b
      p := fun _ => 0
      rho := 0 }

/-- What the solver handles answer: `splu(A).solve(b)` and `pyamg.smoothed_aggregation_solver(A).solve(b, tol=tol)`. -/
structure Ext (n : ℕ) where
  lu : Op n → Vec n → Vec n
  amg : Op n → ℝ → Vec n → Vec n

/-- The attributes (lines 447–457 and filters/base.py `BaseFilter`). -/
structure Filter (n : ℕ) where
  mesh : Mesh n
  radius : ℝ
  A : Op n
  V : Op n
  option : String
  /-- `A_solver` -/
  lu : Option (Op n)
  /-- `M`: the matrix applied as preconditioner -/
  M : Option (Op n)
  /-- `pyamg_solver` -/
  amg : Option (Op n)
  rtol : ℝ
  maxiter : ℕ

/-- `create_solver` (lines 555–556). -/
def createSolver (s : Filter n) : Filter n := { s with lu := some s.A }

/-- `A.diagonal()`. -/
def diagonal (A : Op n) (i : Fin n) : ℝ := A (Pi.single i 1) i

/-- `create_LinearOperator()` (lines 558–574), called without arguments, so `rtol = 1e-5` and `maxiter = n_dof // 4`. -/
def createLinearOperator (s : Filter n) : Filter n :=
  { s with
    rtol := 1 / 10 ^ 5
    maxiter := n / 4
    M := some fun x i => 1 / (diagonal s.A i + 1 / 10 ^ 8) * x i }

/-- `create_amgsolver` (lines 576–578). -/
def createAmgsolver (s : Filter n) : Filter n := { s with amg := some s.A }

/-- Lines 548–553. -/
def build (s : Filter n) : Filter n :=
  if s.option = "cg_pyamg" then createAmgsolver s
  else if s.option = "cg_jacobi" then createLinearOperator s
  else if s.option = "spsolve" then createSolver s
  else s

/-- `preprocess` (lines 538–553); the state after the call and the exception, if any. -/
def preprocess (s : Filter n) : Option String → Filter n × Option Err
  | some o =>
    if o ∈ ["cg_jacobi", "cg_pyamg", "spsolve"] then (build { s with option := o }, none)
    else (s, some .valueError)
  | none => (build s, none)

/-- `update_radius` (lines 429–444, 459–469). -/
def updateRadius (s : Filter n) (r : ℝ) : Filter n × Option Err :=
  preprocess { s with radius := r, A := opA s.mesh r, V := opV s.mesh } (some s.option)

/-- `from_defaults` (lines 471–494): the object after the dataclass constructor (defaults of lines 449–457) and `preprocess`. -/
def fromDefaults (mesh : Mesh n) (radius : ℝ) (option : String) : Res (Filter n) :=
  let s : Filter n :=
    { mesh := mesh
      radius := radius
      A := opA mesh radius
      V := opV mesh
      option := option
      lu := none
      M := none
      amg := none
      rtol := 1 / 10 ^ 5
      maxiter := 1000 }
  match preprocess s (some option) with
  | (s', none) => .ok s'
  | (_, some e) => .error e

/-- The default of `solver_option` in `from_defaults` (line 479; the dataclass default, line 451, is never used by it). -/
def defaultOption : String := "cg_pyamg"

/-- `apply_helmholtz_filter_lu`, `apply_filter_gradient_lu` (lines 281–317): `solver` is `None` if never built. -/
def applyLu (E : Ext n) (lu : Option (Op n)) (V : Op n) (x : Vec n) : Res (Vec n) :=
  match lu with
  | none => .error .attributeError
  | some A => .ok (E.lu A (V x))

/-- `apply_helmholtz_filter_cg`, `apply_filter_gradient_cg` (lines 320–338, 373–393) with `maxiter` given; `M=None` is no
preconditioner. -/
def applyCg (A V : Op n) (M : Option (Op n)) (rtol : ℝ) (maxiter : ℕ) (x : Vec n) : Res (Vec n) :=
  let a := cg A (M.getD fun y => y) (V x) rtol maxiter
  if 0 < a.2 then .error .runtimeError else .ok a.1

/-- `apply_helmholtz_filter_amg`, `apply_filter_gradient_amg` (lines 341–370, 396–426). -/
def applyAmg (E : Ext n) (V : Op n) (ml : Option (Op n)) (tol : ℝ) (x : Vec n) : Res (Vec n) :=
  match ml with
  | none => .error .attributeError
  | some A => .ok (E.amg A tol (V x))

/-- `forward` (lines 502–517); falls through to `None` for any other option. -/
def forward (E : Ext n) (s : Filter n) (x : Vec n) : Res (Option (Vec n)) :=
  if s.option = "spsolve" then (applyLu E s.lu s.V x).map some
  else if s.option = "cg_jacobi" then (applyCg s.A s.V s.M s.rtol s.maxiter x).map some
  else if s.option = "cg_pyamg" then (applyAmg E s.V s.amg s.rtol x).map some
  else .ok none

/-- `gradient` (lines 519–536). -/
def gradient (E : Ext n) (s : Filter n) (v : Vec n) : Res (Vec n) :=
  if s.option = "spsolve" then applyLu E s.lu s.V v
  else if s.option = "cg_jacobi" then applyCg s.A s.V s.M s.rtol s.maxiter v
  else if s.option = "cg_pyamg" then applyAmg E s.V s.amg s.rtol v
  else .error .valueError

/-- What a program does with the object between two uses; exceptions are caught by the program. -/
inductive Call where
  | updateRadius (r : ℝ)
  | preprocess (option : Option String)
  /-- `filter.rtol = …` -/
  | setRtol (rtol : ℝ)
  /-- `filter.maxiter = …` -/
  | setMaxiter (maxiter : ℕ)

/-- The object after one call. -/
def step (s : Filter n) : Call → Filter n
  | .updateRadius r => (updateRadius s r).1
  | .preprocess o => (preprocess s o).1
  | .setRtol t => { s with rtol := t }
  | .setMaxiter k => { s with maxiter := k }

/-- The object after a sequence of calls. -/
def run (s : Filter n) (h : List Call) : Filter n := h.foldl step s

end
end Verif.FilterElement
