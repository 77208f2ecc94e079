import Verif.Model.Geometry

/-!
The parallel loops of the library (`@njit(parallel=True)` with `prange`):
`/repo/scikit-topt/sktopt/mesh/utils.py:94–127` (`fix_tetrahedron_orientation_numba`) and
`/repo/scikit-topt/sktopt/fea/composer.py:149–161, 251–311` (the volume loops).

The iterations of a `prange` run concurrently on a shared array. An iteration is a program of atomic reads and writes of single
cells; between them it computes with its private variables (numba gives every iteration its own `n0 … n3`, `v1 … v3`, `vol`, `n`).
Arrays that the loop only reads (`p`, and `t_conn` in the volume loops) are constants. A schedule is the list of the iterations that
perform the next atomic action; numba's division into threads and chunks only restricts the schedules that occur.
-/
namespace Verif.Parallel
open Verif.Geometry

/-- A program over shared cells `A` with contents `V`: what one iteration still has to do. -/
inductive Prog (A V : Type) where
  | done
  | load (a : A) (next : V → Prog A V)
  | store (a : A) (v : V) (next : Prog A V)

/-- The shared array and what every iteration still has to do. -/
structure State (A V : Type) where
  mem : A → V
  todo : ℕ → Prog A V

/-- Iteration `i` performs its next atomic action (none if it has finished). -/
def step {A V : Type} [DecidableEq A] (s : State A V) (i : ℕ) : State A V :=
  match s.todo i with
  | .done => s
  | .load a next => { s with todo := Function.update s.todo i (next (s.mem a)) }
  | .store a v next => { mem := Function.update s.mem a v, todo := Function.update s.todo i next }

/-- The loop under a schedule. -/
def run {A V : Type} [DecidableEq A] (s : State A V) (schedule : List ℕ) : State A V := schedule.foldl step s

/-- `for e in prange(n)` with the given body, on an array with the given contents. -/
def prange {A V : Type} (n : ℕ) (body : ℕ → Prog A V) (mem : A → V) : State A V :=
  { mem, todo := fun e => if e < n then body e else .done }

/-- All iterations have finished: the loop returns. -/
def State.Finished {A V : Type} (s : State A V) : Prop := ∀ e, s.todo e = .done

open Classical in
/-- utils.py:118–125, one iteration of `fix_tetrahedron_orientation_numba` on the shared array `t_fixed`: the four nodes are
read (119), the volume is computed (120–123), and if it is negative the two nodes are read again and stored exchanged (124–125). -/
noncomputable def orientBody (p : ℕ → Vec) (e : ℕ) : Prog (Fin 4 × ℕ) ℕ :=
  .load (0, e) fun n0 => .load (1, e) fun n1 => .load (2, e) fun n2 => .load (3, e) fun n3 =>
    if signedVol (p n0) (p n1) (p n2) (p n3) < 0 then
      .load (2, e) fun x => .load (1, e) fun y => .store (1, e) x (.store (2, e) y .done)
    else .done

/-- The contents of a connectivity array given by columns. -/
def cells {k : ℕ} (ts : List (Fin k → ℕ)) (a : Fin k × ℕ) : ℕ :=
  match ts[a.2]? with
  | some t => t a.1
  | none => 0

/-- The columns of an array with `n` columns. -/
def columns {k : ℕ} (n : ℕ) (mem : Fin k × ℕ → ℕ) : List (Fin k → ℕ) := (List.range n).map fun e r => mem (r, e)

/-- utils.py:94–127 `fix_tetrahedron_orientation_numba` under a schedule: the array is copied (116), then the parallel loop runs. -/
noncomputable def orientParallel (p : ℕ → Vec) (ts : List (Fin 4 → ℕ)) (schedule : List ℕ) : State (Fin 4 × ℕ) ℕ :=
  run (prange ts.length (orientBody p) (cells ts)) schedule

/-- composer.py:149–161 `_get_elements_volume_tet_numba` under a schedule: the result array starts as zeros (152); an iteration computes
the signed volume and stores it (154–159). There is no test for negative volumes. -/
noncomputable def tetVolumesParallel (p : ℕ → Vec) (ts : List (Fin 4 → ℕ)) (schedule : List ℕ) : State ℕ ℝ :=
  run (prange ts.length (fun e => match ts[e]? with
    | some t => .store e (tetVol p t) .done
    | none => .done) fun _ => 0) schedule

/-- composer.py:251–311 `_get_elements_volume_hex_numba` under a schedule: an iteration adds the six tetrahedra in its private `vol`
(283–307) and stores the sum (309). -/
noncomputable def hexVolumesParallel (p : ℕ → Vec) (ts : List (Fin 8 → ℕ)) (schedule : List ℕ) : State ℕ ℝ :=
  run (prange ts.length (fun e => match ts[e]? with
    | some n =>
      let vol : ℝ := 0
      let vol := vol + absTet (p (n 0)) (p (n 1)) (p (n 3)) (p (n 4))
      let vol := vol + absTet (p (n 1)) (p (n 2)) (p (n 3)) (p (n 6))
      let vol := vol + absTet (p (n 1)) (p (n 5)) (p (n 6)) (p (n 4))
      let vol := vol + absTet (p (n 3)) (p (n 6)) (p (n 7)) (p (n 4))
      let vol := vol + absTet (p (n 1)) (p (n 3)) (p (n 6)) (p (n 4))
      let vol := vol + absTet (p (n 1)) (p (n 6)) (p (n 5)) (p (n 4))
      .store e vol .done
    | none => .done) fun _ => 0) schedule

/-- The kind of a mesh, as far as `isinstance` distinguishes it. -/
inductive MeshKind where
  | tet
  | hex
  | other

/-- composer.py:314–322 `get_elements_volume`: the sequential routines, chosen by the kind of mesh. -/
noncomputable def getElementsVolume (kind : MeshKind) (p : ℕ → Vec) (tets : List (Fin 4 → ℕ)) (hexes : List (Fin 8 → ℕ)) : Res (List ℝ) :=
  match kind with
  | .tet => volumesTet p tets
  | .hex => .ok (hexes.map fun t => volumeHex fun k => p (t k))
  | .other => .error .notImplemented

end Verif.Parallel
