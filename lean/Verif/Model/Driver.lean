import Verif.Model.Py
import Verif.Model.Snapshot
import Mathlib.Data.Finset.Basic
import Mathlib.Order.Lattice

/-!
The iteration driver `DensityMethod.optimize / optimize_steps`
(`/repo/scikit-topt/sktopt/core/optimizers/common_density.py` lines 711–745, 845–964, 966–1243).

`E` is the set of elements, `D` the density values, `X` everything else an iteration may read or
write (schedulers, filter, recorder, work arrays, optimizer attributes).  What one iteration
computes is a parameter (`step`, `record`), so every theorem about the driver holds for every update
rule, solver, filter and convergence behaviour.

Not modelled: figures, meshes and images written beside the snapshots, log output, timings,
`unscale` (see `Verif.Model.Task` for `scale`).
-/
namespace Verif.Driver
open Verif.Snapshot

/-- Configuration, task data and the per-iteration computation. -/
structure Sys (E D X : Type) where
  /-- `cfg.max_iters` (simplification: non-negative) -/
  maxIters : ℕ
  /-- `cfg.record_times` (simplification: non-negative) -/
  recordTimes : ℕ
  /-- `cfg.restart` -/
  restart : Bool
  /-- `cfg.restart_from` -/
  restartFrom : ℤ
  /-- `cfg.vol_frac.init_value` or, if that is `None`, `cfg.vol_frac.target_value` (714–715) -/
  valInit : D
  /-- `cfg.rho_min`, `cfg.rho_max` -/
  rhoMin : D
  rhoMax : D
  /-- `tsk.design_elements` -/
  design : Finset E
  /-- `tsk.neumann_elements` when `cfg.design_dirichlet`, else `tsk.dirichlet_neumann_elements`
  (740–743, 1131–1134); `none` is Python's `None` -/
  pinned : Option (Finset E)
  /-- `tsk.fixed_elements` -/
  fixed : Finset E
  /-- lines 1014–1134 for iteration number, densities and other state: schedulers, filter,
  projection, finite elements, sensitivities and `rho_update`; returns the new densities, of which
  the driver reads the design elements, or raises -/
  step : ℕ → (E → D) → X → X × Res (E → D)
  /-- lines 1136–1184: feeding the histories and the convergence test, given the iteration number,
  the previous and the new densities; the flag is `conv_rho and conv_kkt` -/
  record : ℕ → (E → D) → (E → D) → X → X × Res Bool
  /-- `recorder.export_histories` (963), which also reloads them -/
  exportHist : X → X
  /-- `recorder.import_histories` (732) -/
  importHist : X → X
  /-- `init_schedulers` (643–679) -/
  initSched : X → X × Res Unit

/-- The state a run acts on.  `trace` is a ghost variable: the iteration numbers whose loop body was
entered, in order. -/
structure World (E D X : Type) where
  rho : E → D
  aux : X
  /-- the directory `{dst_path}/data` -/
  files : List (Name × (E → D))
  trace : List ℕ

/-- The optimizer object: `started` is `self._state is not None`, `iterNext` is `self._iter_next`
(meaningful once started), `completed` is `self._completed`. -/
structure Opt (E D X : Type) where
  world : World E D X
  started : Bool
  iterNext : ℕ
  completed : Bool
  /-- the densities `_finalize` drew and exported as `cubic_top.vtu` (956–962), once it has run -/
  final : Option (E → D)

variable {E D X : Type} [DecidableEq E] [Zero D] [One D] [Max D] [Min D]

/-- `rho[idx] = 1.0`; for `idx = None` numpy's `rho[None]` is a view of the whole array, so every
entry is set. -/
def pin (idx : Option (Finset E)) (rho : E → D) : E → D := fun e =>
  match idx with
  | none => 1
  | some s => if e ∈ s then 1 else rho e

/-- `rho[design] = new` -/
def setDesign (design : Finset E) (new rho : E → D) : E → D := fun e =>
  if e ∈ design then new e else rho e

/-- What `np.savez_compressed(..., rho_design_elements=rho[design])` stores (1229–1232), as the full
array restart rebuilds from it before pinning (zeros elsewhere, lines 716, 733). -/
def designPart (design : Finset E) (rho : E → D) : E → D := fun e => if e ∈ design then rho e else 0

/-- `DensityMethod.initialize_density` (711–745): start densities and first iteration number.
`np.load` of a missing file raises `FileNotFoundError`; when no snapshot is found at all the path is
`None` and `np.load(None)` raises `TypeError`. -/
def initializeDensity (S : Sys E D X) (files : List (Name × (E → D))) : Res ((E → D) × ℕ) :=
  let finish (rho : E → D) : E → D := pin (some S.fixed) (pin S.pinned rho)
  if S.restart then
    if 0 < S.restartFrom then
      match load files (snapshotName S.restartFrom.toNat) with
      | some data => .ok (finish (designPart S.design data), S.restartFrom.toNat + 1)
      | none => .error .fileNotFound
    else
      match findLatest (files.map Prod.fst) with
      | (n, some name) =>
        match load files name with
        | some data => .ok (finish (designPart S.design data), (n + 1).toNat)
        | none => .error .fileNotFound
      | (_, none) => .error .typeError
  else .ok (finish (fun _ => min S.rhoMax (max S.rhoMin S.valInit)), 1)

/-- `_ensure_state_initialized` (861–918) when the run is not completed. -/
def ensureInit (S : Sys E D X) (o : Opt E D X) : Opt E D X × Res Unit :=
  if o.started then (o, .ok ())
  else
    match S.initSched o.world.aux with
    | (x, .error e) => ({ o with world := { o.world with aux := x } }, .error e)
    | (x, .ok ()) =>
      match initializeDensity S o.world.files with
      | .error e => ({ o with world := { o.world with aux := x } }, .error e)
      | .ok (rho, k) =>
        ({ o with world := { o.world with
                    aux := if S.restart then S.importHist x else x, rho := rho },
                  started := true, iterNext := k }, .ok ())

/-- One pass through the loop body (1014–1238) for iteration `k`; `last` is
`iter_num == iter_limit - 1`.  The result is the `converged` flag that ends the loop. -/
def iterate (S : Sys E D X) (last : Bool) (k : ℕ) (w : World E D X) : World E D X × Res Bool :=
  let w := { w with trace := w.trace ++ [k] }
  match S.step k w.rho w.aux with
  | (x, .error e) => ({ w with aux := x }, .error e)
  | (x, .ok new) =>
    let rho' := pin S.pinned (setDesign S.design new w.rho)
    match S.record k w.rho rho' x with
    | (y, .error e) => ({ w with rho := rho', aux := y }, .error e)
    | (y, .ok conv) =>
      let w' := { w with rho := rho', aux := y }
      let interval := S.maxIters / S.recordTimes
      -- `iter_num % (max_iters // record_times)`: both divisions raise on a zero divisor
      if interval = 0 then (w', .error .zeroDivision)
      else if k % interval = 0 ∨ k = 1 ∨ conv = true ∨ last = true then
        ({ w' with files := save w'.files (snapshotName k) (designPart S.design rho') }, .ok conv)
      else (w', .ok conv)

/-- `for iter_num in range(k, k + n)` (1014–1238): the world and `(iter_num + 1, converged)`. -/
def loop (S : Sys E D X) : ℕ → ℕ → World E D X → World E D X × Res (ℕ × Bool)
  | 0, k, w => (w, .ok (k, false))
  | n + 1, k, w =>
    match iterate S (n == 0) k w with
    | (w', .error e) => (w', .error e)
    | (w', .ok true) => (w', .ok (k + 1, true))
    | (w', .ok false) => loop S n (k + 1) w'

/-- `_finalize` (944–964), called only when not completed and started. Simplification: `export_submesh` does not raise (it does if no
element is left, see C107). -/
def finalize (S : Sys E D X) (o : Opt E D X) : Opt E D X :=
  { o with world := { o.world with aux := S.exportHist o.world.aux }, completed := true,
           final := some o.world.rho }

/-- `_optimize_impl` (966–1243). If the loop raises, `_iter_next` keeps its old value (1240 is not
reached). -/
def optimizeImpl (S : Sys E D X) (maxSteps : Option ℕ) (o : Opt E D X) : Opt E D X × Res Unit :=
  if o.completed then (o, .ok ())
  else
    match ensureInit S o with
    | (o1, .error e) => (o1, .error e)
    | (o1, .ok ()) =>
      let iterEnd := S.maxIters + 1
      if iterEnd ≤ o1.iterNext then (finalize S o1, .ok ())
      else
        let limit := match maxSteps with
          | none => iterEnd
          | some n => min (o1.iterNext + n) iterEnd
        match loop S (limit - o1.iterNext) o1.iterNext o1.world with
        | (w, .error e) => ({ o1 with world := w }, .error e)
        | (w, .ok (k, conv)) =>
          let o2 := { o1 with world := w, iterNext := k }
          if conv = true ∨ iterEnd ≤ k then (finalize S o2, .ok ()) else (o2, .ok ())

/-- `optimize` (845–847) -/
def optimize (S : Sys E D X) (o : Opt E D X) : Opt E D X × Res Unit := optimizeImpl S none o

/-- `optimize_steps` (849–859) -/
def optimizeSteps (S : Sys E D X) (n : ℤ) (o : Opt E D X) : Opt E D X × Res Unit :=
  if n ≤ 0 then (o, .ok ()) else optimizeImpl S (some n.toNat) o

/-- A user's call. -/
inductive Call where
  | optimize
  | steps (n : ℤ)

/-- Effect of one call. -/
def Call.run (S : Sys E D X) : Call → Opt E D X → Opt E D X × Res Unit
  | .optimize, o => Driver.optimize S o
  | .steps n, o => optimizeSteps S n o

/-- A program making several calls, ended by the first exception. -/
def runCalls (S : Sys E D X) : List Call → Opt E D X → Opt E D X × Res Unit
  | [], o => (o, .ok ())
  | c :: cs, o =>
    match c.run S o with
    | (o', .error e) => (o', .error e)
    | (o', .ok ()) => runCalls S cs o'

/-- A freshly constructed optimizer (lines 584–588) with a given directory and attributes. -/
def fresh (rho0 : E → D) (x : X) (files : List (Name × (E → D))) : Opt E D X :=
  { world := { rho := rho0, aux := x, files := files, trace := [] }, started := false,
    iterNext := 0, completed := false, final := none }

/-- Every state of an optimizer object some history of calls leads to, whatever calls raised on the
way. -/
inductive Reachable (S : Sys E D X) : Opt E D X → Prop
  | fresh (rho0 : E → D) (x : X) (files : List (Name × (E → D))) : Reachable S (fresh rho0 x files)
  | call (c : Call) {o : Opt E D X} : Reachable S o → Reachable S (c.run S o).1

end Verif.Driver
