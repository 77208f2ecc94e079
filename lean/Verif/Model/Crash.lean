import Verif.Model.Driver

/-!
A process that is killed (`kill -9`, out of memory, time limit of a queue) at an arbitrary moment, and the restart after it:
`/repo/scikit-topt/sktopt/core/optimizers/common_density.py` lines 711–745 (`initialize_density`), 1014–1243 (the loop) and 944–964
(`_finalize`), `core/misc.py` lines 8–22, `tools/history.py` lines 568–687 (`export_histories`, `import_histories`).

The functions ending in `Events` list, in order, what the functions of `Verif.Model.Driver` do to the directory; that they agree with
them is proved in `Verif.Lemmas.Crash` (`events_files`, `events_trace`, `events_completed`). A kill lets a prefix of the list happen, and possibly one half of the
next write. Assumptions: `np.savez` and `np.savez_compressed` open the file for writing first (which truncates it) and write the table
of contents last, so a file cut off in the middle cannot be read, and what was written before a kill stays (the machine does not lose
power). Simplification: a completed run always writes its histories (the code skips this if there are no lines at all, which
happens only if a restart finds neither histories nor iterations to execute). Not modelled: `.vtu` files, images and plots, which are not read at a restart.
-/
namespace Verif.Crash
open Verif.Driver
open Verif.Snapshot

/-- What a running process does, as far as a later process or a watcher can tell. -/
inductive Event (E D X : Type) where
  /-- the loop body is entered for iteration `k` (1014) -/
  | enter (k : ℕ)
  /-- `np.savez_compressed(".../data/NNNNNN-rho.npz", rho_design_elements=...)` (1229–1232) -/
  | snapshot (k : ℕ) (data : E → D)
  /-- `np.savez(".../histories.npz", ...)` (963, tools/history.py 600) -/
  | histories (x : X)

/-- The output directory: the files in `data/` and `histories.npz`. `none` for the content means cut off in the middle. -/
structure Disk (E D X : Type) where
  files : List (Name × Option (E → D))
  /-- `none`: there is no file -/
  hist : Option (Option X)

variable {E D X : Type}

/-- The directory after an event. -/
def Disk.done (F : Disk E D X) : Event E D X → Disk E D X
  | .enter _ => F
  | .snapshot k data => { F with files := save F.files (snapshotName k) (some data) }
  | .histories x => { F with hist := some (some x) }

/-- The directory if the process is killed in the middle of an event. -/
def Disk.half (F : Disk E D X) : Event E D X → Disk E D X
  | .enter _ => F
  | .snapshot k _ => { F with files := save F.files (snapshotName k) none }
  | .histories _ => { F with hist := some none }

/-- The files of `data/` that can be read. -/
def Disk.readable (F : Disk E D X) : List (Name × (E → D)) := F.files.filterMap fun f => f.2.map fun data => (f.1, data)

/-- An empty directory. -/
def Disk.empty : Disk E D X := ⟨[], none⟩

/-- The directory after a kill: `n` events have happened, and if `half` the next one half. -/
def killed (F : Disk E D X) (es : List (Event E D X)) (n : ℕ) (half : Bool) : Disk E D X :=
  let F' := (es.take n).foldl Disk.done F
  match half, es[n]? with
  | true, some ev => F'.half ev
  | _, _ => F'

/-- The iterations entered, in order. -/
def entered (es : List (Event E D X)) : List ℕ :=
  es.filterMap fun ev => match ev with
    | .enter k => some k
    | _ => none

variable [DecidableEq E] [Zero D] [One D] [Max D] [Min D]

/-- `initialize_density` (711–745) when files may be cut off: the snapshot is loaded first (723, 729; `find_latest_iter_file` looks at
names only), then the histories are imported (732, tools/history.py 647–650: only a missing file is tolerated). -/
def initializeOn (S : Sys E D X) (F : Disk E D X) : Res ((E → D) × ℕ) :=
  let finish (rho : E → D) : E → D := pin (some S.fixed) (pin S.pinned rho)
  let resume (data : E → D) (k : ℕ) : Res ((E → D) × ℕ) :=
    match F.hist with
    | some none => .error .unreadable
    | _ => .ok (finish (designPart S.design data), k)
  if S.restart then
    if 0 < S.restartFrom then
      match load F.files (snapshotName S.restartFrom.toNat) with
      | some (some data) => resume data (S.restartFrom.toNat + 1)
      | some none => .error .unreadable
      | none => .error .fileNotFound
    else
      match findLatest (F.files.map Prod.fst) with
      | (n, some name) =>
        match load F.files name with
        | some (some data) => resume data (n + 1).toNat
        | some none => .error .unreadable
        | none => .error .fileNotFound
      | (_, none) => .error .typeError
  else .ok (finish (fun _ => min S.rhoMax (max S.rhoMin S.valInit)), 1)

/-- The program of a process started in the directory `F`: as in `Verif.Model.Driver`, but reading a file that is cut off raises
(`_ensure_state_initialized`, 861–918: `init_schedulers`, then `initialize_density`). -/
def guarded (S : Sys E D X) (F : Disk E D X) : Sys E D X :=
  { S with initSched := fun x =>
      match S.initSched x with
      | (y, .error e) => (y, .error e)
      | (y, .ok ()) =>
        match initializeOn S F with
        | .error e => (y, .error e)
        | .ok _ => (y, .ok ()) }

/-- One pass through the loop body (1014–1238), see `Driver.iterate`. -/
def iterateEvents (S : Sys E D X) (last : Bool) (k : ℕ) (w : World E D X) : List (Event E D X) :=
  .enter k ::
    match S.step k w.rho w.aux with
    | (_, .error _) => []
    | (x, .ok new) =>
      let rho' := pin S.pinned (setDesign S.design new w.rho)
      match S.record k w.rho rho' x with
      | (_, .error _) => []
      | (_, .ok conv) =>
        let interval := S.maxIters / S.recordTimes
        if interval = 0 then []
        else if k % interval = 0 ∨ k = 1 ∨ conv = true ∨ last = true then [.snapshot k (designPart S.design rho')]
        else []

/-- The loop (1014–1238), see `Driver.loop`. -/
def loopEvents (S : Sys E D X) : ℕ → ℕ → World E D X → List (Event E D X)
  | 0, _, _ => []
  | n + 1, k, w =>
    iterateEvents S (n == 0) k w ++
      match iterate S (n == 0) k w with
      | (w', .ok false) => loopEvents S n (k + 1) w'
      | _ => []

/-- `_optimize_impl` (966–1243), see `Driver.optimizeImpl`; `_finalize` (944–964) writes the histories. -/
def implEvents (S : Sys E D X) (maxSteps : Option ℕ) (o : Opt E D X) : List (Event E D X) :=
  if o.completed then []
  else
    match ensureInit S o with
    | (_, .error _) => []
    | (o1, .ok ()) =>
      let iterEnd := S.maxIters + 1
      if iterEnd ≤ o1.iterNext then [.histories o1.world.aux]
      else
        let limit := match maxSteps with
          | none => iterEnd
          | some n => min (o1.iterNext + n) iterEnd
        loopEvents S (limit - o1.iterNext) o1.iterNext o1.world ++
          match loop S (limit - o1.iterNext) o1.iterNext o1.world with
          | (w, .ok (k, conv)) => if conv = true ∨ iterEnd ≤ k then [.histories w.aux] else []
          | (_, .error _) => []

/-- `optimize` (845–847), `optimize_steps` (849–859) -/
def callEvents (S : Sys E D X) : Call → Opt E D X → List (Event E D X)
  | .optimize, o => implEvents S none o
  | .steps n, o => if n ≤ 0 then [] else implEvents S (some n.toNat) o

/-- A program making several calls, ended by the first exception. -/
def callsEvents (S : Sys E D X) : List Call → Opt E D X → List (Event E D X)
  | [], _ => []
  | c :: cs, o =>
    callEvents S c o ++
      match c.run S o with
      | (o', .ok ()) => callsEvents S cs o'
      | (_, .error _) => []

/-- What a process started in the directory `F` does if it is not killed. -/
def process (S : Sys E D X) (cs : List Call) (rho0 : E → D) (x : X) (F : Disk E D X) : List (Event E D X) :=
  callsEvents (guarded S F) cs (fresh rho0 x F.readable)

/-- The exception that ends it, if any. -/
def outcome (S : Sys E D X) (cs : List Call) (rho0 : E → D) (x : X) (F : Disk E D X) : Res Unit :=
  (runCalls (guarded S F) cs (fresh rho0 x F.readable)).2

end Verif.Crash
