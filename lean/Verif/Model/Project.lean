import Verif.Model.Run

/-!
Several processes working one after the other in the same output directory: `/repo/scikit-topt/sktopt/core/optimizers/common_density.py`
lines 531–590 (the constructor, which with `restart=False` removes neither `data/` nor `histories.npz`), 711–745
(`initialize_density`, which on a restart imports `histories.npz`) and 944–964 (`_finalize`, the only place where `histories.npz` is
written). The directory is reduced to the snapshots in `data/` and the histories file.
-/
namespace Verif.Project
open Verif Verif.Driver Verif.Run

noncomputable section

/-- The output directory: the files in `data/` and the lines of `histories.npz`, if it exists. -/
structure Dir (E : Type) where
  files : List (Snapshot.Name × (E → ℝ))
  hist : Option (List Rec)

/-- One process: what it changes in the configuration, and the calls it makes. -/
structure Session where
  maxIters : ℕ
  recordTimes : ℕ
  restart : Bool
  restartFrom : ℤ
  calls : List Call

variable {ι E Q : Type} [Fintype ι] [Fintype E] [Fintype Q] [DecidableEq ι] [DecidableEq E] {d m : ℕ}

/-- The configuration of a process in a directory (531–590); `saved` is what `import_histories` finds (732). -/
def Session.configure (s : Session) (D : Dir E) (R : Common E d) : Common E d :=
  { R with
    maxIters := s.maxIters
    recordTimes := s.recordTimes
    restart := s.restart
    restartFrom := s.restartFrom
    saved := D.hist }

/-- What an iteration computes, for every configuration. -/
abbrev Method (E : Type) (d : ℕ) := Common E d → ℕ → (E → ℝ) → State E d → State E d × Res (E → ℝ)

/-- One process: construct the optimizer and make the calls, up to the first exception. `histories.npz` is replaced by `_finalize` (963),
so only if the run is completed, and only if there are lines at all (tools/history.py 589–591). -/
def session (R : Common E d) (M : Method E d) (s : Session) (D : Dir E) : Dir E × Res Unit :=
  let R' := s.configure D R
  match runCalls (sysWith R' (M R')) s.calls (newRun R' D.files) with
  | (o, r) => (⟨o.world.files, if o.completed && !o.world.aux.log.isEmpty then some o.world.aux.log else D.hist⟩, r)

/-- Processes one after the other; an exception ends the process that raised it. -/
def sessions (R : Common E d) (M : Method E d) : List Session → Dir E → Dir E × List (Res Unit)
  | [], D => (D, [])
  | s :: ss, D =>
    let (D1, r) := session R M s D
    let (D2, rs) := sessions R M ss D1
    (D2, r :: rs)

/-- OC on an elasticity task. -/
def elastic (R : Setup ι E Q d m) : Method E d := fun C => step { R with toCommon := C }

end
end Verif.Project
