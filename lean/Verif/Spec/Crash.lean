import Verif.Model.Crash
import Verif.Spec.Project

/-! What a directory must look like for an optimization to be continued in it. -/
namespace Verif.Spec
open Verif.Crash Verif.Driver

variable {E D X : Type}

/-- `data/` contains snapshots of the iterations `1, …, j` only (of some or all of them), that of iteration `j` is complete (there is none
if `j = 0`), and `histories.npz` is missing or complete. -/
structure Intact (F : Disk E D X) (j : ℕ) : Prop where
  own : ∀ n ∈ F.files.map Prod.fst, ∃ i, 1 ≤ i ∧ i ≤ j ∧ n = Snapshot.snapshotName i
  newest : 0 < j → ∃ data, Snapshot.load F.files (Snapshot.snapshotName j) = some (some data)
  histories : F.hist ≠ some none

/-- A process that starts a new optimization in an empty `data/` (`j = 0`), or one that restarts from the newest snapshot, of
iteration `j`. -/
def TakesUp (S : Sys E D X) (j : ℕ) : Prop :=
  S.restart = false ∧ j = 0 ∨ S.restart = true ∧ S.restartFrom ≤ 0 ∧ 1 ≤ j ∧ j < 10 ^ 6

/-- A directory as the next process of a project sees it. -/
def asDir {d : ℕ} (F : Disk E ℝ (Run.State E d)) : Project.Dir E where
  files := F.readable
  hist := match F.hist with
    | some (some x) => some x.log
    | _ => none

end Verif.Spec
