import Verif.Model.Project
import Verif.Spec.Trajectory

/-! What it means that a directory documents one continuous optimization. -/
namespace Verif.Spec
open Verif.Run Verif.Project

variable {E : Type} {d : ℕ}

/-- The directory documents an optimization up to iteration `k`: the histories have exactly one line for each of the iterations
`1, …, k`, in order; the snapshot of iteration `k` is there, with admissible design densities; and there is no snapshot of a later
iteration and no other file in `data/`. -/
structure Documents (R : Common E d) (D : Dir E) (k : ℕ) : Prop where
  lines : ∃ l, D.hist = some l ∧ l.map Rec.iter = List.range' 1 k
  snapshot : ∃ data, Snapshot.load D.files (Snapshot.snapshotName k) = some data ∧
    ∀ e ∈ R.design, Pinned R e ∨ R.rhoMin ≤ data e ∧ data e ≤ R.rhoMax
  newest : ∀ n ∈ D.files.map Prod.fst, ∃ j ≤ k, n = Snapshot.snapshotName j

/-- The iterations the histories of a directory have lines for. -/
def iterations (D : Dir E) : Option (List ℕ) := D.hist.map fun l => l.map Rec.iter

end Verif.Spec
