import Verif.Model.Snapshot
import Mathlib.Data.Nat.Notation

/-! What a snapshot file looks like, independent of the parser. -/
namespace Verif.Snapshot

/-- Specification, independent of the parser: `n` looks like a snapshot of iteration `k` — six
decimal digits with value `k`, then `-rho.npz`, then anything. -/
def LooksLikeSnapshot (n : Name) (k : ℕ) : Prop :=
  ∃ ds rest : Name, n = ds ++ ['-', 'r', 'h', 'o', '.', 'n', 'p', 'z'] ++ rest ∧ ds.length = 6 ∧
    (∀ c ∈ ds, c.isDigit = true) ∧
    k = ds.foldl (fun v c => 10 * v + (c.toNat - '0'.toNat)) 0

end Verif.Snapshot
