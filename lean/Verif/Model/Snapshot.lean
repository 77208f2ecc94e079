import Mathlib.Data.List.Basic
import Mathlib.Data.Int.Order.Basic

/-!
Snapshot files: `{dst_path}/data/NNNNNN-rho.npz`
(`/repo/scikit-topt/sktopt/core/optimizers/common_density.py` and `core/misc.py`).

A file name is a list of characters.  Simplification: `\d` and `int()` accept every Unicode decimal
digit in Python; the model knows the ASCII digits only.
-/
namespace Verif.Snapshot

abbrev Name := List Char

/-- `"-rho.npz"` -/
def suffix : Name := ['-', 'r', 'h', 'o', '.', 'n', 'p', 'z']

/-- `str(k).zfill(6)` / `f"{k:06d}"` for a non-negative `k`
(common_density.py lines 720, 1230). -/
def zfill6 (k : ℕ) : Name :=
  let d := Nat.toDigits 10 k
  List.replicate (6 - d.length) '0' ++ d

/-- The name under which iteration `k` is saved (common_density.py line 1230) and looked up by
`restart_from` (common_density.py line 720). -/
def snapshotName (k : ℕ) : Name := zfill6 k ++ suffix

/-- `re.compile(r"(\d{6})-rho\.npz").match(fname)` and `int(match.group(1))`
(core/misc.py lines 9, 14–16).  `match` anchors at the start only, so anything may follow. -/
def matchName (n : Name) : Option ℕ :=
  if (n.take 6).length = 6 ∧ (n.take 6).all Char.isDigit ∧ suffix <+: n.drop 6 then
    some (Nat.ofDigitChars 10 (n.take 6) 0)
  else none

/-- One step of the loop of `find_latest_iter_file` (core/misc.py lines 13–19). -/
def latestStep (acc : ℤ × Option Name) (n : Name) : ℤ × Option Name :=
  match matchName n with
  | some k => if acc.1 < (k : ℤ) then ((k : ℤ), some n) else acc
  | none => acc

/-- `find_latest_iter_file` (core/misc.py lines 8–22) on the listing `dir` of the directory, in the
arbitrary order `os.listdir` returns it. -/
def findLatest (dir : List Name) : ℤ × Option Name := dir.foldl latestStep (-1, none)

/-- Directory contents: name ↦ stored value. Writing replaces a file of the same name
(`np.savez_compressed`). -/
def save {C : Type} (files : List (Name × C)) (n : Name) (c : C) : List (Name × C) :=
  (n, c) :: files.filter (fun f => f.1 ≠ n)

/-- `np.load(path)` -/
def load {C : Type} (files : List (Name × C)) (n : Name) : Option C :=
  (files.find? (fun f => f.1 = n)).map Prod.snd

end Verif.Snapshot
