import Verif.Model.Snapshot
import Mathlib.Data.List.Sort
import Mathlib.Data.Char

/-!
The pictures of a run and their animation: `/repo/scikit-topt/sktopt/core/optimizers/common_density.py` lines 341–345
(`image_path`) and `/repo/scikit-topt/sktopt/core/visualization.py` lines 187–217 (`images2gif`). Only the selection and the order of the
pictures is modelled, not the scaling of the pixels. The prefix is assumed to contain no wildcard characters.
-/
namespace Verif.Gif
open Verif.Snapshot (Name)

/-- `f"{k:08d}"` -/
def zfill8 (k : ℕ) : Name :=
  let d := Nat.toDigits 10 k
  List.replicate (8 - d.length) '0' ++ d

/-- The file name of `image_path(k, prefix)` (common_density.py:343). -/
def imageName (pre : Name) (k : ℕ) : Name := "info_".toList ++ pre ++ ['-'] ++ zfill8 k ++ ".jpg".toList

/-- The file name of `vtu_path(k)` (common_density.py:339). -/
def vtuName (k : ℕ) : Name := "info_mesh-".toList ++ zfill8 k ++ ".vtu".toList

/-- `glob` with the pattern `info_{prefix}-*.jpg` (visualization.py:195) on one name. -/
def globMatch (pre : Name) (n : Name) : Bool :=
  let start := "info_".toList ++ pre ++ ['-']
  start.isPrefixOf n && ".jpg".toList.isSuffixOf (n.drop start.length)

/-- Python's order of strings: lexicographic by code point. -/
def leName : Name → Name → Bool
  | [], _ => true
  | _ :: _, [] => false
  | a :: s, b :: t => if a.toNat < b.toNat then true else if a.toNat = b.toNat then leName s t else false

/-- `l[::n+1]` -/
def stride {α : Type} (n : ℕ) : List α → List α
  | [] => []
  | x :: l => x :: stride n (l.drop n)
  termination_by l => l.length
  decreasing_by simp; omega

/-- visualization.py:187–205 `images2gif`: the files shown, in order; `dir` is the listing of `mesh_rho` in any order. `none`: "Files not
found", no animation is written. -/
def frames (dir : List Name) (pre : Name) (skipFrame : ℤ) : Option (List Name) :=
  let files := (dir.filter (globMatch pre)).mergeSort leName
  if files.length = 0 then none
  else some (if skipFrame > 0 then stride skipFrame.toNat files else files)

end Verif.Gif
