import Mathlib.Data.List.OfFn
import Mathlib.Data.Real.Sqrt
import Verif.Model.Py
import Verif.Model.Snapshot

/-!
Histories: `/repo/scikit-topt/sktopt/tools/history.py`.

A Python float is a value of a type `α`; saving to and loading from an `.npz` file keeps every
float exactly, so no arithmetic on `α` is needed except for the statistics of `Series.add`, where
`α = ℝ`.  A `dict` with string keys is an association list in insertion order.
Simplification: numpy string arrays drop trailing NUL characters; names are kept as they are.
-/
namespace Verif.History

open Snapshot (Name)

/-! ### Dictionaries (Python `dict`, insertion ordered) -/

/-- `d[k] = v`: replace in place, or append (language semantics). -/
def dset {β : Type} (d : List (Name × β)) (k : Name) (v : β) : List (Name × β) :=
  if d.any (fun x => x.1 == k) then d.map (fun x => if x.1 = k then (k, v) else x) else d ++ [(k, v)]

/-- `d.get(k)` -/
def dget {β : Type} (d : List (Name × β)) (k : Name) : Option β := (d.find? fun x => x.1 == k).map Prod.snd

/-! ### One history -/

/-- One logged entry: a float, or the list `[min, mean, max(, std)]`. -/
inductive Entry (α : Type) where
  | scalar (x : α)
  | row (xs : List α)
  deriving DecidableEq

/-- `HistorySeries` (history.py lines 53–77). -/
structure Series (α : Type) where
  name : Name
  constants : Option (List α) := none
  constantNames : Option (List Name) := none
  plotType : Name
  ylog : Bool := false
  data : List (Entry α) := []
  deriving DecidableEq

/-- `"min-max-mean-std"` -/
def stdType : Name := "min-max-mean-std".toList

/-- `HistorySeries.exists` (history.py lines 78–90). -/
def Series.isLogged {α : Type} (s : Series α) : Bool := s.data.length > 0

/-- What `HistorySeries.add` accepts: a float or a 0-dimensional array, or the elements of an array
with at least one dimension. -/
inductive Input (α : Type) where
  | scalar (x : α)
  | array (xs : List α)

noncomputable section
/-- `np.mean` -/
def mean (xs : List ℝ) : ℝ := xs.sum / xs.length
/-- `np.std`: the square root of the mean squared deviation. -/
def std (xs : List ℝ) : ℝ := Real.sqrt (mean (xs.map fun x => (x - mean xs) ^ 2))

/-- The row appended for an array (history.py lines 147–153); `np.min` of an empty array raises `ValueError`. -/
def statRow (plotType : Name) : List ℝ → Res (List ℝ)
  | [] => .error .valueError
  | x :: xs =>
    let m := [(xs.foldl min x), mean (x :: xs), (xs.foldl max x)]
    .ok (if plotType = stdType then m ++ [std (x :: xs)] else m)

/-- `HistorySeries.add` (history.py lines 143–155). -/
def Series.add (s : Series ℝ) : Input ℝ → Res (Series ℝ)
  | .scalar x => .ok { s with data := s.data ++ [.scalar x] }
  | .array xs => do
    let r ← statRow s.plotType xs
    .ok { s with data := s.data ++ [.row r] }

/-- A sequence of `feed_data` calls on one history (history.py lines 305–317). -/
def Series.feed (s : Series ℝ) : List (Input ℝ) → Res (Series ℝ)
  | [] => .ok s
  | x :: xs => do
    let s' ← s.add x
    s'.feed xs
end

/-- `HistorySeries.latest` (history.py lines 208–231); the array copy of a row is the row. -/
def Series.latest {α : Type} (s : Series α) : Res (Entry α) :=
  match s.data.getLast? with
  | none => .error .valueError
  | some d => .ok d

/-! ### Arrays -/

/-- A two-dimensional numpy array with its shape. -/
structure Arr2 (α : Type) where
  r : ℕ
  c : ℕ
  get : Fin r → Fin c → α

/-- `A.T` -/
def Arr2.T {α : Type} (A : Arr2 α) : Arr2 α := ⟨A.c, A.r, fun i j => A.get j i⟩
/-- `A[:k]` -/
def Arr2.take {α : Type} (A : Arr2 α) (k : ℕ) : Arr2 α :=
  ⟨min k A.r, A.c, fun i j => A.get (i.castLE (Nat.min_le_right _ _)) j⟩
/-- `A.tolist()`, `[list(x) for x in A]` -/
def Arr2.rows {α : Type} (A : Arr2 α) : List (List α) := List.ofFn fun i => List.ofFn (A.get i)

/-- The arrays stored in the file. -/
inductive Arr (α : Type) where
  /-- one-dimensional, floats -/
  | one (xs : List α)
  /-- two-dimensional, floats -/
  | two (A : Arr2 α)
  /-- one-dimensional, strings (the headers) -/
  | strs (l : List Name)

/-- The floats of a list of float entries; `none` if an entry is a list. -/
def scalars {α : Type} : List (Entry α) → Option (List α)
  | [] => some []
  | .scalar x :: l => (scalars l).map (x :: ·)
  | .row _ :: _ => none

/-- The rows of a list of list entries; `none` if an entry is a float. -/
def rowsOf {α : Type} : List (Entry α) → Option (List (List α))
  | [] => some []
  | .row x :: l => (rowsOf l).map (x :: ·)
  | .scalar _ :: _ => none

/-- `np.array` of a list of equally long lists; otherwise `ValueError` (inhomogeneous shape). -/
def arrayOfRows {α : Type} (c : ℕ) (rows : List (List α)) : Res (Arr2 α) :=
  if h : ∀ row ∈ rows, row.length = c then
    .ok ⟨rows.length, c, fun i j => (rows[i.val]'i.isLt)[j.val]'(by rw [h _ (List.getElem_mem _)]; exact j.isLt)⟩
  else .error .valueError

/-- `np.array(self.data)`, where the first entry decides the shape (history.py lines 192–203). A float among lists,
a list among floats, or lists of different lengths: `ValueError` (numpy ≥ 1.24). -/
def Series.dataArray {α : Type} (s : Series α) : Res (Arr α) :=
  match s.data with
  | [] => .ok (.one [])
  | .scalar x :: l =>
    match scalars l with
    | none => .error .valueError
    | some xs => .ok (.one (x :: xs))
  | .row x :: l =>
    match rowsOf l with
    | none => .error .valueError
    | some xs =>
      match arrayOfRows x.length (x :: xs) with
      | .error e => .error e
      | .ok A => .ok (.two (A.T.take (if s.plotType = stdType then 4 else 3)))

/-- The header (history.py lines 193, 205). -/
def Series.header {α : Type} (s : Series α) : List Name := [s.name, s.plotType]

/-! ### The collection and its file -/

/-- `HistoryCollection.histories` -/
abbrev Coll (α : Type) := List (Name × Series α)
/-- The content of an `.npz` file: named arrays in order. -/
abbrev File (α : Type) := List (Name × Arr α)
/-- The destination directory. -/
abbrev Dir (α : Type) := Name → Option (File α)

/-- `HistoryCollection.add` (history.py lines 319–373). -/
def register {α : Type} (c : Coll α) (s : Series α) : Coll α := dset c s.name s

/-- `HistoryCollection.feed_data` (history.py lines 305–317). -/
noncomputable def feedData (c : Coll ℝ) (name : Name) (x : Input ℝ) : Res (Coll ℝ) :=
  match dget c name with
  | none => .error .keyError
  | some s => do
    let s' ← s.add x
    .ok (dset c name s')

/-- `HistoryCollection.latest` (history.py lines 689–713). -/
def latest {α : Type} (c : Coll α) (name : Name) : Res (Entry α) :=
  match dget c name with
  | none => .error .keyError
  | some s => s.latest

def headerSuffix : Name := "_header".toList
def npzSuffix : Name := ".npz".toList

/-- `histories_to_array` (history.py lines 534–566). -/
def toArrays {α : Type} (acc : File α) : Coll α → Res (File α)
  | [] => .ok acc
  | (name, s) :: rest =>
    if s.isLogged then
      match s.dataArray with
      | .error e => .error e
      | .ok a => toArrays (dset (dset acc name a) (name ++ headerSuffix) (.strs s.header)) rest
    else toArrays acc rest

/-- `np.savez(path, **histories)`: `.npz` is appended to a path without it, and a key `file` collides with the
first parameter (`TypeError`). -/
def savez {α : Type} (D : Dir α) (path : Name) (f : File α) : Res (Dir α) :=
  if f.any (fun x => x.1 == "file".toList) then .error .typeError
  else
    let path' := if npzSuffix <:+ path then path else path ++ npzSuffix
    .ok (Function.update D path' (some f))

/-- The data as a list (history.py lines 664–668): a 2-D array with more than one row is transposed back, any other
array is listed as it is. A string array cannot occur among the data of a file written by `export_histories`;
simplification: it is read as no data. -/
def dataList {α : Type} : Arr α → List (Entry α)
  | .one xs => xs.map .scalar
  | .two A => if A.r > 1 then A.T.rows.map .row else A.rows.map .row
  | .strs _ => []

/-- The name and plot type of a data array (history.py lines 649–662). Simplification: a header that is an array of
floats (possible only if a history name ends in `_header`) gives `TypeError`. -/
def readHeader {α : Type} (f : File α) (key : Name) : Res (Name × Name) :=
  match dget f (key ++ headerSuffix) with
  | none => .ok (key, "value".toList)
  | some (.strs (n :: p :: _)) => .ok (n, p)
  | some (.strs [n]) => .ok (n, "min-max-mean".toList)
  | some (.strs []) => .error .indexError
  | some _ => .error .typeError

/-- The rebuilt series (history.py lines 670–684): constants and the y scale are reused from an existing history. -/
def rebuild {α : Type} (old : Coll α) (name plotType : Name) (a : Arr α) : Series α where
  name := name
  constants := (dget old name).bind (·.constants)
  constantNames := (dget old name).bind (·.constantNames)
  plotType := plotType
  ylog := ((dget old name).map (·.ylog)).getD false
  data := dataList a

/-- The loop of `import_histories` (history.py lines 646–684). -/
def importLoop {α : Type} (old : Coll α) (f : File α) (acc : Coll α) : File α → Res (Coll α)
  | [] => .ok acc
  | (key, a) :: rest =>
    if headerSuffix <:+ key then importLoop old f acc rest
    else
      match readHeader f key with
      | .error e => .error e
      | .ok (name, plotType) => importLoop old f (dset acc name (rebuild old name plotType a)) rest

/-- `import_histories` (history.py lines 612–687): a missing file only logs a warning. -/
def importHistories {α : Type} (D : Dir α) (fname : Name) (c : Coll α) : Res (Coll α) :=
  match D fname with
  | none => .ok c
  | some f => importLoop c f [] f

/-- `export_histories` (history.py lines 568–610): writes the file, then reads it back into the collection. -/
def exportHistories {α : Type} (D : Dir α) (fname : Name) (c : Coll α) : Res (Dir α × Coll α) :=
  match toArrays [] c with
  | .error e => .error e
  | .ok f =>
    if (f.filter fun x => !decide (headerSuffix <:+ x.1)).length = 0 then .ok (D, c)
    else
      match savez D fname f with
      | .error e => .error e
      | .ok D' =>
        match importHistories D' fname c with
        | .error e => .error e
        | .ok c' => .ok (D', c')

/-! ### Progress pages -/

/-- One page: its file name prefix, the number of rows of its grid of subplots, and the drawn cells
(history, row, column). -/
structure Page where
  pre : Name
  rows : ℕ
  cells : List (Name × ℕ × ℕ)
  deriving DecidableEq

/-- One page of `export_progress` (history.py lines 465–528); `math.ceil(n / 4)` on integers. `drawn` tells which
histories have data (`Schedulers.export` draws all). -/
def page (keys : List Name) (drawn : Name → Bool) (numPages pg : ℕ) (single : Name) : Page :=
  let start := pg * 4 * 2
  let stop := min (start + 4 * 2) keys.length
  { pre := if numPages = 1 then single else Nat.toDigits 10 pg
    rows := (stop - start + 3) / 4
    cells := (((keys.take stop).drop start).zipIdx.filter fun x => drawn x.1).map fun x => (x.1, x.2 / 4, x.2 % 4) }

/-- `export_progress` (history.py lines 429–532), with `single = ""`; `Schedulers.export`
(tools/scheduler.py lines 1225–1281), with `single = "0"` and all keys drawn. -/
def pages (keys : List Name) (drawn : Name → Bool) (single : Name) : List Page :=
  let numPages := (keys.length + 7) / 8
  (List.range numPages).map fun pg => page keys drawn numPages pg single

/-- The pages of a collection. -/
def Coll.pages {α : Type} (c : Coll α) : List Page :=
  History.pages (c.map Prod.fst) (fun k => ((dget c k).map Series.isLogged).getD false) []

end Verif.History
