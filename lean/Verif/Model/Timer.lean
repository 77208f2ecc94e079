import Mathlib.Data.Real.Basic
import Mathlib.Data.List.Sort
import Verif.Model.Py
import Verif.Model.History

/-!
Section timer: `/repo/scikit-topt/sktopt/tools/timer.py`.

The clock is an arbitrary sequence of readings; the timer reads it once when a section is entered and once when it is left.
Floats are real numbers. Simplifications: the separator is one character (the default is `>`); threads are not modelled.
-/
namespace Verif.Timer

open Snapshot (Name)
open History (dset dget)

/-- The mutable state of `SectionTimer` (timer.py lines 43–56), and the number of clock readings so far. -/
structure St where
  /-- `self._stack` -/
  stack : List Name := []
  /-- `self._records` -/
  records : List (Name × List ℝ) := []
  reads : ℕ := 0

/-- Constructor arguments (timer.py lines 43–56). -/
structure Cfg where
  clock : ℕ → ℝ
  hierarchical : Bool
  sep : Char

/-- Programs that use a timer. The body of a `with timer.section(name):` block is a program, which may raise. -/
inductive Prog where
  | skip
  | fail
  | seq (p q : Prog)
  /-- `try: p` / `except: q` -/
  | attempt (p q : Prog)
  /-- `with timer.section(name): body` or a call of a function decorated with `timer.wrap(name)` (lines 58–90) -/
  | sect (name : Name) (body : Prog)
  /-- `timer.add(name, duration)` (lines 92–93) -/
  | add (name : Name) (d : ℝ)
  /-- `timer.reset(name)` (lines 95–103) -/
  | reset (name : Option Name)

noncomputable section

/-- `self._records[k].append(x)` on a `defaultdict(list)`. -/
def appendRec (d : List (Name × List ℝ)) (k : Name) (x : ℝ) : List (Name × List ℝ) :=
  dset d k ((dget d k).getD [] ++ [x])

/-- The name under which a section is recorded (timer.py lines 60–63). -/
def Cfg.fullName (C : Cfg) (stack : List Name) (name : Name) : Name :=
  if C.hierarchical && !stack.isEmpty then [C.sep].intercalate (stack ++ [name]) else name

/-- Execution; the Boolean tells whether an exception is propagating (timer.py lines 58–103). -/
def run (C : Cfg) : Prog → St → St × Bool
  | .skip, s => (s, false)
  | .fail, s => (s, true)
  | .seq p q, s => if (run C p s).2 then run C p s else run C q (run C p s).1
  | .attempt p q, s => if (run C p s).2 then run C q (run C p s).1 else run C p s
  | .sect name body, s =>
    let full := C.fullName s.stack name
    let r := run C body { s with stack := s.stack ++ [name], reads := s.reads + 1 }
    let duration := C.clock r.1.reads - C.clock s.reads
    ({ stack := r.1.stack.dropLast, records := appendRec r.1.records full duration, reads := r.1.reads + 1 }, r.2)
  | .add name d, s => ({ s with records := appendRec s.records name d }, false)
  | .reset none, s => ({ s with records := [] }, false)
  | .reset (some k), s => ({ s with records := s.records.filter fun x => x.1 ≠ k }, false)

/-- `SectionStats` (timer.py lines 11–18). -/
structure Stats where
  name : Name
  count : ℕ
  total : ℝ
  avg : ℝ
  max : ℝ

/-- The statistics of one entry of the records; an empty list of records is skipped (timer.py lines 108–119). -/
def statOf (x : Name × List ℝ) : Option Stats :=
  match x.2 with
  | [] => none
  | v :: vs => some ⟨x.1, (v :: vs).length, (v :: vs).sum, (v :: vs).sum / (v :: vs).length, vs.foldl max v⟩

/-- `SectionTimer.stats` (timer.py lines 105–120). -/
def stats (s : St) : List Stats := s.records.filterMap statOf

/-- `sep.join(name.split(sep)[:-1])` (timer.py line 128). -/
def parentName (sep : Char) (name : Name) : Name := [sep].intercalate (name.splitOn sep).dropLast

/-- `sum(totals[ch] for ch in children.get(name, []))` (timer.py lines 124–133). -/
def childTotal (sep : Char) (l : List Stats) (name : Name) : ℝ :=
  ((l.filter fun c => decide (sep ∈ c.name) && decide (parentName sep c.name = name)).map Stats.total).sum

/-- `SectionTimer._self_time_stats` (timer.py lines 122–144). -/
def selfStats (sep : Char) (l : List Stats) : List Stats :=
  l.map fun s =>
    let self := Max.max (s.total - childTotal sep l s.name) 0
    ⟨s.name, s.count, self, if s.count ≠ 0 then self / s.count else 0, self⟩

/-- The numeric sort keys of `summary` (timer.py lines 149–155); sorting by name is not modelled. -/
inductive Key where | total | avg | max | count

/-- `key_map[sort_by]` -/
def Key.of : Key → Stats → ℝ
  | .total => Stats.total
  | .avg => Stats.avg
  | .max => Stats.max
  | .count => fun s => s.count

open Classical in
/-- `summary(sort_by, descending)` and `summary_self_time` (timer.py lines 146–182): a stable sort. -/
def summary (l : List Stats) (key : Key) (descending : Bool) : List Stats :=
  l.insertionSort fun a b => if descending then key.of b ≤ key.of a else key.of a ≤ key.of b

/-! ### Running averages -/

/-- `_running_means` and `_running_counts` (timer.py lines 55–56). -/
structure Run where
  means : List (Name × ℝ) := []
  counts : List (Name × ℕ) := []

/-- One step of `_update_running_average` (timer.py lines 626–632). -/
def updateOne (r : Run) (name : Name) (val : ℝ) : Run × ℝ :=
  let count := (dget r.counts name).getD 0 + 1
  let prev := (dget r.means name).getD val
  let new := prev + (val - prev) / count
  (⟨dset r.means name new, dset r.counts name count⟩, new)

/-- `_update_running_average` (timer.py lines 623–633). -/
def updateAll (r : Run) : List (Name × ℝ) → Run × List ℝ
  | [] => (r, [])
  | (n, v) :: l =>
    let a := updateOne r n v
    let b := updateAll a.1 l
    (b.1, a.2 :: b.2)

/-- The labels of `plot_bar` (timer.py lines 366–373) for a hierarchical timer:
`"  " * name.count(sep) + name.split(sep)[-1]`. -/
def label (sep : Char) (name : Name) : Name :=
  (List.replicate (name.count sep) [' ', ' ']).flatten ++ ((name.splitOn sep).getLast?).getD []

end
end Verif.Timer
