import Verif.Model.History

/-!
The histories an optimizer records: `/repo/scikit-topt/sktopt/core/optimizers/common_density.py` lines 591–624
(`add_recorder`, `params_latest`) and 1136–1157 (one iteration), `oc.py` lines 119–121, 247–250, `logmoc.py` lines
77–82, 238–245; and the views and the comparison of histories: `/repo/scikit-topt/sktopt/tools/history.py` lines 92–122,
234–276, 385–427.

The numbers an iteration records are given; how they are computed is in `Verif.Model.Run`.
-/
namespace Verif.Recorder
open Verif.History
open Verif.Snapshot (Name)

/-- `"value"` -/
def valueType : Name := "value".toList

/-- `HistoryCollection.add(name, plot_type=…, ylog=…)` (history.py:319–373). -/
def addSeries (c : Coll ℝ) (name plotType : Name) (ylog : Bool) : Coll ℝ :=
  register c { name := name, plotType := plotType, ylog := ylog }

/-- common_density.py:591–611 `add_recorder`; `objective` and `objectiveLog` are the results of
`_objective_history_name` and `_objective_history_ylog` (613–621). -/
def addRecorder (nTasks : ℕ) (objective : Name) (objectiveLog : Bool) : Coll ℝ :=
  let c := addSeries [] "rho_projected".toList stdType false
  let c := addSeries c "energy".toList stdType false
  let c := addSeries c "vol_error".toList valueType false
  let c := addSeries c "u_max".toList (if nTasks > 1 then stdType else valueType) false
  let c := addSeries c objective valueType objectiveLog
  let c := addSeries c "scaling_rate".toList stdType false
  let c := addSeries c "neumann_scale".toList valueType false
  let c := addSeries c "rho_change_max".toList valueType false
  addSeries c "kkt_residual".toList valueType false

/-- oc.py:119–121. -/
def ocRecorder (nTasks : ℕ) (objective : Name) (objectiveLog : Bool) : Coll ℝ :=
  let c := addRecorder nTasks objective objectiveLog
  let c := addSeries c "-dC".toList stdType true
  addSeries c "lmid".toList valueType true

/-- logmoc.py:76–82. -/
def logRecorder (nTasks : ℕ) (objective : Name) (objectiveLog : Bool) : Coll ℝ :=
  let c := addRecorder nTasks objective objectiveLog
  let c := addSeries c "dL".toList stdType false
  let c := addSeries c "-dC".toList stdType true
  let c := addSeries c "lambda_v".toList valueType false
  let c := addSeries c "constraint_coeff".toList valueType false
  let c := addSeries c "dV_chain".toList stdType true
  addSeries c "volume_chain_scale".toList valueType true

/-- The numbers every optimizer records in one iteration. -/
structure Line where
  volError : ℝ
  kkt : ℝ
  minusDC : List ℝ
  rhoChange : ℝ
  rhoProjected : List ℝ
  energy : List ℝ
  objective : ℝ
  scalingRate : List ℝ
  uMax : List ℝ
  neumannScale : ℝ

/-- The further number of an OC iteration. -/
structure OCLine extends Line where
  lmid : ℝ

/-- The further numbers of a LogMOC iteration. -/
structure LogLine extends Line where
  lambdaV : ℝ
  constraintCoeff : ℝ
  dVChain : List ℝ
  volumeChainScale : ℝ
  dL : List ℝ

/-- common_density.py:1154: `u_max[0] if len(u_max) == 1 else np.array(u_max)`. -/
def uMaxInput (l : List ℝ) : Input ℝ := if l.length = 1 then .scalar (l.headD 0) else .array l

/-- common_density.py:1136–1157: what the iteration feeds after `rho_update`. -/
def commonFeeds (objective : Name) (v : Line) : List (Name × Input ℝ) :=
  [("rho_change_max".toList, .scalar v.rhoChange), ("rho_projected".toList, .array v.rhoProjected),
   ("energy".toList, .array v.energy), (objective, .scalar v.objective), ("scaling_rate".toList, .array v.scalingRate),
   ("u_max".toList, uMaxInput v.uMax), ("neumann_scale".toList, .scalar v.neumannScale)]

/-- oc.py:247–250, then the common part. -/
def ocFeeds (objective : Name) (v : OCLine) : List (Name × Input ℝ) :=
  [("lmid".toList, .scalar v.lmid), ("vol_error".toList, .scalar v.volError), ("-dC".toList, .array v.minusDC),
   ("kkt_residual".toList, .scalar v.kkt)] ++ commonFeeds objective v.toLine

/-- logmoc.py:238–245, then the common part. -/
def logFeeds (objective : Name) (v : LogLine) : List (Name × Input ℝ) :=
  [("lambda_v".toList, .scalar v.lambdaV), ("constraint_coeff".toList, .scalar v.constraintCoeff),
   ("vol_error".toList, .scalar v.volError), ("-dC".toList, .array v.minusDC), ("dV_chain".toList, .array v.dVChain),
   ("volume_chain_scale".toList, .scalar v.volumeChainScale), ("dL".toList, .array v.dL),
   ("kkt_residual".toList, .scalar v.kkt)] ++ commonFeeds objective v.toLine

/-- The `feed_data` calls of one iteration, in order. -/
noncomputable def feedAll (c : Coll ℝ) : List (Name × Input ℝ) → Res (Coll ℝ)
  | [] => .ok c
  | (name, x) :: rest => do
    let c' ← feedData c name x
    feedAll c' rest

/-- The recorder after the given iterations. -/
noncomputable def record {V : Type} (feeds : V → List (Name × Input ℝ)) (c : Coll ℝ) : List V → Res (Coll ℝ)
  | [] => .ok c
  | v :: vs => do
    let c' ← feedAll c (feeds v)
    record feeds c' vs

/-! ### Views -/

/-- history.py:92–122 `data_np_array`: the entries along the first axis. No entry, a float among rows, a row among floats,
or rows of different lengths: `ValueError`. -/
def dataNpArray {α : Type} (s : Series α) : Res (List (Entry α)) :=
  match s.data with
  | [] => .error .valueError
  | .scalar x :: l =>
    match scalars l with
    | none => .error .valueError
    | some xs => .ok (.scalar x :: xs.map .scalar)
  | .row r :: l =>
    match rowsOf l with
    | none => .error .valueError
    | some rs => if rs.all (fun r' => r'.length == r.length) then .ok (.row r :: rs.map .row) else .error .valueError

/-- history.py:385–406 `as_object`: the attributes in the order they are set. -/
def asObject {α : Type} (c : Coll α) : Res (List (Name × List (Entry α))) :=
  c.mapM fun x => do
    let a ← dataNpArray x.2
    pure (x.1, a)

/-- history.py:408–427 `as_object_latest` (`params_latest` of the optimizer, common_density.py:623–624). -/
def asObjectLatest {α : Type} (c : Coll α) : Res (List (Name × Entry α)) :=
  c.mapM fun x => do
    let a ← dataNpArray x.2
    match a.getLast? with
    | none => .error .indexError
    | some e => pure (x.1, e)

/-! ### Comparison -/

/-- A Python float. -/
inductive Num where
  | fin (x : ℝ)
  | inf (positive : Bool)
  | nan

open Classical in
/-- `np.isclose(a, b, equal_nan=True)` with the default tolerances, on one pair of floats; infinite values are close only
to themselves. -/
noncomputable def close : Num → Num → Bool
  | .fin a, .fin b => decide (|a - b| ≤ 1 / 10 ^ 8 + 1 / 10 ^ 5 * |b|)
  | .inf p, .inf q => p == q
  | .nan, .nan => true
  | _, _ => false

/-- `np.array(data, dtype=float)`: shape and entries. -/
def asFloats {α : Type} (data : List (Entry α)) : Res (List ℕ × List α) :=
  match data with
  | [] => .ok ([0], [])
  | .scalar x :: l =>
    match scalars l with
    | none => .error .valueError
    | some xs => .ok ([(x :: xs).length], x :: xs)
  | .row r :: l =>
    match rowsOf l with
    | none => .error .valueError
    | some rs =>
      if rs.all (fun r' => r'.length == r.length) then .ok ([(r :: rs).length, r.length], (r :: rs).flatten)
      else .error .valueError

/-- history.py:259–275, the loop over the keys of the first dictionary; both dictionaries have the same keys. -/
noncomputable def compareLoop (h2 : Coll Num) : Coll Num → Res Bool
  | [] => .ok true
  | (key, a) :: rest =>
    match dget h2 key with
    | none => .error .keyError
    | some b =>
      if a.plotType ≠ b.plotType then .ok false
      else do
        let x ← asFloats a.data
        let y ← asFloats b.data
        if x.1 ≠ y.1 then pure false
        else if (x.2.zip y.2).all (fun p => close p.1 p.2) then compareLoop h2 rest
        else pure false

/-- history.py:234–276 `compare_histories_data_and_plot_type`. -/
noncomputable def compareHistories (h1 h2 : Coll Num) : Res Bool :=
  if (h1.all fun x => (h2.map Prod.fst).contains x.1) && (h2.all fun x => (h1.map Prod.fst).contains x.1) then
    compareLoop h2 h1
  else .ok false

end Verif.Recorder
