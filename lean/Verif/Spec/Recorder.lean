import Verif.Model.Recorder
import Verif.Props.History

/-! What the recorded histories of a run are meant to be. -/
namespace Verif.Recorder.Spec
open Verif.History
open Verif.Snapshot (Name)

/-- An entry holding the minimum, mean, maximum and standard deviation of the numbers `xs`. -/
def Statistics (xs : List ℝ) (e : Entry ℝ) : Prop :=
  ∃ lo mu hi sd, e = .row [lo, mu, hi, sd] ∧ IsMin lo xs ∧ IsMax hi xs ∧ mu * xs.length = xs.sum ∧
    0 ≤ sd ∧ sd ^ 2 * xs.length = (xs.map fun x => (x - mu) ^ 2).sum

/-- The history `name` has one entry for every iteration, in order, related to the iteration by `P`. -/
def Column {V : Type} (c : Coll ℝ) (name : String) (P : V → Entry ℝ → Prop) (vs : List V) : Prop :=
  ∃ s, (name.toList, s) ∈ c ∧ List.Forall₂ P vs s.data

/-- The histories every optimizer records. -/
structure Common {V : Type} (line : V → Line) (objective : String) (c : Coll ℝ) (vs : List V) : Prop where
  volError : Column c "vol_error" (fun v e => e = .scalar (line v).volError) vs
  kkt : Column c "kkt_residual" (fun v e => e = .scalar (line v).kkt) vs
  rhoChange : Column c "rho_change_max" (fun v e => e = .scalar (line v).rhoChange) vs
  objective : Column c objective (fun v e => e = .scalar (line v).objective) vs
  neumannScale : Column c "neumann_scale" (fun v e => e = .scalar (line v).neumannScale) vs
  minusDC : Column c "-dC" (fun v e => Statistics (line v).minusDC e) vs
  rhoProjected : Column c "rho_projected" (fun v e => Statistics (line v).rhoProjected e) vs
  energy : Column c "energy" (fun v e => Statistics (line v).energy e) vs
  scalingRate : Column c "scaling_rate" (fun v e => Statistics (line v).scalingRate e) vs
  uMaxOne : (∀ v ∈ vs, (line v).uMax.length = 1) →
    Column c "u_max" (fun v e => ∃ u, (line v).uMax = [u] ∧ e = .scalar u) vs
  uMaxMany : (∀ v ∈ vs, 1 < (line v).uMax.length) → Column c "u_max" (fun v e => Statistics (line v).uMax e) vs

/-- An iteration with `nTasks` load cases and at least one design element. -/
def Proper (nTasks : ℕ) (v : Line) : Prop :=
  v.uMax.length = nTasks ∧ v.minusDC ≠ [] ∧ v.rhoProjected ≠ [] ∧ v.energy ≠ [] ∧ v.scalingRate ≠ []

/-- The names under which an objective is recorded. -/
def IsObjective (name : String) : Prop := name = "compliance" ∨ name = "heat_exchange" ∨ name = "averaged_temp"

/-- The histories every optimizer creates: name, plot type, logarithmic axis. -/
def commonKinds (nTasks : ℕ) (objective : String) (objectiveLog : Bool) : List (Name × Name × Bool) :=
  [("rho_projected".toList, "min-max-mean-std".toList, false), ("energy".toList, "min-max-mean-std".toList, false),
   ("vol_error".toList, "value".toList, false),
   ("u_max".toList, if nTasks > 1 then "min-max-mean-std".toList else "value".toList, false),
   (objective.toList, "value".toList, objectiveLog), ("scaling_rate".toList, "min-max-mean-std".toList, false),
   ("neumann_scale".toList, "value".toList, false), ("rho_change_max".toList, "value".toList, false),
   ("kkt_residual".toList, "value".toList, false)]

/-- Two entries that count as equal up to rounding: equal shapes and close numbers. -/
inductive EntryClose : Entry Num → Entry Num → Prop
  | scalar (x y : Num) : close x y = true → EntryClose (.scalar x) (.scalar y)
  | row (xs ys : List Num) : List.Forall₂ (fun x y => close x y = true) xs ys → EntryClose (.row xs) (.row ys)

/-- All entries floats, or all entries rows of one length. -/
def Uniform {α : Type} (s : Series α) : Prop :=
  (∃ xs : List α, s.data = xs.map .scalar) ∨ ∃ (w : ℕ) (rows : List (List α)), s.data = rows.map .row ∧ ∀ r ∈ rows, r.length = w

end Verif.Recorder.Spec
