import Verif.Model.Scheduler

/-! Specification of which scheduler configurations are complete (documentation table,
scheduler.py:283-325 and 356-393). -/
namespace Verif.Spec
open Verif.Sched

/-- The documented requirement table. -/
def CompleteConfig (c : Config) : Prop :=
  match c.schedType with
  | "Constant" => c.targetValue.isSome
  | "ConstantOne" => True
  | "None" => True
  | "Step" | "SawtoothDecay" => c.initValue.isSome ∧ c.targetValue.isSome ∧ c.numSteps.isSome
  | "StepAccelerating" | "StepDecelerating" =>
      c.initValue.isSome ∧ c.targetValue.isSome ∧ c.numSteps.isSome ∧ c.curvature.isSome
  | "StepToOne" =>
      (∃ n, c.numSteps = some n ∧ 0 < n) ∧ (∀ t, c.targetValue = some t → |t - 1| ≤ 1 / 10 ^ 9 * max |t| 1)
  | "StepAcceleratingToOne" | "StepDeceleratingToOne" =>
      (∃ n, c.numSteps = some n ∧ 0 < n) ∧ (∀ t, c.targetValue = some t → |t - 1| ≤ 1 / 10 ^ 9 * max |t| 1) ∧ c.curvature.isSome
  | _ => False

end Verif.Spec
