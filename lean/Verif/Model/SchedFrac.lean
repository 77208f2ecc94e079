import Verif.Model.Scheduler
import Verif.Model.CliValues

/-!
Schedules whose number of steps is a `float` (`/repo/scikit-topt/sktopt/tools/scheduler.py` lines 74–261, 809–830). The options `--p_step`,
`--vol_frac_step`, `--beta_step` and `--percentile_step` are read with `float_or_none` (core/misc.py lines 36–39, 84–116), so this is what the
command line hands to the schedules; `Verif.Model.Scheduler` has integer numbers of steps. Values are real numbers, as there; a number of steps
may also be NaN or infinite.
-/
namespace Verif.SchedFrac
open Verif Verif.Sched
open Verif.CliValues (PyFloat)

noncomputable section

/-- Lines 108–109 (158–159, 209–210) with a finite number of steps `q`: `min(int(it // (total / q)), q - 1)`. -/
def index (it total : ℤ) (q : ℝ) : ℝ := min (⌊(it : ℝ) / ((total : ℝ) / q)⌋ : ℝ) (q - 1)

/-- Line 112. -/
def alpha (it total : ℤ) (q : ℝ) : ℝ := index it total q / (q - 1)

/-- The guard and the step position shared by `schedule_step`, `schedule_step_accelerating` and `schedule_step_decelerating` (lines 102–112,
152–162, 203–212); `none` is the early return of the target. `nan <= 1` is false and `int(nan)` raises ValueError; an infinite number of
steps makes the step length zero, and `it // 0.0` raises ZeroDivisionError. -/
def position (it total : ℤ) : PyFloat → Res (Option ℝ)
  | .num q =>
    if total ≤ 0 then .error .valueError
    else if q ≤ 1 then .ok none
    else .ok (some (alpha it total q))
  | .nan => .error .valueError
  | .inf => if total ≤ 0 then .error .valueError else .error .zeroDivision
  | .ninf => if total ≤ 0 then .error .valueError else .ok none

/-- `schedule_step` (lines 74–114). -/
def scheduleStep (it total : ℤ) (init target : ℝ) (n : PyFloat) : Res ℝ := do
  match ← position it total n with
  | none => pure target
  | some a => pure ((1 - a) * init + a * target)

/-- `schedule_step_accelerating` (lines 117–166). -/
def scheduleStepAccelerating (it total : ℤ) (init target : ℝ) (n : PyFloat) (curvature : ℝ) : Res ℝ := do
  match ← position it total n with
  | none => pure target
  | some a =>
    let na ← pyPow a curvature
    pure ((1 - na) * init + na * target)

/-- `schedule_step_decelerating` (lines 169–216). -/
def scheduleStepDecelerating (it total : ℤ) (init target : ℝ) (n : PyFloat) (curvature : ℝ) : Res ℝ := do
  match ← position it total n with
  | none => pure target
  | some a =>
    let p ← pyPow (1 - a) curvature
    let na := 1 - p
    pure ((1 - na) * init + na * target)

/-- The three step functions. -/
inductive Shape where
  | step
  | accelerating (curvature : ℝ)
  | decelerating (curvature : ℝ)

/-- The call at the end of `Scheduler.value` (lines 822–829). -/
def Shape.call : Shape → ℤ → ℤ → ℝ → ℝ → PyFloat → Res ℝ
  | .step, it, total, i, t, n => scheduleStep it total i t n
  | .accelerating c, it, total, i, t, n => scheduleStepAccelerating it total i t n c
  | .decelerating c, it, total, i, t, n => scheduleStepDecelerating it total i t n c

/-- `num_steps < 0` (line 815). -/
def negative : PyFloat → Prop
  | .num q => q < 0
  | .ninf => True
  | _ => False

open Classical in
/-- `Scheduler.value` (lines 809–830) with the initial value, the target and the horizon set; the number of steps may be `None`. -/
def value (s : Shape) (init target : ℝ) (n : Option PyFloat) (itersMax it : ℤ) : Res ℝ :=
  match n with
  | none => .ok target
  | some n =>
    if negative n then .ok target
    else if it ≥ itersMax then .ok target
    else s.call it itersMax init target n

end
end Verif.SchedFrac
