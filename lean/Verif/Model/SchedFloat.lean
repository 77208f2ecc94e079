import Verif.Model.Scheduler

/-!
The schedules of `/repo/scikit-topt/sktopt/tools/scheduler.py` lines 44–261, 746–830 in floating-point arithmetic.

Every operation on floats is the real operation followed by the rounding `fl`; overflow is not modelled (the theorems bound the arguments).
`pw` is the `pow` of the C library. Integers are exact, as in Python.
-/
namespace Verif.SchedFloat
open Verif Verif.Sched

noncomputable section
open Classical

/-- Python's `x // y` on floats for `y > 0` (scheduler.py lines 108, 157, 208, 256; CPython `Objects/floatobject.c`, `_float_div_mod`):
`mod = fmod(x, y)`, which is exact; `div = (x - mod) / y`; if `mod < 0` then `div -= 1`; `floordiv = floor(div)`, plus 1 if
`div - floordiv > 0.5`. The result is a float with an integer value; `int(...)` of it is returned here. -/
def floorDiv (fl : ℝ → ℝ) (x y : ℝ) : ℤ :=
  let quo : ℤ := if 0 ≤ x then ⌊x / y⌋ else ⌈x / y⌉
  let mod := x - y * quo
  let div0 := fl (fl (x - mod) / y)
  let div := if mod < 0 then fl (div0 - 1) else div0
  if 1 / 2 < fl (div - ⌊div⌋) then ⌊div⌋ + 1 else ⌊div⌋

/-- scheduler.py lines 108–109 (158–159, 209–210): `step_length = total / num_steps`, `min(int(it // step_length), num_steps - 1)`. -/
def stepIndex (fl : ℝ → ℝ) (it total numSteps : ℤ) : ℤ :=
  min (floorDiv fl (fl it) (fl ((total : ℝ) / numSteps))) (numSteps - 1)

/-- scheduler.py line 112: `alpha = step_index / (num_steps - 1)`. -/
def stepAlpha (fl : ℝ → ℝ) (it total numSteps : ℤ) : ℝ :=
  fl ((stepIndex fl it total numSteps : ℝ) / ((numSteps : ℝ) - 1))

/-- scheduler.py lines 113, 165, 215, 261: `(1 - a) * initial_value + a * target_value`. -/
def blend (fl : ℝ → ℝ) (a : ℝ) (init : Option ℝ) (target : ℝ) : Res ℝ :=
  match init with
  | none => .error .typeError
  | some i => .ok (fl (fl (fl (1 - a) * i) + fl (a * target)))

/-- `b ** e` (scheduler.py lines 163, 213). -/
def pyPow (pw : ℝ → ℝ → ℝ) (b e : ℝ) : Res ℝ :=
  if b = 0 ∧ e < 0 then .error .zeroDivision
  else if b < 0 ∧ ¬ ∃ k : ℤ, (k : ℝ) = e then .error .complexResult
  else .ok (pw b e)

/-- scheduler.py lines 74–114. -/
def scheduleStep (fl : ℝ → ℝ) (it total : ℤ) (init : Option ℝ) (target : ℝ) (numSteps : ℤ) : Res ℝ :=
  if total ≤ 0 then .error .valueError
  else if numSteps ≤ 1 then .ok target
  else blend fl (stepAlpha fl it total numSteps) init target

/-- scheduler.py lines 117–166. -/
def scheduleStepAccelerating (fl : ℝ → ℝ) (pw : ℝ → ℝ → ℝ) (it total : ℤ) (init : Option ℝ) (target : ℝ) (numSteps : ℤ)
    (curvature : Option ℝ) : Res ℝ :=
  if total ≤ 0 then .error .valueError
  else if numSteps ≤ 1 then .ok target
  else match curvature with
    | none => .error .typeError
    | some c => do
        let na ← pyPow pw (stepAlpha fl it total numSteps) c
        blend fl na init target

/-- scheduler.py lines 169–216. -/
def scheduleStepDecelerating (fl : ℝ → ℝ) (pw : ℝ → ℝ → ℝ) (it total : ℤ) (init : Option ℝ) (target : ℝ) (numSteps : ℤ)
    (curvature : Option ℝ) : Res ℝ :=
  if total ≤ 0 then .error .valueError
  else if numSteps ≤ 1 then .ok target
  else match curvature with
    | none => .error .typeError
    | some c => do
        let q ← pyPow pw (fl (1 - stepAlpha fl it total numSteps)) c
        blend fl (fl (1 - q)) init target

/-- scheduler.py lines 252–261: `alpha` of the sawtooth. -/
def sawAlpha (fl : ℝ → ℝ) (it total numSteps : ℤ) : ℝ :=
  let it0 : ℤ := it - 1
  let stepSize : ℝ := fl ((total : ℝ) / numSteps)
  let idx : ℤ := floorDiv fl (fl it0) stepSize
  let loc : ℝ := fl (fl it0 - fl (fl idx * stepSize))
  min (fl (loc / stepSize)) 1

/-- scheduler.py lines 219–261. -/
def scheduleSawtooth (fl : ℝ → ℝ) (it total : ℤ) (init : Option ℝ) (target : ℝ) (numSteps : ℤ) : Res ℝ :=
  if total ≤ 0 ∨ numSteps ≤ 0 then .error .valueError
  else blend fl (sawAlpha fl it total numSteps) init target

/-- The dispatch of scheduler.py lines 822–829. -/
def call (fl : ℝ → ℝ) (pw : ℝ → ℝ → ℝ) (f : Func) (it total : ℤ) (init : Option ℝ) (target : ℝ) (numSteps : ℤ)
    (curvature : Option ℝ) : Res ℝ :=
  match f with
  | .constant => .ok target
  | .step => scheduleStep fl it total init target numSteps
  | .accelerating => scheduleStepAccelerating fl pw it total init target numSteps curvature
  | .decelerating => scheduleStepDecelerating fl pw it total init target numSteps curvature
  | .sawtooth => scheduleSawtooth fl it total init target numSteps
  | .noneFunc => .error .typeError

/-- scheduler.py lines 809–830 `Scheduler.value`. The stored initial value is rounded here: it is a float already, except for the
`1.0 / num_steps` of the `*ToOne` types (lines 768, 774, 785), which `Sched.fromConfig` leaves unrounded. -/
def value (fl : ℝ → ℝ) (pw : ℝ → ℝ → ℝ) (s : Scheduler) (it : ℤ) : Res (Option ℝ) :=
  match s.targetValue with
  | none => .ok none
  | some t =>
    match s.numSteps with
    | none => .ok (some t)
    | some n =>
      if n < 0 then .ok (some t)
      else match s.itersMax with
        | none => .error .typeError
        | some m =>
          if it ≥ m then .ok (some t)
          else (call fl pw s.func it m (s.initValue.map fl) t n s.curvature).map some

/-- `Scheduler.from_config(cfg).value(it)` (scheduler.py lines 746–830) in floating-point arithmetic. -/
def valueOf (fl : ℝ → ℝ) (pw : ℝ → ℝ → ℝ) (cfg : Res Config) (it : ℤ) : Res (Option ℝ) := do
  let c1 ← cfg
  let (s, _) ← fromConfig c1
  value fl pw s it

end
end Verif.SchedFloat
