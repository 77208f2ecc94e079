import Verif.Model.Py
import Mathlib.Analysis.SpecialFunctions.Pow.Real
import Mathlib.Algebra.Order.Floor.Ring

/-!
Model of `/repo/scikit-topt/sktopt/tools/scheduler.py`.

Simplifications: `float` is `ℝ`; `num_steps`, `iters_max`, `it` are `int` (`ℤ`), the NumPy-array form of `iter`
is not modelled; logging and plotting are not modelled.
-/
namespace Verif.Sched
open Verif

noncomputable section

open Classical in
/-- Python `b ** e` on floats (used at scheduler.py:163, 213): `0.0 ** negative` raises ZeroDivisionError, a
negative base with a fractional exponent leaves the floats. -/
def pyPow (b e : ℝ) : Res ℝ :=
  if b = 0 ∧ e < 0 then .error .zeroDivision
  else if b < 0 ∧ ¬ ∃ k : ℤ, (k : ℝ) = e then .error .complexResult
  else .ok (b ^ e)

/-- scheduler.py:14-30 `schedule_exp_slowdown`. `rate = 0` divides by zero (Python float division raises only for
Python floats; NumPy yields nan) and is reported as an error value. -/
def expSlowdown (it total : ℤ) (init target rate : ℝ) : Res ℝ :=
  if total ≤ 0 then .error .valueError
  else if rate = 0 then .error .zeroDivision
  else
    let t : ℝ := it / total
    let decay := Real.exp (-rate * t)
    let finalDecay := Real.exp (-rate)
    if init > target then
      .ok (target + (init - target) * (decay - finalDecay) / (1 - finalDecay))
    else
      .ok (target - (target - init) * (decay - finalDecay) / (1 - finalDecay))

/-- scheduler.py:33-41 `schedule_exp_accelerate` (`it / total` raises for `total = 0`). -/
def expAccelerate (it total : ℤ) (init target rate : ℝ) : Res ℝ :=
  if total = 0 then .error .zeroDivision
  else
    let t : ℝ := it / total
    if init > target then
      .ok (target + (init - target) * (1 - Real.exp (rate * (t - 1))))
    else
      .ok (target - (target - init) * (1 - Real.exp (rate * (t - 1))))

/-- scheduler.py:108-109 (also 158-159 and 209-210): `step_length = total / num_steps`,
`min(int(it // step_length), num_steps - 1)`. Exact real division instead of float division. -/
def stepIndex (it total numSteps : ℤ) : ℤ :=
  min ⌊(it : ℝ) / ((total : ℝ) / (numSteps : ℝ))⌋ (numSteps - 1)

/-- scheduler.py:112 `alpha = step_index / (num_steps - 1)`. -/
def stepAlpha (it total numSteps : ℤ) : ℝ :=
  (stepIndex it total numSteps : ℝ) / ((numSteps : ℝ) - 1)

/-- scheduler.py:113, 165, 215, 261 `(1 - a) * initial_value + a * target_value`; `initial_value = None` makes the
multiplication raise TypeError. -/
def blend (a : ℝ) (init : Option ℝ) (target : ℝ) : Res ℝ :=
  match init with
  | none => .error .typeError
  | some i => .ok ((1 - a) * i + a * target)

/-- scheduler.py:74-114 `schedule_step`. -/
def scheduleStep (it total : ℤ) (init : Option ℝ) (target : ℝ) (numSteps : ℤ) : Res ℝ :=
  if total ≤ 0 then .error .valueError
  else if numSteps ≤ 1 then .ok target
  else blend (stepAlpha it total numSteps) init target

/-- scheduler.py:117-166 `schedule_step_accelerating`; `alpha ** None` raises TypeError. -/
def scheduleStepAccelerating (it total : ℤ) (init : Option ℝ) (target : ℝ) (numSteps : ℤ)
    (curvature : Option ℝ) : Res ℝ :=
  if total ≤ 0 then .error .valueError
  else if numSteps ≤ 1 then .ok target
  else match curvature with
    | none => .error .typeError
    | some c => do
        let na ← pyPow (stepAlpha it total numSteps) c
        blend na init target

/-- scheduler.py:169-216 `schedule_step_decelerating`. -/
def scheduleStepDecelerating (it total : ℤ) (init : Option ℝ) (target : ℝ) (numSteps : ℤ)
    (curvature : Option ℝ) : Res ℝ :=
  if total ≤ 0 then .error .valueError
  else if numSteps ≤ 1 then .ok target
  else match curvature with
    | none => .error .typeError
    | some c => do
        let q ← pyPow (1 - stepAlpha it total numSteps) c
        blend (1 - q) init target

/-- scheduler.py:219-261 `schedule_sawtooth_decay`. -/
def scheduleSawtooth (it total : ℤ) (init : Option ℝ) (target : ℝ) (numSteps : ℤ) : Res ℝ :=
  if total ≤ 0 ∨ numSteps ≤ 0 then .error .valueError
  else
    let it0 : ℤ := it - 1
    let stepSize : ℝ := (total : ℝ) / (numSteps : ℝ)
    let idx : ℤ := ⌊(it0 : ℝ) / stepSize⌋
    let loc : ℝ := (it0 : ℝ) - (idx : ℝ) * stepSize
    let alpha : ℝ := min (loc / stepSize) 1
    blend alpha init target

/-- The values the `func` attribute of a `Scheduler` takes in `Scheduler.from_config` (scheduler.py:750-787). -/
inductive Func where
  | constant | step | accelerating | decelerating | sawtooth | noneFunc
  deriving DecidableEq, Repr

/-- scheduler.py:327-333, dataclass fields of `SchedulerConfig`; `scheduler_type` is an arbitrary string because
Python does not check the `Literal` annotation. -/
structure Config where
  name : Option String := none
  initValue : Option ℝ := none
  targetValue : Option ℝ := none
  numSteps : Option ℤ := none
  itersMax : Option ℤ := none
  curvature : Option ℝ := none
  schedType : String := "Constant"

/-- `math.isclose(x, 1.0)` with the default `rel_tol = 1e-9`, `abs_tol = 0` (scheduler.py:435, 446, 457):
`abs(a - b) <= rel_tol * max(abs(a), abs(b))`. -/
def isCloseOne (x : ℝ) : Prop := |x - 1| ≤ (1 / 10 ^ 9) * max |x| 1

open Classical in
/-- The shared `num_steps`/`target_value` check of the `*ToOne` branches (scheduler.py:431-438, 440-449, 451-460).
`needCurv` says whether `curvature is None` is rejected. -/
def toOneBranch (c : Config) (needCurv : Bool) : Res Config :=
  match c.numSteps with
  | none => .error .valueError
  | some n =>
    if n ≤ 0 then .error .valueError
    else if needCurv ∧ c.curvature = none then .error .valueError
    else if (∃ t, c.targetValue = some t ∧ ¬ isCloseOne t) then .error .valueError
    else .ok { c with targetValue := some 1, initValue := some (1 / (n : ℝ)) }

/-- scheduler.py:335-499 `SchedulerConfig.from_defaults`; the argument record `c` carries the keyword arguments. -/
def fromDefaults (c : Config) : Res Config :=
  if c.schedType = "Constant" then
    -- 415-419
    match c.targetValue with
    | none => .error .valueError
    | some t => .ok { c with initValue := some (c.initValue.getD t) }
  else if c.schedType = "ConstantOne" then
    -- 420-422
    .ok { c with initValue := some 1, targetValue := some 1 }
  else if c.schedType = "Step" then
    -- 423-429
    if c.initValue = none then .error .valueError
    else if c.targetValue = none then .error .valueError
    else if c.numSteps = none then .error .valueError
    else .ok c
  else if c.schedType = "StepToOne" then toOneBranch c false
  else if c.schedType = "StepAcceleratingToOne" then toOneBranch c true
  else if c.schedType = "StepDeceleratingToOne" then toOneBranch c true
  else if c.schedType = "StepAccelerating" ∨ c.schedType = "StepDecelerating" then
    -- 461-478 (two textually equal branches)
    if c.initValue = none then .error .valueError
    else if c.targetValue = none then .error .valueError
    else if c.numSteps = none then .error .valueError
    else if c.curvature = none then .error .valueError
    else .ok c
  else if c.schedType = "SawtoothDecay" then
    -- 479-485
    if c.initValue = none then .error .valueError
    else if c.targetValue = none then .error .valueError
    else if c.numSteps = none then .error .valueError
    else .ok c
  else if c.schedType = "None" then .ok c      -- 486-487
  else .error .valueError                       -- 488-489

/-- scheduler.py:728-744, attributes of a `Scheduler`. -/
structure Scheduler where
  name : Option String
  initValue : Option ℝ
  targetValue : Option ℝ
  numSteps : Option ℤ
  itersMax : Option ℤ
  curvature : Option ℝ
  func : Func

/-- scheduler.py:766-769 etc.: `if cfg.num_steps: cfg.init_value = 1.0 / cfg.num_steps` (0 and None are falsy). -/
def toOneMutate (c : Config) : Config :=
  { c with
    targetValue := some 1
    initValue := match c.numSteps with
      | none => c.initValue
      | some n => if n = 0 then c.initValue else some (1 / (n : ℝ)) }

/-- scheduler.py:799-807, the constructor call at the end of `from_config`. -/
def mkScheduler (c : Config) (f : Func) : Scheduler :=
  { name := c.name, initValue := c.initValue, targetValue := c.targetValue, numSteps := c.numSteps,
    itersMax := c.itersMax, curvature := c.curvature, func := f }

/-- scheduler.py:746-807 `Scheduler.from_config`. Returns the scheduler and the configuration object as mutated by
the call (on the error branch nothing was mutated). -/
def fromConfig (c : Config) : Res (Scheduler × Config) :=
  if c.schedType = "Constant" then
    let c' := { c with initValue := c.targetValue, itersMax := none, numSteps := none, curvature := none }
    .ok (mkScheduler c' .constant, c')
  else if c.schedType = "ConstantOne" then
    let c' := { c with initValue := some 1, targetValue := some 1, itersMax := none, numSteps := none,
                       curvature := none }
    .ok (mkScheduler c' .constant, c')
  else if c.schedType = "Step" then .ok (mkScheduler c .step, c)
  else if c.schedType = "StepToOne" then
    let c' := toOneMutate c
    .ok (mkScheduler c' .step, c')
  else if c.schedType = "StepAcceleratingToOne" then
    let c' := toOneMutate c
    .ok (mkScheduler c' .accelerating, c')
  else if c.schedType = "StepAccelerating" then .ok (mkScheduler c .accelerating, c)
  else if c.schedType = "StepDecelerating" then .ok (mkScheduler c .decelerating, c)
  else if c.schedType = "StepDeceleratingToOne" then
    let c' := toOneMutate c
    .ok (mkScheduler c' .decelerating, c')
  else if c.schedType = "SawtoothDecay" then .ok (mkScheduler c .sawtooth, c)
  else if c.schedType = "None" then .ok (mkScheduler c .noneFunc, c)
  else .error .valueError

/-- The dispatch `self.func(it=..., total=..., ...)` of scheduler.py:822-829; `func = None` is not callable. -/
def Func.call (f : Func) (it total : ℤ) (init : Option ℝ) (target : ℝ) (numSteps : ℤ)
    (curvature : Option ℝ) : Res ℝ :=
  match f with
  | .constant => .ok target                               -- scheduler.py:44-71
  | .step => scheduleStep it total init target numSteps
  | .accelerating => scheduleStepAccelerating it total init target numSteps curvature
  | .decelerating => scheduleStepDecelerating it total init target numSteps curvature
  | .sawtooth => scheduleSawtooth it total init target numSteps
  | .noneFunc => .error .typeError

/-- scheduler.py:809-830 `Scheduler.value`; `iter >= None` raises TypeError. The result `none` is Python `None`. -/
def Scheduler.value (s : Scheduler) (it : ℤ) : Res (Option ℝ) :=
  match s.targetValue with
  | none => .ok none
  | some t =>
    match s.numSteps with
    | none => .ok (some t)
    | some n =>
      if n < 0 then .ok (some t)
      else match s.itersMax with
        | none => .error .typeError
        | some m =>
          if it ≥ m then .ok (some t)
          else (s.func.call it m s.initValue t n s.curvature).map some

/-- The calls a user makes on a configuration: `Scheduler.from_config(cfg).value(it)`
(scheduler.py:747, 809; the composition shown in the class docstrings, e.g. 869-878). -/
def valueOf (cfg : Res Config) (it : ℤ) : Res (Option ℝ) := do
  let c1 ← cfg
  let (s, _) ← fromConfig c1
  s.value it

/-! ### Factories (scheduler.py:501-682) -/

/-- scheduler.py:501-505 `SchedulerConfig.none`. -/
def cfgNone : Res Config := fromDefaults { schedType := "None" }

/-- scheduler.py:507-522 `SchedulerConfig.constant`. -/
def cfgConstant (name : Option String) (target : ℝ) : Res Config :=
  fromDefaults { name, initValue := some target, targetValue := some target, schedType := "Constant" }

/-- scheduler.py:524-538 `SchedulerConfig.constant_one`. -/
def cfgConstantOne (name : Option String) : Res Config :=
  fromDefaults { name, initValue := some 1, targetValue := some 1, schedType := "ConstantOne" }

/-- scheduler.py:540-558 `SchedulerConfig.step`. -/
def cfgStep (name : Option String) (init target : Option ℝ) (n m : Option ℤ) : Res Config :=
  fromDefaults { name, initValue := init, targetValue := target, numSteps := n, itersMax := m,
                 schedType := "Step" }

/-- scheduler.py:560-576 `SchedulerConfig.step_to_one`. -/
def cfgStepToOne (name : Option String) (n m : Option ℤ) : Res Config :=
  fromDefaults { name, targetValue := some 1, numSteps := n, itersMax := m, schedType := "StepToOne" }

/-- scheduler.py:578-597 `SchedulerConfig.step_accelerating`. -/
def cfgStepAccelerating (name : Option String) (init target : Option ℝ) (n m : Option ℤ)
    (curvature : Option ℝ) : Res Config :=
  fromDefaults { name, initValue := init, targetValue := target, numSteps := n, itersMax := m, curvature,
                 schedType := "StepAccelerating" }

/-- scheduler.py:599-616 `SchedulerConfig.step_accelerating_to_one`. -/
def cfgStepAcceleratingToOne (name : Option String) (n m : Option ℤ) (curvature : Option ℝ) : Res Config :=
  fromDefaults { name, targetValue := some 1, numSteps := n, itersMax := m, curvature,
                 schedType := "StepAcceleratingToOne" }

/-- scheduler.py:618-637 `SchedulerConfig.step_decelerating`. -/
def cfgStepDecelerating (name : Option String) (init target : Option ℝ) (n m : Option ℤ)
    (curvature : Option ℝ) : Res Config :=
  fromDefaults { name, initValue := init, targetValue := target, numSteps := n, itersMax := m, curvature,
                 schedType := "StepDecelerating" }

/-- scheduler.py:639-656 `SchedulerConfig.step_decelerating_to_one`. -/
def cfgStepDeceleratingToOne (name : Option String) (n m : Option ℤ) (curvature : Option ℝ) : Res Config :=
  fromDefaults { name, targetValue := some 1, numSteps := n, itersMax := m, curvature,
                 schedType := "StepDeceleratingToOne" }

/-- scheduler.py:658-682 `SchedulerConfig.sawtooth_decay` (argument order `init, target, iters_max, num_steps`;
calls the constructor directly, no validation). -/
def cfgSawtooth (name : Option String) (init target : ℝ) (itersMax : ℤ := 100) (numSteps : ℤ := 6) :
    Res Config :=
  .ok { name, initValue := some init, targetValue := some target, numSteps := some numSteps,
        itersMax := some itersMax, schedType := "SawtoothDecay" }

/-! ### The collection `Schedulers` (scheduler.py:1154-1223) -/

/-- scheduler.py:1155-1156: the list of schedulers, oldest first. -/
abbrev Schedulers := List Scheduler

/-- scheduler.py:1159-1161 `set_iters_max`. -/
def Schedulers.setItersMax (ss : Schedulers) (m : ℤ) : Schedulers :=
  ss.map fun s => { s with itersMax := some m }

/-- scheduler.py:1168-1172 `values_as_dict`: an insertion-ordered Python dict as an association list whose entries
are overwritten in place (`ret[sche.name] = ...`). Evaluation of `value` may raise. -/
def Schedulers.valuesAsDict (ss : Schedulers) (it : ℤ) : Res (List (Option String × Option ℝ)) :=
  ss.foldlM (init := []) fun d s => do
    let v ← s.value it
    pure (if d.any (fun e => e.1 == s.name) then
      d.map (fun e => if e.1 == s.name then (e.1, v) else e)
    else d ++ [(s.name, v)])

/-- Python `d[k]` on the association list (KeyError when missing), scheduler.py:1180-1182. -/
def dictGet (d : List (Option String × Option ℝ)) (k : String) : Res (Option ℝ) :=
  match d.lookup (some k) with
  | none => .error .keyError
  | some v => .ok v

/-- scheduler.py:1174-1189 `values_as_list` (the log output is not modelled). -/
def Schedulers.valuesAsList (ss : Schedulers) (it : ℤ) (order : List String) : Res (List (Option ℝ)) := do
  let d ← ss.valuesAsDict it
  order.mapM (dictGet d)

/-- scheduler.py:1191-1194 `add_object`. -/
def Schedulers.addObject (ss : Schedulers) (s : Scheduler) : Schedulers := ss ++ [s]

/-- scheduler.py:1196-1206 `add_object_from_config`; also returns the mutated configuration. -/
def Schedulers.addFromConfig (ss : Schedulers) (c : Config) (rename : Option String) :
    Res (Schedulers × Config) := do
  let c1 := match rename with
    | some r => { c with name := some r }
    | none => c
  let (s, c2) ← fromConfig c1
  pure (ss.addObject s, c2)

end
end Verif.Sched
