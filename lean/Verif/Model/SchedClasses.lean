import Verif.Model.Scheduler

/-!
Model of the `Scheduler` subclasses of `/repo/scikit-topt/sktopt/tools/scheduler.py` lines 833–1151 and of `from_config` called on them.

Simplifications: as in `Verif.Model.Scheduler` (`float` is `ℝ`, `num_steps` and `iters_max` are integers or `None`).
-/
namespace Verif.Sched
open Verif

noncomputable section

/-- `Scheduler.__init__` (scheduler.py lines 728–744): stores its arguments. The argument order is that of the signature. -/
def newScheduler (name : Option String) (init target : Option ℝ) (numSteps : Option ℤ) (itersMax : Option ℤ) (curvature : Option ℝ)
    (func : Func) : Scheduler :=
  { name := name, initValue := init, targetValue := target, numSteps := numSteps, itersMax := itersMax, curvature := curvature, func := func }

/-- `SchedulerStep.__init__` (scheduler.py lines 881–897). -/
def newStep (name : Option String) (init target : Option ℝ) (numSteps itersMax : Option ℤ) : Scheduler :=
  newScheduler name init target numSteps itersMax none .step

/-- `SchedulerStepToOne.__init__` (scheduler.py lines 911–929). -/
def newStepToOne (name : Option String) (numSteps itersMax : Option ℤ) : Res Scheduler :=
  match numSteps with
  | none => .error .valueError
  | some n =>
    if n ≤ 0 then .error .valueError
    else .ok (newScheduler name (some (1 / (n : ℝ))) (some 1) (some n) itersMax none .step)

/-- `SchedulerStepAcceleratingToOne.__init__` (scheduler.py lines 935–956). -/
def newStepAcceleratingToOne (name : Option String) (numSteps itersMax : Option ℤ) (curvature : Option ℝ) : Res Scheduler :=
  match numSteps with
  | none => .error .valueError
  | some n =>
    if n ≤ 0 then .error .valueError
    else match curvature with
      | none => .error .valueError
      | some c => .ok (newScheduler name (some (1 / (n : ℝ))) (some 1) (some n) itersMax (some c) .accelerating)

/-- `SchedulerStepDeceleratingToOne.__init__` (scheduler.py lines 962–983). -/
def newStepDeceleratingToOne (name : Option String) (numSteps itersMax : Option ℤ) (curvature : Option ℝ) : Res Scheduler :=
  match numSteps with
  | none => .error .valueError
  | some n =>
    if n ≤ 0 then .error .valueError
    else match curvature with
      | none => .error .valueError
      | some c => .ok (newScheduler name (some (1 / (n : ℝ))) (some 1) (some n) itersMax (some c) .decelerating)

/-- `SchedulerStepAccelerating.__init__` (scheduler.py lines 1034–1051). -/
def newStepAccelerating (name : Option String) (init target : Option ℝ) (numSteps itersMax : Option ℤ) (curvature : Option ℝ) : Scheduler :=
  newScheduler name init target numSteps itersMax curvature .accelerating

/-- `SchedulerStepDecelerating.__init__` (scheduler.py lines 1064–1081). -/
def newStepDecelerating (name : Option String) (init target : Option ℝ) (numSteps itersMax : Option ℤ) (curvature : Option ℝ) : Scheduler :=
  newScheduler name init target numSteps itersMax curvature .decelerating

/-- `SchedulerSawtoothDecay.__init__` (scheduler.py lines 1135–1151); the order is `num_steps` before `iters_max`. -/
def newSawtooth (name : Option String) (init target : Option ℝ) (numSteps itersMax : Option ℤ) : Scheduler :=
  newScheduler name init target numSteps itersMax none .sawtooth

/-- The classes `from_config` can be called on. -/
inductive Class where
  | scheduler | step | stepToOne | stepAcceleratingToOne | stepDeceleratingToOne | stepAccelerating | stepDecelerating | sawtoothDecay
  deriving DecidableEq, Repr

/-- The parameters of each class's `__init__` after `self` (scheduler.py lines 728–737, 881–888, 911–916, 935–941, 962–968, 1034–1042,
1064–1072, 1135–1142). -/
def Class.params : Class → List String
  | .scheduler => ["name", "init_value", "target_value", "num_steps", "iters_max", "curvature", "func"]
  | .step => ["name", "init_value", "target_value", "num_steps", "iters_max"]
  | .stepToOne => ["name", "num_steps", "iters_max"]
  | .stepAcceleratingToOne => ["name", "num_steps", "iters_max", "curvature"]
  | .stepDeceleratingToOne => ["name", "num_steps", "iters_max", "curvature"]
  | .stepAccelerating => ["name", "init_value", "target_value", "num_steps", "iters_max", "curvature"]
  | .stepDecelerating => ["name", "init_value", "target_value", "num_steps", "iters_max", "curvature"]
  | .sawtoothDecay => ["name", "init_value", "target_value", "num_steps", "iters_max"]

/-- Python's argument binding for a call with `npos` positional arguments and the keywords `kws` (the call of scheduler.py lines 799–807): the
positional ones must fit, and every keyword must name a parameter that is not already bound. (No parameter of these signatures stays
unbound in that call.) -/
def binds (params : List String) (npos : ℕ) (kws : List String) : Bool :=
  decide (npos ≤ params.length) && kws.all fun k => (params.drop npos).contains k

/-- `from_config` called on the class `k` (scheduler.py lines 746–807; a class method, so `cls` at line 799 is `k`). When the constructor of
`k` cannot take the arguments of lines 799–807 the call is a TypeError. Simplification: a subclass constructor that could take them
would store them as `Scheduler` does; no subclass can. -/
def Class.fromConfig (k : Class) (c : Config) : Res (Scheduler × Config) := do
  let r ← Sched.fromConfig c
  if binds k.params 4 ["iters_max", "curvature", "func"] then .ok r else .error .typeError

end
end Verif.Sched
