import Verif.Model.SchedClasses
import Verif.Props.Scheduler

/-! Property theorems C154: building a scheduler through a class constructor and through the configuration API. -/
namespace Verif.Props
open Verif Verif.Sched

noncomputable section

/-- What a user of the configuration API writes: `Scheduler.from_config(SchedulerConfig.<factory>(…))`. -/
def built (cfg : Res Config) : Res Scheduler := do
  let c ← cfg
  let r ← Sched.fromConfig c
  pure r.1

/-- **C154 (a)** Whenever the factory of the configuration API accepts its arguments, the scheduler built from it is the one the class
constructor of the same name builds from the same arguments: every attribute is the same, hence also the value at every iteration. -/
theorem C154_same_scheduler (nm : Option String) (i t : Option ℝ) (n m : Option ℤ) (q : Option ℝ) (s : Scheduler) :
    (built (cfgStep nm i t n m) = .ok s → newStep nm i t n m = s) ∧
    (built (cfgStepAccelerating nm i t n m q) = .ok s → newStepAccelerating nm i t n m q = s) ∧
    (built (cfgStepDecelerating nm i t n m q) = .ok s → newStepDecelerating nm i t n m q = s) ∧
    (∀ (i' t' : ℝ) (n' m' : ℤ), built (cfgSawtooth nm i' t' (itersMax := m') (numSteps := n')) = .ok s →
      newSawtooth nm (some i') (some t') (some n') (some m') = s) := by
  refine ⟨?_, ?_, ?_, ?_⟩
  · cases i <;> cases t <;> cases n <;>
      simp [built, cfgStep, fromDefaults, Sched.fromConfig, mkScheduler, newStep, newScheduler, bind, Except.bind, pure, Except.pure]
  · cases i <;> cases t <;> cases n <;> cases q <;>
      simp [built, cfgStepAccelerating, fromDefaults, Sched.fromConfig, mkScheduler, newStepAccelerating, newScheduler, bind, Except.bind,
        pure, Except.pure]
  · cases i <;> cases t <;> cases n <;> cases q <;>
      simp [built, cfgStepDecelerating, fromDefaults, Sched.fromConfig, mkScheduler, newStepDecelerating, newScheduler, bind, Except.bind,
        pure, Except.pure]
  · intro i' t' n' m'
    simp [built, cfgSawtooth, Sched.fromConfig, mkScheduler, newSawtooth, newScheduler, bind, Except.bind, pure, Except.pure]

private theorem closeOne : isCloseOne 1 := by
  unfold isCloseOne
  norm_num

/-- **C154 (b)** For the three schedules with target one the two ways agree completely, including on which arguments are rejected and how. -/
theorem C154_to_one_same (nm : Option String) (n m : Option ℤ) (q : Option ℝ) :
    built (cfgStepToOne nm n m) = newStepToOne nm n m ∧
    built (cfgStepAcceleratingToOne nm n m q) = newStepAcceleratingToOne nm n m q ∧
    built (cfgStepDeceleratingToOne nm n m q) = newStepDeceleratingToOne nm n m q := by
  refine ⟨?_, ?_, ?_⟩
  · cases n with
    | none => simp [built, cfgStepToOne, fromDefaults, toOneBranch, newStepToOne, bind, Except.bind]
    | some n =>
      by_cases hn : n ≤ 0
      · simp [built, cfgStepToOne, fromDefaults, toOneBranch, newStepToOne, bind, Except.bind, hn]
      · have h0 : n ≠ 0 := by omega
        simp [built, cfgStepToOne, fromDefaults, toOneBranch, newStepToOne, newScheduler, bind, Except.bind, hn, closeOne, Sched.fromConfig,
          toOneMutate, mkScheduler, pure, Except.pure, h0]
  · cases n with
    | none => simp [built, cfgStepAcceleratingToOne, fromDefaults, toOneBranch, newStepAcceleratingToOne, bind, Except.bind]
    | some n =>
      by_cases hn : n ≤ 0
      · simp [built, cfgStepAcceleratingToOne, fromDefaults, toOneBranch, newStepAcceleratingToOne, bind, Except.bind, hn]
      · have h0 : n ≠ 0 := by omega
        cases q <;> simp [built, cfgStepAcceleratingToOne, fromDefaults, toOneBranch, newStepAcceleratingToOne, newScheduler, bind,
          Except.bind, hn, closeOne, Sched.fromConfig, toOneMutate, mkScheduler, pure, Except.pure, h0]
  · cases n with
    | none => simp [built, cfgStepDeceleratingToOne, fromDefaults, toOneBranch, newStepDeceleratingToOne, bind, Except.bind]
    | some n =>
      by_cases hn : n ≤ 0
      · simp [built, cfgStepDeceleratingToOne, fromDefaults, toOneBranch, newStepDeceleratingToOne, bind, Except.bind, hn]
      · have h0 : n ≠ 0 := by omega
        cases q <;> simp [built, cfgStepDeceleratingToOne, fromDefaults, toOneBranch, newStepDeceleratingToOne, newScheduler, bind,
          Except.bind, hn, closeOne, Sched.fromConfig, toOneMutate, mkScheduler, pure, Except.pure, h0]

/-- **C154 (c)** Which arguments are rejected: the factories of the general schedules raise ValueError exactly when an argument they need is
missing; the three with target one exactly when the number of steps is missing or not positive, or a needed curvature is missing. -/
theorem C154_rejected (nm : Option String) (i t : Option ℝ) (n m : Option ℤ) (q : Option ℝ) :
    (built (cfgStep nm i t n m) = .error .valueError ↔ i = none ∨ t = none ∨ n = none) ∧
    (built (cfgStepAccelerating nm i t n m q) = .error .valueError ↔ i = none ∨ t = none ∨ n = none ∨ q = none) ∧
    (built (cfgStepDecelerating nm i t n m q) = .error .valueError ↔ i = none ∨ t = none ∨ n = none ∨ q = none) ∧
    (newStepToOne nm n m = .error .valueError ↔ ∀ k, n = some k → k ≤ 0) ∧
    (newStepAcceleratingToOne nm n m q = .error .valueError ↔ (∀ k, n = some k → k ≤ 0) ∨ q = none) ∧
    (newStepDeceleratingToOne nm n m q = .error .valueError ↔ (∀ k, n = some k → k ≤ 0) ∨ q = none) := by
  refine ⟨?_, ?_, ?_, ?_, ?_, ?_⟩
  · cases i <;> cases t <;> cases n <;> simp [built, cfgStep, fromDefaults, Sched.fromConfig, bind, Except.bind, pure, Except.pure]
  · cases i <;> cases t <;> cases n <;> cases q <;>
      simp [built, cfgStepAccelerating, fromDefaults, Sched.fromConfig, bind, Except.bind, pure, Except.pure]
  · cases i <;> cases t <;> cases n <;> cases q <;>
      simp [built, cfgStepDecelerating, fromDefaults, Sched.fromConfig, bind, Except.bind, pure, Except.pure]
  · cases n with
    | none => simp [newStepToOne]
    | some k => by_cases hk : k ≤ 0 <;> simp [newStepToOne, hk]
  · cases n with
    | none => simp [newStepAcceleratingToOne]
    | some k => by_cases hk : k ≤ 0 <;> cases q <;> simp [newStepAcceleratingToOne, hk]
  · cases n with
    | none => simp [newStepDeceleratingToOne]
    | some k => by_cases hk : k ≤ 0 <;> cases q <;> simp [newStepDeceleratingToOne, hk]

/-- **C154 (d)** A schedule towards one climbs in equal steps: through the constructor, on the `k`-th of the `n` equally long blocks of
iterations the value is `(k + 1) / n`, and from the horizon on it is `1`. -/
theorem C154_to_one_staircase (nm : Option String) (n m : ℤ) (hn : 0 < n) (hm : 0 < m) :
    ∃ s, newStepToOne nm (some n) (some m) = .ok s ∧
      (∀ it k : ℤ, 0 ≤ k → k < n → (k : ℝ) * (m / n) ≤ it → (it : ℝ) < (k + 1) * (m / n) →
        s.value it = .ok (some (((k : ℝ) + 1) / n))) ∧
      (∀ it, m ≤ it → s.value it = .ok (some 1)) := by
  have hs : newStepToOne nm (some n) (some m) = .ok (newStep nm (some (1 / (n : ℝ))) (some 1) (some n) (some m)) := by
    simp [newStepToOne, newStep, not_le.mpr hn]
  refine ⟨_, hs, ?_, ?_⟩
  · intro it k hk hkn h1 h2
    have hn' : (0 : ℝ) < n := by exact_mod_cast hn
    rcases (by omega : n = 1 ∨ 2 ≤ n) with rfl | h2n
    · have hk0 : k = 0 := by omega
      subst hk0
      have hlt : it < m := by
        have h3 : (it : ℝ) < m := by simpa using h2
        exact_mod_cast h3
      simp [newStep, newScheduler, Scheduler.value, not_le.mpr hlt, Func.call, scheduleStep, not_le.mpr hm, Except.map]
    · have h := C04_step_plateau_value nm (1 / (n : ℝ)) 1 n m k it h2n hm hk hkn h1 h2
      have hv : valueOf (cfgStep nm (some (1 / (n : ℝ))) (some 1) (some n) (some m)) it =
          (newStep nm (some (1 / (n : ℝ))) (some 1) (some n) (some m)).value it := by
        simp [valueOf, cfgStep, fromDefaults, Sched.fromConfig, mkScheduler, newStep, newScheduler, bind, Except.bind]
      rw [← hv, h]
      have h2n' : (2 : ℝ) ≤ n := by exact_mod_cast h2n
      have hd : (n : ℝ) - 1 ≠ 0 := by intro h0; linarith
      congr 2
      field_simp
      ring
  · intro it h
    simp [newStep, newScheduler, Scheduler.value, h, not_lt.mpr hn.le]

/-- **C154 (e)** Where the two ways differ: the class constructors of the two curved schedules take a missing curvature, and the resulting
scheduler then raises TypeError at every iteration before the horizon. (The factories refuse such arguments, (c).) -/
theorem C154_missing_curvature (nm : Option String) (i : Option ℝ) (t : ℝ) (n m it : ℤ) (hn : 2 ≤ n) (hm : 0 < m) (h : it < m) :
    (newStepAccelerating nm i (some t) (some n) (some m) none).value it = .error .typeError ∧
    (newStepDecelerating nm i (some t) (some n) (some m) none).value it = .error .typeError := by
  have h0 : ¬ n < 0 := by omega
  have h1 : ¬ n ≤ 1 := by omega
  have h2 : ¬ m ≤ 0 := by omega
  have h3 : ¬ m ≤ it := by omega
  simp [newStepAccelerating, newStepDecelerating, newScheduler, Scheduler.value, h0, h1, h2, h3, Func.call, scheduleStepAccelerating,
    scheduleStepDecelerating, Except.map]

/-- **C154 (f)** Neither do the constructors notice a missing start value: the scheduler raises TypeError before the horizon. A missing
number of steps gives the target throughout, a missing target nothing at all. -/
theorem C154_missing_values (nm : Option String) (i t : Option ℝ) (t' : ℝ) (n m it : ℤ) (n' m' : Option ℤ) (hn : 2 ≤ n) (hm : 0 < m)
    (h : it < m) :
    (newStep nm none (some t') (some n) (some m)).value it = .error .typeError ∧
    (newStep nm i (some t') none m').value it = .ok (some t') ∧
    (newStep nm i none n' m').value it = .ok none ∧
    built (cfgStep nm none (some t') (some n) (some m)) = .error .valueError ∧
    built (cfgStep nm i t none m') = .error .valueError ∧
    built (cfgStep nm i none n' m') = .error .valueError := by
  have h0 : ¬ n < 0 := by omega
  have h1 : ¬ n ≤ 1 := by omega
  have h2 : ¬ m ≤ 0 := by omega
  have h3 : ¬ m ≤ it := by omega
  refine ⟨?_, ?_, ?_, ?_, ?_, ?_⟩
  · simp [newStep, newScheduler, Scheduler.value, h0, h1, h2, h3, Func.call, scheduleStep, blend, Except.map]
  · simp [newStep, newScheduler, Scheduler.value]
  · simp [newStep, newScheduler, Scheduler.value]
  · exact (C154_rejected nm none (some t') (some n) (some m) none).1.2 (Or.inl rfl)
  · exact (C154_rejected nm i t none m' none).1.2 (Or.inr (Or.inr rfl))
  · exact (C154_rejected nm i none n' m' none).1.2 (Or.inr (Or.inl rfl))

/-- **C154 (g)** `from_config` builds schedulers only when called on `Scheduler` itself: called on any of its subclasses it raises, whatever
the configuration; TypeError for a known scheduler type, since no subclass constructor takes the arguments it is given. -/
theorem C154_from_config_on_subclass (k : Class) (c : Config) :
    Class.scheduler.fromConfig c = Sched.fromConfig c ∧
    (k ≠ .scheduler → k.fromConfig c =
      match Sched.fromConfig c with
      | .ok _ => .error .typeError
      | .error e => .error e) := by
  constructor
  · unfold Class.fromConfig
    have hb : binds Class.scheduler.params 4 ["iters_max", "curvature", "func"] = true := by decide
    rw [hb]
    cases Sched.fromConfig c <;> rfl
  · intro hk
    have hb : binds k.params 4 ["iters_max", "curvature", "func"] = false := by
      cases k <;> first | exact absurd rfl hk | decide
    unfold Class.fromConfig
    rw [hb]
    cases Sched.fromConfig c <;> rfl

/- Non-vacuity: `p` from 1 to 3 in 5 steps over 100 iterations (the docstring of `Scheduler`) is accepted both ways; the value at iteration
50 is 2. Four steps to one over 100 iterations: the second block holds 1/2. -/
example : ∃ s, built (cfgStep (some "p") (some 1) (some 3) (some 5) (some 100)) = .ok s ∧
    newStep (some "p") (some 1) (some 3) (some 5) (some 100) = s ∧ s.value 50 = .ok (some 2) := by
  refine ⟨newStep (some "p") (some 1) (some 3) (some 5) (some 100), ?_, rfl, ?_⟩
  · simp [built, cfgStep, fromDefaults, Sched.fromConfig, mkScheduler, newStep, newScheduler, bind, Except.bind, pure, Except.pure]
  · have h := C04_step_plateau_value (some "p") 1 3 5 100 2 50 (by norm_num) (by norm_num) (by norm_num) (by norm_num) (by norm_num)
      (by norm_num)
    have hv : valueOf (cfgStep (some "p") (some 1) (some 3) (some 5) (some 100)) 50 =
        (newStep (some "p") (some 1) (some 3) (some 5) (some 100)).value 50 := by
      simp [valueOf, cfgStep, fromDefaults, Sched.fromConfig, mkScheduler, newStep, newScheduler, bind, Except.bind]
    rw [← hv, h]
    norm_num

example : ∃ s, newStepToOne (some "r") (some 4) (some 100) = .ok s ∧ s.value 30 = .ok (some (1 / 2)) := by
  obtain ⟨s, hs, hv, _⟩ := C154_to_one_staircase (some "r") 4 100 (by norm_num) (by norm_num)
  refine ⟨s, hs, ?_⟩
  have h := hv 30 1 (by norm_num) (by norm_num) (by norm_num) (by norm_num)
  rw [h]
  norm_num

end
end Verif.Props
