import Verif.Lemmas.SchedulerConfig

/-! Property theorems C09 - C12: scheduler configuration, the `Schedulers` collection, exponential schedules. -/
namespace Verif.Props
open Verif Verif.Sched Verif.Spec

/-- **C09 (a)** `from_defaults` accepts exactly the configurations that are complete for their type; anything else,
including an unknown type string, is rejected with ValueError. -/
theorem C09_from_defaults_iff (c : Config) :
    ((∃ c', fromDefaults c = .ok c') ↔ CompleteConfig c) ∧
    (¬ CompleteConfig c → fromDefaults c = .error .valueError) := by
  have hiff : (∃ c', fromDefaults c = .ok c') ↔ CompleteConfig c := by
    obtain ⟨nm, ini, tgt, ns, im, cu, ty⟩ := c
    revert ty
    apply type_cases
    case h =>
      intro ty hty
      simp [fromDefaults_unknown (c := ⟨nm, ini, tgt, ns, im, cu, ty⟩) hty,
        complete_unknown (c := ⟨nm, ini, tgt, ns, im, cu, ty⟩) hty]
    case h1 => cases tgt <;> simp [fromDefaults, CompleteConfig]
    case h2 => simp [fromDefaults, CompleteConfig]
    case h3 => cases ini <;> cases tgt <;> cases ns <;> simp [fromDefaults, CompleteConfig]
    case h4 => simp only [fromDefaults]; simp [toOne_ok, CompleteConfig, isCloseOne]
    case h5 => simp only [fromDefaults]; simp [toOne_ok, CompleteConfig, isCloseOne]
    case h6 => simp only [fromDefaults]; simp [toOne_ok, CompleteConfig, isCloseOne]
    case h7 => cases ini <;> cases tgt <;> cases ns <;> cases cu <;> simp [fromDefaults, CompleteConfig]
    case h8 => cases ini <;> cases tgt <;> cases ns <;> cases cu <;> simp [fromDefaults, CompleteConfig]
    case h9 => cases ini <;> cases tgt <;> cases ns <;> simp [fromDefaults, CompleteConfig]
    case h10 => simp [fromDefaults, CompleteConfig]
  refine ⟨hiff, fun hc => ?_⟩
  cases h : fromDefaults c with
  | error e => rw [fromDefaults_error h]
  | ok c' => exact absurd (hiff.mp ⟨c', h⟩) hc

/-- **C09 (b)** An accepted configuration keeps its type, name, step count, horizon and curvature; the end points of
every type that requires them are kept; the fixed types get exactly their documented end points; and
`Scheduler.from_config` accepts it. -/
theorem C09_from_defaults_keeps_values (c c' : Config) (h : fromDefaults c = .ok c') :
    c'.schedType = c.schedType ∧ c'.name = c.name ∧ c'.numSteps = c.numSteps ∧ c'.itersMax = c.itersMax ∧
    c'.curvature = c.curvature ∧
    (c.schedType ∈ ["Step", "StepAccelerating", "StepDecelerating", "SawtoothDecay"] →
      c'.initValue = c.initValue ∧ c'.targetValue = c.targetValue) ∧
    (c.schedType = "Constant" → c'.targetValue = c.targetValue) ∧
    (c.schedType = "ConstantOne" → c'.targetValue = some 1) ∧
    (c.schedType ∈ ["StepToOne", "StepAcceleratingToOne", "StepDeceleratingToOne"] →
      c'.targetValue = some 1 ∧ ∃ n, c.numSteps = some n ∧ c'.initValue = some (1 / (n : ℝ))) ∧
    (∃ r, fromConfig c' = .ok r) := by
  obtain ⟨nm, ini, tgt, ns, im, cu, ty⟩ := c
  revert ty
  apply type_cases
  case h =>
    intro ty hty h
    rw [fromDefaults_unknown (c := ⟨nm, ini, tgt, ns, im, cu, ty⟩) hty] at h
    exact absurd h (by simp)
  case h1 =>
    intro h
    cases tgt with
    | none => simp [fromDefaults] at h
    | some t =>
      simp [fromDefaults] at h
      subst h; simp [fromConfig]
  case h2 => intro h; simp [fromDefaults] at h; subst h; simp [fromConfig]
  case h3 =>
    intro h
    cases ini <;> cases tgt <;> cases ns <;> simp [fromDefaults] at h
    subst h; simp [fromConfig]
  case h9 =>
    intro h
    cases ini <;> cases tgt <;> cases ns <;> simp [fromDefaults] at h
    subst h; simp [fromConfig]
  case h10 => intro h; simp [fromDefaults] at h; subst h; simp [fromConfig]
  case h4 =>
    intro h
    simp only [fromDefaults] at h
    simp at h
    obtain ⟨n, hn, h0, rfl⟩ := toOne_result h
    simp at hn; subst hn; simp [fromConfig]
  case h5 =>
    intro h
    simp only [fromDefaults] at h
    simp at h
    obtain ⟨n, hn, h0, rfl⟩ := toOne_result h
    simp at hn; subst hn; simp [fromConfig]
  case h6 =>
    intro h
    simp only [fromDefaults] at h
    simp at h
    obtain ⟨n, hn, h0, rfl⟩ := toOne_result h
    simp at hn; subst hn; simp [fromConfig]
  case h7 =>
    intro h
    cases ini <;> cases tgt <;> cases ns <;> cases cu <;> simp [fromDefaults] at h
    subst h; simp [fromConfig]
  case h8 =>
    intro h
    cases ini <;> cases tgt <;> cases ns <;> cases cu <;> simp [fromDefaults] at h
    subst h; simp [fromConfig]

/-- Finding next to C09: the documentation (scheduler.py:377, 411) says an omitted curvature is auto-filled with 2.0;
the code rejects it, for every other choice of parameters. -/
theorem C09_curvature_not_defaulted (c : Config)
    (hty : c.schedType = "StepAccelerating" ∨ c.schedType = "StepDecelerating") (hc : c.curvature = none) :
    fromDefaults c = .error .valueError := by
  apply (C09_from_defaults_iff c).2
  unfold CompleteConfig
  rcases hty with h | h <;> simp [h, hc]

/- Non-vacuity: a complete and an incomplete configuration. -/
example : CompleteConfig { initValue := some 1, targetValue := some 3, numSteps := some 5, schedType := "Step" } ∧
    ¬ CompleteConfig { initValue := some 1, numSteps := some 5, schedType := "Step" } ∧
    ¬ CompleteConfig { targetValue := some 1, schedType := "step" } := by
  simp [CompleteConfig]

/-- **C09 (the empty schedule)** `SchedulerConfig.none()` is accepted, and its scheduler has no value at any iteration. -/
theorem C09_none_has_no_value (it : ℤ) : valueOf cfgNone it = .ok none := rfl

/-- **C10** `from_config` mutates the configuration it receives, but the mutation is idempotent: building again from
the same (now mutated) object gives the same scheduler and leaves the object as it is. -/
theorem C10_from_config_idempotent (c c' : Config) (s : Scheduler) (h : fromConfig c = .ok (s, c')) :
    fromConfig c' = .ok (s, c') := by
  obtain ⟨nm, ini, tgt, ns, im, cu, ty⟩ := c
  revert ty
  apply type_cases
  case h =>
    intro ty hty h
    rw [fromConfig_unknown (c := ⟨nm, ini, tgt, ns, im, cu, ty⟩) hty] at h
    exact absurd h (by simp)
  all_goals
    intro h
    simp only [fromConfig] at h
    simp at h
    obtain ⟨rfl, rfl⟩ := h
    simp [fromConfig, mkScheduler, toOneMutate]
  all_goals
    cases ns with
    | none => simp
    | some n => by_cases hn : n = 0 <;> simp [hn]

/-- **C10, corollary at the API** Any number of rebuilds from one configuration object: all values agree. -/
theorem C10_rebuild_same_values (c c' : Config) (s : Scheduler) (h : fromConfig c = .ok (s, c')) (it : ℤ) :
    valueOf (.ok c') it = valueOf (.ok c) it := by
  unfold valueOf
  simp only [bind, Except.bind, h, C10_from_config_idempotent c c' s h]

/- Non-vacuity: a ToOne configuration that is really mutated (init value 5 becomes 1/4). -/
example : ∃ s c', fromConfig ⟨none, some 5, none, some 4, some 8, none, "StepToOne"⟩ = .ok (s, c') ∧ c'.initValue = some (1 / ((4 : ℤ) : ℝ)) := by
  refine ⟨_, _, rfl, ?_⟩
  simp [toOneMutate]

/-! ### C11: the collection -/

/-- Specification: the scheduler registered last under a name. -/
noncomputable def lastRegistered (ss : List Scheduler) (k : Option String) : Option Scheduler :=
  ss.reverse.find? (fun s => s.name == k)

/-- Every scheduler of the collection evaluates without raising at `it`. -/
def AllOk (ss : List Scheduler) (it : ℤ) : Prop := ∀ s ∈ ss, ∃ v, s.value it = .ok v

private theorem dict_spec (ss : List Scheduler) (it : ℤ) (hok : AllOk ss it) :
    ∀ d0 : List (Option String × Option ℝ), ∃ d, ss.foldlM (init := d0) (fun d s => do
        let v ← s.value it
        pure (if d.any (fun e => e.1 == s.name) then
          d.map (fun e => if e.1 == s.name then (e.1, v) else e)
        else d ++ [(s.name, v)])) = (.ok d : Res _) ∧
      ∀ k, (d.lookup k = match lastRegistered ss k with
        | some s => (s.value it).toOption
        | none => d0.lookup k) := by
  induction ss with
  | nil => intro d0; exact ⟨d0, rfl, fun k => rfl⟩
  | cons s ss ih =>
    intro d0
    obtain ⟨v, hv⟩ := hok s (by simp)
    obtain ⟨d, hd, hk⟩ := ih (fun s' h => hok s' (by simp [h])) (if d0.any (fun e => e.1 == s.name) then
          d0.map (fun e => if e.1 == s.name then (e.1, v) else e) else d0 ++ [(s.name, v)])
    refine ⟨d, ?_, ?_⟩
    · rw [List.foldlM_cons, hv]
      exact hd
    · intro k
      rw [hk k, lookup_update]
      unfold lastRegistered
      rw [List.reverse_cons, List.find?_append]
      cases hf : ss.reverse.find? (fun s => s.name == k) with
      | some s' => simp
      | none =>
        simp only [Option.none_or, List.find?_cons, List.find?_nil]
        by_cases hs : s.name = k
        · simp [hs, hv, Except.toOption]
        · have : (s.name == k) = false := by simpa using hs
          simp [this, show ¬ k = s.name from fun h => hs h.symm]

/-- **C11 (a)** `values_as_list` returns, in the requested order, the value of the scheduler registered last under
each name, and raises KeyError exactly when a requested name was never registered. -/
theorem C11_values_last_write_wins (ss : List Scheduler) (it : ℤ) (order : List String) (hok : AllOk ss it) :
    Schedulers.valuesAsList ss it order =
      order.mapM (fun k => match lastRegistered ss (some k) with
        | some s => s.value it
        | none => .error .keyError) := by
  obtain ⟨d, hd, hk⟩ := dict_spec ss it hok []
  unfold Schedulers.valuesAsList Schedulers.valuesAsDict
  rw [hd]
  simp only [bind, Except.bind]
  congr 1
  funext k
  unfold dictGet
  rw [hk (some k)]
  cases hl : lastRegistered ss (some k) with
  | none => simp
  | some s =>
    have hs : s ∈ ss := by
      have := List.mem_of_find?_eq_some hl
      simpa using this
    obtain ⟨v, hv⟩ := hok s hs
    simp [hv, Except.toOption]

/-- **C11 (b)** Registering a scheduler under another name does not change what is returned for `k`; registering one
under `k` replaces it. -/
theorem C11_register (ss : List Scheduler) (s : Scheduler) (k : Option String) :
    lastRegistered (Schedulers.addObject ss s) k = if s.name = k then some s else lastRegistered ss k := by
  unfold lastRegistered Schedulers.addObject
  rw [List.reverse_append]
  by_cases h : s.name = k
  · simp [h]
  · have : (s.name == k) = false := by simpa using h
    simp [h]

/-- **C11 (c)** If a scheduler raises at iteration `it`, the whole query raises (whatever names are asked for): errors
are never swallowed. -/
theorem C11_errors_propagate (ss : List Scheduler) (it : ℤ) (order : List String) (hbad : ¬ AllOk ss it) :
    ∃ e, Schedulers.valuesAsList ss it order = .error e := by
  have key : ∀ d0 : List (Option String × Option ℝ), ∃ e, ss.foldlM (init := d0) (fun d s => do
        let v ← s.value it
        pure (if d.any (fun e => e.1 == s.name) then
          d.map (fun e => if e.1 == s.name then (e.1, v) else e)
        else d ++ [(s.name, v)])) = (.error e : Res _) := by
    clear order
    induction ss with
    | nil => exact absurd (by intro s hs; simp at hs) hbad
    | cons s ss ih =>
      intro d0
      rw [List.foldlM_cons]
      cases hv : s.value it with
      | error e => exact ⟨e, rfl⟩
      | ok v =>
        have : ¬ AllOk ss it := by
          intro h
          apply hbad
          intro s' hs'
          rcases List.mem_cons.mp hs' with rfl | h'
          · exact ⟨v, hv⟩
          · exact h s' h'
        obtain ⟨e, he⟩ := ih this _
        exact ⟨e, he⟩
  obtain ⟨e, he⟩ := key []
  refine ⟨e, ?_⟩
  unfold Schedulers.valuesAsList Schedulers.valuesAsDict
  rw [he]; rfl

/-- **C11 (d)** `set_iters_max` sets the horizon of every registered scheduler and nothing else: afterwards every
scheduler with a target returns it from iteration `m` on. -/
theorem C11_set_iters_max (ss : List Scheduler) (m it : ℤ) (h : m ≤ it) (s : Scheduler) (t : ℝ)
    (hs : s ∈ Schedulers.setItersMax ss m) (ht : s.targetValue = some t) : s.value it = .ok (some t) := by
  unfold Schedulers.setItersMax at hs
  obtain ⟨s', _, rfl⟩ := List.mem_map.mp hs
  unfold Scheduler.value
  simp only at ht ⊢
  rw [ht]
  simp only
  cases s'.numSteps with
  | none => rfl
  | some n => simp only; split_ifs <;> rfl

/- Non-vacuity: two schedulers under the same name, the later one wins. -/
example : Schedulers.valuesAsList
    [⟨some "p", some 1, some 2, none, none, none, .constant⟩, ⟨some "q", none, some 7, none, none, none, .constant⟩,
     ⟨some "p", some 1, some 3, none, none, none, .constant⟩] 5 ["p", "q"] = .ok [some 3, some 7] := by
  rw [C11_values_last_write_wins]
  · simp [lastRegistered, Scheduler.value, List.find?_cons]
    rfl
  · intro s hs
    simp only [List.mem_cons, List.not_mem_nil, or_false] at hs
    rcases hs with rfl | rfl | rfl <;> exact ⟨_, rfl⟩

/-! ### C12: exponential schedules -/

/-- **C12 (a)** `schedule_exp_slowdown` starts at init, ends at target, and in between stays between them and never
moves away from the target. -/
theorem C12_exp_slowdown (i t r : ℝ) (total a b : ℤ) (hr : 0 < r) (ht : 0 < total) (ha : 0 ≤ a) (hab : a ≤ b)
    (hb : b ≤ total) :
    expSlowdown 0 total i t r = .ok i ∧ expSlowdown total total i t r = .ok t ∧
    ∃ u v, expSlowdown a total i t r = .ok u ∧ expSlowdown b total i t r = .ok v ∧
      Between i t u ∧ MovesToward i t u v := by
  have ht' : (0 : ℝ) < total := by exact_mod_cast ht
  have hfd : Real.exp (-r) < 1 := by rw [Real.exp_lt_one_iff]; linarith
  have hne : 1 - Real.exp (-r) ≠ 0 := by intro h; linarith
  have hform : ∀ x : ℤ, expSlowdown x total i t r =
      .ok ((1 - (1 - (Real.exp (-r * (x / total)) - Real.exp (-r)) / (1 - Real.exp (-r)))) * i +
        (1 - (Real.exp (-r * (x / total)) - Real.exp (-r)) / (1 - Real.exp (-r))) * t) := by
    intro x
    unfold expSlowdown
    rw [if_neg (by omega), if_neg hr.ne']
    simp only
    split_ifs
    · congr 1; ring
    · congr 1; ring
  have hw : ∀ x : ℤ, 0 ≤ x → x ≤ total →
      0 ≤ 1 - (Real.exp (-r * (x / total)) - Real.exp (-r)) / (1 - Real.exp (-r)) ∧
      1 - (Real.exp (-r * (x / total)) - Real.exp (-r)) / (1 - Real.exp (-r)) ≤ 1 := by
    intro x h0 h1
    have h0' : (0 : ℝ) ≤ x / total := div_nonneg (by exact_mod_cast h0) ht'.le
    have h1' : (x : ℝ) / total ≤ 1 := by rw [div_le_one ht']; exact_mod_cast h1
    have e1 : Real.exp (-r * (x / total)) ≤ 1 := by rw [Real.exp_le_one_iff]; nlinarith
    have e2 : Real.exp (-r) ≤ Real.exp (-r * (x / total)) := by
      apply Real.exp_le_exp.mpr; nlinarith
    have hp : 0 < 1 - Real.exp (-r) := by linarith
    constructor
    · rw [sub_nonneg, div_le_one hp]; linarith
    · rw [sub_le_self_iff]; exact div_nonneg (by linarith) hp.le
  refine ⟨?_, ?_, _, _, hform a, hform b, ?_, ?_⟩
  · rw [hform]; congr 1; simp; field_simp; ring
  · rw [hform]; congr 1; rw [div_self ht'.ne']; simp
  · exact between_blend (hw a ha (by omega)).1 (hw a ha (by omega)).2
  · apply moves_blend
    have : Real.exp (-r * (b / total)) ≤ Real.exp (-r * (a / total)) := by
      apply Real.exp_le_exp.mpr
      have : (a : ℝ) / total ≤ b / total := by gcongr; 
      nlinarith
    have hp : 0 < 1 - Real.exp (-r) := by linarith
    gcongr

/-- **C12 (b)** `schedule_exp_accelerate` ends exactly at the target, is bounded and monotone, and starts at distance
`exp(-rate) |target - init|` from init — so, unlike `schedule_exp_slowdown`, never exactly at init unless the two
coincide. -/
theorem C12_exp_accelerate (i t r : ℝ) (total a b : ℤ) (hr : 0 < r) (ht : 0 < total) (ha : 0 ≤ a) (hab : a ≤ b)
    (hb : b ≤ total) :
    expAccelerate total total i t r = .ok t ∧
    (∃ u v, expAccelerate a total i t r = .ok u ∧ expAccelerate b total i t r = .ok v ∧
      Between i t u ∧ MovesToward i t u v) ∧
    ∃ s, expAccelerate 0 total i t r = .ok s ∧ |s - i| = Real.exp (-r) * |t - i| ∧ (i ≠ t → s ≠ i) := by
  have ht' : (0 : ℝ) < total := by exact_mod_cast ht
  have hform : ∀ x : ℤ, expAccelerate x total i t r =
      .ok ((1 - Real.exp (r * (x / total - 1))) * i + Real.exp (r * (x / total - 1)) * t) := by
    intro x
    unfold expAccelerate
    rw [if_neg (by omega)]
    simp only
    split_ifs
    · congr 1; ring
    · congr 1; ring
  have hle : ∀ x : ℤ, x ≤ total → Real.exp (r * ((x : ℝ) / total - 1)) ≤ 1 := by
    intro x hx
    rw [Real.exp_le_one_iff]
    have h1' : (x : ℝ) / total ≤ 1 := by rw [div_le_one ht']; exact_mod_cast hx
    nlinarith
  refine ⟨?_, ⟨_, _, hform a, hform b, ?_, ?_⟩, _, hform 0, ?_, ?_⟩
  · rw [hform, div_self ht'.ne']; simp
  · exact between_blend (Real.exp_pos _).le (hle a (by omega))
  · apply moves_blend
    apply Real.exp_le_exp.mpr
    have : (a : ℝ) / total ≤ b / total := by gcongr
    nlinarith
  · have e : (1 - Real.exp (r * (((0 : ℤ) : ℝ) / total - 1))) * i + Real.exp (r * (((0 : ℤ) : ℝ) / total - 1)) * t - i
        = Real.exp (-r) * (t - i) := by simp; ring
    rw [e, abs_mul, abs_of_pos (Real.exp_pos _)]
  · intro hit h
    have e : (1 - Real.exp (r * (((0 : ℤ) : ℝ) / total - 1))) * i + Real.exp (r * (((0 : ℤ) : ℝ) / total - 1)) * t - i
        = Real.exp (-r) * (t - i) := by simp; ring
    rw [h, sub_self] at e
    have := mul_eq_zero.mp e.symm
    rcases this with h1 | h1
    · exact (Real.exp_pos _).ne' h1
    · exact hit (by linarith)

/-- **C12 (c)** A non-positive horizon is rejected by the slow-down schedule. -/
theorem C12_exp_slowdown_rejects (i t r : ℝ) (total it : ℤ) (h : total ≤ 0) :
    expSlowdown it total i t r = .error .valueError := by
  unfold expSlowdown; rw [if_pos h]

example : (0 : ℝ) < 10 ∧ (0 : ℤ) < 50 ∧ (0 : ℤ) ≤ 10 ∧ (10 : ℤ) ≤ 20 ∧ (20 : ℤ) ≤ 50 := by norm_num

end Verif.Props
