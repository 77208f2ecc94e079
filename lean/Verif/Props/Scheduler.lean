import Verif.Lemmas.Scheduler
import Verif.Spec.Scheduler

/-! Property theorems C01 - C12: continuation schedules. -/
namespace Verif.Props
open Verif Verif.Sched Verif.Spec

/-! ### Auxiliary: the three stepped factories in closed form -/

private theorem valueOf_step (nm : Option String) (i t : ℝ) (n m it : ℤ) (hit : 0 ≤ it) :
    valueOf (cfgStep nm (some i) (some t) (some n) (some m)) it =
      .ok (some (steppedValue .step i t n m 1 it)) := by
  rw [← value_stepped (Or.inl rfl) one_pos hit i t nm]
  rfl

private theorem valueOf_acc (nm : Option String) (i t : ℝ) (n m it : ℤ) (c : ℝ) (hc : 0 < c) (hit : 0 ≤ it) :
    valueOf (cfgStepAccelerating nm (some i) (some t) (some n) (some m) (some c)) it =
      .ok (some (steppedValue .accelerating i t n m c it)) := by
  rw [← value_stepped (Or.inr (Or.inl rfl)) hc hit i t nm]
  rfl

private theorem valueOf_dec (nm : Option String) (i t : ℝ) (n m it : ℤ) (c : ℝ) (hc : 0 < c) (hit : 0 ≤ it) :
    valueOf (cfgStepDecelerating nm (some i) (some t) (some n) (some m) (some c)) it =
      .ok (some (steppedValue .decelerating i t n m c it)) := by
  rw [← value_stepped (Or.inr (Or.inr rfl)) hc hit i t nm]
  rfl

/-- **C01** A Step schedule always succeeds for `it ≥ 0` and its value lies between init and target
(any `num_steps`, any `iters_max`, even non-positive ones). -/
theorem C01_step_between (nm : Option String) (i t : ℝ) (n m it : ℤ) (hit : 0 ≤ it) :
    ∃ v, valueOf (cfgStep nm (some i) (some t) (some n) (some m)) it = .ok (some v) ∧ Between i t v :=
  ⟨_, valueOf_step nm i t n m it hit, steppedValue_between (Or.inl rfl) one_pos hit i t⟩

example : ∃ v, valueOf (cfgStep (some "p") (some 1) (some 3) (some 5) (some 100)) 50 = .ok (some v) ∧
    Between 1 3 v := C01_step_between _ 1 3 5 100 50 (by norm_num)

/-- **C02** A Step schedule never moves away from its target, over any two iterations. -/
theorem C02_step_monotone (nm : Option String) (i t : ℝ) (n m a b : ℤ) (ha : 0 ≤ a) (hab : a ≤ b) :
    ∃ u v, valueOf (cfgStep nm (some i) (some t) (some n) (some m)) a = .ok (some u) ∧
      valueOf (cfgStep nm (some i) (some t) (some n) (some m)) b = .ok (some v) ∧ MovesToward i t u v :=
  ⟨_, _, valueOf_step nm i t n m a ha, valueOf_step nm i t n m b (by omega),
    steppedValue_moves (Or.inl rfl) one_pos ha hab i t⟩

example : (0 : ℤ) ≤ 20 ∧ (20 : ℤ) ≤ 80 := by norm_num

/-- **C03 (a)** Whatever its type, a scheduler with a target and a horizon returns the target at and after the
horizon. -/
theorem C03_target_after_horizon (s : Scheduler) (t : ℝ) (m it : ℤ) (ht : s.targetValue = some t)
    (hm : s.itersMax = some m) (h : m ≤ it) : s.value it = .ok (some t) := by
  unfold Scheduler.value
  rw [ht, hm]
  simp only
  cases s.numSteps with
  | none => rfl
  | some n => simp only; split_ifs <;> rfl

/-- **C03 (b)** The first plateau of a stepped schedule is exactly the initial value, the last one exactly the
target. -/
theorem C03_first_and_last_plateau (nm : Option String) (i t : ℝ) (n m : ℤ) (c : ℝ) (hc : 0 < c) (hn : 2 ≤ n)
    (hm : 0 < m) (cfg : Res Config)
    (hcfg : cfg = cfgStep nm (some i) (some t) (some n) (some m) ∨
      cfg = cfgStepAccelerating nm (some i) (some t) (some n) (some m) (some c) ∨
      cfg = cfgStepDecelerating nm (some i) (some t) (some n) (some m) (some c)) (it : ℤ) (hit : 0 ≤ it) :
    ((it : ℝ) < m / n → valueOf cfg it = .ok (some i)) ∧
    (((n : ℝ) - 1) * (m / n) ≤ it → valueOf cfg it = .ok (some t)) := by
  have hn' : (0 : ℝ) < n := by exact_mod_cast (by omega : 0 < n)
  have key : ∀ f : Func, ∀ c : ℝ, 0 < c → Stepped f →
      ((it : ℝ) < m / n → steppedValue f i t n m c it = i) ∧
      (((n : ℝ) - 1) * (m / n) ≤ it → steppedValue f i t n m c it = t) := by
    intro f c hc hf
    constructor
    · intro h
      rw [lt_div_iff₀ hn'] at h
      have h' : it * n < m := by exact_mod_cast h
      have hlt : it < m := by nlinarith
      unfold steppedValue
      rw [if_neg (by omega), weight_first hf hc
        (stepIndex_plateau hm (by omega) (by omega) (by nlinarith) (by linarith))]
      ring
    · intro h
      have h1 : (n - 1) * m ≤ it * n := by
        have : ((n : ℝ) - 1) * m ≤ it * n := by
          have := mul_le_mul_of_nonneg_right h hn'.le
          have e : ((n : ℝ) - 1) * (m / n) * n = ((n : ℝ) - 1) * m := by field_simp
          rw [e] at this; exact this
        exact_mod_cast this
      unfold steppedValue
      split_ifs with h2
      · rfl
      · rw [weight_last hf hc hn (stepIndex_last hm (by omega) h1)]; ring
  rcases hcfg with rfl | rfl | rfl
  · rw [valueOf_step _ _ _ _ _ _ hit]
    have := key .step 1 one_pos (Or.inl rfl)
    exact ⟨fun h => by rw [this.1 h], fun h => by rw [this.2 h]⟩
  · rw [valueOf_acc _ _ _ _ _ _ _ hc hit]
    have := key .accelerating c hc (Or.inr (Or.inl rfl))
    exact ⟨fun h => by rw [this.1 h], fun h => by rw [this.2 h]⟩
  · rw [valueOf_dec _ _ _ _ _ _ _ hc hit]
    have := key .decelerating c hc (Or.inr (Or.inr rfl))
    exact ⟨fun h => by rw [this.1 h], fun h => by rw [this.2 h]⟩

/-- **C03 (c)** Constant schedulers return their target at every iteration, ConstantOne returns 1. -/
theorem C03_constant (nm : Option String) (t : ℝ) (it : ℤ) :
    valueOf (cfgConstant nm t) it = .ok (some t) ∧ valueOf (cfgConstantOne nm) it = .ok (some 1) :=
  ⟨rfl, rfl⟩

/-- **C03 (d)** A configuration of type Constant gives its target at every iteration whatever its other fields say (stale number of
steps, horizon, curvature, initial value), directly or after `from_defaults`; ConstantOne gives 1. -/
theorem C03_constant_any_fields (nm : Option String) (i : Option ℝ) (t : ℝ) (t' : Option ℝ) (n m : Option ℤ) (c : Option ℝ)
    (it : ℤ) :
    valueOf (.ok ⟨nm, i, some t, n, m, c, "Constant"⟩) it = .ok (some t) ∧
    valueOf (fromDefaults ⟨nm, i, some t, n, m, c, "Constant"⟩) it = .ok (some t) ∧
    valueOf (.ok ⟨nm, i, t', n, m, c, "ConstantOne"⟩) it = .ok (some 1) ∧
    valueOf (fromDefaults ⟨nm, i, t', n, m, c, "ConstantOne"⟩) it = .ok (some 1) :=
  ⟨rfl, rfl, rfl, rfl⟩

/-- The value a configuration promises at the end of its horizon. -/
def promisedEnd (c : Config) : Option ℝ :=
  if c.schedType = "ConstantOne" ∨ c.schedType = "StepToOne" ∨ c.schedType = "StepAcceleratingToOne" ∨
    c.schedType = "StepDeceleratingToOne" then some 1 else c.targetValue

/-- **C03 (e)** Every configuration type: built through `from_config`, a configuration with a horizon gives what it promises at and after
the horizon (nothing for a configuration without target). -/
theorem C03_every_type_ends_at_target (c : Config) (m it : ℤ) (hm : c.itersMax = some m) (h : m ≤ it)
    (hty : c.schedType ∈ ["Constant", "ConstantOne", "Step", "StepToOne", "StepAccelerating", "StepAcceleratingToOne",
      "StepDecelerating", "StepDeceleratingToOne", "SawtoothDecay", "None"]) :
    valueOf (.ok c) it = .ok (promisedEnd c) := by
  obtain ⟨nm, i, t, n, im, cu, ty⟩ := c
  simp only at hm
  subst hm
  have hge : it ≥ m := h
  simp only [List.mem_cons, List.not_mem_nil, or_false] at hty
  rcases hty with rfl | rfl | rfl | rfl | rfl | rfl | rfl | rfl | rfl | rfl <;>
    simp [valueOf, fromConfig, mkScheduler, toOneMutate, promisedEnd, Scheduler.value, bind, Except.bind] <;>
    cases t <;> cases n <;> simp [hge]

/- Non-vacuity: the docstring example (p from 1 to 3 in 5 steps over 100 iterations). -/
example : valueOf (cfgStep (some "p") (some 1) (some 3) (some 5) (some 100)) 1 = .ok (some 1) ∧
    valueOf (cfgStep (some "p") (some 1) (some 3) (some 5) (some 100)) 85 = .ok (some 3) :=
  ⟨(C03_first_and_last_plateau _ 1 3 5 100 1 one_pos (by norm_num) (by norm_num) _ (Or.inl rfl) 1
      (by norm_num)).1 (by norm_num),
   (C03_first_and_last_plateau _ 1 3 5 100 1 one_pos (by norm_num) (by norm_num) _ (Or.inl rfl) 85
      (by norm_num)).2 (by norm_num)⟩

/-- **C04 (a)** On the `k`-th of `n` equally long blocks the Step schedule has the `k`-th of `n` equally spaced
values. -/
theorem C04_step_plateau_value (nm : Option String) (i t : ℝ) (n m k it : ℤ) (hn : 2 ≤ n) (hm : 0 < m)
    (hk : 0 ≤ k) (hkn : k < n) (h1 : (k : ℝ) * (m / n) ≤ it) (h2 : (it : ℝ) < (k + 1) * (m / n)) :
    valueOf (cfgStep nm (some i) (some t) (some n) (some m)) it =
      .ok (some (i + k * ((t - i) / (n - 1)))) := by
  have hn' : (0 : ℝ) < n := by exact_mod_cast (by omega : 0 < n)
  have h1' : k * m ≤ it * n := by
    have : (k : ℝ) * m ≤ it * n := by
      have := mul_le_mul_of_nonneg_right h1 hn'.le
      have e : (k : ℝ) * (m / n) * n = k * m := by field_simp
      rw [e] at this; exact this
    exact_mod_cast this
  have h2' : it * n < (k + 1) * m := by
    have : (it : ℝ) * n < (k + 1) * m := by
      have := mul_lt_mul_of_pos_right h2 hn'
      have e : ((k : ℝ) + 1) * (m / n) * n = (k + 1) * m := by field_simp
      rw [e] at this; exact this
    exact_mod_cast this
  have hit : 0 ≤ it := by
    by_contra hneg
    push Not at hneg
    nlinarith
  rw [valueOf_step _ _ _ _ _ _ hit]
  have hlt : it < m := by
    have : it * n < n * m := by nlinarith
    nlinarith
  have hd : (n : ℝ) - 1 ≠ 0 := by
    have : (2 : ℝ) ≤ n := by exact_mod_cast hn
    intro h; linarith
  unfold steppedValue
  rw [if_neg (by omega)]
  simp only [weight, stepAlpha, stepIndex_plateau hm (by omega) (by omega) h1' h2']
  congr 2
  field_simp
  ring

/-- The blocks cover the whole horizon `[0, m)`, and if there are at least as many iterations as steps no block is empty. -/
theorem plateaus_cover (n m : ℤ) (hn : 2 ≤ n) (hm : 0 < m) :
    (∀ it : ℤ, 0 ≤ it → it < m → ∃ k : ℤ, 0 ≤ k ∧ k < n ∧ (k : ℝ) * (m / n) ≤ it ∧ (it : ℝ) < (k + 1) * (m / n)) ∧
    (n ≤ m → ∀ k : ℤ, 0 ≤ k → k < n → ∃ it : ℤ, 0 ≤ it ∧ it < m ∧ (k : ℝ) * (m / n) ≤ it ∧
      (it : ℝ) < (k + 1) * (m / n)) := by
  have hn' : (0 : ℝ) < n := by exact_mod_cast (by omega : 0 < n)
  have conv1 : ∀ k it : ℤ, k * m ≤ it * n → (k : ℝ) * (m / n) ≤ it := by
    intro k it h
    rw [mul_div_assoc', div_le_iff₀ hn']; exact_mod_cast h
  have conv2 : ∀ k it : ℤ, it * n < (k + 1) * m → (it : ℝ) < (k + 1) * (m / n) := by
    intro k it h
    rw [mul_div_assoc', lt_div_iff₀ hn']; exact_mod_cast h
  constructor
  · intro it h0 h1
    refine ⟨it * n / m, Int.ediv_nonneg (by nlinarith) hm.le, ?_, conv1 _ _ ?_, conv2 _ _ ?_⟩
    · rw [Int.ediv_lt_iff_lt_mul hm]; nlinarith
    · exact Int.ediv_mul_le _ hm.ne'
    · exact Int.lt_ediv_add_one_mul_self _ hm
  · intro hnm k hk0 hkn
    -- it = ceil (k m / n)
    have hmod := Int.emod_add_mul_ediv (k * m + n - 1) n
    have hm0 := Int.emod_nonneg (k * m + n - 1) (by omega : n ≠ 0)
    have hm1 := Int.emod_lt_of_pos (k * m + n - 1) (by omega : 0 < n)
    set q := (k * m + n - 1) / n with hq
    have e1 : k * m ≤ q * n := by nlinarith
    have e2 : q * n < (k + 1) * m := by nlinarith
    refine ⟨q, ?_, ?_, conv1 _ _ e1, conv2 _ _ e2⟩
    · by_contra h; push Not at h; nlinarith
    · have : q * n < n * m := by nlinarith
      nlinarith

theorem plateau_values_distinct (i t : ℝ) (n : ℤ) (hn : 2 ≤ n) (hit : i ≠ t) (k l : ℤ)
    (h : i + k * ((t - i) / ((n : ℝ) - 1)) = i + l * ((t - i) / ((n : ℝ) - 1))) : k = l := by
  have hd : (n : ℝ) - 1 ≠ 0 := by
    have : (2 : ℝ) ≤ n := by exact_mod_cast hn
    intro h; linarith
  have hne : (t - i) / ((n : ℝ) - 1) ≠ 0 := div_ne_zero (sub_ne_zero.mpr hit.symm) hd
  have := mul_right_cancel₀ hne (add_left_cancel h)
  exact_mod_cast this

/-- **C04 (b)** Every iteration of the horizon `[0, m)` has one of the `n` equally spaced values, and if there are at least as many iterations
as steps every one of them is used. -/
theorem C04_step_plateaus_cover (nm : Option String) (i t : ℝ) (n m : ℤ) (hn : 2 ≤ n) (hm : 0 < m) :
    (∀ it : ℤ, 0 ≤ it → it < m → ∃ k : ℤ, 0 ≤ k ∧ k < n ∧
      valueOf (cfgStep nm (some i) (some t) (some n) (some m)) it = .ok (some (i + k * ((t - i) / (n - 1))))) ∧
    (n ≤ m → ∀ k : ℤ, 0 ≤ k → k < n → ∃ it : ℤ, 0 ≤ it ∧ it < m ∧
      valueOf (cfgStep nm (some i) (some t) (some n) (some m)) it = .ok (some (i + k * ((t - i) / (n - 1))))) := by
  obtain ⟨h1, h2⟩ := plateaus_cover n m hn hm
  refine ⟨fun it h0 hlt => ?_, fun hnm k hk hkn => ?_⟩
  · obtain ⟨k, a1, a2, a3, a4⟩ := h1 it h0 hlt
    exact ⟨k, a1, a2, C04_step_plateau_value nm i t n m k it hn hm a1 a2 a3 a4⟩
  · obtain ⟨it, a1, a2, a3, a4⟩ := h2 hnm k hk hkn
    exact ⟨it, a1, a2, C04_step_plateau_value nm i t n m k it hn hm hk hkn a3 a4⟩

/-- **C04 (c)** When `init ≠ target`, two iterations of the horizon have the same value only if they lie in the same block. -/
theorem C04_step_values_distinct (nm : Option String) (i t : ℝ) (n m : ℤ) (hn : 2 ≤ n) (hm : 0 < m) (hit : i ≠ t) (a b : ℤ) (ha : 0 ≤ a ∧ a < m)
    (hb : 0 ≤ b ∧ b < m) (h : valueOf (cfgStep nm (some i) (some t) (some n) (some m)) a = valueOf (cfgStep nm (some i) (some t) (some n) (some m)) b) :
    ∃ k : ℤ, ((k : ℝ) * (m / n) ≤ a ∧ (a : ℝ) < (k + 1) * (m / n)) ∧ (k : ℝ) * (m / n) ≤ b ∧ (b : ℝ) < (k + 1) * (m / n) := by
  obtain ⟨k, a1, a2, a3, a4⟩ := (plateaus_cover n m hn hm).1 a ha.1 ha.2
  obtain ⟨l, b1, b2, b3, b4⟩ := (plateaus_cover n m hn hm).1 b hb.1 hb.2
  rw [C04_step_plateau_value nm i t n m k a hn hm a1 a2 a3 a4, C04_step_plateau_value nm i t n m l b hn hm b1 b2 b3 b4] at h
  simp only [Except.ok.injEq, Option.some.injEq] at h
  obtain rfl := plateau_values_distinct i t n hn hit k l h
  exact ⟨k, ⟨a3, a4⟩, b3, b4⟩

example := (C04_step_plateaus_cover none 1 3 5 100 (by norm_num) (by norm_num)).2 (by norm_num) 4 (by norm_num) (by norm_num)

/- Non-vacuity: docstring `value(50) == 2.0`. -/
example : valueOf (cfgStep (some "p") (some 1) (some 3) (some 5) (some 100)) 50 = .ok (some 2) := by
  rw [C04_step_plateau_value (some "p") 1 3 5 100 2 50] <;> norm_num

/-- **C05 (a)** Accelerating / decelerating schedules with positive curvature stay between their end points and
never move away from the target. -/
theorem C05_curved_between_and_monotone (nm : Option String) (i t : ℝ) (n m : ℤ) (c : ℝ) (hc : 0 < c)
    (cfg : Res Config)
    (hcfg : cfg = cfgStepAccelerating nm (some i) (some t) (some n) (some m) (some c) ∨
      cfg = cfgStepDecelerating nm (some i) (some t) (some n) (some m) (some c))
    (a b : ℤ) (ha : 0 ≤ a) (hab : a ≤ b) :
    ∃ u v, valueOf cfg a = .ok (some u) ∧ valueOf cfg b = .ok (some v) ∧
      Between i t u ∧ Between i t v ∧ MovesToward i t u v := by
  rcases hcfg with rfl | rfl
  · exact ⟨_, _, valueOf_acc _ _ _ _ _ _ _ hc ha, valueOf_acc _ _ _ _ _ _ _ hc (by omega),
      steppedValue_between (Or.inr (Or.inl rfl)) hc ha i t,
      steppedValue_between (Or.inr (Or.inl rfl)) hc (by omega) i t,
      steppedValue_moves (Or.inr (Or.inl rfl)) hc ha hab i t⟩
  · exact ⟨_, _, valueOf_dec _ _ _ _ _ _ _ hc ha, valueOf_dec _ _ _ _ _ _ _ hc (by omega),
      steppedValue_between (Or.inr (Or.inr rfl)) hc ha i t,
      steppedValue_between (Or.inr (Or.inr rfl)) hc (by omega) i t,
      steppedValue_moves (Or.inr (Or.inr rfl)) hc ha hab i t⟩

private theorem dist_blend {w i t : ℝ} (h1 : w ≤ 1) :
    |t - ((1 - w) * i + w * t)| = (1 - w) * |t - i| := by
  have : t - ((1 - w) * i + w * t) = (1 - w) * (t - i) := by ring
  rw [this, abs_mul, abs_of_nonneg (by linarith)]

/-- **C05 (b)** For curvature at least 1 the accelerating schedule is never closer to the target than the linear one
and the decelerating schedule is never further away. -/
theorem C05_curved_bracket_linear (nm : Option String) (i t : ℝ) (n m : ℤ) (c : ℝ) (hc : 1 ≤ c) (it : ℤ)
    (hit : 0 ≤ it) :
    ∃ va vs vd, valueOf (cfgStepAccelerating nm (some i) (some t) (some n) (some m) (some c)) it = .ok (some va) ∧
      valueOf (cfgStep nm (some i) (some t) (some n) (some m)) it = .ok (some vs) ∧
      valueOf (cfgStepDecelerating nm (some i) (some t) (some n) (some m) (some c)) it = .ok (some vd) ∧
      |t - vd| ≤ |t - vs| ∧ |t - vs| ≤ |t - va| := by
  have hc0 : 0 < c := by linarith
  refine ⟨_, _, _, valueOf_acc _ _ _ _ _ _ _ hc0 hit, valueOf_step _ _ _ _ _ _ hit,
    valueOf_dec _ _ _ _ _ _ _ hc0 hit, ?_⟩
  unfold steppedValue
  split_ifs with h
  · simp
  · have hm : 0 < m := by omega
    have hn : 2 ≤ n := by omega
    have h0 := stepAlpha_nonneg hit hm hn
    have h1 := stepAlpha_le_one (it := it) (m := m) hn
    have ea : stepAlpha it m n ^ c ≤ stepAlpha it m n := by
      rcases h0.eq_or_lt with h0' | h0'
      · rw [← h0', Real.zero_rpow hc0.ne']
      · simpa using Real.rpow_le_rpow_of_exponent_ge h0' h1 hc
    have ed : (1 - stepAlpha it m n) ^ c ≤ 1 - stepAlpha it m n := by
      rcases (by linarith : 0 ≤ 1 - stepAlpha it m n).eq_or_lt with h0' | h0'
      · rw [← h0', Real.zero_rpow hc0.ne']
      · simpa using Real.rpow_le_rpow_of_exponent_ge h0' (by linarith) hc
    rw [dist_blend (weight_le_one (Or.inr (Or.inr rfl)) hc0 hit hm hn),
      dist_blend (weight_le_one (Or.inl rfl) one_pos hit hm hn),
      dist_blend (weight_le_one (Or.inr (Or.inl rfl)) hc0 hit hm hn)]
    have habs := abs_nonneg (t - i)
    simp only [weight]
    exact ⟨mul_le_mul_of_nonneg_right (by linarith) habs, mul_le_mul_of_nonneg_right (by linarith) habs⟩

/-- **C05 (c)** With curvature 1 the three stepped schedules coincide. -/
theorem C05_curvature_one (nm : Option String) (i t : ℝ) (n m it : ℤ) (hit : 0 ≤ it) :
    valueOf (cfgStepAccelerating nm (some i) (some t) (some n) (some m) (some 1)) it =
      valueOf (cfgStep nm (some i) (some t) (some n) (some m)) it ∧
    valueOf (cfgStepDecelerating nm (some i) (some t) (some n) (some m) (some 1)) it =
      valueOf (cfgStep nm (some i) (some t) (some n) (some m)) it := by
  rw [valueOf_acc _ _ _ _ _ _ _ one_pos hit, valueOf_dec _ _ _ _ _ _ _ one_pos hit, valueOf_step _ _ _ _ _ _ hit]
  simp [steppedValue, weight]

/-- **C05 (d)** A negative curvature is accepted but useless: the accelerating schedule raises ZeroDivisionError throughout its first
plateau and lies beyond the target afterwards; the decelerating one raises ZeroDivisionError throughout its last plateau. -/
theorem C05_negative_curvature (nm : Option String) (i t : ℝ) (n m : ℤ) (c : ℝ) (hc : c < 0) (hn : 2 ≤ n) (it : ℤ) (hit : 0 ≤ it) (him : it < m) :
    (it * n < m → valueOf (cfgStepAccelerating nm (some i) (some t) (some n) (some m) (some c)) it = .error .zeroDivision) ∧
    (m ≤ it * n → ∃ w, 1 ≤ w ∧ valueOf (cfgStepAccelerating nm (some i) (some t) (some n) (some m) (some c)) it = .ok (some (i + w * (t - i)))) ∧
    ((n - 1) * m ≤ it * n → valueOf (cfgStepDecelerating nm (some i) (some t) (some n) (some m) (some c)) it = .error .zeroDivision) := by
  have hm : 0 < m := by omega
  have hacc : valueOf (cfgStepAccelerating nm (some i) (some t) (some n) (some m) (some c)) it =
      (scheduleStepAccelerating it m (some i) t n (some c)).map some := by
    simp [valueOf, cfgStepAccelerating, fromDefaults, fromConfig, mkScheduler, Scheduler.value, Func.call, bind, Except.bind, show ¬ n < 0 by omega,
      show ¬ m ≤ it by omega]
  have hdec : valueOf (cfgStepDecelerating nm (some i) (some t) (some n) (some m) (some c)) it =
      (scheduleStepDecelerating it m (some i) t n (some c)).map some := by
    simp [valueOf, cfgStepDecelerating, fromDefaults, fromConfig, mkScheduler, Scheduler.value, Func.call, bind, Except.bind, show ¬ n < 0 by omega,
      show ¬ m ≤ it by omega]
  have hn1 : (0 : ℝ) < (n : ℝ) - 1 := by
    have : (2 : ℝ) ≤ n := by exact_mod_cast hn
    linarith
  refine ⟨fun h => ?_, fun h => ?_, fun h => ?_⟩
  · have h0 : stepAlpha it m n = 0 := by
      unfold stepAlpha
      rw [stepIndex_plateau (k := 0) hm (by omega) (by omega) (by rw [zero_mul]; exact mul_nonneg hit (by omega)) (by omega)]
      simp
    rw [hacc]
    unfold scheduleStepAccelerating pyPow
    rw [if_neg (by omega), if_neg (by omega), h0]
    simp [hc, bind, Except.bind, Except.map]
  · have h0 : 0 < stepAlpha it m n := by
      unfold stepAlpha
      refine div_pos ?_ hn1
      have : 1 ≤ stepIndex it m n := by
        rw [stepIndex_eq _ _ _ hm (by omega)]
        exact le_min ((Int.le_ediv_iff_mul_le hm).mpr (by omega)) (by omega)
      exact_mod_cast (by omega : 0 < stepIndex it m n)
    have h1 := stepAlpha_le_one (it := it) (m := m) hn
    refine ⟨stepAlpha it m n ^ c, Real.one_le_rpow_of_pos_of_le_one_of_nonpos h0 h1 hc.le, ?_⟩
    rw [hacc]
    unfold scheduleStepAccelerating pyPow
    rw [if_neg (by omega), if_neg (by omega)]
    simp only [h0.ne', false_and, if_false, not_lt.2 h0.le, bind, Except.bind, blend, Except.map]
    congr 2
    ring
  · have h0 : stepAlpha it m n = 1 := by
      unfold stepAlpha
      rw [stepIndex_last hm (by omega) h]
      push_cast
      exact div_self hn1.ne'
    rw [hdec]
    unfold scheduleStepDecelerating pyPow
    rw [if_neg (by omega), if_neg (by omega), h0]
    simp [hc, bind, Except.bind, Except.map]

example := C05_negative_curvature (some "beta") 1 8 6 120 (-1) (by norm_num) (by norm_num) 100 (by norm_num) (by norm_num)

/- Non-vacuity, and the docstring example of `SchedulerStepAccelerating` (scheduler.py:1023-1031): `value(100)` is
8.0, not the documented 7.2. -/
example : valueOf (cfgStepAccelerating (some "beta") (some 1) (some 8) (some 6) (some 120) (some 3)) 100 =
    .ok (some 8) :=
  (C03_first_and_last_plateau _ 1 8 6 120 3 (by norm_num) (by norm_num) (by norm_num) _ (Or.inr (Or.inl rfl)) 100
    (by norm_num)).2 (by norm_num)

private theorem valueOf_saw_eq (nm : Option String) (i t : ℝ) (n m it : ℤ) :
    valueOf (cfgSawtooth nm i t m n) it =
      (Scheduler.mk nm (some i) (some t) (some n) (some m) none .sawtooth).value it := rfl

private theorem valueOf_saw (nm : Option String) (i t : ℝ) (n m it : ℤ) (hn : 0 < n) (hm : 0 < m) (h : it < m) :
    valueOf (cfgSawtooth nm i t m n) it =
      .ok (some (i + (((it - 1) * n % m : ℤ) : ℝ) / m * (t - i))) := by
  rw [valueOf_saw_eq]
  unfold Scheduler.value
  simp only [Func.call]
  rw [if_neg (by omega), if_neg (by omega), sawtooth_closed hm hn]
  rfl

/-- **C06 (a)** Sawtooth values lie between init and target, for every iteration. -/
theorem C06_sawtooth_between (nm : Option String) (i t : ℝ) (n m it : ℤ) (hn : 0 < n) (hm : 0 < m) :
    ∃ v, valueOf (cfgSawtooth nm i t m n) it = .ok (some v) ∧ Between i t v := by
  by_cases h : it < m
  · refine ⟨_, valueOf_saw nm i t n m it hn hm h, ?_⟩
    have hm' : (0 : ℝ) < m := by exact_mod_cast hm
    have h0 : (0 : ℝ) ≤ (((it - 1) * n % m : ℤ) : ℝ) / m :=
      div_nonneg (by exact_mod_cast Int.emod_nonneg _ hm.ne') hm'.le
    have h1 : (((it - 1) * n % m : ℤ) : ℝ) / m ≤ 1 := by
      rw [div_le_one hm']; exact_mod_cast (Int.emod_lt_of_pos _ hm).le
    have := between_blend (i := i) (t := t) h0 h1
    convert this using 1; ring
  · exact ⟨t, (valueOf_saw_eq ..).trans (C03_target_after_horizon _ t m it rfl rfl (by omega)), between_right _ _⟩

/-- **C06 (rejection).** The step and sawtooth functions raise ValueError for a non-positive horizon, the sawtooth function also for a
non-positive number of cycles. A sawtooth schedule with 0 cycles therefore raises at every iteration before its horizon; with a negative
number it silently is its target value. -/
theorem C06_bad_counts_rejected (it total n : ℤ) (i : Option ℝ) (t : ℝ) (c : Option ℝ) :
    (total ≤ 0 → scheduleStep it total i t n = .error .valueError ∧ scheduleStepAccelerating it total i t n c = .error .valueError ∧
      scheduleStepDecelerating it total i t n c = .error .valueError ∧ scheduleSawtooth it total i t n = .error .valueError) ∧
    (n ≤ 0 → scheduleSawtooth it total i t n = .error .valueError) ∧
    ∀ nm j, it < total → (n = 0 → valueOf (cfgSawtooth nm j t total n) it = .error .valueError) ∧
      (n < 0 → valueOf (cfgSawtooth nm j t total n) it = .ok (some t)) := by
  have h2 : n ≤ 0 → ∀ i, scheduleSawtooth it total i t n = .error .valueError := by
    intro h i; unfold scheduleSawtooth; rw [if_pos (Or.inr h)]
  refine ⟨fun h => ⟨?_, ?_, ?_, ?_⟩, fun h => h2 h i, fun nm j hit => ⟨fun h => ?_, fun h => ?_⟩⟩
  · unfold scheduleStep; rw [if_pos h]
  · unfold scheduleStepAccelerating; rw [if_pos h]
  · unfold scheduleStepDecelerating; rw [if_pos h]
  · unfold scheduleSawtooth; rw [if_pos (Or.inl h)]
  · rw [valueOf_saw_eq]
    unfold Scheduler.value
    simp only [Func.call]
    rw [if_neg (by omega), if_neg (by omega), h2 h.le]
    rfl
  · rw [valueOf_saw_eq]
    unfold Scheduler.value
    simp only [h, if_true]

/-- **C06 (b)** With a whole cycle length `L = m / n`, the `r`-th iteration of cycle `k` (both counted from 0) has
value `init + (r / L) (target - init)`: it starts at init in every cycle, decays by the constant amount
`(target - init) / L` per iteration, and does not depend on the cycle. -/
theorem C06_sawtooth_in_cycle (nm : Option String) (i t : ℝ) (n L k r : ℤ) (hn : 0 < n) (hL : 0 < L)
    (hr : 0 ≤ r) (hrL : r < L) (hend : k * L + r + 1 < n * L) :
    valueOf (cfgSawtooth nm i t (n * L) n) (k * L + r + 1) = .ok (some (i + (r : ℝ) / L * (t - i))) := by
  rw [valueOf_saw nm i t n (n * L) _ hn (by positivity) hend]
  have e : (k * L + r + 1 - 1) * n % (n * L) = n * r := by
    have : (k * L + r + 1 - 1) * n = n * r + n * L * k := by ring
    rw [this, Int.add_mul_emod_self_left]
    exact Int.emod_eq_of_lt (by positivity) (by nlinarith)
  rw [e]
  have hn' : (n : ℝ) ≠ 0 := by exact_mod_cast hn.ne'
  have hL' : (L : ℝ) ≠ 0 := by exact_mod_cast hL.ne'
  push_cast
  congr 3
  field_simp

/-- **C06 (c)** For any (also fractional) cycle length, the value depends only on the position within the cycle: it
is `init + frac((it-1) num_steps / iters_max) (target - init)`. -/
theorem C06_sawtooth_fract (nm : Option String) (i t : ℝ) (n m it : ℤ) (hn : 0 < n) (hm : 0 < m) (h : it < m) :
    valueOf (cfgSawtooth nm i t m n) it =
      .ok (some (i + Int.fract (((it : ℝ) - 1) * n / m) * (t - i))) := by
  rw [valueOf_saw nm i t n m it hn hm h]
  congr 4
  have := Int.fract_div_intCast_eq_div_intCast_mod (k := ℝ) (m := (it - 1) * n) (n := m.toNat)
  have hcast : ((m.toNat : ℕ) : ℝ) = m := by
    have : ((m.toNat : ℤ)) = m := Int.toNat_of_nonneg hm.le
    exact_mod_cast congrArg (Int.cast (R := ℝ)) this
  rw [hcast, Int.toNat_of_nonneg hm.le] at this
  push_cast at this
  rw [← this]

/- Non-vacuity: the docstring example, 4 cycles over 120 iterations: cycle 3 starts at iteration 61 with 0.3. -/
example : valueOf (cfgSawtooth (some "move") 0.3 0.1 120 4) 61 = .ok (some 0.3) := by
  have := C06_sawtooth_in_cycle (some "move") 0.3 0.1 4 30 2 0 (by norm_num) (by norm_num) (by norm_num)
    (by norm_num) (by norm_num)
  norm_num at this ⊢
  exact this

/-- **C07, negation** The documented claim "target_value is the value at the end of each sawtooth step" is false of
the code: at the last iteration of every cycle except the very last one, the value differs from the target (for every
init ≠ target and every whole cycle length). -/
theorem C07_sawtooth_cycle_end_misses_target (nm : Option String) (i t : ℝ) (hit : i ≠ t) (n L k : ℤ) (hn : 0 < n)
    (hL : 0 < L) (hk : k + 1 < n) :
    valueOf (cfgSawtooth nm i t (n * L) n) ((k + 1) * L) ≠ .ok (some t) := by
  have hk' : (k + 1) * L < n * L := by nlinarith
  have h := C06_sawtooth_in_cycle nm i t n L k (L - 1) hn hL (by omega) (by omega) (by linarith)
  have e : k * L + (L - 1) + 1 = (k + 1) * L := by ring
  rw [e] at h
  rw [h]
  intro hh
  have hL' : (L : ℝ) ≠ 0 := by exact_mod_cast hL.ne'
  have h3 : i + ((L - 1 : ℤ) : ℝ) / L * (t - i) = t := by
    injection hh with hh; injection hh
  push_cast at h3
  field_simp at h3
  apply hit
  linarith

/-- **C07, what does hold** (missing from the full property: the value at the end of a cycle is the target): at the
last iteration of a cycle the value is exactly one decrement `(target - init) / L` short of the target, and the
target itself is returned at the end of the last cycle (the horizon). -/
theorem C07_sawtooth_cycle_end_partial (nm : Option String) (i t : ℝ) (n L k : ℤ) (hn : 0 < n) (hL : 0 < L)
    (hk : k + 1 < n) :
    valueOf (cfgSawtooth nm i t (n * L) n) ((k + 1) * L) = .ok (some (t - (t - i) / L)) ∧
    valueOf (cfgSawtooth nm i t (n * L) n) (n * L) = .ok (some t) := by
  have hk' : (k + 1) * L < n * L := by nlinarith
  have h := C06_sawtooth_in_cycle nm i t n L k (L - 1) hn hL (by omega) (by omega) (by linarith)
  have e : k * L + (L - 1) + 1 = (k + 1) * L := by ring
  rw [e] at h
  refine ⟨?_, (valueOf_saw_eq ..).trans (C03_target_after_horizon _ t (n * L) _ rfl rfl le_rfl)⟩
  rw [h]
  have hL' : (L : ℝ) ≠ 0 := by exact_mod_cast hL.ne'
  push_cast
  congr 2
  field_simp
  ring

/- Witness on the documented example: `value(60)` is 0.1 + 0.2/30, the docstring (scheduler.py:1129-1130) says 0.1. -/
example : valueOf (cfgSawtooth (some "move") 0.3 0.1 120 4) 60 ≠ .ok (some 0.1) := by
  have := C07_sawtooth_cycle_end_misses_target (some "move") 0.3 0.1 (by norm_num) 4 30 1 (by norm_num)
    (by norm_num) (by norm_num)
  norm_num at this ⊢
  exact this

/-- **C08** ToOne schedulers built through the configuration API: whatever init/target the configuration carried, if
it is accepted then every value lies in `[1/n, 1]`, the first plateau is `1/n` (for `n ≥ 2`) and the value at and
after the horizon is 1. -/
theorem C08_to_one_ratio (c : Config)
    (hty : c.schedType = "StepToOne" ∨ c.schedType = "StepAcceleratingToOne" ∨
      c.schedType = "StepDeceleratingToOne")
    (c' : Config) (hacc : fromDefaults c = .ok c') (n m : ℤ) (hn : c.numSteps = some n) (hm : c.itersMax = some m)
    (hcurv : c.schedType ≠ "StepToOne" → ∃ q, c.curvature = some q ∧ 0 < q) (it : ℤ) (hit : 0 ≤ it) :
    ∃ v, valueOf (fromDefaults c) it = .ok (some v) ∧ 1 / (n : ℝ) ≤ v ∧ v ≤ 1 ∧
      (2 ≤ n → 0 < m → (it : ℝ) < m / n → v = 1 / n) ∧ (m ≤ it → v = 1) := by
  obtain ⟨nm, ini, tgt, ns, im, cu, ty⟩ := c
  simp only at hty hn hm hcurv
  subst hn hm
  -- the accepted configuration
  have haux : ∀ b, toOneBranch ⟨nm, ini, tgt, some n, some m, cu, ty⟩ b = .ok c' →
      0 < n ∧ c' = ⟨nm, some (1 / (n : ℝ)), some 1, some n, some m, cu, ty⟩ := by
    intro b hb
    unfold toOneBranch at hb
    simp only at hb
    split_ifs at hb with h1 h2 h3
    all_goals simp_all
  have fin : ∀ f q, Stepped f → (0 : ℝ) < q → 0 < n →
      ∃ v, v = steppedValue f (1 / (n : ℝ)) 1 n m q it ∧ 1 / (n : ℝ) ≤ v ∧ v ≤ 1 ∧
      (2 ≤ n → 0 < m → (it : ℝ) < m / n → v = 1 / n) ∧ (m ≤ it → v = 1) := by
    intro f q hf hq hn
    have hn1 : (1 : ℝ) ≤ n := by exact_mod_cast hn
    have hle : 1 / (n : ℝ) ≤ 1 := by rw [div_le_one (by linarith)]; exact hn1
    have hb := steppedValue_between (n := n) (m := m) hf hq hit (1 / (n : ℝ)) 1
    refine ⟨_, rfl, ?_, ?_, ?_, ?_⟩
    · have := hb.1; rwa [min_eq_left hle] at this
    · have := hb.2; rwa [max_eq_right hle] at this
    · intro h2 hm h
      rw [lt_div_iff₀ (by linarith)] at h
      have h' : it * n < m := by exact_mod_cast h
      have hlt : it < m := by nlinarith
      unfold steppedValue
      rw [if_neg (by omega), weight_first hf hq
        (stepIndex_plateau hm (by omega) (by omega) (by nlinarith) (by linarith))]
      ring
    · intro h
      unfold steppedValue
      rw [if_pos (Or.inr h)]
  have hacc' := hacc
  rcases hty with rfl | rfl | rfl
  · have hb : toOneBranch ⟨nm, ini, tgt, some n, some m, cu, "StepToOne"⟩ false = .ok c' := by
      rw [← hacc]; simp [fromDefaults]
    obtain ⟨hn, rfl⟩ := haux _ hb
    obtain ⟨v, hv, h⟩ := fin .step 1 (Or.inl rfl) one_pos hn
    refine ⟨v, ?_, h⟩
    rw [hacc, hv, ← value_stepped (Or.inl rfl) one_pos hit _ _ nm]
    simp [valueOf, fromConfig, toOneMutate, mkScheduler, hn.ne', bind, Except.bind, Scheduler.value, Func.call]
  · have hb : toOneBranch ⟨nm, ini, tgt, some n, some m, cu, "StepAcceleratingToOne"⟩ true = .ok c' := by
      rw [← hacc]; simp [fromDefaults]
    obtain ⟨hn, rfl⟩ := haux _ hb
    obtain ⟨q, rfl, hq⟩ := hcurv (by decide)
    obtain ⟨v, hv, h⟩ := fin .accelerating q (Or.inr (Or.inl rfl)) hq hn
    refine ⟨v, ?_, h⟩
    rw [hacc, hv, ← value_stepped (Or.inr (Or.inl rfl)) hq hit _ _ nm]
    simp [valueOf, fromConfig, toOneMutate, mkScheduler, hn.ne', bind, Except.bind]
  · have hb : toOneBranch ⟨nm, ini, tgt, some n, some m, cu, "StepDeceleratingToOne"⟩ true = .ok c' := by
      rw [← hacc]; simp [fromDefaults]
    obtain ⟨hn, rfl⟩ := haux _ hb
    obtain ⟨q, rfl, hq⟩ := hcurv (by decide)
    obtain ⟨v, hv, h⟩ := fin .decelerating q (Or.inr (Or.inr rfl)) hq hn
    refine ⟨v, ?_, h⟩
    rw [hacc, hv, ← value_stepped (Or.inr (Or.inr rfl)) hq hit _ _ nm]
    simp [valueOf, fromConfig, toOneMutate, mkScheduler, hn.ne', bind, Except.bind]

/- Non-vacuity: the factory `step_to_one(num_steps=4, iters_max=40)` is accepted and starts at 1/4. -/
example : valueOf (cfgStepToOne (some "s") (some 4) (some 40)) 3 = .ok (some (1 / 4)) := by
  have hacc : cfgStepToOne (some "s") (some 4) (some 40) =
      .ok ⟨some "s", some (1 / ((4 : ℤ) : ℝ)), some 1, some 4, some 40, none, "StepToOne"⟩ := by
    unfold cfgStepToOne fromDefaults toOneBranch
    simp only
    have h1 : isCloseOne 1 := by unfold isCloseOne; norm_num
    simp [h1]
  obtain ⟨v, h1, -, -, h2, -⟩ := C08_to_one_ratio _ (Or.inl rfl) _ hacc 4 40 rfl rfl (by simp) 3 (by norm_num)
  rw [h2 (by norm_num) (by norm_num) (by norm_num)] at h1
  unfold cfgStepToOne
  rw [h1]
  norm_num

/-- **C08** The factories `step_to_one`, `step_accelerating_to_one` and `step_decelerating_to_one` accept every positive number of steps
(and a curvature where there is one) and reject every other one; the accepted schedules run from `1/n` to 1 in `n` steps over the given
horizon. -/
theorem C08_to_one_factories (nm : Option String) (n m : ℤ) (q : ℝ) (hq : 0 < q) :
    (0 < n → ∀ it, 0 ≤ it →
      valueOf (cfgStepToOne nm (some n) (some m)) it = valueOf (cfgStep nm (some (1 / (n : ℝ))) (some 1) (some n) (some m)) it ∧
      valueOf (cfgStepAcceleratingToOne nm (some n) (some m) (some q)) it =
        valueOf (cfgStepAccelerating nm (some (1 / (n : ℝ))) (some 1) (some n) (some m) (some q)) it ∧
      valueOf (cfgStepDeceleratingToOne nm (some n) (some m) (some q)) it =
        valueOf (cfgStepDecelerating nm (some (1 / (n : ℝ))) (some 1) (some n) (some m) (some q)) it) ∧
    (n ≤ 0 → cfgStepToOne nm (some n) (some m) = .error .valueError ∧
      cfgStepAcceleratingToOne nm (some n) (some m) (some q) = .error .valueError ∧
      cfgStepDeceleratingToOne nm (some n) (some m) (some q) = .error .valueError) := by
  have h1 : isCloseOne 1 := by unfold isCloseOne; norm_num
  constructor
  · intro hn it hit
    refine ⟨?_, ?_, ?_⟩
    · simp [cfgStepToOne, cfgStep, fromDefaults, toOneBranch, h1, valueOf, fromConfig, toOneMutate, mkScheduler, hn.ne', not_le.mpr hn, bind, Except.bind,
        Scheduler.value, Func.call]
    · simp [cfgStepAcceleratingToOne, cfgStepAccelerating, fromDefaults, toOneBranch, h1, valueOf, fromConfig, toOneMutate, mkScheduler, hn.ne',
        not_le.mpr hn, bind, Except.bind]
    · simp [cfgStepDeceleratingToOne, cfgStepDecelerating, fromDefaults, toOneBranch, h1, valueOf, fromConfig, toOneMutate, mkScheduler, hn.ne',
        not_le.mpr hn, bind, Except.bind]
  · intro hn
    simp [cfgStepToOne, cfgStepAcceleratingToOne, cfgStepDeceleratingToOne, fromDefaults, toOneBranch, hn]

end Verif.Props
