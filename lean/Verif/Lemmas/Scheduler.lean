import Verif.Model.Scheduler
import Verif.Spec.Order
import Mathlib.Tactic.Linarith
import Mathlib.Tactic.Ring
import Mathlib.Tactic.FieldSimp
import Mathlib.Tactic.Positivity
import Mathlib.Tactic.NormNum

/-! Helper lemmas about the scheduler model. -/
namespace Verif.Sched
open Verif Verif.Spec

/-- A convex combination lies between its end points. -/
theorem between_blend {a i t : ℝ} (h0 : 0 ≤ a) (h1 : a ≤ 1) : Between i t ((1 - a) * i + a * t) := by
  constructor
  · rcases min_cases i t with ⟨h, h'⟩ | ⟨h, h'⟩ <;> rw [h] <;> nlinarith
  · rcases max_cases i t with ⟨h, h'⟩ | ⟨h, h'⟩ <;> rw [h] <;> nlinarith

theorem between_right (i t : ℝ) : Between i t t := ⟨min_le_right _ _, le_max_right _ _⟩

theorem moves_blend {a b i t : ℝ} (h : a ≤ b) :
    MovesToward i t ((1 - a) * i + a * t) ((1 - b) * i + b * t) := by
  constructor <;> intro h' <;> nlinarith

theorem moves_right {i t x : ℝ} (h : Between i t x) : MovesToward i t x t := by
  constructor <;> intro h'
  · have := h.2; rwa [max_eq_right h'] at this
  · have := h.1; rwa [min_eq_right h'] at this

theorem moves_self {i t x : ℝ} : MovesToward i t x x := ⟨fun _ => le_rfl, fun _ => le_rfl⟩

/-- The step index in integer arithmetic. -/
theorem stepIndex_eq (it m n : ℤ) (hm : 0 < m) (hn : 0 < n) :
    stepIndex it m n = min (it * n / m) (n - 1) := by
  unfold stepIndex
  congr 1
  have hm' : (0 : ℝ) < m := by exact_mod_cast hm
  have hn' : (0 : ℝ) < n := by exact_mod_cast hn
  rw [Int.floor_eq_iff]
  have e : (it : ℝ) / ((m : ℝ) / n) = it * n / m := by field_simp
  rw [e]
  constructor
  · rw [le_div_iff₀ hm']
    exact_mod_cast Int.ediv_mul_le _ hm.ne'
  · rw [div_lt_iff₀ hm']
    have := Int.lt_ediv_add_one_mul_self (it * n) hm
    exact_mod_cast this

theorem stepIndex_nonneg {it m n : ℤ} (hit : 0 ≤ it) (hm : 0 < m) (hn : 2 ≤ n) : 0 ≤ stepIndex it m n := by
  rw [stepIndex_eq _ _ _ hm (by omega)]
  refine le_min (Int.ediv_nonneg (mul_nonneg hit (by omega)) hm.le) (by omega)

theorem stepIndex_le {it m n : ℤ} : stepIndex it m n ≤ n - 1 := by
  unfold stepIndex; exact min_le_right _ _

theorem stepIndex_mono {a b m n : ℤ} (h : a ≤ b) (hm : 0 < m) (hn : 2 ≤ n) :
    stepIndex a m n ≤ stepIndex b m n := by
  rw [stepIndex_eq _ _ _ hm (by omega), stepIndex_eq _ _ _ hm (by omega)]
  refine min_le_min_right _ (Int.ediv_le_ediv hm ?_)
  nlinarith

theorem stepAlpha_nonneg {it m n : ℤ} (hit : 0 ≤ it) (hm : 0 < m) (hn : 2 ≤ n) : 0 ≤ stepAlpha it m n := by
  unfold stepAlpha
  have h1 : (0 : ℝ) ≤ stepIndex it m n := by exact_mod_cast stepIndex_nonneg hit hm hn
  have h2 : (0 : ℝ) ≤ (n : ℝ) - 1 := by
    have : (2 : ℝ) ≤ n := by exact_mod_cast hn
    linarith
  positivity

theorem stepAlpha_le_one {it m n : ℤ} (hn : 2 ≤ n) : stepAlpha it m n ≤ 1 := by
  unfold stepAlpha
  have h2 : (0 : ℝ) < (n : ℝ) - 1 := by
    have : (2 : ℝ) ≤ n := by exact_mod_cast hn
    linarith
  rw [div_le_one h2]
  have : ((stepIndex it m n : ℤ) : ℝ) ≤ ((n - 1 : ℤ) : ℝ) := by exact_mod_cast stepIndex_le
  push_cast at this; exact this

theorem stepAlpha_mono {a b m n : ℤ} (h : a ≤ b) (hm : 0 < m) (hn : 2 ≤ n) :
    stepAlpha a m n ≤ stepAlpha b m n := by
  unfold stepAlpha
  have h2 : (0 : ℝ) < (n : ℝ) - 1 := by
    have : (2 : ℝ) ≤ n := by exact_mod_cast hn
    linarith
  have h1 : (stepIndex a m n : ℝ) ≤ stepIndex b m n := by exact_mod_cast stepIndex_mono h hm hn
  gcongr

/-- Step index on a given plateau. -/
theorem stepIndex_plateau {it m n k : ℤ} (hm : 0 < m) (hn : 0 < n) (hk : k ≤ n - 1)
    (h1 : k * m ≤ it * n) (h2 : it * n < (k + 1) * m) : stepIndex it m n = k := by
  rw [stepIndex_eq _ _ _ hm hn]
  have : it * n / m = k := by
    apply le_antisymm
    · exact Int.lt_add_one_iff.mp ((Int.ediv_lt_iff_lt_mul hm).mpr h2)
    · exact (Int.le_ediv_iff_mul_le hm).mpr h1
  rw [this]; exact min_eq_left hk

theorem stepIndex_last {it m n : ℤ} (hm : 0 < m) (hn : 0 < n) (h1 : (n - 1) * m ≤ it * n) :
    stepIndex it m n = n - 1 := by
  rw [stepIndex_eq _ _ _ hm hn]
  exact min_eq_right ((Int.le_ediv_iff_mul_le hm).mpr h1)

/-- `pyPow` never fails for a non-negative base and positive exponent. -/
theorem pyPow_ok {b e : ℝ} (hb : 0 ≤ b) (he : 0 < e) : pyPow b e = .ok (b ^ e) := by
  unfold pyPow
  rw [if_neg (by rintro ⟨_, h⟩; linarith), if_neg (by rintro ⟨h, _⟩; linarith)]

/-- The interpolation weight the three stepped schedules use. -/
noncomputable def weight (f : Func) (c : ℝ) (it m n : ℤ) : ℝ :=
  match f with
  | .accelerating => stepAlpha it m n ^ c
  | .decelerating => 1 - (1 - stepAlpha it m n) ^ c
  | _ => stepAlpha it m n

/-- The three stepped schedule functions. -/
def Stepped (f : Func) : Prop := f = .step ∨ f = .accelerating ∨ f = .decelerating

theorem weight_nonneg {f : Func} (hf : Stepped f) {c : ℝ} (hc : 0 < c) {it m n : ℤ} (hit : 0 ≤ it)
    (hm : 0 < m) (hn : 2 ≤ n) : 0 ≤ weight f c it m n := by
  have h0 := stepAlpha_nonneg hit hm hn
  have h1 := stepAlpha_le_one (it := it) (m := m) hn
  rcases hf with rfl | rfl | rfl <;> simp only [weight]
  · exact h0
  · positivity
  · have := Real.rpow_le_one (by linarith : (0:ℝ) ≤ 1 - stepAlpha it m n) (by linarith) hc.le
    linarith

theorem weight_le_one {f : Func} (hf : Stepped f) {c : ℝ} (hc : 0 < c) {it m n : ℤ} (hit : 0 ≤ it)
    (hm : 0 < m) (hn : 2 ≤ n) : weight f c it m n ≤ 1 := by
  have h0 := stepAlpha_nonneg hit hm hn
  have h1 := stepAlpha_le_one (it := it) (m := m) hn
  rcases hf with rfl | rfl | rfl <;> simp only [weight]
  · exact h1
  · exact Real.rpow_le_one h0 h1 hc.le
  · have := Real.rpow_nonneg (by linarith : (0:ℝ) ≤ 1 - stepAlpha it m n) c
    linarith

theorem weight_mono {f : Func} (hf : Stepped f) {c : ℝ} (hc : 0 < c) {a b m n : ℤ} (ha : 0 ≤ a)
    (h : a ≤ b) (hm : 0 < m) (hn : 2 ≤ n) : weight f c a m n ≤ weight f c b m n := by
  have h0 := stepAlpha_nonneg ha hm hn
  have h1 := stepAlpha_le_one (it := b) (m := m) hn
  have h2 := stepAlpha_mono h hm hn
  rcases hf with rfl | rfl | rfl <;> simp only [weight]
  · exact h2
  · exact Real.rpow_le_rpow h0 h2 hc.le
  · have := Real.rpow_le_rpow (by linarith) (by linarith : 1 - stepAlpha b m n ≤ 1 - stepAlpha a m n) hc.le
    linarith

theorem weight_first {f : Func} (hf : Stepped f) {c : ℝ} (hc : 0 < c) {it m n : ℤ}
    (h : stepIndex it m n = 0) : weight f c it m n = 0 := by
  have : stepAlpha it m n = 0 := by unfold stepAlpha; rw [h]; simp
  rcases hf with rfl | rfl | rfl <;> simp [weight, this, Real.zero_rpow hc.ne']

theorem weight_last {f : Func} (hf : Stepped f) {c : ℝ} (hc : 0 < c) {it m n : ℤ} (hn : 2 ≤ n)
    (h : stepIndex it m n = n - 1) : weight f c it m n = 1 := by
  have h2 : (n : ℝ) - 1 ≠ 0 := by
    have : (2 : ℝ) ≤ n := by exact_mod_cast hn
    intro h; linarith
  have : stepAlpha it m n = 1 := by unfold stepAlpha; rw [h]; push_cast; exact div_self h2
  rcases hf with rfl | rfl | rfl <;> simp [weight, this, Real.zero_rpow hc.ne']

/-- Closed form of a stepped schedule function. -/
theorem call_stepped {f : Func} (hf : Stepped f) {c : ℝ} (hc : 0 < c) {it m n : ℤ} (hit : 0 ≤ it)
    (hm : 0 < m) (hn : 2 ≤ n) (i t : ℝ) :
    f.call it m (some i) t n (some c) =
      .ok ((1 - weight f c it m n) * i + weight f c it m n * t) := by
  have h0 := stepAlpha_nonneg hit hm hn
  have h1 := stepAlpha_le_one (it := it) (m := m) hn
  rcases hf with rfl | rfl | rfl
  · simp [Func.call, scheduleStep, not_le.mpr hm, show ¬ n ≤ 1 by omega, blend, weight]
  · simp [Func.call, scheduleStepAccelerating, not_le.mpr hm, show ¬ n ≤ 1 by omega, blend, weight,
      pyPow_ok h0 hc, bind, Except.bind]
  · simp [Func.call, scheduleStepDecelerating, not_le.mpr hm, show ¬ n ≤ 1 by omega, blend, weight,
      pyPow_ok (by linarith : (0:ℝ) ≤ 1 - stepAlpha it m n) hc, bind, Except.bind]

/-- `schedule_step` ignores the curvature. -/
theorem call_step_curv (it m : ℤ) (i : Option ℝ) (t : ℝ) (n : ℤ) (c c' : Option ℝ) :
    Func.step.call it m i t n c = Func.step.call it m i t n c' := rfl

/-- `n <= 1`: the stepped functions return the target. -/
theorem call_small {f : Func} (hf : Stepped f) {it m n : ℤ} (hm : 0 < m) (hn : n ≤ 1) (i c : Option ℝ) (t : ℝ) :
    f.call it m i t n c = .ok t := by
  rcases hf with rfl | rfl | rfl <;>
    simp [Func.call, scheduleStep, scheduleStepAccelerating, scheduleStepDecelerating, not_le.mpr hm, hn]

/-- The value of a stepped scheduler with all parameters present, in closed form. -/
noncomputable def steppedValue (f : Func) (i t : ℝ) (n m : ℤ) (c : ℝ) (it : ℤ) : ℝ :=
  if n ≤ 1 ∨ m ≤ it then t
  else (1 - weight f c it m n) * i + weight f c it m n * t

theorem value_stepped {f : Func} (hf : Stepped f) {c : ℝ} (hc : 0 < c) {it m n : ℤ} (hit : 0 ≤ it)
    (i t : ℝ) (nm : Option String) :
    (Scheduler.mk nm (some i) (some t) (some n) (some m) (some c) f).value it =
      .ok (some (steppedValue f i t n m c it)) := by
  unfold Scheduler.value steppedValue
  simp only
  by_cases h1 : n < 0
  · rw [if_pos h1, if_pos (by omega)]
  · rw [if_neg h1]
    by_cases h2 : it ≥ m
    · rw [if_pos h2, if_pos (by omega)]
    · rw [if_neg h2]
      have hm : 0 < m := by omega
      by_cases h3 : n ≤ 1
      · rw [if_pos (by omega), call_small hf hm h3]; rfl
      · rw [if_neg (by omega), call_stepped hf hc hit hm (by omega)]; rfl

theorem steppedValue_between {f : Func} (hf : Stepped f) {c : ℝ} (hc : 0 < c) {it m n : ℤ} (hit : 0 ≤ it)
    (i t : ℝ) : Between i t (steppedValue f i t n m c it) := by
  unfold steppedValue
  split_ifs with h
  · exact between_right _ _
  · push Not at h
    exact between_blend (weight_nonneg hf hc hit (by omega) (by omega))
      (weight_le_one hf hc hit (by omega) (by omega))

theorem steppedValue_moves {f : Func} (hf : Stepped f) {c : ℝ} (hc : 0 < c) {a b m n : ℤ} (ha : 0 ≤ a)
    (hab : a ≤ b) (i t : ℝ) :
    MovesToward i t (steppedValue f i t n m c a) (steppedValue f i t n m c b) := by
  by_cases hb : n ≤ 1 ∨ m ≤ b
  · have : steppedValue f i t n m c b = t := by unfold steppedValue; rw [if_pos hb]
    rw [this]; exact moves_right (steppedValue_between hf hc ha i t)
  · have ha' : ¬ (n ≤ 1 ∨ m ≤ a) := by omega
    unfold steppedValue
    rw [if_neg hb, if_neg ha']
    exact moves_blend (weight_mono hf hc ha hab (by omega) (by omega))

/-- The closed form of the sawtooth weight in integer arithmetic. -/
theorem sawtooth_closed {it m n : ℤ} (hm : 0 < m) (hn : 0 < n) (i t : ℝ) :
    scheduleSawtooth it m (some i) t n =
      .ok (i + (((it - 1) * n % m : ℤ) : ℝ) / m * (t - i)) := by
  unfold scheduleSawtooth
  have hm' : (0 : ℝ) < m := by exact_mod_cast hm
  have hn' : (0 : ℝ) < n := by exact_mod_cast hn
  rw [if_neg (by omega)]
  simp only [blend]
  have hfl : ⌊((it - 1 : ℤ) : ℝ) / ((m : ℝ) / n)⌋ = (it - 1) * n / m := by
    rw [Int.floor_eq_iff]
    have e : ((it - 1 : ℤ) : ℝ) / ((m : ℝ) / n) = (it - 1 : ℤ) * n / m := by field_simp
    rw [e]
    constructor
    · rw [le_div_iff₀ hm']
      exact_mod_cast Int.ediv_mul_le _ hm.ne'
    · rw [div_lt_iff₀ hm']
      have := Int.lt_ediv_add_one_mul_self ((it - 1) * n) hm
      exact_mod_cast this
  rw [hfl]
  have hmod : (((it - 1) * n % m : ℤ) : ℝ) = ((it - 1 : ℤ) : ℝ) * n - ((it - 1) * n / m : ℤ) * m := by
    have := Int.emod_add_mul_ediv ((it - 1) * n) m
    have h2 : (it - 1) * n % m = (it - 1) * n - (it - 1) * n / m * m := by linarith
    rw [h2]; push_cast; ring
  have hloc : (((it - 1 : ℤ) : ℝ) - ((it - 1) * n / m : ℤ) * ((m : ℝ) / n)) / ((m : ℝ) / n)
      = (((it - 1) * n % m : ℤ) : ℝ) / m := by
    rw [hmod]; field_simp
  rw [hloc]
  have hle : (((it - 1) * n % m : ℤ) : ℝ) / m ≤ 1 := by
    rw [div_le_one hm']; exact_mod_cast (Int.emod_lt_of_pos _ hm).le
  rw [min_eq_left hle]
  congr 1; ring

end Verif.Sched
