import Verif.Spec.SchedFloat
import Verif.Model.SchedFloat
import Mathlib.Tactic.Linarith
import Mathlib.Tactic.NormNum
import Mathlib.Tactic.Positivity
import Mathlib.Tactic.FieldSimp
import Mathlib.Algebra.Order.Round
import Mathlib.Algebra.Order.Archimedean.Basic
import Mathlib.Algebra.Order.Field.Power
import Mathlib.Data.Real.Archimedean

/-! Rounding to the nearest double: exactness, relative error, CPython's floor division. -/
namespace Verif.SchedFloat
open Verif Verif.Spec

theorem int_double (k : ℤ) (h : |k| < 2 ^ 53) : (k : ℝ) ∈ doubles := ⟨k, 0, h, by norm_num, by norm_num, by simp⟩

theorem dyadic_double (m e : ℤ) (h : |m| < 2 ^ 53) (h1 : -1074 ≤ e) (h2 : e ≤ 971) : (m : ℝ) * 2 ^ e ∈ doubles := ⟨m, e, h, h1, h2, rfl⟩

theorem neg_double {x : ℝ} (h : x ∈ doubles) : -x ∈ doubles := by
  obtain ⟨m, e, h1, h2, h3, rfl⟩ := h
  exact ⟨-m, e, by rwa [abs_neg], h2, h3, by push_cast; ring⟩

variable {fl : ℝ → ℝ} (h : NearestDouble fl)
include h

theorem fl_repr {z : ℝ} (hz : z ∈ doubles) (hb : |z| ≤ 2 ^ 1000) : fl z = z := by
  have := (h z hb).2 z hz
  rw [sub_self, abs_zero] at this
  linarith [abs_nonpos_iff.mp this]

theorem fl_int {k : ℤ} (hk : |k| < 2 ^ 53) : fl k = k := by
  refine fl_repr h (int_double k hk) ?_
  have : |(k : ℝ)| < 2 ^ 53 := by exact_mod_cast hk
  exact this.le.trans (pow_le_pow_right₀ (by norm_num) (by norm_num))

theorem fl_le {x z : ℝ} (hx : |x| ≤ 2 ^ 1000) (hz : z ∈ doubles) (hxz : x ≤ z) : fl x ≤ z := by
  have := (h x hx).2 z hz
  rw [abs_of_nonneg (by linarith : 0 ≤ z - x)] at this
  linarith [le_abs_self (fl x - x)]

theorem le_fl {x z : ℝ} (hx : |x| ≤ 2 ^ 1000) (hz : z ∈ doubles) (hxz : z ≤ x) : z ≤ fl x := by
  have := (h x hx).2 z hz
  rw [abs_of_nonpos (by linarith : z - x ≤ 0)] at this
  linarith [neg_abs_le (fl x - x)]

/-- A double within half an ulp is what the rounding returns. -/
theorem fl_eq {x : ℝ} (hx : |x| ≤ 2 ^ 1000) (m e : ℤ) (hm1 : 2 ^ 52 < m) (hm2 : m < 2 ^ 53) (he1 : -1074 ≤ e) (he2 : e ≤ 971)
    (hd : |(m : ℝ) * 2 ^ e - x| < 2 ^ (e - 1)) : fl x = m * 2 ^ e := by
  obtain ⟨hy, hn⟩ := h x hx
  have hle := hn _ (dyadic_double m e (by rw [abs_of_pos (by linarith)]; exact hm2) he1 he2)
  obtain ⟨m', e', h1, h2, h3, hy'⟩ := hy
  have hp : (0 : ℝ) < 2 ^ e := by positivity
  have hp1 : (2 : ℝ) ^ (e - 1) = 2 ^ e / 2 := by rw [zpow_sub_one₀ (by norm_num)]; ring
  have hlt : |fl x - m * 2 ^ e| < 2 ^ e := by
    have e1 : fl x - m * 2 ^ e = (fl x - x) - ((m : ℝ) * 2 ^ e - x) := by ring
    have := abs_sub (fl x - x) ((m : ℝ) * 2 ^ e - x)
    rw [e1]
    rw [hp1] at hd
    linarith
  have hm1' : (2 ^ 52 : ℝ) + 1 ≤ m := by exact_mod_cast (by linarith : (2 : ℤ) ^ 52 + 1 ≤ m)
  have hbig : (2 : ℝ) ^ 52 * 2 ^ e < fl x := by
    have := (abs_lt.mp hlt).1
    nlinarith
  have hee : e ≤ e' := by
    by_contra hcon
    push Not at hcon
    have hm' : (|m'| : ℝ) < 2 ^ 53 := by exact_mod_cast h1
    have hq : (0 : ℝ) < 2 ^ e' := by positivity
    have : (2 : ℝ) ^ e' ≤ 2 ^ (e - 1) := zpow_le_zpow_right₀ (by norm_num) (by omega)
    rw [hp1] at this
    have h5 : fl x ≤ |(m' : ℝ)| * 2 ^ e' := by
      rw [hy']; exact mul_le_mul_of_nonneg_right (le_abs_self _) hq.le
    nlinarith [abs_nonneg (m' : ℝ)]
  obtain ⟨k, hk⟩ : ∃ k : ℕ, e' = e + k := ⟨(e' - e).toNat, by omega⟩
  have hj : fl x = ((m' * 2 ^ k : ℤ) : ℝ) * 2 ^ e := by
    rw [hy', hk, zpow_add₀ (by norm_num), zpow_natCast]; push_cast; ring
  rw [hj] at hlt ⊢
  rw [← sub_mul, abs_mul, abs_of_pos hp] at hlt
  have : |((m' * 2 ^ k : ℤ) : ℝ) - m| < 1 := by
    by_contra hcon
    push Not at hcon
    nlinarith
  have h6 : |(m' * 2 ^ k : ℤ) - m| < 1 := by exact_mod_cast this
  have : (m' * 2 ^ k : ℤ) = m := by
    have := Int.abs_lt_one_iff.mp h6
    omega
  rw [this]

theorem fl_zero : fl 0 = 0 := by simpa using fl_int h (k := 0) (by norm_num)

theorem fl_one : fl 1 = 1 := by simpa using fl_int h (k := 1) (by norm_num)

/-- Relative error at most `2 ^ -53` for normal numbers. -/
theorem fl_error {x : ℝ} (h1 : (2 : ℝ) ^ (-1022 : ℤ) ≤ |x|) (h2 : |x| ≤ 2 ^ 1000) : |fl x - x| ≤ 2 ^ (-53 : ℤ) * |x| := by
  have hx0 : 0 < |x| := lt_of_lt_of_le (by positivity) h1
  obtain ⟨e, he1, he2⟩ := exists_mem_Ico_zpow hx0 (by norm_num : (1 : ℝ) < 2)
  have hlo : -1022 ≤ e := by
    have : (2 : ℝ) ^ (-1022 : ℤ) < 2 ^ (e + 1) := h1.trans_lt he2
    have := (zpow_lt_zpow_iff_right₀ (by norm_num : (1 : ℝ) < 2)).mp this
    omega
  have hhi : e ≤ 1000 := by
    have : (2 : ℝ) ^ e ≤ 2 ^ (1000 : ℤ) := he1.trans h2
    exact (zpow_le_zpow_iff_right₀ (by norm_num : (1 : ℝ) < 2)).mp this
  have hp : (0 : ℝ) < 2 ^ (e - 52) := by positivity
  obtain ⟨j, hj⟩ : ∃ j : ℤ, j = round (x / 2 ^ (e - 52)) := ⟨_, rfl⟩
  have hr : |x / 2 ^ (e - 52) - j| ≤ 1 / 2 := by rw [hj]; exact abs_sub_round _
  have hnear : |(j : ℝ) * 2 ^ (e - 52) - x| ≤ 2 ^ (-53 : ℤ) * |x| := by
    have e1 : (j : ℝ) * 2 ^ (e - 52) - x = -((x / 2 ^ (e - 52) - j) * 2 ^ (e - 52)) := by field_simp; ring
    rw [e1, abs_neg, abs_mul, abs_of_pos hp]
    have e2 : (2 : ℝ) ^ (e - 52) = 2 * 2 ^ (-53 : ℤ) * 2 ^ e := by
      rw [show e - 52 = 1 + (-53) + e by ring, zpow_add₀ (by norm_num), zpow_add₀ (by norm_num)]; norm_num
    calc |x / 2 ^ (e - 52) - j| * 2 ^ (e - 52) ≤ 1 / 2 * 2 ^ (e - 52) := mul_le_mul_of_nonneg_right hr hp.le
      _ = 2 ^ (-53 : ℤ) * 2 ^ e := by rw [e2]; ring
      _ ≤ 2 ^ (-53 : ℤ) * |x| := mul_le_mul_of_nonneg_left he1 (by positivity)
  have hjb : |j| ≤ 2 ^ 53 := by
    have e2 : (2 : ℝ) ^ (e + 1) = 2 ^ 53 * 2 ^ (e - 52) := by
      rw [show e + 1 = 53 + (e - 52) by ring, zpow_add₀ (by norm_num)]; norm_num
    have e3 : |x / 2 ^ (e - 52)| < 2 ^ 53 := by
      rw [abs_div, abs_of_pos hp, div_lt_iff₀ hp, ← e2]; exact he2
    have e4 : |(j : ℝ)| < 2 ^ 53 + 1 := by
      have : |(j : ℝ)| ≤ |x / 2 ^ (e - 52)| + |x / 2 ^ (e - 52) - j| := by
        have := abs_sub (x / 2 ^ (e - 52)) (x / 2 ^ (e - 52) - j)
        rwa [sub_sub_cancel] at this
      linarith
    have : |j| < 2 ^ 53 + 1 := by exact_mod_cast e4
    omega
  have hdbl : (j : ℝ) * 2 ^ (e - 52) ∈ doubles := by
    rcases hjb.lt_or_eq with hlt | heq
    · exact dyadic_double j (e - 52) hlt (by omega) (by omega)
    · rcases abs_cases j with ⟨h5, _⟩ | ⟨h5, _⟩
      · refine ⟨2 ^ 52, e - 51, by norm_num, by omega, by omega, ?_⟩
        rw [show e - 51 = 1 + (e - 52) by ring, zpow_add₀ (by norm_num), (by omega : j = 2 ^ 53)]; push_cast; ring
      · refine ⟨-2 ^ 52, e - 51, by norm_num, by omega, by omega, ?_⟩
        rw [show e - 51 = 1 + (e - 52) by ring, zpow_add₀ (by norm_num), (by omega : j = -2 ^ 53)]; push_cast; ring
  exact ((h x h2).2 _ hdbl).trans hnear

/-- Error of any rounding: relative, plus half the smallest subnormal. -/
theorem fl_error' {x : ℝ} (h2 : |x| ≤ 2 ^ 1000) : |fl x - x| ≤ 2 ^ (-53 : ℤ) * |x| + 2 ^ (-1075 : ℤ) := by
  rcases le_total ((2 : ℝ) ^ (-1022 : ℤ)) |x| with hx | hx
  · exact (fl_error h hx h2).trans (le_add_of_nonneg_right (by positivity))
  · have hp : (0 : ℝ) < 2 ^ (-1074 : ℤ) := by positivity
    obtain ⟨j, hj⟩ : ∃ j : ℤ, j = round (x / 2 ^ (-1074 : ℤ)) := ⟨_, rfl⟩
    have hr : |x / 2 ^ (-1074 : ℤ) - j| ≤ 1 / 2 := by rw [hj]; exact abs_sub_round _
    have hhalf : (2 : ℝ) ^ (-1075 : ℤ) = 1 / 2 * 2 ^ (-1074 : ℤ) := by
      rw [show (-1075 : ℤ) = -1 + (-1074) by norm_num, zpow_add₀ (by norm_num)]; norm_num
    have hnear : |(j : ℝ) * 2 ^ (-1074 : ℤ) - x| ≤ 2 ^ (-1075 : ℤ) := by
      have e1 : (j : ℝ) * 2 ^ (-1074 : ℤ) - x = -((x / 2 ^ (-1074 : ℤ) - j) * 2 ^ (-1074 : ℤ)) := by
        rw [sub_mul, div_mul_cancel₀ _ hp.ne']; ring
      rw [e1, abs_neg, abs_mul, abs_of_pos hp, hhalf]
      exact mul_le_mul_of_nonneg_right hr hp.le
    have hjb : |j| < 2 ^ 53 := by
      have e2 : (2 : ℝ) ^ (-1022 : ℤ) = 2 ^ 52 * 2 ^ (-1074 : ℤ) := by
        rw [show (-1022 : ℤ) = 52 + (-1074) by norm_num, zpow_add₀ (by norm_num)]; norm_num
      have e3 : |x / 2 ^ (-1074 : ℤ)| ≤ 2 ^ 52 := by
        rw [abs_div, abs_of_pos hp, div_le_iff₀ hp, ← e2]; exact hx
      have e4 : |(j : ℝ)| ≤ |x / 2 ^ (-1074 : ℤ)| + |x / 2 ^ (-1074 : ℤ) - j| := by
        have := abs_sub (x / 2 ^ (-1074 : ℤ)) (x / 2 ^ (-1074 : ℤ) - j)
        rwa [sub_sub_cancel] at this
      have : |(j : ℝ)| < 2 ^ 53 := by
        have : (2 : ℝ) ^ 53 = 2 * 2 ^ 52 := by norm_num
        have : (1 : ℝ) ≤ 2 ^ 52 := by norm_num
        linarith
      exact_mod_cast this
    refine ((h x h2).2 _ (dyadic_double j _ hjb le_rfl (by norm_num))).trans (hnear.trans ?_)
    exact le_add_of_nonneg_left (by positivity)

/-- CPython's floor division of non-negative floats is exact when the quotient is below `2 ^ 50`. -/
theorem floorDiv_exact {x y : ℝ} (hx : 0 ≤ x) (hy1 : (2 : ℝ) ^ (-100 : ℤ) ≤ y) (hy2 : y ≤ 2 ^ 100) (hq : x / y ≤ 2 ^ 50) :
    floorDiv fl x y = ⌊x / y⌋ := by
  have hy : 0 < y := lt_of_lt_of_le (by positivity) hy1
  obtain ⟨k, hk⟩ : ∃ k : ℤ, k = ⌊x / y⌋ := ⟨_, rfl⟩
  have hk0 : 0 ≤ k := by rw [hk]; exact Int.floor_nonneg.mpr (by positivity)
  have hkle : (k : ℝ) ≤ x / y := by rw [hk]; exact Int.floor_le _
  have hmod : ¬ x - y * k < 0 := by
    have : y * k ≤ x := by rw [mul_comm]; exact (le_div_iff₀ hy).mp hkle
    linarith
  unfold floorDiv
  simp only [if_pos hx, ← hk, if_neg hmod, sub_sub_cancel]
  rcases hk0.eq_or_lt with h0 | hpos
  · rw [← h0]
    simp [fl_zero h]
  have hk1 : (1 : ℝ) ≤ k := by exact_mod_cast hpos
  have hk50 : (k : ℝ) ≤ 2 ^ 50 := hkle.trans hq
  have hyk0 : 0 < y * k := by positivity
  have hb1 : |y * k| ≤ 2 ^ 1000 := by
    rw [abs_of_pos hyk0]
    calc y * k ≤ 2 ^ 100 * 2 ^ 50 := mul_le_mul hy2 hk50 (by positivity) (by positivity)
      _ ≤ 2 ^ 1000 := by rw [← pow_add]; exact pow_le_pow_right₀ (by norm_num) (by norm_num)
  have hb2 : (2 : ℝ) ^ (-1022 : ℤ) ≤ |y * k| := by
    rw [abs_of_pos hyk0]
    have : (2 : ℝ) ^ (-1022 : ℤ) ≤ 2 ^ (-100 : ℤ) := zpow_le_zpow_right₀ (by norm_num) (by norm_num)
    nlinarith
  have he1 := fl_error h hb2 hb1
  rw [abs_of_pos hyk0] at he1
  obtain ⟨p, hp⟩ : ∃ p, p = fl (y * k) := ⟨_, rfl⟩
  rw [← hp] at he1 ⊢
  have hu : (2 : ℝ) ^ (-53 : ℤ) = 1 / 9007199254740992 := by norm_num
  have h50 : (2 : ℝ) ^ 50 = 1125899906842624 := by norm_num
  rw [hu] at he1
  rw [h50] at hk50
  have hpk : |p / y - k| ≤ 1 / 9007199254740992 * k := by
    have : p / y - k = (p - y * k) / y := by field_simp
    rw [this, abs_div, abs_of_pos hy, div_le_iff₀ hy]
    linarith
  have hpk' := abs_le.mp hpk
  have hpy1 : 1 / 2 ≤ p / y := by linarith [hpk'.1]
  have hpy0 : 0 < p / y := by linarith
  have he2 := fl_error h (x := p / y)
    (by
      rw [abs_of_pos hpy0]
      have : (2 : ℝ) ^ (-1022 : ℤ) ≤ 2 ^ (-1 : ℤ) := zpow_le_zpow_right₀ (by norm_num) (by norm_num)
      have e : (2 : ℝ) ^ (-1 : ℤ) = 1 / 2 := by norm_num
      exact this.trans (e.le.trans hpy1))
    (by
      rw [abs_of_pos hpy0]
      have : (2 : ℝ) ^ 60 ≤ 2 ^ 1000 := pow_le_pow_right₀ (by norm_num) (by norm_num)
      refine le_trans ?_ this
      have e : (2 : ℝ) ^ 60 = 1152921504606846976 := by norm_num
      rw [e]
      linarith [hpk'.2])
  rw [abs_of_pos hpy0, hu] at he2
  obtain ⟨d, hd⟩ : ∃ d, d = fl (p / y) := ⟨_, rfl⟩
  rw [← hd] at he2 ⊢
  have he2' := abs_le.mp he2
  have hd1 : (k : ℝ) - 3 / 8 ≤ d := by linarith [hpk'.1, hpk'.2, he2'.1]
  have hd2 : d ≤ k + 3 / 8 := by linarith [hpk'.1, hpk'.2, he2'.2]
  have habs : ∀ z : ℝ, 0 ≤ z → z ≤ 1 → |z| ≤ 2 ^ 1000 := by
    intro z hz0 hz1
    rw [abs_of_nonneg hz0]
    exact hz1.trans (one_le_pow₀ (by norm_num))
  have hhalf : (1 / 2 : ℝ) ∈ doubles := ⟨1, -1, by norm_num, by norm_num, by norm_num, by norm_num⟩
  have h58 : (5 / 8 : ℝ) ∈ doubles := ⟨5, -3, by norm_num, by norm_num, by norm_num, by norm_num⟩
  rcases le_or_gt (k : ℝ) d with hkd | hkd
  · have hf : ⌊d⌋ = k := Int.floor_eq_iff.mpr ⟨hkd, by linarith⟩
    rw [hf, if_neg]
    have := fl_le h (habs (d - k) (by linarith) (by linarith)) hhalf (by linarith)
    linarith
  · have hf : ⌊d⌋ = k - 1 := Int.floor_eq_iff.mpr ⟨by push_cast; linarith, by push_cast; linarith⟩
    rw [hf, if_pos]
    · ring
    · push_cast
      have := le_fl h (habs (d - (k - 1)) (by linarith) (by linarith)) h58 (by linarith)
      linarith

end Verif.SchedFloat
