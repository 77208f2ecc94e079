import Verif.Lemmas.Nearest
import Verif.Props.Scheduler
import Verif.Props.Format

/-! **C133–C135** Schedules in double precision. -/
namespace Verif.SchedFloat
open Verif Verif.Spec

/-- A rounding to the nearest double exists. -/
theorem exists_nearestDouble : ∃ fl, NearestDouble fl := by
  have hex : ∀ x : ℝ, ∃ y ∈ doubles, ∀ z ∈ doubles, |y - x| ≤ |z - x| := fun x => by
    obtain ⟨m, hm, hmin⟩ := Set.exists_min_image doubles (fun z => |z - x|) Rounded.doubles_finite ⟨_, int_double 0 (by norm_num)⟩
    exact ⟨m, hm, hmin⟩
  choose g h1 h2 using hex
  exact ⟨g, fun x _ => ⟨h1 x, h2 x⟩⟩

theorem fairPow_rpow : FairPow fun a c => a ^ c := fun c hc =>
  ⟨Real.zero_rpow hc.ne', Real.one_rpow c, fun _ h0 h1 => ⟨Real.rpow_nonneg h0 c, Real.rpow_le_one h0 h1 hc.le⟩⟩

/-- The size of the schedules considered: `m` iterations in `n` steps, `m * n` at most `2 ^ 50`. -/
structure Sized (m n : ℤ) : Prop where
  n1 : 1 ≤ n
  m1 : 1 ≤ m
  size : m * n ≤ 2 ^ 50

namespace Sized
variable {m n : ℤ} (S : Sized m n)
include S

theorem n_le : n ≤ 2 ^ 50 := by nlinarith [S.n1, S.m1, S.size]
theorem m_le : m ≤ 2 ^ 50 := by nlinarith [S.n1, S.m1, S.size]

theorem nR : (1 : ℝ) ≤ n := by exact_mod_cast S.n1
theorem mR : (1 : ℝ) ≤ m := by exact_mod_cast S.m1
theorem n_leR : (n : ℝ) ≤ 2 ^ 50 := by exact_mod_cast S.n_le
theorem m_leR : (m : ℝ) ≤ 2 ^ 50 := by exact_mod_cast S.m_le

theorem len_pos : (0 : ℝ) < m / n := div_pos (by linarith [S.mR]) (by linarith [S.nR])

theorem len_lo : (2 : ℝ) ^ (-50 : ℤ) ≤ m / n := by
  have hn : (0 : ℝ) < n := by linarith [S.nR]
  rw [le_div_iff₀ hn]
  have : (2 : ℝ) ^ (-50 : ℤ) * 2 ^ 50 = 1 := by norm_num
  have h0 : (0 : ℝ) < 2 ^ (-50 : ℤ) := by positivity
  nlinarith [S.mR, S.n_leR]

theorem len_hi : (m : ℝ) / n ≤ 2 ^ 50 := by
  have hn : (0 : ℝ) < n := by linarith [S.nR]
  rw [div_le_iff₀ hn]
  nlinarith [S.nR, S.m_leR, S.mR]

end Sized

section
variable {fl : ℝ → ℝ} (h : NearestDouble fl)

include h in
/-- The rounded step length. -/
theorem len_error {m n : ℤ} (S : Sized m n) : |fl ((m : ℝ) / n) - m / n| ≤ 2 ^ (-53 : ℤ) * (m / n) := by
  have := fl_error h (x := (m : ℝ) / n)
    (by
      rw [abs_of_pos S.len_pos]
      exact (zpow_le_zpow_right₀ (by norm_num) (by norm_num)).trans S.len_lo)
    (by
      rw [abs_of_pos S.len_pos]
      exact S.len_hi.trans (pow_le_pow_right₀ (by norm_num) (by norm_num)))
  rwa [abs_of_pos S.len_pos] at this

/-- The step a schedule of `m` iterations and `n` steps is in at iteration `it`, in double precision. -/
noncomputable def floatStep (fl : ℝ → ℝ) (m n it : ℤ) : ℤ :=
  open Classical in if Missed fl m n it then it * n / m - 1 else it * n / m

include h in
/-- `it // step_length`. -/
theorem floorDiv_index {m n it : ℤ} (S : Sized m n) (h0 : 0 ≤ it) (h1 : it < m) :
    floorDiv fl (fl it) (fl ((m : ℝ) / n)) = floatStep fl m n it := by
  have hu : (2 : ℝ) ^ (-53 : ℤ) = 1 / 9007199254740992 := by norm_num
  have hn0 : (0 : ℝ) < n := by linarith [S.nR]
  have hm0 : (0 : ℝ) < m := by linarith [S.mR]
  have he := abs_le.mp (len_error h S)
  rw [hu] at he
  obtain ⟨c, hc⟩ : ∃ c : ℝ, c = m / n := ⟨_, rfl⟩
  obtain ⟨s, hs⟩ : ∃ s, s = fl ((m : ℝ) / n) := ⟨_, rfl⟩
  have hcp : 0 < c := hc ▸ S.len_pos
  have hcn : c * n = m := by rw [hc]; field_simp
  have hlo : (2 : ℝ) ^ (-50 : ℤ) ≤ c := hc ▸ S.len_lo
  have hhi : c ≤ 2 ^ 50 := hc ▸ S.len_hi
  rw [← hs, ← hc] at he
  obtain ⟨he1, he2⟩ := he
  have hsp : 0 < s := by nlinarith
  have h50 : (2 : ℝ) ^ 50 = 1125899906842624 := by norm_num
  have hitb : |it| < 2 ^ 53 := by
    rw [abs_of_nonneg h0]; exact h1.trans_le (S.m_le.trans (by norm_num))
  have hit0 : (0 : ℝ) ≤ it := by exact_mod_cast h0
  have hitm : (it : ℝ) + 1 ≤ m := by exact_mod_cast h1
  have hmn : (m : ℝ) * n ≤ 1125899906842624 := by
    rw [← h50]; exact_mod_cast S.size
  rw [fl_int h hitb, ← hs]
  have hq : (it : ℝ) / s ≤ 2 ^ 50 := by
    rw [div_le_iff₀ hsp, h50]
    have hn50 : (n : ℝ) ≤ 1125899906842624 := h50 ▸ S.n_leR
    have e3 : c / 2 ≤ s := by linarith
    have e4 : c ≥ 1 / n * m := by rw [hc]; apply le_of_eq; ring
    have e5 : (n : ℝ) * s ≥ m * (1 - 1 / 9007199254740992) := by nlinarith
    have e6 : (m : ℝ) * (1 - 1 / 9007199254740992) ≥ m - 1 := by linarith [h50 ▸ S.m_leR]
    have e7 : (n : ℝ) * s ≤ 1125899906842624 * s := mul_le_mul_of_nonneg_right hn50 hsp.le
    linarith
  rw [floorDiv_exact h hit0 ?_ ?_ hq]
  rotate_left
  · have e1 : (2 : ℝ) ^ (-100 : ℤ) ≤ 2 ^ (-51 : ℤ) := zpow_le_zpow_right₀ (by norm_num) (by norm_num)
    have e2 : (2 : ℝ) ^ (-51 : ℤ) = 2 ^ (-50 : ℤ) / 2 := by norm_num
    have e3 : c / 2 ≤ s := by linarith
    exact e1.trans (e2.le.trans (le_trans (div_le_div_of_nonneg_right hlo (by norm_num)) e3))
  · have e1 : (2 : ℝ) ^ 51 ≤ 2 ^ 100 := pow_le_pow_right₀ (by norm_num) (by norm_num)
    have e2 : (2 : ℝ) ^ 51 = 2 * 2 ^ 50 := by norm_num
    refine le_trans ?_ e1
    rw [e2]
    linarith
  -- the exact step
  obtain ⟨K, hK⟩ : ∃ K : ℤ, K = it * n / m := ⟨_, rfl⟩
  have hmZ : 0 < m := by linarith [S.m1]
  have hnZ : 0 < n := by linarith [S.n1]
  have hK1 : K * m ≤ it * n := by rw [hK]; exact Int.ediv_mul_le _ hmZ.ne'
  have hK2 : it * n + 1 ≤ (K + 1) * m := by rw [hK]; exact Int.lt_ediv_add_one_mul_self _ hmZ
  have hK0 : 0 ≤ K := by rw [hK]; exact Int.ediv_nonneg (by positivity) hmZ.le
  have hK1R : (K : ℝ) * m ≤ it * n := by exact_mod_cast hK1
  have hK2R : (it : ℝ) * n + 1 ≤ (K + 1) * m := by exact_mod_cast hK2
  have hK0R : (0 : ℝ) ≤ K := by exact_mod_cast hK0
  have hitn : (it : ℝ) * n ≤ 1125899906842624 := by nlinarith
  have hm50 : (m : ℝ) ≤ 1125899906842624 := h50 ▸ S.m_leR
  have hup : (it : ℝ) < (K + 1) * s := by
    have e0 : m * (1 - 1 / 9007199254740992) ≤ s * n := by
      have := mul_le_mul_of_nonneg_right he1 hn0.le
      rw [sub_mul, hcn] at this
      have e : -(1 / 9007199254740992 * c) * n = -(1 / 9007199254740992 * (c * n)) := by ring
      rw [e, hcn] at this
      linarith
    have e1 : (K + 1) * (m * (1 - 1 / 9007199254740992)) ≤ (K + 1) * (s * n) := mul_le_mul_of_nonneg_left e0 (by linarith)
    have e2 : (K + 1) * (m * (1 - 1 / 9007199254740992)) = (K + 1) * m - (K * m + m) * (1 / 9007199254740992) := by ring
    have : (it : ℝ) * n < (K + 1) * s * n := by
      rw [mul_assoc]
      linarith
    exact lt_of_mul_lt_mul_right this hn0.le
  have hns : s * n ≤ m * (1 + 1 / 9007199254740992) := by
    have := mul_le_mul_of_nonneg_right he2 hn0.le
    rw [sub_mul, hcn] at this
    have e : 1 / 9007199254740992 * c * n = 1 / 9007199254740992 * (c * n) := by ring
    rw [e, hcn] at this
    linarith
  unfold floatStep
  rw [← hK]
  split_ifs with hmiss
  · obtain ⟨⟨k, hk0, hk⟩, hgt⟩ := hmiss
    rw [← hs, ← hc] at hgt
    have hkK : k = K := by
      rw [hK, hk, Int.mul_ediv_cancel _ hmZ.ne']
    subst hkK
    have hkR : (it : ℝ) * n = k * m := by exact_mod_cast hk
    have hk1R : (1 : ℝ) ≤ k := by exact_mod_cast hk0
    refine Int.floor_eq_iff.mpr ⟨?_, ?_⟩
    · rw [le_div_iff₀ hsp]
      push_cast
      have : (k - 1) * s * n ≤ it * n := by
        have e1 : (k - 1) * (s * n) ≤ (k - 1) * (m * (1 + 1 / 9007199254740992)) := mul_le_mul_of_nonneg_left hns (by linarith)
        have e2 : (k - 1) * (m * (1 + 1 / 9007199254740992)) = k * m - m + (k * m - m) * (1 / 9007199254740992) := by ring
        have e3 := S.mR
        rw [mul_assoc]
        linarith
      exact le_of_mul_le_mul_right this hn0
    · rw [div_lt_iff₀ hsp]
      push_cast
      have : (it : ℝ) * n < (k - 1 + 1) * s * n := by
        have e1 : c * n < s * n := mul_lt_mul_of_pos_right hgt hn0
        have e2 : k * (c * n) < k * (s * n) := mul_lt_mul_of_pos_left e1 (by linarith)
        rw [hcn] at e2
        rw [sub_add_cancel, mul_assoc]
        linarith
      exact lt_of_mul_lt_mul_right this hn0.le
  · refine Int.floor_eq_iff.mpr ⟨?_, ?_⟩
    · rw [le_div_iff₀ hsp]
      have : (K : ℝ) * s * n ≤ it * n := by
        rcases hK1.lt_or_eq with hlt | heq
        · have hltR : (K : ℝ) * m + 1 ≤ it * n := by exact_mod_cast hlt
          have e1 : K * (s * n) ≤ K * (m * (1 + 1 / 9007199254740992)) := mul_le_mul_of_nonneg_left hns hK0R
          have e2 : K * (m * (1 + 1 / 9007199254740992)) = K * m + K * m * (1 / 9007199254740992) := by ring
          rw [mul_assoc]
          linarith
        · rcases hK0.eq_or_lt with hz | hz
          · rw [← hz]; simp only [Int.cast_zero, zero_mul]; positivity
          · have hle : s ≤ c := by
              by_contra hcon
              exact hmiss ⟨⟨K, hz, heq.symm⟩, by rw [← hs, ← hc]; exact not_le.mp hcon⟩
            have heqR : (K : ℝ) * m = it * n := by exact_mod_cast heq
            have e1 : s * n ≤ c * n := mul_le_mul_of_nonneg_right hle hn0.le
            have e2 : K * (s * n) ≤ K * (c * n) := mul_le_mul_of_nonneg_left e1 hK0R
            rw [hcn] at e2
            rw [mul_assoc]
            linarith
      exact le_of_mul_le_mul_right this hn0
    · rw [div_lt_iff₀ hsp]; exact hup

include h in
/-- Error of `(1 - a) * i + a * t`. -/
theorem blend_error {a i t : ℝ} (ha0 : 0 ≤ a) (ha1 : a ≤ 1) (ho : Ordinary i t) :
    |fl (fl (fl (1 - a) * i) + fl (a * t)) - ((1 - a) * i + a * t)| ≤ 1 / 2251799813685248 * max |i| |t| := by
  obtain ⟨-, -, hi, ht, hlo⟩ := ho
  obtain ⟨B, hB⟩ : ∃ B, B = max |i| |t| := ⟨_, rfl⟩
  have hiB : |i| ≤ B := hB ▸ le_max_left _ _
  have htB : |t| ≤ B := hB ▸ le_max_right _ _
  have hBhi : B ≤ 2 ^ 500 := by rw [hB]; exact max_le hi ht
  rw [← hB] at hlo ⊢
  have hu : (2 : ℝ) ^ (-53 : ℤ) = 1 / 9007199254740992 := by norm_num
  have hB0 : 0 < B := lt_of_lt_of_le (by positivity) hlo
  obtain ⟨τ, hτ⟩ : ∃ τ : ℝ, τ = 2 ^ (-1075 : ℤ) := ⟨_, rfl⟩
  have hτ0 : 0 ≤ τ := by rw [hτ]; positivity
  have hτB : τ ≤ 1 / 9007199254740992 / 100 * B := by
    have e1 : τ ≤ 2 ^ (-100 : ℤ) * 2 ^ (-500 : ℤ) := by
      rw [hτ, ← zpow_add₀ (by norm_num)]; exact zpow_le_zpow_right₀ (by norm_num) (by norm_num)
    refine e1.trans (mul_le_mul ?_ hlo (by positivity) (by norm_num))
    norm_num
  have hτ1 : τ ≤ 1 / 9007199254740992 / 100 := by
    have : (2 : ℝ) ^ (-1075 : ℤ) ≤ 2 ^ (-100 : ℤ) := zpow_le_zpow_right₀ (by norm_num) (by norm_num)
    rw [hτ]
    refine this.trans ?_
    norm_num
  obtain ⟨M, hM⟩ : ∃ M : ℝ, M = 2 ^ 500 := ⟨_, rfl⟩
  have hbig : ∀ z : ℝ, |z| ≤ 4 * M → |z| ≤ 2 ^ 1000 := fun z hz => hz.trans (by
    rw [hM]
    have : (2 : ℝ) ^ 502 ≤ 2 ^ 1000 := pow_le_pow_right₀ (by norm_num) (by norm_num)
    refine le_trans (le_of_eq ?_) this
    rw [show (502 : ℕ) = 2 + 500 by norm_num, pow_add]; norm_num)
  have h1le : (1 : ℝ) ≤ M := by rw [hM]; exact one_le_pow₀ (by norm_num)
  rw [← hM] at hBhi hi ht
  have herr : ∀ z : ℝ, |z| ≤ 2 ^ 1000 → |fl z - z| ≤ 1 / 9007199254740992 * |z| + τ := fun z hz => by
    rw [hτ, ← hu]; exact fl_error' h hz
  clear hM hlo hτ hu
  obtain ⟨p, hp⟩ : ∃ p, p = fl (1 - a) := ⟨_, rfl⟩
  have b1 : |1 - a| ≤ 2 ^ 1000 := hbig _ (by rw [abs_of_nonneg (by linarith)]; linarith)
  have e1 := abs_le.mp (hp ▸ herr _ b1)
  rw [abs_of_nonneg (by linarith : 0 ≤ 1 - a)] at e1
  have hp0 : 0 ≤ p := hp ▸ le_fl h b1 (by simpa using int_double 0 (by norm_num)) (by linarith)
  have hp1 : p ≤ 1 := hp ▸ fl_le h b1 (by simpa using int_double 1 (by norm_num)) (by linarith)
  rw [← hp]
  obtain ⟨q, hq⟩ : ∃ q, q = fl (p * i) := ⟨_, rfl⟩
  have hpi : |p * i| ≤ p * B := by rw [abs_mul, abs_of_nonneg hp0]; exact mul_le_mul_of_nonneg_left hiB hp0
  have hpB : p * B ≤ B := mul_le_of_le_one_left hB0.le hp1
  have e2 := (hq ▸ herr _ (hbig _ (by linarith)) : |q - p * i| ≤ _)
  obtain ⟨r, hr⟩ : ∃ r, r = fl (a * t) := ⟨_, rfl⟩
  have hat : |a * t| ≤ a * B := by rw [abs_mul, abs_of_nonneg ha0]; exact mul_le_mul_of_nonneg_left htB ha0
  have haB : a * B ≤ B := mul_le_of_le_one_left hB0.le ha1
  have e3 := (hr ▸ herr _ (hbig _ (by linarith)) : |r - a * t| ≤ _)
  rw [← hq, ← hr]
  have hqr : |q + r| ≤ 3 * B := by
    have e4 : |q| ≤ |q - p * i| + |p * i| := by have := abs_add_le (q - p * i) (p * i); rwa [sub_add_cancel] at this
    have e5 : |r| ≤ |r - a * t| + |a * t| := by have := abs_add_le (r - a * t) (a * t); rwa [sub_add_cancel] at this
    have e6 := abs_add_le q r
    linarith
  have e4 := herr (q + r) (hbig _ (by linarith))
  have hqr2 : |q + r| ≤ (1 - a) * B + a * B + |p - (1 - a)| * B + |q - p * i| + |r - a * t| := by
    have e : q + r = (q - p * i) + (r - a * t) + ((p - (1 - a)) * i) + ((1 - a) * i) + a * t := by ring
    have k1 := abs_add_le ((q - p * i) + (r - a * t) + ((p - (1 - a)) * i) + ((1 - a) * i)) (a * t)
    have k2 := abs_add_le ((q - p * i) + (r - a * t) + ((p - (1 - a)) * i)) ((1 - a) * i)
    have k3 := abs_add_le ((q - p * i) + (r - a * t)) ((p - (1 - a)) * i)
    have k4 := abs_add_le (q - p * i) (r - a * t)
    have k5 : |(p - (1 - a)) * i| ≤ |p - (1 - a)| * B := by rw [abs_mul]; exact mul_le_mul_of_nonneg_left hiB (abs_nonneg _)
    have k6 : |(1 - a) * i| ≤ (1 - a) * B := by
      rw [abs_mul, abs_of_nonneg (by linarith : 0 ≤ 1 - a)]; exact mul_le_mul_of_nonneg_left hiB (by linarith)
    rw [e]
    linarith
  have hpe : |p - (1 - a)| * B ≤ (1 / 9007199254740992 * (1 - a) + 1 / 9007199254740992 / 100) * B := by
    refine mul_le_mul_of_nonneg_right ?_ hB0.le
    exact (abs_le.mpr ⟨by linarith [e1.1], by linarith [e1.2]⟩)
  have e : fl (q + r) - ((1 - a) * i + a * t) = (fl (q + r) - (q + r)) + (q - p * i) + (r - a * t) + (p - (1 - a)) * i := by ring
  have k1 := abs_add_le ((fl (q + r) - (q + r)) + (q - p * i) + (r - a * t)) ((p - (1 - a)) * i)
  have k2 := abs_add_le ((fl (q + r) - (q + r)) + (q - p * i)) (r - a * t)
  have k3 := abs_add_le (fl (q + r) - (q + r)) (q - p * i)
  have k5 : |(p - (1 - a)) * i| ≤ |p - (1 - a)| * B := by rw [abs_mul]; exact mul_le_mul_of_nonneg_left hiB (abs_nonneg _)
  have haB0 : 0 ≤ a * B := by positivity
  rw [e]
  have ee : (1 / 9007199254740992 * (1 - a) + 1 / 9007199254740992 / 100) * B = 1 / 9007199254740992 * (B - a * B) + 1 / 9007199254740992 / 100 * B := by ring
  have ee2 : (1 - a) * B = B - a * B := by ring
  rw [ee] at hpe
  rw [ee2] at hqr2
  linarith

include h in
/-- Exactness at the ends of the blend. -/
theorem blend_ends {i t : ℝ} (hi : i ∈ doubles) (ht : t ∈ doubles) (bi : |i| ≤ 2 ^ 1000) (bt : |t| ≤ 2 ^ 1000) :
    fl (fl (fl (1 - 0) * i) + fl (0 * t)) = i ∧ fl (fl (fl (1 - 1) * i) + fl (1 * t)) = t := by
  constructor
  · rw [sub_zero, fl_one h, one_mul, zero_mul, fl_zero h, add_zero, fl_repr h hi bi, fl_repr h hi bi]
  · rw [sub_self, fl_zero h, zero_mul, one_mul, fl_zero h, zero_add, fl_repr h ht bt, fl_repr h ht bt]

/-- The step number stays below the number of steps. -/
theorem floatStep_range {m n it : ℤ} (S : Sized m n) (h0 : 0 ≤ it) (h1 : it < m) :
    0 ≤ floatStep fl m n it ∧ floatStep fl m n it ≤ n - 1 ∧ floatStep fl m n it ≤ it * n / m := by
  have hm := S.m1
  have hn := S.n1
  have k0 : 0 ≤ it * n / m := Int.ediv_nonneg (by positivity) (by omega)
  have k1 : it * n / m < n := Int.ediv_lt_of_lt_mul (by omega) (by nlinarith)
  unfold floatStep
  split_ifs with hmiss
  · obtain ⟨⟨k, hk0, hk⟩, -⟩ := hmiss
    have : it * n / m = k := by rw [hk, Int.mul_ediv_cancel _ (by omega)]
    omega
  · omega

include h in
theorem stepIndex_eq {m n it : ℤ} (S : Sized m n) (h0 : 0 ≤ it) (h1 : it < m) : stepIndex fl it m n = floatStep fl m n it := by
  unfold stepIndex
  rw [floorDiv_index h S h0 h1]
  exact min_eq_left (floatStep_range S h0 h1).2.1

include h in
/-- `alpha` of the step schedules. -/
theorem stepAlpha_spec {m n it : ℤ} (S : Sized m n) (hn : 2 ≤ n) (h0 : 0 ≤ it) (h1 : it < m) :
    0 ≤ stepAlpha fl it m n ∧ stepAlpha fl it m n ≤ 1 ∧
    |stepAlpha fl it m n - floatStep fl m n it / ((n : ℝ) - 1)| ≤ 1 / 9007199254740992 ∧
    (floatStep fl m n it = 0 → stepAlpha fl it m n = 0) ∧ (floatStep fl m n it = n - 1 → stepAlpha fl it m n = 1) := by
  unfold stepAlpha
  rw [stepIndex_eq h S h0 h1]
  obtain ⟨j0, j1, -⟩ := floatStep_range (fl := fl) S h0 h1
  obtain ⟨J, hJ⟩ : ∃ J, J = floatStep fl m n it := ⟨_, rfl⟩
  rw [← hJ] at j0 j1 ⊢
  have hn1 : (0 : ℝ) < (n : ℝ) - 1 := by
    have : (2 : ℝ) ≤ n := by exact_mod_cast hn
    linarith
  have j0R : (0 : ℝ) ≤ J := by exact_mod_cast j0
  have j1R : (J : ℝ) ≤ n - 1 := by exact_mod_cast j1
  have hx0 : 0 ≤ (J : ℝ) / ((n : ℝ) - 1) := by positivity
  have hx1 : (J : ℝ) / ((n : ℝ) - 1) ≤ 1 := (div_le_one hn1).mpr j1R
  have hb : |(J : ℝ) / ((n : ℝ) - 1)| ≤ 2 ^ 1000 := by
    rw [abs_of_nonneg hx0]; exact hx1.trans (one_le_pow₀ (by norm_num))
  refine ⟨le_fl h hb (by simpa using int_double 0 (by norm_num)) hx0, fl_le h hb (by simpa using int_double 1 (by norm_num)) hx1, ?_, ?_, ?_⟩
  · rcases j0.eq_or_lt with hz | hz
    · rw [← hz]; simp [fl_zero h]
    · have j2R : (1 : ℝ) ≤ J := by exact_mod_cast hz
      have := fl_error h (x := (J : ℝ) / ((n : ℝ) - 1)) (by
        rw [abs_of_nonneg hx0]
        have e1 : (2 : ℝ) ^ (-1022 : ℤ) ≤ 2 ^ (-50 : ℤ) := zpow_le_zpow_right₀ (by norm_num) (by norm_num)
        refine e1.trans ?_
        rw [le_div_iff₀ hn1]
        have e2 : (2 : ℝ) ^ (-50 : ℤ) * 2 ^ 50 = 1 := by norm_num
        have e3 : (2 : ℝ) ^ (-50 : ℤ) * ((n : ℝ) - 1) ≤ 2 ^ (-50 : ℤ) * 2 ^ 50 :=
          mul_le_mul_of_nonneg_left (by linarith [S.n_leR]) (by positivity)
        linarith) hb
      refine this.trans ?_
      rw [abs_of_nonneg hx0]
      have hu : (2 : ℝ) ^ (-53 : ℤ) = 1 / 9007199254740992 := by norm_num
      rw [hu]
      exact mul_le_of_le_one_right (by norm_num) hx1
  · intro hz
    rw [hz, Int.cast_zero, zero_div, fl_zero h]
  · intro hz
    rw [hz]
    push_cast
    rw [div_self hn1.ne', fl_one h]

/-- The weights of two blends differ by little. -/
theorem blend_lipschitz (a b i t : ℝ) : |((1 - a) * i + a * t) - ((1 - b) * i + b * t)| ≤ |a - b| * (2 * max |i| |t|) := by
  have e : ((1 - a) * i + a * t) - ((1 - b) * i + b * t) = (a - b) * (t - i) := by ring
  rw [e, abs_mul]
  refine mul_le_mul_of_nonneg_left ?_ (abs_nonneg _)
  have := abs_sub t i
  linarith [le_max_left |i| |t|, le_max_right |i| |t|]

variable (pw : ℝ → ℝ → ℝ)

theorem valueOf_step (nm : Option String) (i t : ℝ) (n m it : ℤ) (hn : 2 ≤ n) (h0 : 0 ≤ it) (h1 : it < m) :
    valueOf fl pw (Sched.cfgStep nm (some i) (some t) (some n) (some m)) it =
      .ok (some (fl (fl (fl (1 - stepAlpha fl it m n) * fl i) + fl (stepAlpha fl it m n * t)))) := by
  have e : valueOf fl pw (Sched.cfgStep nm (some i) (some t) (some n) (some m)) it =
      value fl pw ⟨nm, some i, some t, some n, some m, none, .step⟩ it := rfl
  rw [e]
  simp only [value, if_neg (by omega : ¬ n < 0), if_neg (by omega : ¬ it ≥ m), call, scheduleStep, if_neg (by omega : ¬ m ≤ 0),
    if_neg (by omega : ¬ n ≤ 1), blend, Option.map]
  rfl

theorem valueOf_saw (nm : Option String) (i t : ℝ) (n m it : ℤ) (hn : 1 ≤ n) (hm : 1 ≤ m) (h1 : it < m) :
    valueOf fl pw (Sched.cfgSawtooth nm i t m n) it =
      .ok (some (fl (fl (fl (1 - sawAlpha fl it m n) * fl i) + fl (sawAlpha fl it m n * t)))) := by
  have e : valueOf fl pw (Sched.cfgSawtooth nm i t m n) it =
      value fl pw ⟨nm, some i, some t, some n, some m, none, .sawtooth⟩ it := rfl
  rw [e]
  simp only [value, if_neg (by omega : ¬ n < 0), if_neg (by omega : ¬ it ≥ m), call, scheduleSawtooth,
    if_neg (by omega : ¬ (m ≤ 0 ∨ n ≤ 0)), blend, Option.map]
  rfl

theorem Ordinary.bounds {i t : ℝ} (ho : Ordinary i t) : |i| ≤ 2 ^ 1000 ∧ |t| ≤ 2 ^ 1000 := by
  have : (2 : ℝ) ^ 500 ≤ 2 ^ 1000 := pow_le_pow_right₀ (by norm_num) (by norm_num)
  exact ⟨ho.2.2.1.trans this, ho.2.2.2.1.trans this⟩

include h in
/-- **C133 (a)** In double precision (round to nearest) a Step schedule has the value of exact arithmetic up to rounding, except at an iteration
where a step begins exactly and the step length was rounded up: there it still has the value of the step before. -/
theorem C133_step_value_partial (nm : Option String) (i t : ℝ) (n m it : ℤ) (hn : 2 ≤ n) (h0 : 0 ≤ it) (h1 : it < m) (hs : m * n ≤ 2 ^ 50)
    (ho : Ordinary i t) :
    ∃ v, valueOf fl pw (Sched.cfgStep nm (some i) (some t) (some n) (some m)) it = .ok (some v) ∧
      (¬ Missed fl m n it → CloseTo i t 1 v (i + (it * n / m : ℤ) * ((t - i) / (n - 1)))) ∧
      (Missed fl m n it → CloseTo i t 1 v (i + ((it * n / m : ℤ) - 1) * ((t - i) / (n - 1)))) := by
  have S : Sized m n := ⟨by omega, by omega, hs⟩
  refine ⟨_, valueOf_step pw nm i t n m it hn h0 h1, ?_⟩
  obtain ⟨a0, a1, a2, -⟩ := stepAlpha_spec h S hn h0 h1
  rw [fl_repr h ho.1 (Ordinary.bounds ho).1]
  have e1 := blend_error h a0 a1 ho
  have e2 := blend_lipschitz (stepAlpha fl it m n) (floatStep fl m n it / ((n : ℝ) - 1)) i t
  have hB : 0 ≤ max |i| |t| := le_max_of_le_left (abs_nonneg _)
  have e3 : |stepAlpha fl it m n - floatStep fl m n it / ((n : ℝ) - 1)| * (2 * max |i| |t|) ≤ 1 / 9007199254740992 * (2 * max |i| |t|) :=
    mul_le_mul_of_nonneg_right a2 (by linarith)
  have key : CloseTo i t 1 (fl (fl (fl (1 - stepAlpha fl it m n) * i) + fl (stepAlpha fl it m n * t)))
      ((1 - floatStep fl m n it / ((n : ℝ) - 1)) * i + floatStep fl m n it / ((n : ℝ) - 1) * t) := by
    unfold CloseTo
    have hu : (1 : ℝ) * 2 ^ (-50 : ℤ) = 1 / 1125899906842624 := by norm_num
    rw [hu]
    have := abs_sub_le (fl (fl (fl (1 - stepAlpha fl it m n) * i) + fl (stepAlpha fl it m n * t)))
      ((1 - stepAlpha fl it m n) * i + stepAlpha fl it m n * t)
      ((1 - floatStep fl m n it / ((n : ℝ) - 1)) * i + floatStep fl m n it / ((n : ℝ) - 1) * t)
    linarith
  have e : (1 - floatStep fl m n it / ((n : ℝ) - 1)) * i + floatStep fl m n it / ((n : ℝ) - 1) * t =
      i + floatStep fl m n it * ((t - i) / (n - 1)) := by ring
  rw [e] at key
  constructor
  · intro hmiss
    rwa [floatStep, if_neg hmiss] at key
  · intro hmiss
    rw [floatStep, if_pos hmiss] at key
    push_cast at key
    exact key

include h in
/-- **C133 (b)** With a whole number of iterations per step nothing is missed: the value is that of exact arithmetic up to rounding at every
iteration. -/
theorem C133_whole_steps (nm : Option String) (i t : ℝ) (n L it : ℤ) (hn : 2 ≤ n) (h0 : 0 ≤ it) (h1 : it < L * n) (hs : L * n * n ≤ 2 ^ 50)
    (ho : Ordinary i t) :
    ∃ v w, valueOf fl pw (Sched.cfgStep nm (some i) (some t) (some n) (some (L * n))) it = .ok (some v) ∧
      Sched.valueOf (Sched.cfgStep nm (some i) (some t) (some n) (some (L * n))) it = .ok (some w) ∧ CloseTo i t 1 v w := by
  have hL : 0 < L := by
    by_contra hcon
    nlinarith
  have hn0 : (n : ℝ) ≠ 0 := by
    have : (2 : ℝ) ≤ n := by exact_mod_cast hn
    intro hh; linarith
  have hLn : L ≤ 2 ^ 50 := by nlinarith
  have hmiss : ¬ Missed fl (L * n) n it := by
    rintro ⟨-, hlt⟩
    have e : ((L * n : ℤ) : ℝ) / n = (L : ℤ) := by push_cast; field_simp
    rw [e, fl_int h (by rw [abs_of_pos hL]; linarith)] at hlt
    exact lt_irrefl _ hlt
  obtain ⟨v, hv, hc, -⟩ := C133_step_value_partial h pw nm i t n (L * n) it hn h0 h1 hs ho
  have hk := Int.ediv_mul_le (it * n) (b := L * n) (by positivity)
  have hk2 := Int.lt_ediv_add_one_mul_self (it * n) (b := L * n) (by positivity)
  have k0 : 0 ≤ it * n / (L * n) := Int.ediv_nonneg (by positivity) (by positivity)
  have k1 : it * n / (L * n) < n := Int.ediv_lt_of_lt_mul (by positivity) (by nlinarith)
  obtain ⟨k, hkk⟩ : ∃ k, k = it * n / (L * n) := ⟨_, rfl⟩
  rw [← hkk] at hk hk2 k0 k1 hc
  have hnp : (0 : ℝ) < n := by
    have : (2 : ℝ) ≤ n := by exact_mod_cast hn
    linarith
  refine ⟨v, _, hv, Props.C04_step_plateau_value nm i t n (L * n) k it hn (by positivity) k0 k1 ?_ ?_, hc hmiss⟩
  · have : (k : ℝ) * (L * n) ≤ it * n := by exact_mod_cast hk
    push_cast
    rw [mul_div_assoc', div_le_iff₀ hnp]
    exact this
  · have : (it : ℝ) * n < (k + 1) * (L * n) := by exact_mod_cast hk2
    push_cast
    rw [mul_div_assoc', lt_div_iff₀ hnp]
    exact this

include h in
/-- 100 iterations in 6 steps: the step length 16.67 is rounded up. -/
theorem missed_hundred : Missed fl 100 6 50 := by
  refine ⟨⟨3, by norm_num, by norm_num⟩, ?_⟩
  have := fl_eq h (x := ((100 : ℤ) : ℝ) / ((6 : ℤ) : ℝ)) ?_ 4691249611844267 (-48) (by norm_num) (by norm_num) (by norm_num) (by norm_num) ?_
  · rw [this]; norm_num
  · refine le_trans (b := 2 ^ 10) ?_ (pow_le_pow_right₀ (by norm_num) (by norm_num))
    rw [abs_of_nonneg (by positivity)]; norm_num
  · rw [abs_of_nonneg (by norm_num)]; norm_num

include h in
/-- **C133 (c), refutation** The fourth of six steps of 100 iterations begins at iteration 50 (`50 = 3 * 100 / 6`). In double precision the
penalty that goes from 1 to 3 is still 1.8 there instead of 2.2. -/
theorem C133_step_begins_late :
    (∃ v, valueOf fl pw (Sched.cfgStep (some "p") (some 1) (some 3) (some 6) (some 100)) 50 = .ok (some v) ∧ |v - 9 / 5| ≤ 1 / 10 ^ 12) ∧
    Sched.valueOf (Sched.cfgStep (some "p") (some 1) (some 3) (some 6) (some 100)) 50 = .ok (some (11 / 5)) := by
  have d1 : (1 : ℝ) ∈ doubles := by simpa using int_double 1 (by norm_num)
  have d3 : (3 : ℝ) ∈ doubles := by simpa using int_double 3 (by norm_num)
  have ho : Ordinary 1 3 := by
    refine ⟨d1, d3, ?_, ?_, ?_⟩
    · rw [abs_one]; exact one_le_pow₀ (by norm_num)
    · refine le_trans (b := 2 ^ 2) (by norm_num) (pow_le_pow_right₀ (by norm_num) (by norm_num))
    · rw [abs_one]
      exact le_max_of_le_left (zpow_le_one_of_nonpos₀ (by norm_num) (by norm_num))
  constructor
  · obtain ⟨v, hv, -, hc⟩ := C133_step_value_partial h pw (some "p") 1 3 6 100 50 (by norm_num) (by norm_num) (by norm_num) (by norm_num) ho
    refine ⟨v, hv, ?_⟩
    have := hc (missed_hundred h)
    unfold CloseTo at this
    have e : (1 : ℝ) + (((50 * 6 / 100 : ℤ) : ℝ) - 1) * ((3 - 1) / (((6 : ℤ) : ℝ) - 1)) = 9 / 5 := by norm_num
    rw [e] at this
    refine this.trans ?_
    rw [abs_one, abs_of_pos (by norm_num : (0 : ℝ) < 3)]
    norm_num
  · have := Props.C04_step_plateau_value (some "p") 1 3 6 100 3 50 (by norm_num) (by norm_num) (by norm_num) (by norm_num) (by norm_num) (by norm_num)
    rw [this]
    congr 2
    norm_num

include h in
/-- `alpha` of the sawtooth schedule. -/
theorem sawAlpha_spec {m n it : ℤ} (S : Sized m n) (h0 : 1 ≤ it) (h1 : it ≤ m) :
    0 ≤ sawAlpha fl it m n ∧ sawAlpha fl it m n ≤ 1 ∧
    |sawAlpha fl it m n - (((it : ℝ) - 1) * n / m - floatStep fl m n (it - 1))| ≤ n * (10 / 9007199254740992) := by
  obtain ⟨j, hj⟩ : ∃ j, j = it - 1 := ⟨_, rfl⟩
  have hjR : (it : ℝ) - 1 = j := by rw [hj]; push_cast; ring
  have j0 : 0 ≤ j := by omega
  have j1 : j < m := by omega
  unfold sawAlpha
  simp only [← hj]
  rw [hjR, floorDiv_index h S j0 j1]
  obtain ⟨J0, J1, J2⟩ := floatStep_range (fl := fl) S j0 j1
  have hfloor := floorDiv_index h S j0 j1
  obtain ⟨J, hJ⟩ : ∃ J, J = floatStep fl m n j := ⟨_, rfl⟩
  rw [← hJ] at J0 J1 J2 hfloor ⊢
  have hn1 := S.nR
  have hm1 := S.mR
  have hn0 : (0 : ℝ) < n := by linarith
  have hm0 : (0 : ℝ) < m := by linarith
  have hjb : |j| < 2 ^ 53 := by rw [abs_of_nonneg j0]; exact j1.trans_le (S.m_le.trans (by norm_num))
  have hJb : |J| < 2 ^ 53 := by
    rw [abs_of_nonneg J0]
    have := S.n_le
    have e : (2 : ℤ) ^ 50 ≤ 2 ^ 53 := by norm_num
    omega
  rw [fl_int h hjb, fl_int h hJb]
  have he := abs_le.mp (len_error h S)
  have hu : (2 : ℝ) ^ (-53 : ℤ) = 1 / 9007199254740992 := by norm_num
  rw [hu] at he
  obtain ⟨c, hc⟩ : ∃ c : ℝ, c = m / n := ⟨_, rfl⟩
  obtain ⟨s, hs⟩ : ∃ s, s = fl ((m : ℝ) / n) := ⟨_, rfl⟩
  have hcp : 0 < c := hc ▸ S.len_pos
  have hcn : c * n = m := by rw [hc]; field_simp
  have hclo : (2 : ℝ) ^ (-50 : ℤ) ≤ c := hc ▸ S.len_lo
  have hchi : c ≤ 2 ^ 50 := hc ▸ S.len_hi
  rw [← hs, ← hc] at he
  obtain ⟨he1, he2⟩ := he
  rw [← hs] at hfloor ⊢
  have hsc : c / 2 ≤ s := by linarith
  have hsp : 0 < s := by linarith
  have jR : (0 : ℝ) ≤ j := by exact_mod_cast j0
  have jmR : (j : ℝ) + 1 ≤ m := by exact_mod_cast j1
  have JR : (0 : ℝ) ≤ J := by exact_mod_cast J0
  -- `J * s ≤ j`
  have hJc : J * c ≤ j := by
    have hz : J * m ≤ j * n := by
      have := Int.ediv_mul_le (j * n) (b := m) (by linarith [S.m1])
      nlinarith [S.m1]
    have hzR : (J : ℝ) * m ≤ j * n := by exact_mod_cast hz
    have : J * c * n ≤ j * n := by rw [mul_assoc, hcn]; exact hzR
    exact le_of_mul_le_mul_right this hn0
  have hEc : (j : ℝ) - J * c ≤ c := by
    have hz : j * n ≤ (J + 1) * m := by
      rw [hJ]
      unfold floatStep
      have hm1 := S.m1
      split_ifs with hmiss
      · obtain ⟨⟨k, hk0, hk⟩, -⟩ := hmiss
        have : j * n / m = k := by rw [hk, Int.mul_ediv_cancel _ (by omega)]
        rw [this, hk]; linarith
      · exact (Int.lt_ediv_add_one_mul_self (j * n) (b := m) (by omega)).le
    have hzR : (j : ℝ) * n ≤ (J + 1) * m := by exact_mod_cast hz
    have : (j : ℝ) * n ≤ (J * c + c) * n := by
      have e : (J * c + c) * n = (J + 1) * (c * n) := by ring
      rw [e, hcn]; exact hzR
    linarith [le_of_mul_le_mul_right this hn0]
  have hJs : J * s ≤ j := by
    have e1 : floorDiv fl (fl j) s = ⌊(j : ℝ) / s⌋ := by
      rw [fl_int h hjb]
      refine floorDiv_exact h jR ?_ ?_ ?_
      · have e1 : (2 : ℝ) ^ (-100 : ℤ) ≤ 2 ^ (-51 : ℤ) := zpow_le_zpow_right₀ (by norm_num) (by norm_num)
        have e2 : (2 : ℝ) ^ (-51 : ℤ) = 2 ^ (-50 : ℤ) / 2 := by norm_num
        exact e1.trans (e2.le.trans (le_trans (div_le_div_of_nonneg_right hclo (by norm_num)) hsc))
      · have e1 : (2 : ℝ) ^ 51 ≤ 2 ^ 100 := pow_le_pow_right₀ (by norm_num) (by norm_num)
        have e2 : (2 : ℝ) ^ 51 = 2 * 2 ^ 50 := by norm_num
        refine le_trans ?_ e1
        rw [e2]
        linarith
      · have h50 : (2 : ℝ) ^ 50 = 1125899906842624 := by norm_num
        rw [div_le_iff₀ hsp, h50]
        have hn50 : (n : ℝ) ≤ 1125899906842624 := h50 ▸ S.n_leR
        have hm50 : (m : ℝ) ≤ 1125899906842624 := h50 ▸ S.m_leR
        have e5 : m * (1 - 1 / 9007199254740992) ≤ (n : ℝ) * s := by
          have := mul_le_mul_of_nonneg_right he1 hn0.le
          rw [sub_mul, hcn] at this
          have e : -(1 / 9007199254740992 * c) * n = -(1 / 9007199254740992 * (c * n)) := by ring
          rw [e, hcn] at this
          linarith
        have e7 : (n : ℝ) * s ≤ 1125899906842624 * s := mul_le_mul_of_nonneg_right hn50 hsp.le
        linarith
    have e2 : (J : ℝ) ≤ (j : ℝ) / s := by
      rw [← hfloor, e1]; exact Int.floor_le _
    exact (le_div_iff₀ hsp).mp e2
  have hbig : ∀ z : ℝ, |z| ≤ 1125899906842624 * 4 → |z| ≤ 2 ^ 1000 := fun z hz => hz.trans (by
    have : (2 : ℝ) ^ 52 ≤ 2 ^ 1000 := pow_le_pow_right₀ (by norm_num) (by norm_num)
    refine le_trans (le_of_eq ?_) this
    norm_num)
  have h50 : (2 : ℝ) ^ 50 = 1125899906842624 := by norm_num
  have hm50 : (m : ℝ) ≤ 1125899906842624 := h50 ▸ S.m_leR
  have hn50 : (n : ℝ) ≤ 1125899906842624 := h50 ▸ S.n_leR
  obtain ⟨τ, hτ⟩ : ∃ τ : ℝ, τ = 2 ^ (-1075 : ℤ) := ⟨_, rfl⟩
  have hτ0 : 0 ≤ τ := by rw [hτ]; positivity
  have hτ1 : τ ≤ 1 / 9007199254740992 / 1125899906842624 / 100 := by
    have : (2 : ℝ) ^ (-1075 : ℤ) ≤ 2 ^ (-150 : ℤ) := zpow_le_zpow_right₀ (by norm_num) (by norm_num)
    rw [hτ]
    refine this.trans ?_
    norm_num
  have herr : ∀ z : ℝ, |z| ≤ 2 ^ 1000 → |fl z - z| ≤ 1 / 9007199254740992 * |z| + τ := fun z hz => by
    rw [hτ, ← hu]; exact fl_error' h hz
  have hclo' : 1 / 1125899906842624 ≤ c := le_trans (by norm_num) hclo
  clear hclo hchi hτ hu h50
  -- the product
  obtain ⟨P, hP⟩ : ∃ P, P = fl (J * s) := ⟨_, rfl⟩
  have hJs0 : 0 ≤ J * s := by positivity
  have bP : |J * s| ≤ 2 ^ 1000 := hbig _ (by rw [abs_of_nonneg hJs0]; linarith)
  have eP := hP ▸ herr _ bP
  rw [abs_of_nonneg hJs0] at eP
  have hPj : P ≤ j := hP ▸ fl_le h bP (int_double j hjb) hJs
  have hP0 : 0 ≤ P := hP ▸ le_fl h bP (by simpa using int_double 0 (by norm_num)) hJs0
  rw [← hP]
  -- the local index
  obtain ⟨L, hL⟩ : ∃ L, L = fl ((j : ℝ) - P) := ⟨_, rfl⟩
  have hD0 : 0 ≤ (j : ℝ) - P := by linarith
  have bL : |(j : ℝ) - P| ≤ 2 ^ 1000 := hbig _ (by rw [abs_of_nonneg hD0]; linarith)
  have eL := hL ▸ herr _ bL
  rw [abs_of_nonneg hD0] at eL
  have hL0 : 0 ≤ L := hL ▸ le_fl h bL (by simpa using int_double 0 (by norm_num)) hD0
  rw [← hL]
  have eJ : |J * s - J * c| ≤ 1 / 9007199254740992 * j := by
    rw [← mul_sub, abs_mul, abs_of_nonneg JR]
    have : J * |s - c| ≤ J * (1 / 9007199254740992 * c) := mul_le_mul_of_nonneg_left (abs_le.mpr ⟨by linarith, he2⟩) JR
    have e : J * (1 / 9007199254740992 * c) = 1 / 9007199254740992 * (J * c) := by ring
    linarith
  have hE0 : 0 ≤ (j : ℝ) - J * c := by linarith
  obtain ⟨Ex, hEx⟩ : ∃ Ex, Ex = (j : ℝ) - J * c := ⟨_, rfl⟩
  rw [← hEx] at hEc hE0
  have eLE : |L - Ex| ≤ 3 / 9007199254740992 * j + 2 * τ := by
    have a1 := abs_le.mp eP
    have a2 := abs_le.mp eL
    have a3 := abs_le.mp eJ
    rw [abs_le]
    constructor <;> linarith [a1.1, a1.2, a2.1, a2.2, a3.1, a3.2]
  -- the quotient
  have hx : |L / s - Ex / c| ≤ n * (15 / 2 / 9007199254740992) := by
    have e : L / s - Ex / c = ((L - Ex) + Ex / c * (c - s)) / s := by field_simp; ring
    rw [e, abs_div, abs_of_pos hsp, div_le_iff₀ hsp]
    have hq : Ex / c ≤ 1 := (div_le_one hcp).mpr hEc
    have hq0 : 0 ≤ Ex / c := by positivity
    have b1 : |Ex / c * (c - s)| ≤ 1 / 9007199254740992 * c := by
      rw [abs_mul, abs_of_nonneg hq0]
      have : |c - s| ≤ 1 / 9007199254740992 * c := abs_le.mpr ⟨by linarith, by linarith⟩
      calc Ex / c * |c - s| ≤ 1 * |c - s| := mul_le_mul_of_nonneg_right hq (abs_nonneg _)
        _ ≤ _ := by rw [one_mul]; exact this
    have b2 := abs_add_le (L - Ex) (Ex / c * (c - s))
    have b3 : (j : ℝ) ≤ c * n := by rw [hcn]; linarith
    have b4 : c ≤ c * n := le_mul_of_one_le_right hcp.le hn1
    have b5 : (1 - 1 / 9007199254740992) * (c * n) ≤ s * n := by
      have := mul_le_mul_of_nonneg_right he1 hn0.le
      rw [sub_mul] at this
      have e : -(1 / 9007199254740992 * c) * n = -(1 / 9007199254740992 * (c * n)) := by ring
      rw [e] at this
      linarith
    have b6 : n * (15 / 2 / 9007199254740992) * s = 15 / 2 / 9007199254740992 * (s * n) := by ring
    rw [b6]
    linarith
  obtain ⟨Q, hQ⟩ : ∃ Q, Q = Ex / c := ⟨_, rfl⟩
  have hQ1 : Q ≤ 1 := hQ ▸ (div_le_one hcp).mpr hEc
  have hQ0 : 0 ≤ Q := hQ ▸ div_nonneg hE0 hcp.le
  rw [← hQ] at hx
  have hQe : (j : ℝ) * n / m - J = Q := by
    rw [hQ, hEx, ← hcn]; field_simp
  rw [hQe]
  have hLs0 : 0 ≤ L / s := div_nonneg hL0 hsp.le
  have hx' := abs_le.mp hx
  have hLs1 : L / s ≤ 10 := by linarith [hx'.2]
  have bA : |L / s| ≤ 2 ^ 1000 := hbig _ (by rw [abs_of_nonneg hLs0]; linarith)
  have eA := herr _ bA
  rw [abs_of_nonneg hLs0] at eA
  have hA0 : 0 ≤ fl (L / s) := le_fl h bA (by simpa using int_double 0 (by norm_num)) hLs0
  have eAQ : |fl (L / s) - Q| ≤ n * (10 / 9007199254740992) := by
    have a1 := abs_le.mp eA
    rw [abs_le]
    constructor <;> linarith [a1.1, a1.2, hx'.1, hx'.2]
  refine ⟨le_min hA0 zero_le_one, min_le_right _ _, ?_⟩
  rcases le_total (fl (L / s)) 1 with hle | hle
  · rw [min_eq_left hle]; exact eAQ
  · rw [min_eq_right hle, abs_of_nonneg (by linarith)]
    have := (abs_le.mp eAQ).2
    linarith

include h in
/-- **C134 (a)** In double precision a sawtooth schedule has the value of exact arithmetic up to rounding (`4 n` times the unit of C133),
except at an iteration where a cycle begins exactly and the cycle length was rounded up: there it has (up to rounding) the target value, the
opposite end of the cycle, and not the initial value. -/
theorem C134_sawtooth_value_partial (nm : Option String) (i t : ℝ) (n m it : ℤ) (hn : 1 ≤ n) (h0 : 1 ≤ it) (h1 : it < m) (hs : m * n ≤ 2 ^ 50)
    (ho : Ordinary i t) :
    ∃ v, valueOf fl pw (Sched.cfgSawtooth nm i t m n) it = .ok (some v) ∧
      (¬ Missed fl m n (it - 1) → CloseTo i t (4 * n) v (i + Int.fract (((it : ℝ) - 1) * n / m) * (t - i))) ∧
      (Missed fl m n (it - 1) → Int.fract (((it : ℝ) - 1) * n / m) = 0 ∧ CloseTo i t (4 * n) v t) := by
  have S : Sized m n := ⟨by omega, by omega, hs⟩
  refine ⟨_, valueOf_saw pw nm i t n m it hn (by omega) h1, ?_⟩
  obtain ⟨a0, a1, a2⟩ := sawAlpha_spec h S h0 h1.le
  rw [fl_repr h ho.1 (Ordinary.bounds ho).1]
  have e1 := blend_error h a0 a1 ho
  have hB : 0 ≤ max |i| |t| := le_max_of_le_left (abs_nonneg _)
  have hn1 := S.nR
  have hmZ := S.m1
  have hm0 : (0 : ℝ) < m := by linarith [S.mR]
  have key : ∀ q, (((it : ℝ) - 1) * n / m - floatStep fl m n (it - 1)) = q →
      CloseTo i t (4 * n) (fl (fl (fl (1 - sawAlpha fl it m n) * i) + fl (sawAlpha fl it m n * t))) ((1 - q) * i + q * t) := by
    intro q hq
    rw [hq] at a2
    have e2 := blend_lipschitz (sawAlpha fl it m n) q i t
    have e3 : |sawAlpha fl it m n - q| * (2 * max |i| |t|) ≤ n * (10 / 9007199254740992) * (2 * max |i| |t|) :=
      mul_le_mul_of_nonneg_right a2 (by linarith)
    unfold CloseTo
    have hu : (4 : ℝ) * n * 2 ^ (-50 : ℤ) * max |i| |t| = 4 / 1125899906842624 * (n * max |i| |t|) := by
      have : (2 : ℝ) ^ (-50 : ℤ) = 1 / 1125899906842624 := by norm_num
      rw [this]; ring
    rw [hu]
    have e4 : max |i| |t| ≤ n * max |i| |t| := le_mul_of_one_le_left hB hn1
    have e5 : n * (10 / 9007199254740992) * (2 * max |i| |t|) = 20 / 9007199254740992 * (n * max |i| |t|) := by ring
    have := abs_sub_le (fl (fl (fl (1 - sawAlpha fl it m n) * i) + fl (sawAlpha fl it m n * t)))
      ((1 - sawAlpha fl it m n) * i + sawAlpha fl it m n * t) ((1 - q) * i + q * t)
    linarith
  have hfl : ⌊((it : ℝ) - 1) * n / m⌋ = (it - 1) * n / m := by
    have : ((it : ℝ) - 1) * n / m = (((it - 1) * n : ℤ) : ℝ) / (m : ℤ) := by push_cast; ring
    rw [this]
    refine Int.floor_eq_iff.mpr ⟨?_, ?_⟩
    · rw [le_div_iff₀ hm0]; exact_mod_cast Int.ediv_mul_le ((it - 1) * n) (b := m) (by omega)
    · rw [div_lt_iff₀ hm0]; exact_mod_cast Int.lt_ediv_add_one_mul_self ((it - 1) * n) (b := m) (by omega)
  constructor
  · intro hmiss
    have := key (Int.fract (((it : ℝ) - 1) * n / m)) (by
      rw [floatStep, if_neg hmiss, ← hfl]; rfl)
    have e : (1 - Int.fract (((it : ℝ) - 1) * n / m)) * i + Int.fract (((it : ℝ) - 1) * n / m) * t =
      i + Int.fract (((it : ℝ) - 1) * n / m) * (t - i) := by ring
    rwa [e] at this
  · intro hmiss
    obtain ⟨⟨k, hk0, hk⟩, hlt⟩ := hmiss
    have hx : ((it : ℝ) - 1) * n / m = (k : ℤ) := by
      have : ((it : ℝ) - 1) * n = k * m := by exact_mod_cast hk
      rw [this]; field_simp
    refine ⟨by rw [hx]; exact Int.fract_intCast k, ?_⟩
    have := key 1 (by
      rw [floatStep, if_pos ⟨⟨k, hk0, hk⟩, hlt⟩, ← hfl, hx, Int.floor_intCast]; push_cast; ring)
    have e : (1 - 1 : ℝ) * i + 1 * t = t := by ring
    rwa [e] at this

include h in
/-- **C134 (b), refutation** With the default arguments (100 iterations, 6 cycles) the fourth cycle begins at iteration 51. In exact arithmetic
the schedule is back at its initial value there; in double precision it is (up to rounding) at its target, whatever the two are. -/
theorem C134_restart_missed (nm : Option String) (i t : ℝ) (ho : Ordinary i t) :
    (∃ v, valueOf fl pw (Sched.cfgSawtooth nm i t) 51 = .ok (some v) ∧ CloseTo i t 24 v t) ∧
    Sched.valueOf (Sched.cfgSawtooth nm i t) 51 = .ok (some i) := by
  obtain ⟨v, hv, -, hc⟩ := C134_sawtooth_value_partial h pw nm i t 6 100 51 (by norm_num) (by norm_num) (by norm_num) (by norm_num) ho
  obtain ⟨hf, hc⟩ := hc (missed_hundred h)
  refine ⟨⟨v, hv, ?_⟩, ?_⟩
  · have e : (4 : ℝ) * ((6 : ℤ) : ℝ) = 24 := by norm_num
    rwa [e] at hc
  · rw [Props.C06_sawtooth_fract nm i t 6 100 51 (by norm_num) (by norm_num) (by norm_num), hf]
    simp

include h in
/-- **C134 (c)** With a whole number of iterations per cycle no restart is missed: the value is that of exact arithmetic up to rounding. -/
theorem C134_whole_cycles (nm : Option String) (i t : ℝ) (n L it : ℤ) (hn : 1 ≤ n) (hL : 1 ≤ L) (h0 : 1 ≤ it) (h1 : it < L * n) (hs : L * n * n ≤ 2 ^ 50)
    (ho : Ordinary i t) :
    ∃ v w, valueOf fl pw (Sched.cfgSawtooth nm i t (L * n) n) it = .ok (some v) ∧
      Sched.valueOf (Sched.cfgSawtooth nm i t (L * n) n) it = .ok (some w) ∧ CloseTo i t (4 * n) v w := by
  have hn0 : (n : ℝ) ≠ 0 := by
    have : (1 : ℝ) ≤ n := by exact_mod_cast hn
    intro hh; linarith
  have hLn : L ≤ 2 ^ 50 := by nlinarith
  have hmiss : ¬ Missed fl (L * n) n (it - 1) := by
    rintro ⟨-, hlt⟩
    have e : ((L * n : ℤ) : ℝ) / n = (L : ℤ) := by push_cast; field_simp
    rw [e, fl_int h (by rw [abs_of_pos (by omega)]; linarith)] at hlt
    exact lt_irrefl _ hlt
  obtain ⟨v, hv, hc, -⟩ := C134_sawtooth_value_partial h pw nm i t n (L * n) it hn h0 h1 hs ho
  exact ⟨v, _, hv, Props.C06_sawtooth_fract nm i t n (L * n) it (by omega) (by positivity) h1, hc hmiss⟩

theorem valueOf_acc (nm : Option String) (i t c : ℝ) (n m it : ℤ) (hn : 2 ≤ n) (h0 : 0 ≤ it) (h1 : it < m) (hc : 0 < c)
    (ha : 0 ≤ stepAlpha fl it m n) :
    valueOf fl pw (Sched.cfgStepAccelerating nm (some i) (some t) (some n) (some m) (some c)) it =
      .ok (some (fl (fl (fl (1 - pw (stepAlpha fl it m n) c) * fl i) + fl (pw (stepAlpha fl it m n) c * t)))) := by
  have e : valueOf fl pw (Sched.cfgStepAccelerating nm (some i) (some t) (some n) (some m) (some c)) it =
      value fl pw ⟨nm, some i, some t, some n, some m, some c, .accelerating⟩ it := rfl
  rw [e]
  simp only [value, if_neg (by omega : ¬ n < 0), if_neg (by omega : ¬ it ≥ m), call, scheduleStepAccelerating, if_neg (by omega : ¬ m ≤ 0),
    if_neg (by omega : ¬ n ≤ 1), Option.map]
  rw [pyPow, if_neg (fun hh => absurd hc (not_lt.mpr hh.2.le)), if_neg (fun hh => absurd ha (not_le.mpr hh.1))]
  rfl

theorem valueOf_dec (nm : Option String) (i t c : ℝ) (n m it : ℤ) (hn : 2 ≤ n) (h0 : 0 ≤ it) (h1 : it < m) (hc : 0 < c)
    (ha : 0 ≤ fl (1 - stepAlpha fl it m n)) :
    valueOf fl pw (Sched.cfgStepDecelerating nm (some i) (some t) (some n) (some m) (some c)) it =
      .ok (some (fl (fl (fl (1 - fl (1 - pw (fl (1 - stepAlpha fl it m n)) c)) * fl i) + fl (fl (1 - pw (fl (1 - stepAlpha fl it m n)) c) * t)))) := by
  have e : valueOf fl pw (Sched.cfgStepDecelerating nm (some i) (some t) (some n) (some m) (some c)) it =
      value fl pw ⟨nm, some i, some t, some n, some m, some c, .decelerating⟩ it := rfl
  rw [e]
  simp only [value, if_neg (by omega : ¬ n < 0), if_neg (by omega : ¬ it ≥ m), call, scheduleStepDecelerating, if_neg (by omega : ¬ m ≤ 0),
    if_neg (by omega : ¬ n ≤ 1), Option.map]
  rw [pyPow, if_neg (fun hh => absurd hc (not_lt.mpr hh.2.le)), if_neg (fun hh => absurd ha (not_le.mpr hh.1))]
  rfl

include h in
theorem one_sub_unit {a : ℝ} (a0 : 0 ≤ a) (a1 : a ≤ 1) : 0 ≤ fl (1 - a) ∧ fl (1 - a) ≤ 1 := by
  have hb : |1 - a| ≤ 2 ^ 1000 := by
    rw [abs_of_nonneg (by linarith)]
    exact le_trans (by linarith : 1 - a ≤ 1) (one_le_pow₀ (by norm_num))
  exact ⟨le_fl h hb (by simpa using int_double 0 (by norm_num)) (by linarith), fl_le h hb (by simpa using int_double 1 (by norm_num)) (by linarith)⟩

include h in
/-- The three stepped schedules are blends with a weight in `[0, 1]`, which is 0 in the first step and 1 in the last. -/
theorem stepped (hpw : FairPow pw) (nm : Option String) (i t c : ℝ) (n m it : ℤ) (hc : 0 < c) (hn : 2 ≤ n) (h0 : 0 ≤ it) (h1 : it < m)
    (S : Sized m n) (ho : Ordinary i t) (cfg : Res Sched.Config)
    (hcfg : cfg = Sched.cfgStep nm (some i) (some t) (some n) (some m) ∨
      cfg = Sched.cfgStepAccelerating nm (some i) (some t) (some n) (some m) (some c) ∨
      cfg = Sched.cfgStepDecelerating nm (some i) (some t) (some n) (some m) (some c)) :
    ∃ a, 0 ≤ a ∧ a ≤ 1 ∧ valueOf fl pw cfg it = .ok (some (fl (fl (fl (1 - a) * i) + fl (a * t)))) ∧
      (floatStep fl m n it = 0 → a = 0) ∧ (floatStep fl m n it = n - 1 → a = 1) := by
  obtain ⟨a0, a1, -, a3, a4⟩ := stepAlpha_spec h S hn h0 h1
  have hfi := fl_repr h ho.1 (Ordinary.bounds ho).1
  obtain ⟨p0, p1, pr⟩ := hpw c hc
  have b := one_sub_unit h a0 a1
  rcases hcfg with rfl | rfl | rfl
  · refine ⟨_, a0, a1, ?_, a3, a4⟩
    rw [valueOf_step pw nm i t n m it hn h0 h1, hfi]
  · refine ⟨pw (stepAlpha fl it m n) c, (pr _ a0 a1).1, (pr _ a0 a1).2, ?_, ?_, ?_⟩
    · rw [valueOf_acc pw nm i t c n m it hn h0 h1 hc a0, hfi]
    · intro hz; rw [a3 hz, p0]
    · intro hz; rw [a4 hz, p1]
  · have d := one_sub_unit h (pr _ b.1 b.2).1 (pr _ b.1 b.2).2
    refine ⟨fl (1 - pw (fl (1 - stepAlpha fl it m n)) c), d.1, d.2, ?_, ?_, ?_⟩
    · rw [valueOf_dec pw nm i t c n m it hn h0 h1 hc b.1, hfi]
    · intro hz; rw [a3 hz, sub_zero, fl_one h, p1, sub_self, fl_zero h]
    · intro hz; rw [a4 hz, sub_self, fl_zero h, p0, sub_zero, fl_one h]

include h in
/-- **C135 (a)** In double precision every Step, StepAccelerating or StepDecelerating schedule is exactly its initial value during the first
step, exactly its target during the last one (after the iteration at which that step begins), and between the two up to rounding always. -/
theorem C135_range_partial (hpw : FairPow pw) (nm : Option String) (i t c : ℝ) (n m it : ℤ) (hc : 0 < c) (hn : 2 ≤ n) (h0 : 0 ≤ it) (h1 : it < m)
    (hs : m * n ≤ 2 ^ 50) (ho : Ordinary i t) (cfg : Res Sched.Config)
    (hcfg : cfg = Sched.cfgStep nm (some i) (some t) (some n) (some m) ∨
      cfg = Sched.cfgStepAccelerating nm (some i) (some t) (some n) (some m) (some c) ∨
      cfg = Sched.cfgStepDecelerating nm (some i) (some t) (some n) (some m) (some c)) :
    ∃ v, valueOf fl pw cfg it = .ok (some v) ∧ (it * n < m → v = i) ∧ ((n - 1) * m < it * n → v = t) ∧
      ∃ w, Between i t w ∧ CloseTo i t 1 v w := by
  have S : Sized m n := ⟨by omega, by omega, hs⟩
  obtain ⟨a, a0, a1, hv, z0, z1⟩ := stepped h pw hpw nm i t c n m it hc hn h0 h1 S ho cfg hcfg
  have hb := Ordinary.bounds ho
  have hends := blend_ends h ho.1 ho.2.1 hb.1 hb.2
  have hm1 := S.m1
  refine ⟨_, hv, ?_, ?_, (1 - a) * i + a * t, ⟨?_, ?_⟩, ?_⟩
  · intro hlt
    have hz : it * n / m = 0 := Int.ediv_eq_zero_of_lt (by positivity) hlt
    have : floatStep fl m n it = 0 := by
      have := floatStep_range (fl := fl) S h0 h1
      omega
    rw [z0 this]; exact hends.1
  · intro hgt
    have hz : it * n / m = n - 1 := by
      have e1 : n - 1 ≤ it * n / m := Int.le_ediv_of_mul_le (by omega) hgt.le
      have e2 : it * n / m < n := Int.ediv_lt_of_lt_mul (by omega) (by nlinarith)
      omega
    have hmiss : ¬ Missed fl m n it := by
      rintro ⟨⟨k, hk0, hk⟩, -⟩
      have : it * n / m = k := by rw [hk, Int.mul_ediv_cancel _ (by omega)]
      rw [hz] at this
      rw [hk, this] at hgt
      exact lt_irrefl _ hgt
    have : floatStep fl m n it = n - 1 := by rw [floatStep, if_neg hmiss, hz]
    rw [z1 this]; exact hends.2
  · have e1 : min i t ≤ i := min_le_left _ _
    have e2 : min i t ≤ t := min_le_right _ _
    nlinarith
  · have e1 : i ≤ max i t := le_max_left _ _
    have e2 : t ≤ max i t := le_max_right _ _
    nlinarith
  · have e1 := blend_error h a0 a1 ho
    unfold CloseTo
    have hu : (1 : ℝ) * 2 ^ (-50 : ℤ) = 1 / 1125899906842624 := by norm_num
    rw [hu]
    have hB : 0 ≤ max |i| |t| := le_max_of_le_left (abs_nonneg _)
    linarith

include h in
/-- **C135 (b)** The `*ToOne` types are the ordinary ones from the rounded `1 / n` to 1. -/
theorem C135_to_one (nm : Option String) (c : ℝ) (n m it : ℤ) (hn : 1 ≤ n) (hn' : n ≤ 2 ^ 50) :
    valueOf fl pw (Sched.cfgStepToOne nm (some n) (some m)) it =
      valueOf fl pw (Sched.cfgStep nm (some (fl (1 / n))) (some 1) (some n) (some m)) it ∧
    valueOf fl pw (Sched.cfgStepAcceleratingToOne nm (some n) (some m) (some c)) it =
      valueOf fl pw (Sched.cfgStepAccelerating nm (some (fl (1 / n))) (some 1) (some n) (some m) (some c)) it ∧
    valueOf fl pw (Sched.cfgStepDeceleratingToOne nm (some n) (some m) (some c)) it =
      valueOf fl pw (Sched.cfgStepDecelerating nm (some (fl (1 / n))) (some 1) (some n) (some m) (some c)) it := by
  have hn0 : ¬ n ≤ 0 := by omega
  have hnz : n ≠ 0 := by omega
  have hnR : (1 : ℝ) ≤ n := by exact_mod_cast hn
  have hb1 : |1 / (n : ℝ)| ≤ 2 ^ 1000 := by
    rw [abs_of_pos (by positivity)]
    exact le_trans ((div_le_one (by linarith)).mpr hnR) (one_le_pow₀ (by norm_num))
  have hd := (h (1 / (n : ℝ)) hb1).1
  have hidem : fl (fl (1 / (n : ℝ))) = fl (1 / n) := by
    refine fl_repr h hd ?_
    have h0 := le_fl h hb1 (by simpa using int_double 0 (by norm_num)) (by positivity : (0 : ℝ) ≤ 1 / n)
    rw [abs_of_nonneg h0]
    exact (fl_le h hb1 (by simpa using int_double 1 (by norm_num)) ((div_le_one (by linarith)).mpr hnR)).trans (one_le_pow₀ (by norm_num))
  have hclose : ¬ ∃ x : ℝ, (1 : ℝ) = x ∧ ¬ Sched.isCloseOne x := by
    rintro ⟨x, rfl, hx⟩
    exact hx (by unfold Sched.isCloseOne; norm_num)
  have e1 : ∀ b (cv : Option ℝ) ty, (b = true → cv ≠ none) → Sched.toOneBranch ⟨nm, none, some 1, some n, some m, cv, ty⟩ b =
      .ok ⟨nm, some (1 / (n : ℝ)), some 1, some n, some m, cv, ty⟩ := by
    intro b cv ty hcv
    unfold Sched.toOneBranch
    simp only [if_neg hn0]
    rw [if_neg (fun hh => hcv hh.1 hh.2), if_neg (by
      rintro ⟨x, hx, hx'⟩
      exact hclose ⟨x, Option.some.inj hx, hx'⟩)]
  have e2 : ∀ f : Sched.Func, ∀ cv, value fl pw ⟨nm, some (1 / (n : ℝ)), some 1, some n, some m, cv, f⟩ it =
      value fl pw ⟨nm, some (fl (1 / (n : ℝ))), some 1, some n, some m, cv, f⟩ it := by
    intro f cv
    simp only [value, Option.map, hidem]
  have e3 : ∀ ty (cv : Option ℝ), Sched.toOneMutate ⟨nm, some (1 / (n : ℝ)), some 1, some n, some m, cv, ty⟩ =
      ⟨nm, some (1 / (n : ℝ)), some 1, some n, some m, cv, ty⟩ := by
    intro ty cv
    simp [Sched.toOneMutate, hnz]
  refine ⟨?_, ?_, ?_⟩
  · have : Sched.cfgStepToOne nm (some n) (some m) = Sched.toOneBranch ⟨nm, none, some 1, some n, some m, none, "StepToOne"⟩ false := rfl
    rw [this, e1 _ _ _ (by simp)]
    have k : valueOf fl pw (.ok ⟨nm, some (1 / (n : ℝ)), some 1, some n, some m, none, "StepToOne"⟩) it =
      value fl pw (Sched.mkScheduler (Sched.toOneMutate ⟨nm, some (1 / (n : ℝ)), some 1, some n, some m, none, "StepToOne"⟩) .step) it := rfl
    rw [k, e3]
    exact e2 .step none
  · have : Sched.cfgStepAcceleratingToOne nm (some n) (some m) (some c) =
      Sched.toOneBranch ⟨nm, none, some 1, some n, some m, some c, "StepAcceleratingToOne"⟩ true := rfl
    rw [this, e1 _ _ _ (by simp)]
    have k : valueOf fl pw (.ok ⟨nm, some (1 / (n : ℝ)), some 1, some n, some m, some c, "StepAcceleratingToOne"⟩) it =
      value fl pw (Sched.mkScheduler (Sched.toOneMutate ⟨nm, some (1 / (n : ℝ)), some 1, some n, some m, some c, "StepAcceleratingToOne"⟩) .accelerating) it := rfl
    rw [k, e3]
    exact e2 .accelerating (some c)
  · have : Sched.cfgStepDeceleratingToOne nm (some n) (some m) (some c) =
      Sched.toOneBranch ⟨nm, none, some 1, some n, some m, some c, "StepDeceleratingToOne"⟩ true := rfl
    rw [this, e1 _ _ _ (by simp)]
    have k : valueOf fl pw (.ok ⟨nm, some (1 / (n : ℝ)), some 1, some n, some m, some c, "StepDeceleratingToOne"⟩) it =
      value fl pw (Sched.mkScheduler (Sched.toOneMutate ⟨nm, some (1 / (n : ℝ)), some 1, some n, some m, some c, "StepDeceleratingToOne"⟩) .decelerating) it := rfl
    rw [k, e3]
    exact e2 .decelerating (some c)

/-- **C135 (c)** From the horizon on, every schedule that has a target is exactly at it. -/
theorem C135_after_horizon (s : Sched.Scheduler) (t : ℝ) (m it : ℤ) (ht : s.targetValue = some t) (hm : s.itersMax = some m) (hit : m ≤ it) :
    value fl pw s it = .ok (some t) := by
  unfold value
  rw [ht, hm]
  simp only
  cases s.numSteps with
  | none => rfl
  | some n => simp only [ge_iff_le, hit, if_true]; split_ifs <;> rfl

include h in
/-- **C135 (d), refutation** A Step schedule from 3 to 3 in 52 steps leaves the interval between its ends: in its second step it is
`3 - 2 ^ -51`. -/
theorem C135_leaves_interval : ∃ v, valueOf fl pw (Sched.cfgStep (some "p") (some 3) (some 3) (some 52) (some 520)) 10 = .ok (some v) ∧
    v = 3 - 2 ^ (-51 : ℤ) ∧ ¬ Between 3 3 v := by
  have hb : ∀ z : ℝ, 0 ≤ z → z ≤ 10 → |z| ≤ 2 ^ 1000 := by
    intro z h0 h1
    rw [abs_of_nonneg h0]
    exact h1.trans (le_trans (by norm_num) (pow_le_pow_right₀ (by norm_num : (1 : ℝ) ≤ 2) (by norm_num : 10 ≤ 1000)))
  have S : Sized 520 52 := ⟨by norm_num, by norm_num, by norm_num⟩
  have hfl10 : fl (((520 : ℤ) : ℝ) / ((52 : ℤ) : ℝ)) = 10 := by
    have e : ((520 : ℤ) : ℝ) / ((52 : ℤ) : ℝ) = ((10 : ℤ) : ℝ) := by norm_num
    rw [e, fl_int h (by norm_num)]; norm_num
  have hidx : stepIndex fl 10 520 52 = 1 := by
    rw [stepIndex_eq h S (by norm_num) (by norm_num), floatStep, if_neg]
    · rfl
    · rintro ⟨-, hlt⟩
      rw [hfl10] at hlt
      norm_num at hlt
  have ha : stepAlpha fl 10 520 52 = 5651576002974740 * 2 ^ (-58 : ℤ) := by
    unfold stepAlpha
    rw [hidx]
    have := fl_eq h (x := ((1 : ℤ) : ℝ) / (((52 : ℤ) : ℝ) - 1)) (hb _ (by norm_num) (by norm_num)) 5651576002974740 (-58) (by norm_num) (by norm_num) (by norm_num) (by norm_num)
      (by norm_num [abs_lt])
    rw [this]; norm_num
  have h3 : fl 3 = 3 := by simpa using fl_int h (k := 3) (by norm_num)
  have hp : fl (1 - 5651576002974740 * 2 ^ (-58 : ℤ)) = 8830587504648031 * 2 ^ (-53 : ℤ) := by
    have := fl_eq h (x := 1 - 5651576002974740 * 2 ^ (-58 : ℤ)) (hb _ (by norm_num) (by norm_num)) 8830587504648031 (-53) (by norm_num) (by norm_num) (by norm_num) (by norm_num)
      (by norm_num [abs_lt])
    rw [this]; norm_num
  have hq : fl (8830587504648031 * 2 ^ (-53 : ℤ) * 3) = 6622940628486023 * 2 ^ (-51 : ℤ) := by
    have := fl_eq h (x := 8830587504648031 * 2 ^ (-53 : ℤ) * 3) (hb _ (by norm_num) (by norm_num)) 6622940628486023 (-51) (by norm_num) (by norm_num) (by norm_num) (by norm_num)
      (by norm_num [abs_lt])
    rw [this]; norm_num
  have hr : fl (5651576002974740 * 2 ^ (-58 : ℤ) * 3) = 8477364004462110 * 2 ^ (-57 : ℤ) := by
    have := fl_eq h (x := 5651576002974740 * 2 ^ (-58 : ℤ) * 3) (hb _ (by norm_num) (by norm_num)) 8477364004462110 (-57) (by norm_num) (by norm_num) (by norm_num) (by norm_num)
      (by norm_num [abs_lt])
    rw [this]; norm_num
  have hsum : fl (6622940628486023 * 2 ^ (-51 : ℤ) + 8477364004462110 * 2 ^ (-57 : ℤ)) = 3 - 2 ^ (-51 : ℤ) := by
    have := fl_eq h (x := 6622940628486023 * 2 ^ (-51 : ℤ) + 8477364004462110 * 2 ^ (-57 : ℤ)) (hb _ (by norm_num) (by norm_num)) 6755399441055743 (-51) (by norm_num) (by norm_num) (by norm_num) (by norm_num)
      (by norm_num [abs_lt])
    rw [this]; norm_num
  refine ⟨_, valueOf_step pw (some "p") 3 3 52 520 10 (by norm_num) (by norm_num) (by norm_num), ?_, ?_⟩
  · rw [ha, h3, hp, hq, hr, hsum]
  · rw [ha, h3, hp, hq, hr, hsum]
    rintro ⟨h2, -⟩
    norm_num at h2

end

/-! ### The hypotheses are met -/

theorem ordinary_one_three : Ordinary 1 3 := by
  refine ⟨by simpa using int_double 1 (by norm_num), by simpa using int_double 3 (by norm_num), ?_, ?_, ?_⟩
  · rw [abs_one]; exact one_le_pow₀ (by norm_num)
  · exact le_trans (b := 2 ^ 2) (by norm_num) (pow_le_pow_right₀ (by norm_num) (by norm_num))
  · rw [abs_one]; exact le_max_of_le_left (zpow_le_one_of_nonpos₀ (by norm_num) (by norm_num))

example : ∃ fl v, valueOf fl (fun a c => a ^ c) (Sched.cfgStep (some "p") (some 1) (some 3) (some 6) (some 100)) 50 = .ok (some v) ∧
    |v - 9 / 5| ≤ 1 / 10 ^ 12 := by
  obtain ⟨fl, h⟩ := exists_nearestDouble
  obtain ⟨⟨v, hv⟩, -⟩ := C133_step_begins_late h (fun a c => a ^ c)
  exact ⟨fl, v, hv⟩

example : ∃ fl v w, valueOf fl (fun a c => a ^ c) (Sched.cfgStep (some "p") (some 1) (some 3) (some 5) (some (20 * 5))) 40 = .ok (some v) ∧
    Sched.valueOf (Sched.cfgStep (some "p") (some 1) (some 3) (some 5) (some (20 * 5))) 40 = .ok (some w) ∧ CloseTo 1 3 1 v w := by
  obtain ⟨fl, h⟩ := exists_nearestDouble
  obtain ⟨v, w, hv⟩ := C133_whole_steps h (fun a c => a ^ c) (some "p") 1 3 5 20 40 (by norm_num) (by norm_num) (by norm_num) (by norm_num) ordinary_one_three
  exact ⟨fl, v, w, hv⟩

example : ∃ fl v, valueOf fl (fun a c => a ^ c) (Sched.cfgSawtooth (some "move_limit") 1 3) 51 = .ok (some v) ∧ CloseTo 1 3 24 v 3 := by
  obtain ⟨fl, h⟩ := exists_nearestDouble
  obtain ⟨⟨v, hv⟩, -⟩ := C134_restart_missed h (fun a c => a ^ c) (some "move_limit") 1 3 ordinary_one_three
  exact ⟨fl, v, hv⟩

example : ∃ fl v, valueOf fl (fun a c => a ^ c) (Sched.cfgStepAccelerating (some "p") (some 1) (some 3) (some 6) (some 100) (some 2)) 90 = .ok (some v) ∧ v = 3 := by
  obtain ⟨fl, h⟩ := exists_nearestDouble
  obtain ⟨v, hv, -, hz, -⟩ := C135_range_partial h (fun a c => a ^ c) fairPow_rpow (some "p") 1 3 2 6 100 90 (by norm_num) (by norm_num) (by norm_num)
    (by norm_num) (by norm_num) ordinary_one_three _ (Or.inr (Or.inl rfl))
  exact ⟨fl, v, hv, hz (by norm_num)⟩

end Verif.SchedFloat
