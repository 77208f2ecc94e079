import Verif.Lemmas.Within
import Verif.Spec.RoundedLog

/-! Numbers of bounded absolute value in double precision. -/
namespace Verif.Spec.Format
open Verif.Rounded Verif.Spec

noncomputable section
open Classical

variable {fl : ℝ → WithBot (WithTop doubles)} {h : DoubleRounding fl} {E : Type}

local notation "𝔻" => doubleFormat fl h

theorem p2_pos (k : ℕ) : (0 : ℝ) < 2 ^ k := by positivity

theorem Size.of {k : ℕ} {lo hi : ℝ} {x : Flt (doubleFormat fl h).Num} (hx : Within (doubleFormat fl h) lo hi x) (h1 : -2 ^ k ≤ lo) (h2 : hi ≤ 2 ^ k) :
    Size (doubleFormat fl h) k x := Within.mono hx h1 h2

theorem Size.mono {a b : ℕ} {x : Flt (doubleFormat fl h).Num} (hx : Size (doubleFormat fl h) a x) (hab : a ≤ b) : Size (doubleFormat fl h) b x :=
  Within.mono hx (neg_le_neg (p2_le hab)) (p2_le hab)

theorem Size.mul {a b c : ℕ} {x y : Flt (doubleFormat fl h).Num} (hx : Size (doubleFormat fl h) a x) (hy : Size (doubleFormat fl h) b y) (hc : a + b ≤ c)
    (h971 : c ≤ 971) : Size (doubleFormat fl h) c ((doubleFormat fl h).mul x y) := by
  obtain ⟨z, rfl, z0, z1⟩ := within_iff.mp hx
  obtain ⟨w, rfl, w0, w1⟩ := within_iff.mp hy
  rw [mul_num]
  have key : |(z : ℝ) * w| ≤ 2 ^ c := by
    rw [abs_mul]
    exact (mul_le_mul (abs_le.mpr ⟨z0, z1⟩) (abs_le.mpr ⟨w0, w1⟩) (abs_nonneg _) (p2_pos a).le).trans (p2_mul hc)
  have hm := p2_mem h c h971
  exact within_fl ((doubleFormat fl h).neg _ hm) hm (abs_le.mp key).1 (abs_le.mp key).2

theorem Size.add {a b c : ℕ} {x y : Flt (doubleFormat fl h).Num} (hx : Size (doubleFormat fl h) a x) (hy : Size (doubleFormat fl h) b y) (ha : a + 1 ≤ c)
    (hb : b + 1 ≤ c) (h971 : c ≤ 971) : Size (doubleFormat fl h) c ((doubleFormat fl h).add x y) := by
  have hm := p2_mem h c h971
  obtain ⟨d, rfl⟩ : ∃ d, c = d + 1 := ⟨c - 1, by omega⟩
  have h1 : (2 : ℝ) ^ a ≤ 2 ^ d := p2_le (by omega)
  have h2 : (2 : ℝ) ^ b ≤ 2 ^ d := p2_le (by omega)
  have h3 : (2 : ℝ) ^ (d + 1) = 2 ^ d + 2 ^ d := by rw [pow_succ, mul_two]
  refine within_add hx hy ((doubleFormat fl h).neg _ hm) hm ?_ ?_
  · rw [h3, neg_add]
    exact add_le_add (neg_le_neg h1) (neg_le_neg h2)
  · rw [h3]; exact add_le_add h1 h2

theorem Size.div {a b c : ℕ} {d : ℝ} {x y : Flt (doubleFormat fl h).Num} (hx : Size (doubleFormat fl h) a x) (hy : Within (doubleFormat fl h) ((2 ^ b)⁻¹) d y)
    (hc : a + b ≤ c) (h971 : c ≤ 971) : Size (doubleFormat fl h) c ((doubleFormat fl h).div x y) := by
  obtain ⟨z, rfl, z0, z1⟩ := within_iff.mp hx
  obtain ⟨w, rfl, w0, w1⟩ := within_iff.mp hy
  have hw : 0 < (w : ℝ) := lt_of_lt_of_le (by positivity) w0
  rw [div_num _ _ _ hw.ne']
  have key : |(z : ℝ) / w| ≤ 2 ^ c := by
    rw [abs_div, abs_of_pos hw, div_le_iff₀ hw]
    refine (abs_le.mpr ⟨z0, z1⟩).trans ?_
    refine le_trans ?_ (mul_le_mul_of_nonneg_left w0 (p2_pos c).le)
    rw [le_mul_inv_iff₀ (p2_pos b)]
    exact p2_mul hc
  have hm := p2_mem h c h971
  exact within_fl ((doubleFormat fl h).neg _ hm) hm (abs_le.mp key).1 (abs_le.mp key).2

variable (log exp : Flt (doubleFormat fl h).Num → Flt (doubleFormat fl h).Num)

theorem Size.total {a b c : ℕ} {l : List (Flt (doubleFormat fl h).Num)} (hx : ∀ x ∈ l, Size (doubleFormat fl h) a x) (hl : l.length ≤ 2 ^ b) (hb : b ≤ 52)
    (hc : b + a ≤ c) (h971 : c ≤ 971) : Size (doubleFormat fl h) c (total ((doubleFormat fl h).arith log exp) l) := by
  have h53 : l.length < 2 ^ 53 := lt_of_le_of_lt hl (lt_of_le_of_lt (Nat.pow_le_pow_right (by norm_num) hb) (by norm_num))
  have key : ∀ (l : List (Flt (doubleFormat fl h).Num)) (L : ℕ) (acc : Flt (doubleFormat fl h).Num), (∀ x ∈ l, Size (doubleFormat fl h) a x) →
      L + l.length < 2 ^ 53 → Within (doubleFormat fl h) (-((L : ℝ) * 2 ^ a)) ((L : ℝ) * 2 ^ a) acc →
      Within (doubleFormat fl h) (-(((L + l.length : ℕ) : ℝ) * 2 ^ a)) (((L + l.length : ℕ) : ℝ) * 2 ^ a) (l.foldl (doubleFormat fl h).add acc) := by
    intro l
    induction l with
    | nil => intro L acc _ _ ha; simpa using ha
    | cons t l ih =>
      intro L acc ht hL ha
      simp only [List.length_cons] at hL
      have hmem : ((L + 1 : ℕ) : ℝ) * 2 ^ a ∈ (doubleFormat fl h).F := by
        have := scaled_mem h ((L + 1 : ℕ) : ℤ) a (by rw [abs_of_nonneg (by positivity)]; exact_mod_cast (by omega : L + 1 < 2 ^ 53)) (by omega) (by omega)
        exact_mod_cast this
      have := ih (L + 1) ((doubleFormat fl h).add acc t) (fun s hs => ht s (List.mem_cons_of_mem _ hs)) (by omega) ?_
      · simp only [List.length_cons, List.foldl_cons]
        rw [show L + (l.length + 1) = L + 1 + l.length by omega]
        exact this
      · refine within_add ha (ht t List.mem_cons_self) ((doubleFormat fl h).neg _ hmem) hmem ?_ ?_
        · push_cast; linarith
        · push_cast; linarith
  have := key l 0 (some ((doubleFormat fl h).fl ((0 : ℚ) : ℝ))) hx (by omega)
    (within_lit (by simpa using (doubleFormat fl h).zero) (by simpa using (doubleFormat fl h).zero) (by simp) (by simp))
  rw [Nat.zero_add] at this
  have hle : (l.length : ℝ) * 2 ^ a ≤ 2 ^ c := by
    have : (l.length : ℝ) ≤ 2 ^ b := by exact_mod_cast hl
    exact (mul_le_mul_of_nonneg_right this (by positivity)).trans (p2_mul hc)
  exact Within.mono this (neg_le_neg hle) hle

/-- Python's `max`. -/
theorem within_pyMax {a b c d : ℝ} {x y : Flt (doubleFormat fl h).Num} (hx : Within (doubleFormat fl h) a b x) (hy : Within (doubleFormat fl h) c d y) (hdb : d ≤ b) :
    Within (doubleFormat fl h) (max a c) b (pyMax x y) := by
  obtain ⟨z, rfl, z0, z1⟩ := within_iff.mp hx
  obtain ⟨w, rfl, w0, w1⟩ := within_iff.mp hy
  unfold pyMax
  split_ifs with hh
  · obtain ⟨p, q, hp, hq, hpq⟩ := hh
    cases hp; cases hq
    have := (doubleFormat fl h).num_lt.mp hpq
    exact ⟨w, rfl, max_le (z0.trans this.le) w0, w1.trans hdb⟩
  · have : (w : ℝ) ≤ z := by
      by_contra hc
      exact hh ⟨_, _, rfl, rfl, (doubleFormat fl h).num_lt.mpr (not_le.mp hc)⟩
    exact ⟨z, rfl, max_le z0 (w0.trans this), z1⟩

/-- `np.clip` with finite bounds. -/
theorem within_clip {x : (doubleFormat fl h).Num} {lo hi : (doubleFormat fl h).F} (hle : (lo : ℝ) ≤ hi) :
    Within (doubleFormat fl h) lo hi (clip (some x) (some ((doubleFormat fl h).num lo)) (some ((doubleFormat fl h).num hi))) := by
  have e : clip (some x) (some ((doubleFormat fl h).num lo)) (some ((doubleFormat fl h).num hi)) =
      some (min (max x ((doubleFormat fl h).num lo)) ((doubleFormat fl h).num hi)) := rfl
  rw [e]
  have h1 : (doubleFormat fl h).num lo ≤ min (max x ((doubleFormat fl h).num lo)) ((doubleFormat fl h).num hi) :=
    le_min (le_max_right _ _) ((doubleFormat fl h).num_le.mpr hle)
  have h2 : min (max x ((doubleFormat fl h).num lo)) ((doubleFormat fl h).num hi) ≤ (doubleFormat fl h).num hi := min_le_right _ _
  rcases (doubleFormat fl h).num_cases (min (max x ((doubleFormat fl h).num lo)) ((doubleFormat fl h).num hi)) with e1 | e1 | ⟨z, e1⟩
  · rw [e1] at h1; exact absurd (le_bot_iff.mp h1) ((doubleFormat fl h).fin_num _).1
  · rw [e1] at h2; exact absurd (top_le_iff.mp h2) ((doubleFormat fl h).fin_num _).2
  · rw [e1] at h1 h2 ⊢
    exact ⟨z, rfl, (doubleFormat fl h).num_le.mp h1, (doubleFormat fl h).num_le.mp h2⟩

end
end Verif.Spec.Format
