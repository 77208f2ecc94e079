import Verif.Spec.RoundedRun
import Verif.Props.RoundedMaterial

/-! Bounds for rounded arithmetic in double precision. -/
namespace Verif.Spec.Format
open Verif.Rounded Verif.Spec

noncomputable section
open Classical

variable {f : Format}

theorem within_iff {lo hi : ℝ} {x : Flt f.Num} : Within f lo hi x ↔ ∃ z : f.F, x = some (f.num z) ∧ lo ≤ (z : ℝ) ∧ (z : ℝ) ≤ hi := Iff.rfl

theorem Within.mono {lo hi lo' hi' : ℝ} {x : Flt f.Num} (h : Within f lo hi x) (h1 : lo' ≤ lo) (h2 : hi ≤ hi') : Within f lo' hi' x := by
  obtain ⟨z, e, a, b⟩ := h
  exact ⟨z, e, h1.trans a, b.trans h2⟩

theorem within_fl {lo hi r : ℝ} (h1 : lo ∈ f.F) (h2 : hi ∈ f.F) (h3 : lo ≤ r) (h4 : r ≤ hi) : Within f lo hi (some (f.fl r)) := by
  obtain ⟨z, e, a, b⟩ := f.fl_between h1 h2 h3 h4
  exact ⟨z, congrArg some e, a, b⟩

theorem within_lit {lo hi : ℝ} (h1 : lo ∈ f.F) (h2 : hi ∈ f.F) {q : ℚ} (h3 : lo ≤ (q : ℝ)) (h4 : (q : ℝ) ≤ hi) :
    Within f lo hi (some (f.fl (q : ℝ))) := within_fl h1 h2 h3 h4

theorem within_add {l1 h1 l2 h2 lo hi : ℝ} {x y : Flt f.Num} (hx : Within f l1 h1 x) (hy : Within f l2 h2 y) (m1 : lo ∈ f.F) (m2 : hi ∈ f.F)
    (b1 : lo ≤ l1 + l2) (b2 : h1 + h2 ≤ hi) : Within f lo hi (f.add x y) := by
  obtain ⟨z, rfl, a, b⟩ := within_iff.mp hx
  obtain ⟨w, rfl, c, d⟩ := within_iff.mp hy
  rw [add_num]
  exact within_fl m1 m2 (by linarith) (by linarith)

theorem within_sub {l1 h1 l2 h2 lo hi : ℝ} {x y : Flt f.Num} (hx : Within f l1 h1 x) (hy : Within f l2 h2 y) (m1 : lo ∈ f.F) (m2 : hi ∈ f.F)
    (b1 : lo ≤ l1 - h2) (b2 : h1 - l2 ≤ hi) : Within f lo hi (f.sub x y) := by
  obtain ⟨z, rfl, a, b⟩ := within_iff.mp hx
  obtain ⟨w, rfl, c, d⟩ := within_iff.mp hy
  rw [sub_num]
  exact within_fl m1 m2 (by linarith) (by linarith)

theorem within_mul {a b c : ℝ} {x y : Flt f.Num} (hx : Within f 0 a x) (hy : Within f 0 b y) (m : c ∈ f.F) (h : a * b ≤ c) :
    Within f 0 c (f.mul x y) := by
  obtain ⟨z, rfl, z0, z1⟩ := within_iff.mp hx
  obtain ⟨w, rfl, w0, w1⟩ := within_iff.mp hy
  rw [mul_num]
  exact within_fl f.zero m (mul_nonneg z0 w0) ((mul_le_mul z1 w1 w0 (z0.trans z1)).trans h)

theorem within_mul_neg {a b c : ℝ} {x y : Flt f.Num} (hx : Within f (-a) 0 x) (hy : Within f 0 b y) (m : c ∈ f.F) (h : a * b ≤ c) :
    Within f (-c) 0 (f.mul x y) := by
  obtain ⟨z, rfl, z0, z1⟩ := within_iff.mp hx
  obtain ⟨w, rfl, w0, w1⟩ := within_iff.mp hy
  rw [mul_num]
  refine within_fl (f.neg c m) f.zero ?_ (mul_nonpos_of_nonpos_of_nonneg z1 w0)
  have : -(z : ℝ) * w ≤ a * b := mul_le_mul (by linarith) w1 w0 (by linarith)
  linarith

theorem within_neg_mul {a b c : ℝ} {x y : Flt f.Num} (hx : Within f 0 a x) (hy : Within f (-b) 0 y) (m : c ∈ f.F) (h : a * b ≤ c) :
    Within f (-c) 0 (f.mul x y) := by
  obtain ⟨z, rfl, z0, z1⟩ := within_iff.mp hx
  obtain ⟨w, rfl, w0, w1⟩ := within_iff.mp hy
  rw [mul_num]
  refine within_fl (f.neg c m) f.zero ?_ (mul_nonpos_of_nonneg_of_nonpos z0 w1)
  have : (z : ℝ) * -w ≤ a * b := mul_le_mul z1 (by linarith) (by linarith) (z0.trans z1)
  linarith

theorem within_div {a b c d : ℝ} {x y : Flt f.Num} (hx : Within f 0 a x) (hy : Within f b d y) (hb : 0 < b) (m : c ∈ f.F) (h : a ≤ c * b) :
    Within f 0 c (f.div x y) := by
  obtain ⟨z, rfl, z0, z1⟩ := within_iff.mp hx
  obtain ⟨w, rfl, w0, w1⟩ := within_iff.mp hy
  have hw : 0 < (w : ℝ) := hb.trans_le w0
  rw [div_num _ _ _ hw.ne']
  refine within_fl f.zero m (div_nonneg z0 hw.le) ?_
  rw [div_le_iff₀ hw]
  have hc : 0 ≤ c := by
    by_contra hc
    have : c * b < 0 := mul_neg_of_neg_of_pos (not_le.mp hc) hb
    linarith
  exact z1.trans (h.trans (mul_le_mul_of_nonneg_left w0 hc))

theorem within_div_neg {a b c d : ℝ} {x y : Flt f.Num} (hx : Within f (-a) 0 x) (hy : Within f b d y) (hb : 0 < b) (m : c ∈ f.F) (h : a ≤ c * b) :
    Within f (-c) 0 (f.div x y) := by
  obtain ⟨z, rfl, z0, z1⟩ := within_iff.mp hx
  obtain ⟨w, rfl, w0, w1⟩ := within_iff.mp hy
  have hw : 0 < (w : ℝ) := hb.trans_le w0
  rw [div_num _ _ _ hw.ne']
  refine within_fl (f.neg c m) f.zero ?_ (div_nonpos_of_nonpos_of_nonneg z1 hw.le)
  rw [le_div_iff₀ hw]
  have hc : 0 ≤ c := by
    by_contra hc
    have : c * b < 0 := mul_neg_of_neg_of_pos (not_le.mp hc) hb
    linarith
  have := mul_le_mul_of_nonneg_left w0 hc
  linarith

theorem within_pow {a b c d : ℝ} {x y : Flt f.Num} (hx : Within f 0 a x) (hy : Within f b d y) (hb : 0 ≤ b) (ha : 1 ≤ a) (m : c ∈ f.F)
    (h : a ^ d ≤ c) : Within f 0 c (f.pow x y) := by
  obtain ⟨z, rfl, z0, z1⟩ := within_iff.mp hx
  obtain ⟨w, rfl, w0, w1⟩ := within_iff.mp hy
  rw [pow_num _ _ z0 (hb.trans w0)]
  exact within_fl f.zero m (Real.rpow_nonneg z0 _)
    (((Real.rpow_le_rpow z0 z1 (hb.trans w0)).trans (Real.rpow_le_rpow_of_exponent_le ha w1)).trans h)

/-- A power whose exponent may be negative, down to -1/2, of a base not below `2 ^ -20`. -/
theorem within_pow_neg {a c d : ℝ} {x y : Flt f.Num} (hx : Within f (2 ^ (-20 : ℤ)) a x) (hy : Within f (-(1 / 2)) d y) (ha : 1 ≤ a) (hd : 0 ≤ d)
    (m : c ∈ f.F) (h : a ^ d ≤ c) (hc : 2 ^ 20 ≤ c) : Within f 0 c (f.pow x y) := by
  obtain ⟨z, rfl, z0, z1⟩ := within_iff.mp hx
  obtain ⟨w, rfl, w0, w1⟩ := within_iff.mp hy
  have hz : 0 < (z : ℝ) := lt_of_lt_of_le (by positivity) z0
  have e : f.pow (some (f.num z)) (some (f.num w)) = some (f.fl ((z : ℝ) ^ (w : ℝ))) := by
    show (if (z : ℝ) < 0 ∧ ¬ ∃ k : ℤ, (k : ℝ) = w then none
      else if (z : ℝ) = 0 ∧ (w : ℝ) < 0 then some ⊤ else some (f.fl ((z : ℝ) ^ (w : ℝ)))) = _
    rw [if_neg (fun hh => absurd hh.1 (not_lt.mpr hz.le)), if_neg (fun hh => absurd hh.1 hz.ne')]
  rw [e]
  refine within_fl f.zero m (Real.rpow_nonneg hz.le _) ?_
  rcases le_total 0 (w : ℝ) with hw | hw
  · exact ((Real.rpow_le_rpow hz.le z1 hw).trans (Real.rpow_le_rpow_of_exponent_le ha w1)).trans h
  · refine le_trans ?_ hc
    refine (Real.rpow_le_rpow_of_nonpos (by positivity) z0 hw).trans ?_
    rw [← Real.rpow_intCast, ← Real.rpow_mul (by norm_num), ← Real.rpow_natCast]
    refine Real.rpow_le_rpow_of_exponent_le (by norm_num) ?_
    push_cast
    linarith

theorem within_max {a b c d : ℝ} {x y : Flt f.Num} (hx : Within f a b x) (hy : Within f c d y) (h : d ≤ b) :
    Within f (max a c) b (maximum x y) := by
  obtain ⟨z, rfl, z0, z1⟩ := within_iff.mp hx
  obtain ⟨w, rfl, w0, w1⟩ := within_iff.mp hy
  show Within f _ _ (some (max (f.num z) (f.num w)))
  rcases le_total (f.num z) (f.num w) with hh | hh
  · rw [max_eq_right hh]
    exact ⟨w, rfl, max_le (z0.trans (f.num_le.mp hh)) w0, w1.trans h⟩
  · rw [max_eq_left hh]
    exact ⟨z, rfl, max_le z0 (w0.trans (f.num_le.mp hh)), z1⟩

/-! ### Doubles -/

variable {fl : ℝ → WithBot (WithTop doubles)} (h : DoubleRounding fl)

theorem scaled_mem (m e : ℤ) (h1 : |m| < 2 ^ 53) (h2 : -1074 ≤ e) (h3 : e ≤ 971) : (m : ℝ) * 2 ^ e ∈ (doubleFormat fl h).F := ⟨m, e, h1, h2, h3, rfl⟩

theorem p2_mem (k : ℕ) (hk : k ≤ 971) : (2 : ℝ) ^ k ∈ (doubleFormat fl h).F :=
  ⟨1, k, by norm_num, by omega, by omega, by rw [Int.cast_one, one_mul, zpow_natCast]⟩

theorem p2_mul {a b c : ℕ} (hc : a + b ≤ c) : (2 : ℝ) ^ a * 2 ^ b ≤ 2 ^ c := by
  rw [← pow_add]
  exact pow_le_pow_right₀ (by norm_num) hc

theorem p2_le {a c : ℕ} (hc : a ≤ c) : (2 : ℝ) ^ a ≤ 2 ^ c := pow_le_pow_right₀ (by norm_num) hc

/-- A sum of numbers that are bounded by integer multiples of `2 ^ e` and `2 ^ e'`. -/
theorem within_total (log exp : Flt (doubleFormat fl h).Num → Flt (doubleFormat fl h).Num) {ι : Type} (l : List ι) (x : ι → Flt (doubleFormat fl h).Num)
    (lo hi : ι → ℕ) (e e' : ℤ) (he : -1074 ≤ e ∧ e ≤ 971) (he' : -1074 ≤ e' ∧ e' ≤ 971)
    (hx : ∀ t ∈ l, Within (doubleFormat fl h) ((lo t : ℝ) * 2 ^ e) ((hi t : ℝ) * 2 ^ e') (x t))
    (hlo : (l.map lo).sum < 2 ^ 53) (hhi : (l.map hi).sum < 2 ^ 53) :
    Within (doubleFormat fl h) (((l.map lo).sum : ℕ) * 2 ^ e) (((l.map hi).sum : ℕ) * 2 ^ e') (total ((doubleFormat fl h).arith log exp) (l.map x)) := by
  have key : ∀ (l : List ι) (L U : ℕ) (acc : Flt (doubleFormat fl h).Num), (∀ t ∈ l, Within (doubleFormat fl h) ((lo t : ℝ) * 2 ^ e) ((hi t : ℝ) * 2 ^ e') (x t)) →
      L + (l.map lo).sum < 2 ^ 53 → U + (l.map hi).sum < 2 ^ 53 → Within (doubleFormat fl h) ((L : ℝ) * 2 ^ e) ((U : ℝ) * 2 ^ e') acc →
      Within (doubleFormat fl h) (((L + (l.map lo).sum : ℕ) : ℝ) * 2 ^ e) (((U + (l.map hi).sum : ℕ) : ℝ) * 2 ^ e')
        ((l.map x).foldl (doubleFormat fl h).add acc) := by
    intro l
    induction l with
    | nil => intro L U acc _ _ _ ha; simpa using ha
    | cons t l ih =>
      intro L U acc ht hL hU ha
      simp only [List.map_cons, List.sum_cons] at hL hU
      have := ih (L + lo t) (U + hi t) ((doubleFormat fl h).add acc (x t)) (fun s hs => ht s (List.mem_cons_of_mem _ hs)) (by omega) (by omega) ?_
      · simp only [List.map_cons, List.sum_cons, List.foldl_cons]
        rw [show L + (lo t + (l.map lo).sum) = L + lo t + (l.map lo).sum by omega, show U + (hi t + (l.map hi).sum) = U + hi t + (l.map hi).sum by omega]
        exact this
      · refine within_add ha (ht t List.mem_cons_self) ?_ ?_ ?_ ?_
        · have := scaled_mem h ((L + lo t : ℕ) : ℤ) e (by rw [abs_of_nonneg (by positivity)]; exact_mod_cast (by omega : L + lo t < 2 ^ 53)) he.1 he.2
          exact_mod_cast this
        · have := scaled_mem h ((U + hi t : ℕ) : ℤ) e' (by rw [abs_of_nonneg (by positivity)]; exact_mod_cast (by omega : U + hi t < 2 ^ 53)) he'.1 he'.2
          exact_mod_cast this
        · push_cast; linarith
        · push_cast; linarith
  have := key l 0 0 (some ((doubleFormat fl h).fl ((0 : ℚ) : ℝ))) hx (by omega) (by omega)
    (within_lit (by simpa using (doubleFormat fl h).zero) (by simpa using (doubleFormat fl h).zero) (by simp) (by simp))
  rw [Nat.zero_add, Nat.zero_add] at this
  exact this

/-- A sum of `n` numbers in `[-2 ^ k, 0]`. -/
theorem within_total_neg (log exp : Flt (doubleFormat fl h).Num → Flt (doubleFormat fl h).Num) (l : List (Flt (doubleFormat fl h).Num)) (k : ℕ) (hk : k ≤ 971)
    (hx : ∀ x ∈ l, Within (doubleFormat fl h) (-2 ^ k) 0 x) (hl : l.length < 2 ^ 53) :
    Within (doubleFormat fl h) (-((l.length : ℝ) * 2 ^ k)) 0 (total ((doubleFormat fl h).arith log exp) l) := by
  have key : ∀ (l : List (Flt (doubleFormat fl h).Num)) (L : ℕ) (acc : Flt (doubleFormat fl h).Num), (∀ x ∈ l, Within (doubleFormat fl h) (-2 ^ k) 0 x) →
      L + l.length < 2 ^ 53 → Within (doubleFormat fl h) (-((L : ℝ) * 2 ^ k)) 0 acc →
      Within (doubleFormat fl h) (-(((L + l.length : ℕ) : ℝ) * 2 ^ k)) 0 (l.foldl (doubleFormat fl h).add acc) := by
    intro l
    induction l with
    | nil => intro L acc _ _ ha; simpa using ha
    | cons t l ih =>
      intro L acc ht hL ha
      simp only [List.length_cons] at hL
      have := ih (L + 1) ((doubleFormat fl h).add acc t) (fun s hs => ht s (List.mem_cons_of_mem _ hs)) (by omega) ?_
      · simp only [List.length_cons, List.foldl_cons]
        rw [show L + (l.length + 1) = L + 1 + l.length by omega]
        exact this
      · refine within_add ha (ht t List.mem_cons_self) ?_ (doubleFormat fl h).zero ?_ (by norm_num)
        · refine (doubleFormat fl h).neg _ ?_
          have := scaled_mem h ((L + 1 : ℕ) : ℤ) k (by rw [abs_of_nonneg (by positivity)]; exact_mod_cast (by omega : L + 1 < 2 ^ 53)) (by omega) (by omega)
          rw [zpow_natCast] at this
          exact_mod_cast this
        · push_cast; linarith
  have := key l 0 (some ((doubleFormat fl h).fl ((0 : ℚ) : ℝ))) hx (by omega)
    (within_lit (by simpa using (doubleFormat fl h).zero) (doubleFormat fl h).zero (by simp) (by simp))
  rw [Nat.zero_add] at this
  exact this

end
end Verif.Spec.Format
