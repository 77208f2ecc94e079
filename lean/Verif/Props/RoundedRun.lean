import Mathlib.Analysis.Complex.ExponentialBounds
import Verif.Lemmas.Within
import Verif.Props.Format
import Verif.Props.SchedFloat

/-! **C138, C139** Spatial filter and whole OC runs in double precision. -/
namespace Verif.Spec.Format
open Verif.Rounded Verif.Spec
open Verif.Driver (history)

noncomputable section
open Classical

variable {fl : ℝ → WithBot (WithTop doubles)} (h : DoubleRounding fl)
variable (log exp tanh cosh : Flt (doubleFormat fl h).Num → Flt (doubleFormat fl h).Num)
variable {E X : Type}

local notation "𝔻" => doubleFormat fl h

/-- The real number a finite float is. -/
def realOf (f : Format) (x : Flt f.Num) : ℝ := if hz : ∃ z : f.F, x = some (f.num z) then (hz.choose : ℝ) else 0

theorem realOf_num (f : Format) (z : f.F) : realOf f (some (f.num z)) = z := by
  have hz : ∃ w : f.F, (some (f.num z) : Flt f.Num) = some (f.num w) := ⟨z, rfl⟩
  rw [realOf, dif_pos hz]
  have := hz.choose_spec
  rw [← WithTop.coe_injective (WithBot.coe_injective (Option.some.inj this))]

theorem within_realOf {f : Format} {lo hi : ℝ} {x : Flt f.Num} (hx : Within f lo hi x) :
    Within f (realOf f x) (realOf f x) x ∧ lo ≤ realOf f x ∧ realOf f x ≤ hi := by
  obtain ⟨z, rfl, a, b⟩ := within_iff.mp hx
  rw [realOf_num]
  exact ⟨⟨z, rfl, le_rfl, le_rfl⟩, a, b⟩

/-- A normalised row: the entries are bounded by integer multiples of `2 ^ -51` that add up to at most `1 + 2 ^ -11`. -/
theorem normRow_bounds {row : List (E × Flt (𝔻).Num)} (hr : KernelRow (𝔻) row) :
    ∃ (inv : Flt (𝔻).Num) (u : E × Flt (𝔻).Num → ℕ), normRow ((𝔻).arith log exp) row = row.map (fun e => (e.1, (𝔻).mul inv e.2)) ∧
      (∀ e ∈ row, Within (𝔻) 0 ((u e : ℝ) * 2 ^ (-51 : ℤ)) ((𝔻).mul inv e.2) ∧ Within (𝔻) 0 1 ((𝔻).mul inv e.2)) ∧
      (row.map u).sum ≤ 2 ^ 51 + 2 ^ 40 := by
  obtain ⟨κ, hκ⟩ : ∃ κ : E × Flt (𝔻).Num → ℝ, ∀ e ∈ row, Within (𝔻) (κ e) (κ e) e.2 ∧ 0 ≤ κ e ∧ κ e ≤ 1 :=
    ⟨fun e => realOf (𝔻) e.2, fun e he => within_realOf (hr.values e he)⟩
  obtain ⟨lo, hlo⟩ : ∃ lo : E × Flt (𝔻).Num → ℕ, ∀ e, lo e = ⌊κ e * 2 ^ 32⌋₊ := ⟨_, fun _ => rfl⟩
  have z32 : (2 : ℝ) ^ (-32 : ℤ) * 2 ^ 32 = 1 := by norm_num
  have lo1 : ∀ e ∈ row, (lo e : ℝ) ≤ κ e * 2 ^ 32 := fun e he => by
    rw [hlo]; exact Nat.floor_le (mul_nonneg (hκ e he).2.1 (by positivity))
  have lo2 : ∀ e ∈ row, κ e * 2 ^ 32 ≤ lo e + 1 := fun e _ => by rw [hlo]; exact (Nat.lt_floor_add_one _).le
  have lo3 : ∀ e ∈ row, lo e ≤ 2 ^ 32 := fun e he => by
    have := lo1 e he
    have h2 : κ e * 2 ^ 32 ≤ 2 ^ 32 := mul_le_of_le_one_left (by positivity) (hκ e he).2.2
    exact_mod_cast this.trans h2
  have hn : row.length ≤ 2 ^ 20 := hr.count
  have sumle : ∀ (g : E × Flt (𝔻).Num → ℕ) (b : ℕ), (∀ e ∈ row, g e ≤ b) → (row.map g).sum ≤ row.length * b := by
    intro g b hg
    have := List.sum_le_card_nsmul (row.map g) b (by
      intro x hx
      obtain ⟨e, he, rfl⟩ := List.mem_map.mp hx
      exact hg e he)
    simpa using this
  have L1 : (row.map lo).sum ≤ 2 ^ 52 := (sumle lo _ lo3).trans (by nlinarith)
  -- the row sum
  have hs := within_total h log exp row Prod.snd lo (fun _ => 1) (-32) 0 (by norm_num) (by norm_num) (fun e he => by
      obtain ⟨a, b, c⟩ := hκ e he
      refine Within.mono a ?_ (by simpa using c)
      have := lo1 e he
      have z0 : (0 : ℝ) < 2 ^ (-32 : ℤ) := by positivity
      nlinarith) (by omega) (by
      have := sumle (fun _ => 1) 1 (fun _ _ => le_rfl)
      omega)
  obtain ⟨s, es, s1, s2⟩ := within_iff.mp hs
  have hL : 2 ^ 32 ≤ (row.map lo).sum := by
    obtain ⟨e, he, e1⟩ := hr.self
    have hk : κ e = 1 := by
      have := (hκ e he).1
      rw [e1, fl_one] at this
      obtain ⟨z, ez, a, b⟩ := within_iff.mp this
      have : (1 : ℝ) = z := congrArg Subtype.val (WithTop.coe_injective (WithBot.coe_injective (Option.some.inj ez)))
      linarith
    have : lo e = 2 ^ 32 := by rw [hlo, hk, one_mul]; exact_mod_cast Nat.floor_natCast (2 ^ 32)
    rw [← this]
    exact List.single_le_sum (by simp) _ (List.mem_map_of_mem he)
  have hs1 : 1 ≤ (s : ℝ) := by
    refine le_trans ?_ s1
    have : ((2 ^ 32 : ℕ) : ℝ) ≤ ((row.map lo).sum : ℕ) := by exact_mod_cast hL
    push_cast at this
    have z0 : (0 : ℝ) < 2 ^ (-32 : ℤ) := by positivity
    push_cast
    nlinarith
  have hs0 : 0 < (s : ℝ) := by linarith
  have hs2 : (s : ℝ) ≤ 2 ^ 20 := by
    refine s2.trans ?_
    have := sumle (fun _ => 1) 1 (fun _ _ => le_rfl)
    have h3 : (row.map fun _ => 1).sum ≤ 2 ^ 20 := by omega
    rw [zpow_zero, mul_one]
    exact_mod_cast h3
  -- the reciprocal
  obtain ⟨c, hc⟩ : ∃ c : ℕ, c = ⌈(2 : ℝ) ^ 50 / s⌉₊ := ⟨_, rfl⟩
  have c1 : (2 : ℝ) ^ 50 / s ≤ c := by rw [hc]; exact Nat.le_ceil _
  have c2 : (c : ℝ) ≤ 2 ^ 50 / s + 1 := by rw [hc]; exact (Nat.ceil_lt_add_one (by positivity)).le
  have c3 : c ≤ 2 ^ 50 := by
    rw [hc, Nat.ceil_le]
    refine (div_le_self (by positivity) hs1).trans (le_of_eq ?_)
    norm_num
  have hinv : Within (𝔻) 0 ((c : ℝ) * 2 ^ (-50 : ℤ)) (some ((𝔻).fl (1 / (s : ℝ)))) := by
    refine within_fl (𝔻).zero (scaled_mem h c (-50) (by rw [abs_of_nonneg (by positivity)]; exact_mod_cast (by omega : c < 2 ^ 53)) (by norm_num) (by norm_num))
      (by positivity) ?_
    have z : (2 : ℝ) ^ 50 * 2 ^ (-50 : ℤ) = 1 := by norm_num
    have z0 : (0 : ℝ) < 2 ^ (-50 : ℤ) := by positivity
    calc 1 / (s : ℝ) = 2 ^ 50 / s * 2 ^ (-50 : ℤ) := by rw [div_mul_eq_mul_div, z]
      _ ≤ c * 2 ^ (-50 : ℤ) := mul_le_mul_of_nonneg_right c1 z0.le
  have hinv1 : Within (𝔻) 0 1 (some ((𝔻).fl (1 / (s : ℝ)))) :=
    within_fl (𝔻).zero (𝔻).one (by positivity) ((div_le_one hs0).mpr hs1)
  obtain ⟨u, hu⟩ : ∃ u : E × Flt (𝔻).Num → ℕ, ∀ e, u e = ⌈2 * c * κ e⌉₊ := ⟨_, fun _ => rfl⟩
  have u1 : ∀ e ∈ row, 2 * c * κ e ≤ u e := fun e _ => by rw [hu]; exact Nat.le_ceil _
  have u2 : ∀ e ∈ row, (u e : ℝ) ≤ 2 * c * κ e + 1 := fun e he => by
    rw [hu]; exact (Nat.ceil_lt_add_one (mul_nonneg (by positivity) (hκ e he).2.1)).le
  have u3 : ∀ e ∈ row, u e ≤ 2 ^ 52 := fun e he => by
    rw [hu, Nat.ceil_le]
    have hcR : (c : ℝ) ≤ 2 ^ 50 := by exact_mod_cast c3
    have := (hκ e he).2
    push_cast
    nlinarith
  refine ⟨some ((𝔻).fl (1 / (s : ℝ))), u, ?_, ?_, ?_⟩
  · have e2 : total ((𝔻).arith log exp) (row.map Prod.snd) = some ((𝔻).num s) := es
    have ne : ¬ (some ((𝔻).num s) : Flt (𝔻).Num) = some ((𝔻).fl ((0 : ℚ) : ℝ)) := by
      rw [Rat.cast_zero, fl_zero]
      intro hh
      have : (s : ℝ) = 0 := congrArg Subtype.val (WithTop.coe_injective (WithBot.coe_injective (Option.some.inj hh)))
      linarith
    have e3 : (𝔻).div (some ((𝔻).fl ((1 : ℚ) : ℝ))) (some ((𝔻).num s)) = some ((𝔻).fl (1 / (s : ℝ))) := by
      rw [Rat.cast_one, fl_one, div_num _ _ _ hs0.ne']
    unfold normRow
    rw [e2]
    show row.map (fun e => (e.1, (𝔻).mul ((𝔻).div (some ((𝔻).fl ((1 : ℚ) : ℝ)))
      (if (some ((𝔻).num s) : Flt (𝔻).Num) = some ((𝔻).fl ((0 : ℚ) : ℝ)) then some ((𝔻).fl ((1 : ℚ) : ℝ)) else some ((𝔻).num s))) e.2)) = _
    rw [if_neg ne, e3]
  · intro e he
    obtain ⟨a, b, d⟩ := hκ e he
    have a' := Within.mono a b le_rfl
    refine ⟨within_mul hinv a' ?_ ?_, within_mul hinv1 (Within.mono a b d) (𝔻).one (by norm_num)⟩
    · exact scaled_mem h (u e) (-51) (by rw [abs_of_nonneg (by positivity)]; exact_mod_cast (by have := u3 e he; omega : u e < 2 ^ 53)) (by norm_num) (by norm_num)
    · have := u1 e he
      have z : (2 : ℝ) ^ (-50 : ℤ) = 2 * 2 ^ (-51 : ℤ) := by norm_num
      have z0 : (0 : ℝ) < 2 ^ (-51 : ℤ) := by positivity
      rw [z]
      calc (c : ℝ) * (2 * 2 ^ (-51 : ℤ)) * κ e = (2 * c * κ e) * 2 ^ (-51 : ℤ) := by ring
        _ ≤ u e * 2 ^ (-51 : ℤ) := mul_le_mul_of_nonneg_right this z0.le
  · -- the sum of the bounds
    have key : ∀ l : List (E × Flt (𝔻).Num), (∀ e ∈ l, e ∈ row) →
        (((l.map u).sum : ℕ) : ℝ) ≤ 2 * c * ((((l.map lo).sum : ℕ) : ℝ) + l.length) * 2 ^ (-32 : ℤ) + l.length := by
      intro l
      induction l with
      | nil => intro _; simp
      | cons e l ih =>
        intro hl
        have i := ih (fun e he => hl e (List.mem_cons_of_mem _ he))
        have he := hl e List.mem_cons_self
        have a := u2 e he
        have b := lo2 e he
        have z0 : (0 : ℝ) < 2 ^ (-32 : ℤ) := by positivity
        have b' : κ e ≤ ((lo e : ℝ) + 1) * 2 ^ (-32 : ℤ) := by
          calc κ e = κ e * 2 ^ 32 * 2 ^ (-32 : ℤ) := by rw [mul_assoc, mul_comm ((2 : ℝ) ^ 32), z32, mul_one]
            _ ≤ _ := mul_le_mul_of_nonneg_right b z0.le
        have b'' := mul_le_mul_of_nonneg_left b' (by positivity : (0 : ℝ) ≤ 2 * c)
        simp only [List.map_cons, List.sum_cons, List.length_cons, Nat.cast_add, Nat.cast_one]
        nlinarith
    have k := key row (fun _ he => he)
    have hnR : (row.length : ℝ) ≤ 2 ^ 20 := by exact_mod_cast hn
    obtain ⟨Λ, hΛ⟩ : ∃ Λ : ℝ, Λ = (((row.map lo).sum : ℕ) : ℝ) * 2 ^ (-32 : ℤ) := ⟨_, rfl⟩
    have s1' : Λ ≤ s := by rw [hΛ]; exact s1
    have k2 : (((row.map u).sum : ℕ) : ℝ) ≤ 2 * c * (s + 2 ^ (-12 : ℤ)) + 2 ^ 20 := by
      refine k.trans ?_
      have : ((((row.map lo).sum : ℕ) : ℝ) + row.length) * 2 ^ (-32 : ℤ) ≤ s + 2 ^ (-12 : ℤ) := by
        rw [add_mul, ← hΛ]
        have z0 : (0 : ℝ) < 2 ^ (-32 : ℤ) := by positivity
        have z : (2 : ℝ) ^ (-12 : ℤ) = 2 ^ 20 * 2 ^ (-32 : ℤ) := by norm_num
        rw [z]
        have := mul_le_mul_of_nonneg_right hnR z0.le
        linarith
      have := mul_le_mul_of_nonneg_left this (by positivity : (0 : ℝ) ≤ 2 * c)
      rw [← mul_assoc] at this
      linarith
    have k3 : 2 * (c : ℝ) * (s + 2 ^ (-12 : ℤ)) ≤ 2 ^ 51 + 2 ^ 39 + 2 ^ 22 := by
      have e5 : (2 : ℝ) ^ 50 / s ≤ 2 ^ 50 := div_le_self (by positivity) hs1
      have e8 : (2 : ℝ) ^ 50 / s * s = 2 ^ 50 := div_mul_cancel₀ _ hs0.ne'
      obtain ⟨t, ht⟩ : ∃ t : ℝ, t = 2 ^ (-12 : ℤ) := ⟨_, rfl⟩
      have t0 : 0 ≤ t := by rw [ht]; positivity
      have t1 : t ≤ 1 := by rw [ht]; norm_num
      have e6 : (2 : ℝ) ^ 50 / s * t ≤ 2 ^ 38 := by
        refine (mul_le_mul_of_nonneg_right e5 t0).trans ?_
        rw [ht]; norm_num
      rw [← ht]
      obtain ⟨q, hq⟩ : ∃ q : ℝ, q = 2 ^ 50 / s := ⟨_, rfl⟩
      rw [← hq] at c2 e8 e6
      have := mul_le_mul_of_nonneg_right c2 (by linarith : (0 : ℝ) ≤ s + t)
      have e9 : (q + 1) * ((s : ℝ) + t) = 2 ^ 50 + q * t + s + t := by rw [← e8]; ring
      rw [e9] at this
      have e10 : 2 * (c : ℝ) * (s + t) = 2 * (c * (s + t)) := by ring
      rw [e10]
      norm_num at this hs2 e6 ⊢
      linarith
    have k4 : (((row.map u).sum : ℕ) : ℝ) ≤ ((2 ^ 51 + 2 ^ 40 : ℕ) : ℝ) := by
      refine k2.trans ((add_le_add k3 le_rfl).trans ?_)
      norm_num
    exact_mod_cast k4

/-- **C138 (a)** In double precision, whatever the rounding, the spatial filter turns densities in `[0, 1]` into finite numbers in
`[0, 1 + 2 ^ -11]`, for every row of at most `2 ^ 20` kernel values in `[0, 1]` that contains the element itself. -/
theorem C138_filter_range {row : List (E × Flt (𝔻).Num)} (hr : KernelRow (𝔻) row) (rho : E → Flt (𝔻).Num)
    (hrho : ∀ e ∈ row, Within (𝔻) 0 1 (rho e.1)) (W : E → List (E × Flt (𝔻).Num)) (i : E) (hW : W i = normRow ((𝔻).arith log exp) row) :
    Within (𝔻) 0 (1 + 2 ^ (-11 : ℤ)) (filterForward ((𝔻).arith log exp) W rho i) := by
  obtain ⟨inv, u, e1, e2, e3⟩ := normRow_bounds h log exp hr
  unfold filterForward
  rw [hW, e1, List.map_map]
  have := within_total h log exp row ((fun e : E × Flt (𝔻).Num => ((𝔻).arith log exp).mul e.2 (rho e.1)) ∘ fun e => (e.1, (𝔻).mul inv e.2))
    (fun _ => 0) u 0 (-51) (by norm_num) (by norm_num) (fun e he => by
      rw [Nat.cast_zero, zero_mul]
      refine within_mul (e2 e he).1 (hrho e he) ?_ (by rw [mul_one])
      have hle : u e ≤ 2 ^ 51 + 2 ^ 40 := le_trans (List.single_le_sum (by simp) _ (List.mem_map_of_mem he)) e3
      exact scaled_mem h (u e) (-51) (by rw [abs_of_nonneg (by positivity)]; exact_mod_cast (by omega : u e < 2 ^ 53)) (by norm_num) (by norm_num))
    (by simp) (by omega)
  refine Within.mono this (by simp) ?_
  have hR : (((row.map u).sum : ℕ) : ℝ) ≤ ((2 ^ 51 + 2 ^ 40 : ℕ) : ℝ) := by exact_mod_cast e3
  have z0 : (0 : ℝ) < 2 ^ (-51 : ℤ) := by positivity
  refine (mul_le_mul_of_nonneg_right hR z0.le).trans ?_
  norm_num

/-- The denominator of the projection is at least 1/8 for `beta ≥ 1/2`. -/
theorem denominator_eighth (hs : (𝔻).Symmetric) (ht : GoodTanh (𝔻) tanh) {beta eta : Flt (𝔻).Num} (hb : Within (𝔻) (1 / 2) (2 ^ 20) beta) (he : Within (𝔻) 0 1 eta) :
    ∃ A a1 : (𝔻).F, (𝔻).mul beta eta = some ((𝔻).num a1) ∧ tanh (some ((𝔻).num a1)) = some ((𝔻).num A) ∧ 0 ≤ (A : ℝ) ∧ (A : ℝ) ≤ 1 ∧
      Within (𝔻) (1 / 8) 4 (projectDenominator ((𝔻).arith log exp) tanh beta eta) := by
  obtain ⟨b, rfl, hb0, hb1⟩ := within_iff.mp hb
  obtain ⟨e, rfl, he0, he1⟩ := within_iff.mp he
  obtain ⟨a1, b1, d1, d2, c2, A, B, D, ha1, hA, hd1, hd10, hb1', hB, hA0, hB0, hA1, hB1, hd2, hD, hDd, hD0, hden⟩ :=
    projectDenominator_spec hs log exp tanh ht.toFairTanh (by linarith : 0 ≤ (b : ℝ)) he0 he1
  have hhalf : (1 / 2 : ℝ) ∈ (𝔻).F := (𝔻).half
  have hqq : (1 / 4 : ℝ) ∈ (𝔻).F := ⟨1, -2, by norm_num, by norm_num, by norm_num, by norm_num⟩
  have lower : ∀ x c : (𝔻).F, 1 / 4 ≤ (x : ℝ) → tanh (some ((𝔻).num x)) = some ((𝔻).num c) → 1 / 8 ≤ (c : ℝ) := by
    intro x c hx hc
    obtain ⟨z, hz, hz0, -⟩ := within_iff.mp ht.quarter
    have e1 : (𝔻).fl (1 / 4) = (𝔻).num ⟨1 / 4, hqq⟩ := (𝔻).repr ⟨1 / 4, hqq⟩
    rw [e1] at hz
    have := ht.mono _ _ _ _ ((𝔻).num_le.mpr hx) hz hc
    exact hz0.trans ((𝔻).num_le.mp this)
  have hAB : 1 / 8 ≤ (A : ℝ) + B := by
    rcases le_total (1 / 2 : ℝ) e with h2 | h2
    · have : (1 / 4 : ℝ) ≤ a1 := mono_num (a := ⟨1 / 4, hqq⟩) ((𝔻).repr _) ha1 (by simp only; nlinarith)
      linarith [lower a1 A this hA]
    · have h3 : (1 / 2 : ℝ) ≤ d1 := mono_num (a := ⟨1 / 2, hhalf⟩) ((𝔻).repr _) hd1 (by simp only; linarith)
      have : (1 / 4 : ℝ) ≤ b1 := mono_num (a := ⟨1 / 4, hqq⟩) ((𝔻).repr _) hb1' (by simp only; nlinarith)
      linarith [lower b1 B this hB]
  have hq : (1 / 8 : ℝ) ∈ (𝔻).F := ⟨1, -3, by norm_num, by norm_num, by norm_num, by norm_num⟩
  have hd2q : (1 / 8 : ℝ) ≤ d2 := mono_num (a := ⟨1 / 8, hq⟩) ((𝔻).repr _) hd2 (by simp only; linarith)
  refine ⟨A, a1, by rw [mul_num, ha1], hA, hA0, hA1, ?_⟩
  rw [hden]
  refine ⟨D, rfl, hd2q.trans hDd, ?_⟩
  -- the upper bound
  have h2 : Within (𝔻) 0 2 (some ((𝔻).fl ((A : ℝ) + B))) := within_fl (𝔻).zero (two_mem hs) (by linarith) (by linarith)
  obtain ⟨z, hz, -, hz2⟩ := within_iff.mp h2
  rw [hd2] at hz
  have ez : d2 = z := WithTop.coe_injective (WithBot.coe_injective (Option.some.inj hz))
  have h3 : projectDenominator ((𝔻).arith log exp) tanh (some ((𝔻).num b)) (some ((𝔻).num e)) =
      (𝔻).add (some ((𝔻).num d2)) (some ((𝔻).fl ((1 / 10 ^ 12 : ℚ) : ℝ))) := by
    show (𝔻).add ((𝔻).add (tanh ((𝔻).mul (some ((𝔻).num b)) (some ((𝔻).num e))))
      (tanh ((𝔻).mul (some ((𝔻).num b)) ((𝔻).sub (some ((𝔻).fl ((1 : ℚ) : ℝ))) (some ((𝔻).num e)))))) (some ((𝔻).fl ((1 / 10 ^ 12 : ℚ) : ℝ))) = _
    have k2 : (𝔻).sub (some ((𝔻).fl ((1 : ℚ) : ℝ))) (some ((𝔻).num e)) = some ((𝔻).num d1) := by
      rw [Rat.cast_one, fl_one, sub_num]; simp only; rw [hd1]
    rw [k2, mul_num, mul_num, ha1, hb1', hA, hB]
    show (𝔻).add ((𝔻).add (some ((𝔻).num A)) (some ((𝔻).num B))) _ = _
    rw [add_num, hd2]
  have h4 : Within (𝔻) 0 4 (some ((𝔻).num D)) := by
    rw [← hden, h3]
    refine within_add ⟨d2, rfl, le_rfl, le_rfl⟩ (within_lit (𝔻).zero (𝔻).one (q := 1 / 10 ^ 12) (by norm_num) (by norm_num)) (𝔻).zero hs.four ?_ ?_
    · linarith
    · rw [ez]; linarith
  obtain ⟨w, hw, -, hw2⟩ := within_iff.mp h4
  rw [WithTop.coe_injective (WithBot.coe_injective (Option.some.inj hw))]
  exact hw2

/-- The projection of a filtered density in `[0, 2]` is a finite number in `[0, 16]`. -/
theorem project_wide (hs : (𝔻).Symmetric) (ht : GoodTanh (𝔻) tanh) {rho beta eta : Flt (𝔻).Num} (hr : Within (𝔻) 0 2 rho) (hb : Within (𝔻) (1 / 2) (2 ^ 20) beta) (he : Within (𝔻) 0 1 eta) :
    Within (𝔻) 0 16 (project ((𝔻).arith log exp) tanh rho beta eta) := by
  obtain ⟨A, a1, ha1, hA, hA0, hA1, hden⟩ := denominator_eighth h log exp tanh hs ht hb he
  have m2 := two_mem hs
  have m1 := (𝔻).one
  have hn : ∀ k : ℕ, k ≤ 971 → (2 : ℝ) ^ k ∈ (𝔻).F := p2_mem h
  -- the argument of tanh
  have h0 : Within (𝔻) (-1) 2 ((𝔻).sub rho eta) := within_sub hr he ((𝔻).neg 1 m1) m2 (by norm_num) (by norm_num)
  obtain ⟨r, rfl, hr0, hr1⟩ := within_iff.mp hr
  obtain ⟨b, rfl, hb0, hb1⟩ := within_iff.mp hb
  obtain ⟨e, rfl, he0, he1⟩ := within_iff.mp he
  obtain ⟨t0, et0, t0l, t0u⟩ := within_iff.mp h0
  rw [sub_num] at et0
  have hte : -(e : ℝ) ≤ t0 := mono_num (a := ⟨-e, (𝔻).neg _ e.2⟩) ((𝔻).repr _) (Option.some.inj et0) (by simp only; linarith)
  have h1 : Within (𝔻) (-2 ^ 21) (2 ^ 21) (some ((𝔻).fl ((t0 : ℝ) * b))) :=
    within_fl ((𝔻).neg _ (hn 21 (by norm_num))) (hn 21 (by norm_num)) (by nlinarith) (by nlinarith)
  obtain ⟨t1, et1, -, -⟩ := within_iff.mp h1
  rw [mul_num] at ha1
  have hna : (𝔻).fl (-((b : ℝ) * e)) = (𝔻).num ⟨-a1, (𝔻).neg _ a1.2⟩ := by rw [hs.odd, Option.some.inj ha1, negate_num]
  have ht1a : -(a1 : ℝ) ≤ t1 := mono_num hna (Option.some.inj et1) (by nlinarith)
  obtain ⟨T, hT, -, hT1⟩ := ht.value ((𝔻).num t1)
  have hodd := ht.odd _ _ hA
  rw [negate_num, negate_num] at hodd
  have hTA : -(A : ℝ) ≤ T := (𝔻).num_le.mp (ht.mono _ _ _ _ ((𝔻).num_le.mpr ht1a) hodd hT)
  have hO : Within (𝔻) 0 2 ((𝔻).add (some ((𝔻).num A)) (some ((𝔻).num T))) := by
    rw [add_num]
    exact within_fl (𝔻).zero m2 (by linarith) (by linarith)
  have hq := within_div hO hden (by norm_num) (c := 16) (by have := hn 4 (by norm_num); norm_num at this; exact this) (by norm_num)
  have e1 : project ((𝔻).arith log exp) tanh (some ((𝔻).num r)) (some ((𝔻).num b)) (some ((𝔻).num e)) =
      (𝔻).div ((𝔻).add (tanh ((𝔻).mul (some ((𝔻).num b)) (some ((𝔻).num e)))) (tanh ((𝔻).mul ((𝔻).sub (some ((𝔻).num r)) (some ((𝔻).num e)))
        (some ((𝔻).num b))))) (projectDenominator ((𝔻).arith log exp) tanh (some ((𝔻).num b)) (some ((𝔻).num e))) := rfl
  rw [e1, sub_num, et0, mul_num, mul_num, ha1, et1, hA, hT]
  exact hq

/-- The derivative of the projection is a finite number in `[0, 2 ^ 23]`. -/
theorem projectDeriv_wide (hs : (𝔻).Symmetric) (ht : GoodTanh (𝔻) tanh) (hc : FairCosh (𝔻) cosh) {rho beta eta : Flt (𝔻).Num} (hr : Within (𝔻) 0 2 rho) (hb : Within (𝔻) (1 / 2) (2 ^ 20) beta)
    (he : Within (𝔻) 0 1 eta) : Within (𝔻) 0 (2 ^ 23) (projectDeriv ((𝔻).arith log exp) tanh cosh rho beta eta) := by
  obtain ⟨A, a1, ha1, hA, hA0, hA1, hden⟩ := denominator_eighth h log exp tanh hs ht hb he
  have hn : ∀ k : ℕ, k ≤ 971 → (2 : ℝ) ^ k ∈ (𝔻).F := p2_mem h
  have h0 : Within (𝔻) (-1) 2 ((𝔻).sub rho eta) := within_sub hr he ((𝔻).neg 1 (𝔻).one) (two_mem hs) (by norm_num) (by norm_num)
  obtain ⟨t0, et0, t0l, t0u⟩ := within_iff.mp h0
  obtain ⟨b, rfl, hb0, hb1⟩ := within_iff.mp hb
  have h1 : Within (𝔻) (-2 ^ 21) (2 ^ 21) (some ((𝔻).fl ((t0 : ℝ) * b))) :=
    within_fl ((𝔻).neg _ (hn 21 (by norm_num))) (hn 21 (by norm_num)) (by nlinarith) (by nlinarith)
  obtain ⟨t1, et1, -, -⟩ := within_iff.mp h1
  obtain ⟨c, hcc, hc1⟩ := hc ((𝔻).num t1)
  have hsq : ∃ q, (𝔻).mul (some c) (some c) = some q ∧ (𝔻).fl 1 ≤ q := by
    rcases (𝔻).num_cases c with rfl | rfl | ⟨x, rfl⟩
    · rw [fl_one] at hc1; exact absurd (le_bot_iff.mp hc1) ((𝔻).fin_num _).1
    · exact ⟨⊤, (𝔻).mul_top_top, le_top⟩
    · rw [fl_one, num_le] at hc1
      exact ⟨_, (𝔻).mul_num x x, (𝔻).mono (by nlinarith)⟩
  obtain ⟨q, hq, hq1⟩ := hsq
  have hrec : Within (𝔻) 0 1 ((𝔻).div (some ((𝔻).fl 1)) (some q)) := by
    rcases (𝔻).num_cases q with rfl | rfl | ⟨x, rfl⟩
    · rw [fl_one] at hq1; exact absurd (le_bot_iff.mp hq1) ((𝔻).fin_num _).1
    · refine ⟨(𝔻).zer, ?_, le_rfl, zero_le_one⟩
      rw [fl_one]
      show some ((𝔻).fl 0) = _
      rw [fl_zero]
    · rw [fl_one, num_le] at hq1
      simp only at hq1
      refine within_div (a := 1) (b := 1) (d := x) ?_ ⟨x, rfl, hq1, le_rfl⟩ one_pos (𝔻).one (by norm_num)
      rw [fl_one]
      exact ⟨⟨1, (𝔻).one⟩, rfl, by norm_num, le_rfl⟩
  have ho := within_mul hrec (Within.mono hb (by norm_num) le_rfl) (hn 20 (by norm_num)) (by rw [one_mul])
  have hv := within_div ho hden (by norm_num) (hn 23 (by norm_num)) (by norm_num)
  have e1 : projectDeriv ((𝔻).arith log exp) tanh cosh rho (some ((𝔻).num b)) eta =
      (𝔻).div ((𝔻).mul ((𝔻).div (some ((𝔻).fl ((1 : ℚ) : ℝ))) ((𝔻).mul (cosh ((𝔻).mul ((𝔻).sub rho eta) (some ((𝔻).num b))))
        (cosh ((𝔻).mul ((𝔻).sub rho eta) (some ((𝔻).num b)))))) (some ((𝔻).num b)))
        (projectDenominator ((𝔻).arith log exp) tanh (some ((𝔻).num b)) eta) := rfl
  rw [e1, et0, mul_num, et1, hcc, hq, Rat.cast_one]
  exact hv

/-- The SIMP sensitivity of a density in `[0, 16]` is a finite number in `[-2 ^ 574, 0]`. -/
theorem simpSensitivity_wide (hs : (𝔻).Symmetric) {rho U E0 coeff p : Flt (𝔻).Num} (hr : Within (𝔻) 0 16 rho) (hU : Within (𝔻) 0 (2 ^ 200) U)
    (hE : Within (𝔻) 0 (2 ^ 200) E0) (hc : Within (𝔻) 0 1 coeff) (hp : Within (𝔻) (1 / 2) 32 p) :
    Within (𝔻) (-2 ^ 574) 0 (simpSensitivity ((𝔻).arith log exp) rho U E0 ((𝔻).mul E0 coeff) p) := by
  have hn : ∀ k : ℕ, k ≤ 971 → (2 : ℝ) ^ k ∈ (𝔻).F := p2_mem h
  obtain ⟨E, rfl, hE0, hE1⟩ := within_iff.mp hE
  have hm : Within (𝔻) 0 E ((𝔻).mul (some ((𝔻).num E)) coeff) :=
    within_mul ⟨E, rfl, hE0, le_rfl⟩ hc E.2 (by rw [mul_one])
  have hd : Within (𝔻) 0 (2 ^ 200) ((𝔻).sub (some ((𝔻).num E)) ((𝔻).mul (some ((𝔻).num E)) coeff)) :=
    within_sub (⟨E, rfl, le_rfl, le_rfl⟩ : Within (𝔻) E E _) hm (𝔻).zero (hn 200 (by norm_num)) (by rw [sub_self]) (by rw [sub_zero]; exact hE1)
  have h32 : (32 : ℝ) ∈ (𝔻).F := by have := hn 5 (by norm_num); norm_num at this; exact this
  have hp1 : Within (𝔻) (-(1 / 2)) 32 ((𝔻).sub p (some ((𝔻).fl ((1 : ℚ) : ℝ)))) :=
    within_sub hp (within_lit (𝔻).one (𝔻).one (q := 1) (by norm_num) (by norm_num)) ((𝔻).neg _ (𝔻).half) h32 (by norm_num) (by norm_num)
  have hx : Within (𝔻) (2 ^ (-20 : ℤ)) 16 (maximum rho (some ((𝔻).fl ((1 / 10 ^ 6 : ℚ) : ℝ)))) := by
    have := within_max hr (within_lit (show (2 : ℝ) ^ (-20 : ℤ) ∈ doubles from ⟨1, -20, by norm_num, by norm_num, by norm_num, by simp⟩) (𝔻).one
      (q := 1 / 10 ^ 6) (by norm_num) (by norm_num)) (by norm_num)
    exact Within.mono this (le_max_right _ _) le_rfl
  have p8 : (16 : ℝ) ^ (32 : ℝ) ≤ 2 ^ 128 := by
    rw [show (32 : ℝ) = ((32 : ℕ) : ℝ) by norm_num, Real.rpow_natCast]
    norm_num
  have hw := within_pow_neg hx hp1 (by norm_num) (by norm_num) (hn 128 (by norm_num)) p8 (p2_le (by norm_num))
  have hq := within_pow (Within.mono hx (by positivity) le_rfl) hp (by norm_num) (by norm_num) (hn 128 (by norm_num)) p8
  have hpd := within_mul (Within.mono hp (by norm_num) le_rfl) hd (hn 205 (by norm_num))
    (by rw [show (32 : ℝ) = 2 ^ 5 by norm_num]; exact p2_mul (by norm_num))
  have hdE := within_mul hpd hw (hn 333 (by norm_num)) (p2_mul (by norm_num))
  have hmm := within_mul hd hq (hn 328 (by norm_num)) (p2_mul (by norm_num))
  have hEl := within_add (Within.mono hm le_rfl hE1) hmm (𝔻).zero (hn 329 (by norm_num)) (by norm_num)
    (by
      have h1 : (2 : ℝ) ^ 200 ≤ 2 ^ 328 := p2_le (by norm_num)
      have h2 : (2 : ℝ) ^ 329 = 2 ^ 328 + 2 ^ 328 := by rw [pow_succ, mul_two]
      rw [h2]; exact add_le_add h1 le_rfl)
  have he : Within (𝔻) (2 ^ (-40 : ℤ)) 1 (some ((𝔻).fl ((1 / 10 ^ 12 : ℚ) : ℝ))) :=
    within_lit (show (2 : ℝ) ^ (-40 : ℤ) ∈ doubles from ⟨1, -40, by norm_num, by norm_num, by norm_num, by simp⟩) (𝔻).one (by norm_num) (by norm_num)
  have hD := within_max hEl he (by exact one_le_pow₀ (by norm_num))
  have hD' := Within.mono hD (le_max_right _ _) le_rfl
  have h2U : Within (𝔻) (-2 ^ 201) 0 ((𝔻).mul (some ((𝔻).fl ((-2 : ℚ) : ℝ))) U) := by
    refine within_mul_neg (a := 2) (b := 2 ^ 200) ?_ hU (hn 201 (by norm_num)) (by rw [← pow_succ']) 
    exact within_lit ((𝔻).neg 2 (two_mem hs)) (𝔻).zero (by norm_num) (by norm_num)
  have hprod := within_mul_neg h2U hdE (hn 534 (by norm_num)) (p2_mul (by norm_num))
  refine within_div_neg hprod hD' (by positivity) (hn 574 (by norm_num)) ?_
  rw [show (2 : ℝ) ^ 574 = 2 ^ 534 * 2 ^ 40 by rw [← pow_add], mul_assoc]
  have : (2 : ℝ) ^ 40 * 2 ^ (-40 : ℤ) = 1 := by norm_num
  rw [this, mul_one]

/-- A sum of at most `2 ^ b` numbers in `[-2 ^ a, 0]`. -/
theorem total_neg {l : List (Flt (𝔻).Num)} {a b c : ℕ} (hx : ∀ x ∈ l, Within (𝔻) (-2 ^ a) 0 x) (hl : l.length ≤ 2 ^ b) (hb : b ≤ 52) (hc : b + a ≤ c)
    (h971 : c ≤ 971) : Within (𝔻) (-2 ^ c) 0 (total ((𝔻).arith log exp) l) := by
  have h53 : l.length < 2 ^ 53 := lt_of_le_of_lt hl (lt_of_le_of_lt (Nat.pow_le_pow_right (by norm_num) hb) (by norm_num))
  refine Within.mono (within_total_neg h log exp l a (by omega) hx h53) (neg_le_neg ?_) le_rfl
  have : (l.length : ℝ) ≤ 2 ^ b := by exact_mod_cast hl
  exact (mul_le_mul_of_nonneg_right this (by positivity)).trans (p2_mul hc)

theorem normRow_mem {row : List (E × Flt (𝔻).Num)} (hr : KernelRow (𝔻) row) :
    (normRow ((𝔻).arith log exp) row).length = row.length ∧
    ∀ e ∈ normRow ((𝔻).arith log exp) row, (∃ e' ∈ row, e'.1 = e.1) ∧ Within (𝔻) 0 1 e.2 := by
  obtain ⟨inv, u, e1, e2, -⟩ := normRow_bounds h log exp hr
  rw [e1]
  refine ⟨by simp, ?_⟩
  intro e he
  obtain ⟨e', he', rfl⟩ := List.mem_map.mp he
  exact ⟨⟨e', he', rfl⟩, (e2 e' he').2⟩

section
variable {S : Setup (doubleFormat fl h).Num E X}

/-- The sensitivities of a usual run are finite non-positive numbers. -/
theorem sensitivities_within (hs : (𝔻).Symmetric) (ht : GoodTanh (𝔻) tanh) (hc : FairCosh (𝔻) cosh) (hS : UsualSetup (𝔻) S) (k : ℕ)
    (rho : E → Flt (𝔻).Num) (hrho : ∀ i ∈ S.ids, Within (𝔻) 0 1 (rho i)) (v : Values (𝔻).Num) (hp : Within (𝔻) (1 / 2) 32 v.p)
    (hb : Within (𝔻) (1 / 2) (2 ^ 20) v.beta) (Us : List (E → Flt (𝔻).Num)) (hne : Us ≠ []) (hlen : Us.length ≤ 2 ^ 20)
    (hU : ∀ U ∈ Us, ∀ i ∈ S.ids, Within (𝔻) 0 (2 ^ 200) (U i)) (i : E) (hi : i ∈ S.ids) :
    Within (𝔻) (-2 ^ 687) 0 (sensitivities ((𝔻).arith log exp) tanh cosh S k v rho Us i) := by
  have hn : ∀ k : ℕ, k ≤ 971 → (2 : ℝ) ^ k ∈ (𝔻).F := p2_mem h
  have hf : ∀ i ∈ S.ids, Within (𝔻) 0 2 (filtered ((𝔻).arith log exp) S k rho i) := by
    intro i hi
    obtain ⟨r1, r2⟩ := hS.rows k i hi
    exact Within.mono (C138_filter_range h log exp r1 rho (fun e he => hrho _ (r2 e he)) _ i rfl) le_rfl (by norm_num)
  have hg : ∀ U ∈ Us, ∀ i ∈ S.ids, Within (𝔻) (-2 ^ 597) 0 (loadGradient ((𝔻).arith log exp) tanh cosh S k v rho U i) := by
    intro U hUm i hi
    exact within_mul_neg (simpSensitivity_wide h log exp hs (project_wide h log exp tanh hs ht (hf i hi) hb hS.threshold) (hU U hUm i hi)
      hS.modulus hS.coeff hp) (projectDeriv_wide h log exp tanh cosh hs ht hc (hf i hi) hb hS.threshold) (hn 597 (by norm_num)) (p2_mul (by norm_num))
  have hgr : ∀ U ∈ Us, ∀ j, Within (𝔻) (-2 ^ 647) 0 (filterGradient ((𝔻).arith log exp) S.ids (fun i => normRow ((𝔻).arith log exp) (S.rows k i))
      (loadGradient ((𝔻).arith log exp) tanh cosh S k v rho U) j) := by
    intro U hUm j
    refine total_neg h log exp (a := 597) (b := 50) ?_ ?_ (by norm_num) (by norm_num) (by norm_num)
    · intro x hx
      obtain ⟨i, hi, hx⟩ := List.mem_flatMap.mp hx
      obtain ⟨e, he, rfl⟩ := List.mem_map.mp hx
      have hw := ((normRow_mem h log exp (hS.rows k i hi).1).2 e (List.mem_filter.mp he).1).2
      exact within_neg_mul hw (hg U hUm i hi) (hn 597 (by norm_num)) (by rw [one_mul])
    · have key : ∀ ids : List E, (∀ i ∈ ids, i ∈ S.ids) → (ids.flatMap fun i => ((normRow ((𝔻).arith log exp) (S.rows k i)).filter fun e => e.1 = j).map
          fun e => ((𝔻).arith log exp).mul e.2 (loadGradient ((𝔻).arith log exp) tanh cosh S k v rho U i)).length ≤ ids.length * 2 ^ 20 := by
        intro ids
        induction ids with
        | nil => intro _; simp
        | cons i ids ih =>
          intro hh
          have i1 := ih fun i hi => hh i (List.mem_cons_of_mem _ hi)
          have hr := (hS.rows k i (hh i List.mem_cons_self)).1
          have l1 := (normRow_mem h log exp hr).1
          have l2 := List.length_filter_le (fun e : E × Flt (𝔻).Num => decide (e.1 = j)) (normRow ((𝔻).arith log exp) (S.rows k i))
          have l3 := hr.count
          rw [List.flatMap_cons, List.length_append, List.length_map, List.length_cons, Nat.succ_mul]
          omega
      have h1 := key S.ids fun _ hi => hi
      have h2 := hS.count
      refine h1.trans ?_
      calc S.ids.length * 2 ^ 20 ≤ 2 ^ 30 * 2 ^ 20 := Nat.mul_le_mul_right _ h2
        _ = 2 ^ 50 := by norm_num
  have hmean : ∀ j, Within (𝔻) (-2 ^ 667) 0 (meanGradient ((𝔻).arith log exp) tanh cosh S k v rho Us j) := by
    intro j
    have ht' : Within (𝔻) (-2 ^ 667) 0 (total ((𝔻).arith log exp) (Us.map fun U => filterGradient ((𝔻).arith log exp) S.ids
        (fun i => normRow ((𝔻).arith log exp) (S.rows k i)) (loadGradient ((𝔻).arith log exp) tanh cosh S k v rho U) j)) := by
      refine total_neg h log exp (a := 647) (b := 20) ?_ (by rw [List.length_map]; exact hlen) (by norm_num) (by norm_num) (by norm_num)
      intro x hx
      obtain ⟨U, hUm, rfl⟩ := List.mem_map.mp hx
      exact hgr U hUm j
    have hl1 : 1 ≤ Us.length := List.length_pos_of_ne_nil hne
    refine within_div_neg ht' (b := 1) (d := 2 ^ 20) ?_ one_pos (hn 667 (by norm_num)) (by rw [mul_one])
    refine within_lit (𝔻).one (hn 20 (by norm_num)) ?_ ?_
    · rw [Rat.cast_natCast]; exact_mod_cast hl1
    · rw [Rat.cast_natCast]; exact_mod_cast hlen
  unfold sensitivities
  split_ifs with hfl
  · obtain ⟨r1, r2⟩ := hS.rows k i hi
    refine total_neg h log exp (a := 667) (b := 20) ?_ ?_ (by norm_num) (by norm_num) (by norm_num)
    · intro x hx
      obtain ⟨e, he, rfl⟩ := List.mem_map.mp hx
      exact within_neg_mul ((normRow_mem h log exp r1).2 e he).2 (hmean e.1) (hn 667 (by norm_num)) (by rw [one_mul])
    · rw [List.length_map, (normRow_mem h log exp r1).1]; exact r1.count
  · exact Within.mono (hmean i) (neg_le_neg (p2_le (by norm_num))) le_rfl

theorem within_fin {f : Format} {lo hi : ℝ} {x : Flt f.Num} (hx : Within f lo hi x) : ∃ d, x = some d ∧ f.Fin d := by
  obtain ⟨z, rfl, -, -⟩ := within_iff.mp hx
  exact ⟨_, rfl, f.fin_num z⟩

theorem number_within {x : Flt (𝔻).Num} (hx : NumberIn (fl (1 / 100)) (fl 1) x) : Within (𝔻) 0 1 x := by
  obtain ⟨v, rfl, h1, h2⟩ := hx
  have h0 : (𝔻).fl 0 ≤ v := le_trans ((𝔻).mono (by norm_num)) h1
  have h3 : v ≤ (𝔻).num ⟨1, (𝔻).one⟩ := by rw [← fl_one]; exact h2
  rcases (𝔻).num_cases v with rfl | rfl | ⟨z, rfl⟩
  · exact absurd h0 (not_le.mpr (𝔻).bot_lt_zero)
  · exact absurd (top_le_iff.mp h3) ((𝔻).fin_num _).2
  · exact ⟨z, rfl, (𝔻).zero_le_num.mp h0, (𝔻).num_le.mp h3⟩

variable [DecidableEq E]

/-- **C139** An OC run in double precision with the default configuration, the spatial filter and the SIMP law: after every history of
calls, whatever they raised, the density of every design element and every density of a design element in a snapshot is a number in
`[rho_min, rho_max]`, never NaN. Energies, kernel values, schedules, statistic and volume errors are arbitrary within the sizes of `UsualRun`. -/
theorem C139_no_nan (hs : (𝔻).Symmetric) (ht : GoodTanh (𝔻) tanh) (hc : FairCosh (𝔻) cosh) (hS : UsualRun (𝔻) S)
    (p : Plan (𝔻).Num E X (Inputs (𝔻).Num E)) (hd : ∀ e, e ∈ p.design ↔ e ∈ S.ids) (v0 : (𝔻).Num) (hv0 : p.valInit = some v0)
    (rho0 : E → Flt (𝔻).Num) (x : X) (files : List (Snapshot.Name × (E → Flt (𝔻).Num)))
    (hfiles : ∀ n r, Snapshot.load files n = some r → ∀ e ∈ p.design, NumberIn (fl (1 / 100)) (fl 1) (r e)) (cs : List Driver.Call) :
    let A := (𝔻).arith log exp
    let o := history (ocSys A (defaultCfg A) (simpPlan A tanh cosh S p)) cs (Driver.fresh rho0 (x, some (fl 0)) files)
    (o.started = true → ∀ e ∈ p.design, NumberIn (fl (1 / 100)) (fl 1) (o.world.rho e)) ∧
    ∀ n r, Snapshot.load o.world.files n = some r → ∀ e ∈ p.design, NumberIn (fl (1 / 100)) (fl 1) (r e) := by
  intro A o
  have e0 : A.lit 0 = fl 0 := by show fl ((0 : ℚ) : ℝ) = _; rw [Rat.cast_zero]
  have e1 : (defaultCfg A).rhoMin = fl (1 / 100) := by show fl ((1 / 100 : ℚ) : ℝ) = _; norm_num
  have e2 : (defaultCfg A).rhoMax = fl 1 := by show fl ((1 : ℚ) : ℝ) = _; rw [Rat.cast_one]
  have hH := (𝔻).C132_format_halves log exp
  have hD := (𝔻).C130_format_directed log exp
  have hSi := (𝔻).C131_format_signs log exp
  have hsane := defaultCfg_sane h log exp
  refine history_keep (ocSys A (defaultCfg A) (simpPlan A tanh cosh S p)) (fun e => e ∈ p.design) (NumberIn (fl (1 / 100)) (fl 1))
    (fun s => ∃ r, s.2 = some r ∧ A.lit 0 ≤ r) (fun _ h => h) ?_ ?_ ?_ (fun _ h => h) (fun _ h => h) ?_ ?_ rho0 (x, some (fl 0))
    ⟨fl 0, rfl, e0.le⟩ files hfiles cs
  · intro e _ _
    exact ⟨fl 1, rfl, h.mono (by norm_num), le_rfl⟩
  · refine ⟨min (defaultCfg A).rhoMax (max (defaultCfg A).rhoMin v0), ?_, ?_, ?_⟩
    · show minimum (some (defaultCfg A).rhoMax) (maximum (some (defaultCfg A).rhoMin) p.valInit) = _
      rw [hv0]; rfl
    · rw [← e1]; exact le_min hsane.box (le_max_left _ _)
    · rw [← e2]; exact min_le_left _ _
  · intro s hB; exact hB
  · intro k rho rho' s hB; exact hB
  · rintro k rho s ⟨r, hr, hr0⟩ hG
    show (∃ r', ((ocSys A (defaultCfg A) (simpPlan A tanh cosh S p)).step k rho s).1.2 = some r' ∧ A.lit 0 ≤ r') ∧ _
    have hrho : ∀ i ∈ S.ids, Within (𝔻) 0 1 (rho i) := fun i hi => number_within h (hG i ((hd i).mpr hi))
    rcases ha : simpAnalyse A tanh cosh S k rho s.1 with ⟨y, er | i⟩
    · simp only [ocSys, simpPlan, ha]
      exact ⟨⟨r, hr, hr0⟩, by simp⟩
    · obtain ⟨⟨t, ht1⟩, ⟨η, hη⟩, ⟨m, hm, hm0, hmf⟩, hdc⟩ : (∃ t, i.stat = some t) ∧ (∃ η, i.eta = some η) ∧
          (∃ m, i.moveLimit = some m ∧ A.lit 0 ≤ m ∧ (𝔻).Fin m) ∧ ∀ e ∈ p.design, ∃ d, i.dC e = some d ∧ (𝔻).Fin d ∧ d ≤ A.lit 0 := by
        unfold simpAnalyse at ha
        rcases hv : S.values k s.1 with ⟨y1, er | v⟩
        · rw [hv] at ha; simp at ha
        · rw [hv] at ha
          simp only at ha
          rcases hen : S.energies k v.p (projected A tanh S k v.beta rho) y1 with ⟨y2, er | Us⟩
          · rw [hen] at ha; simp at ha
          · rw [hen] at ha
            simp only [Prod.mk.injEq, Except.ok.injEq] at ha
            obtain ⟨-, rfl⟩ := ha
            obtain ⟨s1, s2, s3, s4⟩ := hS.schedules k _ _ v hv
            obtain ⟨l1, l2, l3⟩ := hS.loads k _ _ _ _ Us hen
            have key := fun j (hj : j ∈ S.ids) => sensitivities_within h log exp tanh cosh hs ht hc hS.toUsualSetup k rho hrho v s1 s2 Us l1 l2 l3 j hj
            refine ⟨Option.ne_none_iff_exists'.mp (hS.stat k y2 _ fun j hj => ⟨_, key j hj⟩), Option.ne_none_iff_exists'.mp s4, ?_, ?_⟩
            · obtain ⟨z, hz, z0, -⟩ := within_iff.mp s3
              exact ⟨_, hz, by rw [e0]; exact (𝔻).zero_le_num.mpr z0, (𝔻).fin_num z⟩
            · intro e he
              obtain ⟨z, hz, -, z1⟩ := within_iff.mp (key e ((hd e).mp he))
              exact ⟨_, hz, (𝔻).fin_num z, by rw [e0]; exact (𝔻).num_le_zero.mpr z1⟩
      simp only [ocSys, simpPlan, ha, Except.ok.injEq]
      refine ⟨?_, ?_⟩
      · obtain ⟨s', hs', hs0⟩ := runningScale_pos hSi hsane k (t := t) hr0
        refine ⟨s', ?_, hs0.le⟩
        simp only [ocUpdate, hr, ht1]
        exact hs'
      · rintro new rfl e he
        rw [hr]
        have := (C131_oc_update hH hD hSi (defaultCfg A) hsane k i r t m η rho hr0 ht1 hm hm0 hmf hη e (hdc e he) (by rw [e1, e2]; exact hG e he)).1
        rw [e1, e2] at this
        exact this

end

/-- The rounded real `tanh` at 1/4. -/
theorem goodTanh_lib (hs : (𝔻).Symmetric) : GoodTanh (𝔻) (libTanh (𝔻)) where
  toFairTanh := fairTanh_lib hs
  quarter := by
    have h4 : (1 / 4 : ℝ) ∈ (𝔻).F := ⟨1, -2, by norm_num, by norm_num, by norm_num, by norm_num⟩
    have h8 : (1 / 8 : ℝ) ∈ (𝔻).F := ⟨1, -3, by norm_num, by norm_num, by norm_num, by norm_num⟩
    have e1 : (𝔻).fl (1 / 4) = (𝔻).num ⟨1 / 4, h4⟩ := h.repr ⟨1 / 4, h4⟩
    rw [e1]
    have ht : 1 / 8 ≤ Real.tanh (1 / 4) := by
      rw [Real.tanh_eq_sinh_div_cosh, le_div_iff₀ (Real.cosh_pos _)]
      have a : (1 / 4 : ℝ) ≤ Real.sinh (1 / 4) := Real.self_le_sinh_iff.mpr (by norm_num)
      have b : Real.cosh (1 / 4) ≤ 2 := by
        have c1 := Real.cosh_eq (1 / 4)
        have c2 : Real.exp (-(1 / 4)) ≤ Real.exp (1 / 2) := Real.exp_le_exp.mpr (by norm_num)
        have c5 : Real.exp (1 / 4) ≤ Real.exp (1 / 2) := Real.exp_le_exp.mpr (by norm_num)
        have c3 : Real.exp (1 / 2) * Real.exp (1 / 2) = Real.exp 1 := by rw [← Real.exp_add]; norm_num
        have c4 := Real.exp_one_lt_d9
        nlinarith [Real.exp_pos (1 / 2)]
      linarith
    obtain ⟨z, hz, h1, h2⟩ := (𝔻).fl_between h8 (𝔻).one ht (tanh_abs_le _).2
    exact ⟨z, congrArg some hz, h1, h2⟩

/-- Two elements that see each other with the kernel value 1/2, modulus 210000, two load cases. -/
def pairSetup : Setup (doubleFormat fl h).Num (_root_.Fin 2) Unit where
  ids := [0, 1]
  rows := fun _ i => [(0, some (fl (if i = 0 then 1 else 1 / 2))), (1, some (fl (if i = 1 then 1 else 1 / 2)))]
  E0 := some (fl (210000 : ℕ))
  coeff := some (fl (1 / 1000))
  betaEta := some (fl (1 / 2))
  sensitivityFilter := true
  values := fun _ x => (x, .ok { p := some (fl (3 : ℕ)), beta := some (fl (8 : ℕ)), moveLimit := some (fl (1 / 10)), eta := some (fl (1 / 2)) })
  energies := fun _ _ _ x => (x, .ok [fun _ => some (fl (7 : ℕ)), fun i => some (fl (if i = 0 then 1 else 0))])
  stat := fun _ _ d => if d 0 = none then none else some (fl 1)
  volError := fun _ _ r c => if c 0 = none then r 1 else c 0

theorem pair_usual : UsualRun (𝔻) (pairSetup h) := by
  have n : ∀ k : ℕ, k < 2 ^ 53 → Within (𝔻) k k (some (fl (k : ℝ))) := fun k hk => ⟨⟨_, int_mem h k hk⟩, congrArg some (h.repr ⟨_, int_mem h k hk⟩), le_rfl, le_rfl⟩
  have u : ∀ r : ℝ, 0 ≤ r → r ≤ 1 → Within (𝔻) 0 1 (some (fl r)) := fun r h0 h1 => by
    obtain ⟨z, hz, a, b⟩ := (𝔻).fl_between (𝔻).zero (𝔻).one h0 h1
    exact ⟨z, congrArg some hz, a, b⟩
  have p200 : ∀ r : ℝ, r ≤ 2 ^ 20 → r ≤ 2 ^ 200 := fun r hr => hr.trans (p2_le (by norm_num))
  refine ⟨⟨by simp [pairSetup], ?_, ?_, ?_, ?_⟩, ?_, ?_, ?_⟩
  · intro k i _
    refine ⟨⟨by simp [pairSetup], ?_, ?_⟩, ?_⟩
    · intro e he
      simp only [pairSetup, List.mem_cons, List.not_mem_nil, or_false] at he
      rcases he with rfl | rfl <;> refine u _ ?_ ?_ <;> split_ifs <;> norm_num
    · refine ⟨(i, some (fl 1)), ?_, rfl⟩
      fin_cases i <;> simp [pairSetup]
    · intro e he
      simp only [pairSetup, List.mem_cons, List.not_mem_nil, or_false] at he
      rcases he with rfl | rfl <;> simp [pairSetup]
  · exact Within.mono (n 210000 (by norm_num)) (by positivity) (p200 _ (by norm_num))
  · exact u _ (by norm_num) (by norm_num)
  · exact u _ (by norm_num) (by norm_num)
  · intro k x y v hv
    simp only [pairSetup, Prod.mk.injEq, Except.ok.injEq] at hv
    obtain ⟨-, rfl⟩ := hv
    refine ⟨Within.mono (n 3 (by norm_num)) (by norm_num) (by norm_num), Within.mono (n 8 (by norm_num)) (by norm_num) (by norm_num),
      Within.mono (u (1 / 10) (by norm_num) (by norm_num)) le_rfl (p200 _ (by norm_num)), fun hh => (nomatch hh)⟩
  · intro k p r x y Us hU
    simp only [pairSetup, Prod.mk.injEq, Except.ok.injEq] at hU
    obtain ⟨-, rfl⟩ := hU
    refine ⟨by simp, by simp, ?_⟩
    intro U hU i _
    simp only [List.mem_cons, List.not_mem_nil, or_false] at hU
    rcases hU with rfl | rfl
    · exact Within.mono (n 7 (by norm_num)) (by positivity) (p200 _ (by norm_num))
    · exact Within.mono (u _ (by split_ifs <;> norm_num) (by split_ifs <;> norm_num)) le_rfl (p200 _ (by norm_num))
  · intro k x d hd
    obtain ⟨b, z, hz, -⟩ := hd 0 (by simp [pairSetup])
    simp [pairSetup, hz]

/-- Case: the run of `pairSetup` in double precision, started and continued by any calls. -/
example : ∃ fl, ∃ h : DoubleRounding fl, ∃ p : Plan (doubleFormat fl h).Num (_root_.Fin 2) Unit (Inputs (doubleFormat fl h).Num (_root_.Fin 2)), ∀ cs : List Driver.Call,
    let A := (doubleFormat fl h).arith id id
    let o := history (ocSys A (defaultCfg A) (simpPlan A (libTanh _) (libCosh _) (pairSetup h) p)) cs (Driver.fresh (fun _ => none) ((), some (fl 0)) [])
    o.started = true → NumberIn (fl (1 / 100)) (fl 1) (o.world.rho 0) := by
  obtain ⟨fl, h, hs⟩ := exists_symmetric
  refine ⟨fl, h, {
    maxIters := 10, recordTimes := 5, restart := false, restartFrom := -1, valInit := some (fl (1 / 2)), design := {0, 1}, pinned := none, fixed := ∅
    analyse := fun _ _ _ => ((), .error .valueError), record := fun _ _ _ _ => ((), .ok false), exportHist := id, importHist := id
    initSched := fun _ => ((), .ok ()) }, fun cs => ?_⟩
  intro A o ho
  exact (C139_no_nan h id id _ _ hs (goodTanh_lib h hs) fairCosh_lib (pair_usual h) _ (fun e => by fin_cases e <;> simp [pairSetup]) _ rfl
    (fun _ => none) () [] (fun _ _ hh => (nomatch hh)) cs).1 ho 0 (by simp)

/-- A double rounding to nearest exists. -/
theorem exists_nearestRounding : ∃ fl, DoubleRounding fl ∧ NearestRounding fl := by
  obtain ⟨g0, h0⟩ := exists_doubleRounding
  obtain ⟨g, hg⟩ := SchedFloat.exists_nearestDouble
  have big : (2 : ℝ) ^ 1000 ∈ doubles := ⟨1 * 2 ^ 29, 971, by norm_num, by norm_num, by norm_num, by
    rw [show (971 : ℤ) = ((971 : ℕ) : ℤ) from rfl, zpow_natCast, show ((1 * 2 ^ 29 : ℤ) : ℝ) = 2 ^ 29 by norm_num, ← pow_add]⟩
  have lo : ∀ x : ℝ, |x| ≤ 2 ^ 1000 → |g x| ≤ 2 ^ 1000 := fun x hx => by
    obtain ⟨a, b⟩ := abs_le.mp hx
    exact abs_le.mpr ⟨SchedFloat.le_fl hg hx (SchedFloat.neg_double big) a, SchedFloat.fl_le hg hx big b⟩
  obtain ⟨fl, hfl⟩ : ∃ fl : ℝ → WithBot (WithTop doubles), ∀ x, fl x =
      if hx : |x| ≤ 2 ^ 1000 then (((⟨g x, (hg x hx).1⟩ : doubles) : WithTop doubles) : WithBot (WithTop doubles)) else g0 x := ⟨_, fun _ => rfl⟩
  have p1 : ∀ x (hx : |x| ≤ 2 ^ 1000), fl x = (((⟨g x, (hg x hx).1⟩ : doubles) : WithTop doubles) : WithBot (WithTop doubles)) := fun x hx => by
    rw [hfl, dif_pos hx]
  have p2 : ∀ x, ¬ |x| ≤ 2 ^ 1000 → fl x = g0 x := fun x hx => by rw [hfl, dif_neg hx]
  refine ⟨fl, ⟨?_, ?_, ?_⟩, ?_⟩
  · intro x y hxy
    by_cases hx : |x| ≤ 2 ^ 1000 <;> by_cases hy : |y| ≤ 2 ^ 1000
    · rw [p1 x hx, p1 y hy]
      refine WithBot.coe_le_coe.mpr (WithTop.coe_le_coe.mpr (Subtype.mk_le_mk.mpr ?_))
      by_contra hlt
      rw [not_le] at hlt
      have a := (hg x hx).2 _ (hg y hy).1
      have b := (hg y hy).2 _ (hg x hx).1
      rcases eq_or_lt_of_le hxy with rfl | hxy
      · exact lt_irrefl _ hlt
      · rcases abs_cases (g x - x) with ⟨e1, _⟩ | ⟨e1, _⟩ <;> rcases abs_cases (g y - x) with ⟨e2, _⟩ | ⟨e2, _⟩ <;>
          rcases abs_cases (g y - y) with ⟨e3, _⟩ | ⟨e3, _⟩ <;> rcases abs_cases (g x - y) with ⟨e4, _⟩ | ⟨e4, _⟩ <;>
          rw [e1, e2] at a <;> rw [e3, e4] at b <;> linarith
    · rw [p1 x hx, p2 y hy]
      have hxs := (abs_le.mp (lo x hx)).2
      have : (2 : ℝ) ^ 1000 ≤ y := by
        by_contra hc
        rw [not_le] at hc
        exact hy (abs_le.mpr ⟨(abs_le.mp hx).1.trans hxy, hc.le⟩)
      refine le_trans ?_ (h0.mono this)
      rw [show g0 (2 ^ 1000) = _ from h0.repr ⟨_, big⟩]
      exact WithBot.coe_le_coe.mpr (WithTop.coe_le_coe.mpr (Subtype.mk_le_mk.mpr hxs))
    · rw [p2 x hx, p1 y hy]
      have hys := (abs_le.mp (lo y hy)).1
      have : x ≤ -(2 : ℝ) ^ 1000 := by
        by_contra hc
        rw [not_le] at hc
        exact hx (abs_le.mpr ⟨hc.le, hxy.trans (abs_le.mp hy).2⟩)
      refine le_trans (h0.mono this) ?_
      rw [show g0 (-2 ^ 1000) = _ from h0.repr ⟨_, SchedFloat.neg_double big⟩]
      exact WithBot.coe_le_coe.mpr (WithTop.coe_le_coe.mpr (Subtype.mk_le_mk.mpr hys))
    · rw [p2 x hx, p2 y hy]; exact h0.mono hxy
  · intro x
    by_cases hx : |(x : ℝ)| ≤ 2 ^ 1000
    · rw [p1 x hx]
      congr 2
      exact Subtype.ext (SchedFloat.fl_repr hg x.2 hx)
    · rw [p2 x hx]; exact h0.repr x
  · intro x hx
    rw [p2 x]
    · exact h0.over x hx
    · rw [abs_of_nonneg (le_trans (by positivity) hx), not_le]
      exact lt_of_lt_of_le (pow_lt_pow_right₀ (by norm_num) (by norm_num)) hx
  · intro x hx
    exact ⟨_, p1 x hx, fun z => (hg x hx).2 z z.2⟩

/-- An element with four neighbours whose kernel value is 1/16. -/
def crossRow : List (Unit × Flt (doubleFormat fl h).Num) :=
  ((), some (fl 1)) :: List.replicate 4 ((), some (fl (1 / 16)))

/-- **C138 (b)** Rounding can push a filtered density above 1: with round to nearest, an element of solid material whose four neighbours are
solid as well and have the kernel value 1/16 gets the filtered density `1 + 2 ^ -52`. -/
theorem C138_above_one (hn : NearestRounding fl) : ∃ v : (𝔻).F,
    filterForward ((𝔻).arith log exp) (fun _ => normRow ((𝔻).arith log exp) (crossRow h)) (fun _ => some (fl 1)) () = some ((𝔻).num v) ∧
      (v : ℝ) = 1 + 2 ^ (-52 : ℤ) := by
  obtain ⟨g, hg⟩ : ∃ g : ℝ → ℝ, ∀ x, |x| ≤ 2 ^ 1000 → ∃ hx : g x ∈ doubles, fl x = (𝔻).num ⟨g x, hx⟩ ∧ ∀ z ∈ doubles, |g x - x| ≤ |z - x| := by
    refine ⟨fun x => if hx : |x| ≤ 2 ^ 1000 then ((hn x hx).choose : ℝ) else 0, fun x hx => ?_⟩
    simp only [dif_pos hx]
    exact ⟨(hn x hx).choose.2, (hn x hx).choose_spec.1, fun z hz => (hn x hx).choose_spec.2 ⟨z, hz⟩⟩
  have hN : NearestDouble g := fun x hx => by
    obtain ⟨a, -, b⟩ := hg x hx
    exact ⟨a, b⟩
  have small : ∀ x : ℝ, 0 ≤ x → x ≤ 2 → |x| ≤ 2 ^ 1000 := fun x h0 h2 => by
    rw [abs_of_nonneg h0]; exact h2.trans (by simpa using p2_le (a := 1) (c := 1000) (by norm_num))
  -- the operations
  obtain ⟨Is, hIs⟩ : ∃ Is : Flt (𝔻).Num → ℝ → Prop, ∀ x r, Is x r ↔ ∃ hr : r ∈ doubles, x = some ((𝔻).num ⟨r, hr⟩) := ⟨_, fun _ _ => Iff.rfl⟩
  have rd : ∀ (x : ℝ) (m e : ℤ) (r : ℝ), 0 ≤ x → x ≤ 2 → 2 ^ 52 < m → m < 2 ^ 53 → -1074 ≤ e → e ≤ 971 → |(m : ℝ) * 2 ^ e - x| < 2 ^ (e - 1) →
      (m : ℝ) * 2 ^ e = r → Is (some (fl x)) r := by
    intro x m e r h0 h2 m1 m2 e1 e2 hd hr
    obtain ⟨a, b, -⟩ := hg x (small x h0 h2)
    have := SchedFloat.fl_eq hN (small x h0 h2) m e m1 m2 e1 e2 hd
    rw [hIs]
    refine ⟨⟨m, e, by rw [abs_of_pos (by linarith)]; exact m2, e1, e2, hr.symm⟩, ?_⟩
    rw [b]
    congr 2
    exact Subtype.ext (this.trans hr)
  have ex : ∀ (m e : ℤ) (r : ℝ), |m| < 2 ^ 53 → -1074 ≤ e → e ≤ 971 → (m : ℝ) * 2 ^ e = r → Is (some (fl r)) r := fun m e r a b c d =>
    (hIs _ _).mpr ⟨⟨m, e, a, b, c, d.symm⟩, congrArg some (h.repr ⟨r, _⟩)⟩
  have ad : ∀ {x y : Flt (𝔻).Num} {a b r : ℝ}, Is x a → Is y b → Is (some (fl (a + b))) r → Is ((𝔻).add x y) r := by
    intro x y a b r hx hy hr
    obtain ⟨ha, rfl⟩ := (hIs _ _).mp hx
    obtain ⟨hb, rfl⟩ := (hIs _ _).mp hy
    rw [add_num]; exact hr
  have mu : ∀ {x y : Flt (𝔻).Num} {a b r : ℝ}, Is x a → Is y b → Is (some (fl (a * b))) r → Is ((𝔻).mul x y) r := by
    intro x y a b r hx hy hr
    obtain ⟨ha, rfl⟩ := (hIs _ _).mp hx
    obtain ⟨hb, rfl⟩ := (hIs _ _).mp hy
    rw [mul_num]; exact hr
  have one : Is (some (fl 1)) 1 := ex 1 0 1 (by norm_num) (by norm_num) (by norm_num) (by norm_num)
  have six : Is (some (fl (1 / 16))) (1 / 16) := ex 1 (-4) _ (by norm_num) (by norm_num) (by norm_num) (by norm_num)
  have zero : Is (some (fl ((0 : ℚ) : ℝ))) 0 := by
    rw [Rat.cast_zero]; exact ex 0 0 0 (by norm_num) (by norm_num) (by norm_num) (by norm_num)
  have quarter : ∀ k : ℤ, |k| < 2 ^ 53 → Is (some (fl ((k : ℝ) / 16))) (k / 16) := fun k hk =>
    ex k (-4) _ hk (by norm_num) (by norm_num) (by rw [show (2 : ℝ) ^ (-4 : ℤ) = 1 / 16 by norm_num]; ring)
  -- the row sum
  obtain ⟨s, hs⟩ : ∃ s, s = total ((𝔻).arith log exp) ((crossRow h).map Prod.snd) := ⟨_, rfl⟩
  have hsum : Is s (5 / 4) := by
    rw [hs]
    show Is ((𝔻).add ((𝔻).add ((𝔻).add ((𝔻).add ((𝔻).add (some (fl ((0 : ℚ) : ℝ))) (some (fl 1))) (some (fl (1 / 16)))) (some (fl (1 / 16))))
      (some (fl (1 / 16)))) (some (fl (1 / 16)))) _
    have q : ∀ (a b r : ℝ) (k : ℤ), |k| < 2 ^ 53 → (k : ℝ) / 16 = a + b → a + b = r → Is (some (fl (a + b))) r := by
      intro a b r k hk e1 e2
      rw [← e2, ← e1]; exact quarter k hk
    exact ad (ad (ad (ad (ad zero one (q 0 1 1 16 (by norm_num) (by norm_num) (by norm_num))) six (q _ _ (17 / 16) 17 (by norm_num) (by norm_num) (by norm_num)))
      six (q _ _ (18 / 16) 18 (by norm_num) (by norm_num) (by norm_num))) six (q _ _ (19 / 16) 19 (by norm_num) (by norm_num) (by norm_num)))
      six (q _ _ (5 / 4) 20 (by norm_num) (by norm_num) (by norm_num))
  obtain ⟨hsm, hsn⟩ := (hIs _ _).mp hsum
  have sz : s ≠ some (((𝔻).arith log exp).lit 0) := by
    rw [hsn]
    intro e
    obtain ⟨hz, ez⟩ := (hIs _ _).mp zero
    have e' : (some ((𝔻).num ⟨5 / 4, hsm⟩) : Flt (𝔻).Num) = some ((𝔻).num ⟨0, hz⟩) := e.trans ez
    have : (5 / 4 : ℝ) = 0 := congrArg Subtype.val (WithTop.coe_injective (WithBot.coe_injective (Option.some.inj e')))
    norm_num at this
  obtain ⟨inv, hi⟩ : ∃ inv, inv = (𝔻).div (some (((𝔻).arith log exp).lit 1)) s := ⟨_, rfl⟩
  have hinv : Is inv (7205759403792794 * 2 ^ (-53 : ℤ)) := by
    obtain ⟨o1, o2⟩ := (hIs _ _).mp one
    rw [hi, hsn, show (some (((𝔻).arith log exp).lit 1) : Flt (𝔻).Num) = some ((𝔻).num ⟨1, o1⟩) by
      rw [← o2]; show some (fl ((1 : ℚ) : ℝ)) = some (fl 1); rw [Rat.cast_one]]
    have : (𝔻).div (some ((𝔻).num ⟨1, o1⟩)) (some ((𝔻).num ⟨5 / 4, hsm⟩)) = some (fl (1 / (5 / 4))) := by
      exact if_neg (show ¬ (5 / 4 : ℝ) = 0 by norm_num)
    rw [this]
    exact rd _ 7205759403792794 (-53) _ (by norm_num) (by norm_num) (by norm_num) (by norm_num) (by norm_num) (by norm_num)
      (by rw [abs_lt]; constructor <;> norm_num) (by norm_num)
  have hrow : normRow ((𝔻).arith log exp) (crossRow h) = (crossRow h).map fun e => (e.1, (𝔻).mul inv e.2) := by
    have e1 : (if s = some (((𝔻).arith log exp).lit 0) then some (((𝔻).arith log exp).lit 1) else s) = s := if_neg sz
    rw [hi]
    conv_rhs => rw [← e1, hs]
    rfl
  unfold filterForward
  rw [hrow]
  suffices hh : Is (total ((𝔻).arith log exp) (((crossRow h).map fun e => (e.1, (𝔻).mul inv e.2)).map
      fun e => ((𝔻).arith log exp).mul e.2 (some (fl 1)))) (1 + 2 ^ (-52 : ℤ)) by
    obtain ⟨a, b⟩ := (hIs _ _).mp hh
    exact ⟨⟨_, a⟩, b, rfl⟩
  show Is ((𝔻).add ((𝔻).add ((𝔻).add ((𝔻).add ((𝔻).add (some (fl ((0 : ℚ) : ℝ))) ((𝔻).mul ((𝔻).mul inv (some (fl 1))) (some (fl 1))))
    ((𝔻).mul ((𝔻).mul inv (some (fl (1 / 16)))) (some (fl 1)))) ((𝔻).mul ((𝔻).mul inv (some (fl (1 / 16)))) (some (fl 1))))
    ((𝔻).mul ((𝔻).mul inv (some (fl (1 / 16)))) (some (fl 1)))) ((𝔻).mul ((𝔻).mul inv (some (fl (1 / 16)))) (some (fl 1)))) _
  have keep : ∀ {x : Flt (𝔻).Num} {a : ℝ}, Is x a → Is ((𝔻).mul x (some (fl 1))) a := by
    intro x a hx
    refine mu hx one ?_
    obtain ⟨ha, -⟩ := (hIs _ _).mp hx
    rw [mul_one]
    exact (hIs _ _).mpr ⟨ha, congrArg some (h.repr ⟨a, ha⟩)⟩
  have w : Is ((𝔻).mul ((𝔻).mul inv (some (fl (1 / 16)))) (some (fl 1))) (7205759403792794 * 2 ^ (-57 : ℤ)) := by
    refine keep (mu hinv six ?_)
    rw [show (7205759403792794 * 2 ^ (-53 : ℤ) * (1 / 16) : ℝ) = 7205759403792794 * 2 ^ (-57 : ℤ) by norm_num]
    exact ex 7205759403792794 (-57) _ (by norm_num) (by norm_num) (by norm_num) (by norm_num)
  have t1 : Is ((𝔻).add (some (fl ((0 : ℚ) : ℝ))) ((𝔻).mul ((𝔻).mul inv (some (fl 1))) (some (fl 1)))) (7205759403792794 * 2 ^ (-53 : ℤ)) := by
    refine ad zero (keep (keep hinv)) ?_
    rw [zero_add]
    exact ex 7205759403792794 (-53) _ (by norm_num) (by norm_num) (by norm_num) (by norm_num)
  have st : ∀ (a : ℝ) (m e : ℤ) (r : ℝ), 0 ≤ a + 7205759403792794 * 2 ^ (-57 : ℤ) → a + 7205759403792794 * 2 ^ (-57 : ℤ) ≤ 2 → 2 ^ 52 < m → m < 2 ^ 53 → -1074 ≤ e → e ≤ 971 →
      |(m : ℝ) * 2 ^ e - (a + 7205759403792794 * 2 ^ (-57 : ℤ))| < 2 ^ (e - 1) → (m : ℝ) * 2 ^ e = r →
      Is (some (fl (a + 7205759403792794 * 2 ^ (-57 : ℤ)))) r := fun a m e r => rd _ m e r
  refine ad (ad (ad (ad t1 w (st _ 7656119366529844 (-53) (7656119366529844 * 2 ^ (-53 : ℤ)) ?_ ?_ ?_ ?_ ?_ ?_ ?_ ?_))
    w (st _ 8106479329266894 (-53) (8106479329266894 * 2 ^ (-53 : ℤ)) ?_ ?_ ?_ ?_ ?_ ?_ ?_ ?_))
    w (st _ 8556839292003944 (-53) (8556839292003944 * 2 ^ (-53 : ℤ)) ?_ ?_ ?_ ?_ ?_ ?_ ?_ ?_))
    w (st _ 4503599627370497 (-52) (1 + 2 ^ (-52 : ℤ)) ?_ ?_ ?_ ?_ ?_ ?_ ?_ ?_)
  all_goals first
    | (norm_num; done)
    | (rw [abs_lt]; constructor <;> norm_num)

/-- Case: such a rounding exists. -/
example : ∃ fl, ∃ h : DoubleRounding fl, ∃ v : (doubleFormat fl h).F, filterForward ((doubleFormat fl h).arith id id)
    (fun _ => normRow ((doubleFormat fl h).arith id id) (crossRow h)) (fun _ => some (fl 1)) () = some ((doubleFormat fl h).num v) ∧ (1 : ℝ) < v := by
  obtain ⟨fl, h, hn⟩ := exists_nearestRounding
  obtain ⟨v, hv, e⟩ := C138_above_one h id id hn
  exact ⟨fl, h, v, hv, by rw [e]; norm_num⟩

/-- **C139 (b)** The sizes of penalties and steepnesses asked for above are those the schedules deliver in double precision: a Step,
StepAccelerating or StepDecelerating schedule between numbers in `[1, b]` stays in `[1/2, b + 1/2]` (it can leave `[1, b]`, C135). -/
theorem C139_schedules {g : ℝ → ℝ} (hN : NearestDouble g) (pw : ℝ → ℝ → ℝ) (hpw : FairPow pw) (nm : Option String) (i t c b : ℝ) (n m it : ℤ)
    (hc : 0 < c) (hn : 2 ≤ n) (h0 : 0 ≤ it) (h1 : it < m) (hsize : m * n ≤ 2 ^ 50) (hi : i ∈ doubles) (ht : t ∈ doubles) (hi1 : 1 ≤ i) (hib : i ≤ b)
    (ht1 : 1 ≤ t) (htb : t ≤ b) (hb : b ≤ 2 ^ 20) (cfg : Res Sched.Config)
    (hcfg : cfg = Sched.cfgStep nm (some i) (some t) (some n) (some m) ∨
      cfg = Sched.cfgStepAccelerating nm (some i) (some t) (some n) (some m) (some c) ∨
      cfg = Sched.cfgStepDecelerating nm (some i) (some t) (some n) (some m) (some c)) :
    ∃ v, SchedFloat.valueOf g pw cfg it = .ok (some v) ∧ 1 / 2 ≤ v ∧ v ≤ b + 1 / 2 := by
  have p500 : (2 : ℝ) ^ 20 ≤ 2 ^ 500 := p2_le (by norm_num)
  have ho : Ordinary i t := by
    refine ⟨hi, ht, ?_, ?_, ?_⟩
    · rw [abs_of_nonneg (by linarith)]; exact (hib.trans hb).trans p500
    · rw [abs_of_nonneg (by linarith)]; exact (htb.trans hb).trans p500
    · refine le_trans ?_ (le_max_left _ _)
      rw [abs_of_nonneg (by linarith)]
      exact le_trans (zpow_le_one_of_nonpos₀ (by norm_num) (by norm_num)) hi1
  obtain ⟨v, hv, -, -, w, ⟨w0, w1⟩, hw⟩ := SchedFloat.C135_range_partial hN pw hpw nm i t c n m it hc hn h0 h1 hsize ho cfg hcfg
  refine ⟨v, hv, ?_⟩
  unfold CloseTo at hw
  have hm : max |i| |t| ≤ 2 ^ 20 := by
    rw [abs_of_nonneg (by linarith), abs_of_nonneg (by linarith)]
    exact max_le (hib.trans hb) (htb.trans hb)
  have hsm : 1 * (2 : ℝ) ^ (-50 : ℤ) * max |i| |t| ≤ 1 / 2 := by
    refine (mul_le_mul_of_nonneg_left hm (by positivity)).trans ?_
    norm_num
  obtain ⟨a1, a2⟩ := abs_le.mp (hw.trans hsm)
  have l1 : 1 ≤ min i t := le_min hi1 ht1
  have l2 : max i t ≤ b := max_le hib htb
  constructor <;> linarith

/-- Case: the default penalty schedule, from 1 to 3 in 3 steps of 100 iterations, at iteration 40. -/
example : ∃ g v, SchedFloat.valueOf g (fun a c => a ^ c) (Sched.cfgStep (some "p") (some 1) (some 3) (some 3) (some 100)) 40 = .ok (some v) ∧
    1 / 2 ≤ v ∧ v ≤ 3 + 1 / 2 := by
  obtain ⟨g, hg⟩ := SchedFloat.exists_nearestDouble
  obtain ⟨v, hv⟩ := C139_schedules hg (fun a c => a ^ c) SchedFloat.fairPow_rpow (some "p") 1 3 2 3 3 100 40 (by norm_num) (by norm_num) (by norm_num)
    (by norm_num) (by norm_num) SchedFloat.ordinary_one_three.1 SchedFloat.ordinary_one_three.2.1 le_rfl (by norm_num) (by norm_num) le_rfl (by norm_num) _ (Or.inl rfl)
  exact ⟨g, v, hv⟩

end
end Verif.Spec.Format
