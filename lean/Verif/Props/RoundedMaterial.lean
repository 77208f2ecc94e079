import Verif.Model.RoundedMaterial
import Verif.Spec.RoundedMaterial
import Verif.Props.Format
import Verif.Lemmas.Projection

/-! **C136, C137** Projection, moduli and sensitivities in floating-point arithmetic. -/
namespace Verif.Spec.Format
open Verif.Rounded Verif.Spec Verif.Projection

noncomputable section
open Classical

variable (f : Format)

/-- A real number between two numbers of the format is rounded to a number between them. -/
theorem fl_between {a b : ℝ} (ha : a ∈ f.F) (hb : b ∈ f.F) {r : ℝ} (h1 : a ≤ r) (h2 : r ≤ b) :
    ∃ z : f.F, f.fl r = f.num z ∧ a ≤ z ∧ z ≤ b := by
  have l : f.num ⟨a, ha⟩ ≤ f.fl r := by rw [num, ← f.repr]; exact f.mono h1
  have u : f.fl r ≤ f.num ⟨b, hb⟩ := by rw [num, ← f.repr]; exact f.mono h2
  rcases f.num_cases (f.fl r) with e | e | ⟨z, e⟩
  · rw [e] at l; exact absurd (le_bot_iff.mp l) (f.fin_num _).1
  · rw [e] at u; exact absurd (top_le_iff.mp u) (f.fin_num _).2
  · rw [e, num_le] at l u
    exact ⟨z, e, l, u⟩

/-- A non-negative real number is rounded to a non-negative number or infinity. -/
theorem fl_nonneg_cases {r : ℝ} (h : 0 ≤ r) : f.fl r = ⊤ ∨ ∃ z : f.F, f.fl r = f.num z ∧ 0 ≤ (z : ℝ) := by
  have l := f.fl_nonneg h
  rcases f.num_cases (f.fl r) with e | e | ⟨z, e⟩
  · rw [e] at l; exact absurd l (not_le.mpr f.bot_lt_zero)
  · exact Or.inl e
  · rw [e, zero_le_num] at l
    exact Or.inr ⟨z, e, l⟩

theorem sub_num (x y : f.F) : f.sub (some (f.num x)) (some (f.num y)) = some (f.fl (x - y)) := by
  show f.add (some (f.num x)) (some (f.negate (f.num y))) = _
  rw [negate_num, add_num]
  rfl

theorem div_num (x y : f.F) (h : (y : ℝ) ≠ 0) : f.div (some (f.num x)) (some (f.num y)) = some (f.fl (x / y)) := by
  show (if (y : ℝ) = 0 then _ else _) = _
  rw [if_neg h]

variable {f}
variable (hs : f.Symmetric)

theorem mono_num {x y : ℝ} {a b : f.F} (hx : f.fl x = f.num a) (hy : f.fl y = f.num b) (h : x ≤ y) : (a : ℝ) ≤ b := by
  have := f.mono h
  rwa [hx, hy, num_le] at this

theorem lit_eps : ∃ e : f.F, f.fl (1 / 10 ^ 12) = f.num e ∧ 0 < (e : ℝ) ∧ (e : ℝ) ≤ 1 := by
  obtain ⟨z, hz, h0, h1⟩ := f.fl_between f.zero f.one (r := 1 / 10 ^ 12) (by positivity) (by norm_num)
  refine ⟨z, hz, ?_, h1⟩
  have := f.eps
  rwa [hz, zero_lt_num] at this

section
variable (log exp tanh cosh : Flt f.Num → Flt f.Num) (ht : FairTanh f tanh)
include hs ht

/-- The denominator of the projection: a finite positive number, at least `tanh(beta eta) + tanh(beta (1 - eta))`. -/
theorem projectDenominator_spec {beta eta : f.F} (hb : 0 ≤ (beta : ℝ)) (he0 : 0 ≤ (eta : ℝ)) (he1 : (eta : ℝ) ≤ 1) :
    ∃ (a1 b1 d1 d2 c2 A B D : f.F), f.fl (beta * eta) = f.num a1 ∧ tanh (some (f.num a1)) = some (f.num A) ∧
      f.fl (1 - eta) = f.num d1 ∧ 0 ≤ (d1 : ℝ) ∧ f.fl (beta * d1) = f.num b1 ∧ tanh (some (f.num b1)) = some (f.num B) ∧
      0 ≤ (A : ℝ) ∧ 0 ≤ (B : ℝ) ∧ (A : ℝ) ≤ 1 ∧ (B : ℝ) ≤ 1 ∧ f.fl ((A : ℝ) + B) = f.num d2 ∧ f.fl ((d2 : ℝ) + c2) = f.num D ∧ (d2 : ℝ) ≤ D ∧ 0 < (D : ℝ) ∧
      projectDenominator (f.arith log exp) tanh (some (f.num beta)) (some (f.num eta)) = some (f.num D) := by
  obtain ⟨a1, ha1, ha10, -⟩ := f.fl_between f.zero beta.2 (r := beta * eta) (by positivity) (mul_le_of_le_one_right hb he1)
  obtain ⟨d1, hd1, hd10, hd11⟩ := f.fl_between f.zero f.one (r := 1 - eta) (by linarith) (by linarith)
  obtain ⟨b1, hb1, hb10, -⟩ := f.fl_between f.zero beta.2 (r := beta * d1) (by positivity) (mul_le_of_le_one_right hb hd11)
  obtain ⟨A, hA, -, hA1⟩ := ht.value (f.num a1)
  obtain ⟨B, hB, -, hB1⟩ := ht.value (f.num b1)
  -- tanh 0 = 0 by oddness
  obtain ⟨Z, hZ, -, -⟩ := ht.value (f.num f.zer)
  have hneg0 : f.negate (f.num f.zer) = f.num f.zer := by
    rw [negate_num]; exact congrArg f.num (Subtype.ext neg_zero)
  have hZ0 : (Z : ℝ) = 0 := by
    have := ht.odd _ _ hZ
    rw [hneg0, hZ] at this
    have h2 := Option.some.inj this
    rw [show f.negate ((Z : WithTop f.F) : WithBot (WithTop f.F)) = f.num ⟨-Z, f.neg Z Z.2⟩ from f.negate_num Z] at h2
    have h3 : Z = ⟨-Z, f.neg Z Z.2⟩ := WithTop.coe_injective (WithBot.coe_injective h2)
    have h4 : (Z : ℝ) = -Z := congrArg Subtype.val h3
    linarith
  have pos : ∀ (x c : f.F), 0 ≤ (x : ℝ) → tanh (some (f.num x)) = some (f.num c) → 0 ≤ (c : ℝ) := by
    intro x c hx hc
    have := ht.mono (f.num f.zer) (f.num x) _ _ (f.num_le.mpr hx) hZ hc
    have h2 : (Z : ℝ) ≤ c := f.num_le.mp this
    linarith
  have hA0 := pos a1 A ha10 hA
  have hB0 := pos b1 B hb10 hB
  obtain ⟨d2, hd2, hd20, hd21⟩ := f.fl_between f.zero hs.four (r := (A : ℝ) + B) (by positivity) (by linarith)
  obtain ⟨e, hee, he0', he1'⟩ := lit_eps (f := f)
  have hd22 : (d2 : ℝ) ≤ 2 := by
    rcases f.double 1 f.one zero_le_one with h2 | h2
    · obtain ⟨z, hz, -, hz2⟩ := f.fl_between f.zero h2 (r := (A : ℝ) + B) (by positivity) (by linarith)
      rw [hd2] at hz
      have : d2 = z := WithTop.coe_injective (WithBot.coe_injective hz)
      rw [this]; linarith
    · have := f.mono (by norm_num : (2 * 1 : ℝ) ≤ 4)
      rw [h2, show (4 : ℝ) = ((⟨4, hs.four⟩ : f.F) : ℝ) from rfl, f.repr] at this
      exact absurd (top_le_iff.mp this) (f.fin_num _).2
  obtain ⟨D, hD, -, -⟩ := f.fl_between f.zero hs.four (r := (d2 : ℝ) + e) (by linarith) (by linarith)
  have hDd : (d2 : ℝ) ≤ D := mono_num (f.repr d2) hD (by linarith)
  have hDe : (e : ℝ) ≤ D := mono_num (f.repr e) hD (by linarith)
  refine ⟨a1, b1, d1, d2, e, A, B, D, ha1, hA, hd1, hd10, hb1, hB, hA0, hB0, hA1, hB1, hd2, hD, hDd, by linarith, ?_⟩
  have k1 : f.mul (some (f.num beta)) (some (f.num eta)) = some (f.num a1) := by rw [mul_num, ha1]
  have k2 : f.sub (some (f.fl ((1 : ℚ) : ℝ))) (some (f.num eta)) = some (f.num d1) := by
    rw [Rat.cast_one, fl_one, sub_num]; simp only; rw [hd1]
  have k3 : f.mul (some (f.num beta)) (some (f.num d1)) = some (f.num b1) := by rw [mul_num, hb1]
  have k4 : f.fl ((1 / 10 ^ 12 : ℚ) : ℝ) = f.num e := by
    rw [← hee]; congr 1; norm_num
  show f.add (f.add (tanh (f.mul (some (f.num beta)) (some (f.num eta))))
    (tanh (f.mul (some (f.num beta)) (f.sub (some (f.fl ((1 : ℚ) : ℝ))) (some (f.num eta)))))) (some (f.fl ((1 / 10 ^ 12 : ℚ) : ℝ))) = _
  rw [k1, k2, k3, k4, hA, hB]
  show f.add (f.add (some (f.num A)) (some (f.num B))) (some (f.num e)) = _
  rw [add_num, hd2, add_num, hD]

/-- **C136 (a)** In rounded arithmetic the projection of a density in `[0, 1]` is a number in `[0, 1]`, whatever finite `beta ≥ 0` and
`eta` in `[0, 1]` are: no overflow, no NaN. It is exactly 0 at density 0. -/
theorem C136_projection_unit {rho beta eta : f.F} (hb : 0 ≤ (beta : ℝ)) (he0 : 0 ≤ (eta : ℝ)) (he1 : (eta : ℝ) ≤ 1)
    (hr0 : 0 ≤ (rho : ℝ)) (hr1 : (rho : ℝ) ≤ 1) :
    ∃ v : f.F, project (f.arith log exp) tanh (some (f.num rho)) (some (f.num beta)) (some (f.num eta)) = some (f.num v) ∧
      0 ≤ (v : ℝ) ∧ (v : ℝ) ≤ 1 ∧ ((rho : ℝ) = 0 → (v : ℝ) = 0) := by
  obtain ⟨a1, b1, d1, d2, e, A, B, D, ha1, hA, hd1, hd10, hb1, hB, hA0, hB0, hA1, hB1, hd2, hD, hDd, hD0, hden⟩ :=
    projectDenominator_spec hs log exp tanh ht hb he0 he1
  have hone := f.one
  obtain ⟨t0, ht0, htl, htu⟩ := f.fl_between (f.neg 1 hone) hone (r := (rho : ℝ) - eta) (by linarith) (by linarith)
  have htd : (t0 : ℝ) ≤ d1 := mono_num ht0 hd1 (by linarith)
  have hte : -(eta : ℝ) ≤ t0 := mono_num (a := ⟨-eta, f.neg _ eta.2⟩) (f.repr _) ht0 (by simp only; linarith)
  obtain ⟨t1, ht1, -, -⟩ := f.fl_between (f.neg _ beta.2) beta.2 (r := (t0 : ℝ) * beta) (by nlinarith) (by nlinarith)
  have ht1b : (t1 : ℝ) ≤ b1 := mono_num ht1 hb1 (by nlinarith)
  have hna : f.fl (-((beta : ℝ) * eta)) = f.num ⟨-a1, f.neg _ a1.2⟩ := by rw [hs.odd, ha1, negate_num]
  have ht1a : -(a1 : ℝ) ≤ t1 := mono_num hna ht1 (by nlinarith)
  obtain ⟨T, hT, -, hT1⟩ := ht.value (f.num t1)
  have hTB : (T : ℝ) ≤ B := f.num_le.mp (ht.mono _ _ _ _ (f.num_le.mpr ht1b) hT hB)
  have hodd := ht.odd _ _ hA
  rw [negate_num] at hodd
  rw [show f.negate (f.num A) = f.num ⟨-A, f.neg A A.2⟩ from f.negate_num A] at hodd
  have hTA : -(A : ℝ) ≤ T := f.num_le.mp (ht.mono _ _ _ _ (f.num_le.mpr ht1a) hodd hT)
  obtain ⟨O, hO, hO0, -⟩ := f.fl_between f.zero hs.four (r := (A : ℝ) + T) (by linarith) (by linarith)
  have hOd : (O : ℝ) ≤ d2 := mono_num hO hd2 (by linarith)
  have hOD : (O : ℝ) / D ≤ 1 := (div_le_one hD0).mpr (by linarith)
  obtain ⟨v, hv, hv0, hv1⟩ := f.fl_between f.zero hone (r := (O : ℝ) / D) (by positivity) hOD
  refine ⟨v, ?_, hv0, hv1, ?_⟩
  · have k1 : f.mul (some (f.num beta)) (some (f.num eta)) = some (f.num a1) := by rw [mul_num, ha1]
    show f.div (f.add (tanh (f.mul (some (f.num beta)) (some (f.num eta))))
      (tanh (f.mul (f.sub (some (f.num rho)) (some (f.num eta))) (some (f.num beta)))))
      (projectDenominator (f.arith log exp) tanh (some (f.num beta)) (some (f.num eta))) = _
    rw [hden, k1, sub_num, ht0, mul_num, ht1, hA, hT]
    show f.div (f.add (some (f.num A)) (some (f.num T))) (some (f.num D)) = _
    rw [add_num, hO, div_num _ _ _ hD0.ne', hv]
  · intro hz
    have e1 : (t0 : ℝ) = -eta := by
      have : f.fl (rho - eta) = f.num ⟨-eta, f.neg _ eta.2⟩ := by
        rw [hz, zero_sub]; exact f.repr ⟨-eta, f.neg _ eta.2⟩
      rw [ht0] at this
      have : t0 = ⟨-eta, f.neg _ eta.2⟩ := WithTop.coe_injective (WithBot.coe_injective this)
      rw [this]
    have e2 : t1 = ⟨-a1, f.neg _ a1.2⟩ := by
      have : f.fl ((t0 : ℝ) * beta) = f.num ⟨-a1, f.neg _ a1.2⟩ := by
        rw [← hna, e1]; congr 1; ring
      rw [ht1] at this
      exact WithTop.coe_injective (WithBot.coe_injective this)
    have e3 : T = ⟨-A, f.neg A A.2⟩ := by
      rw [e2, hodd] at hT
      exact (WithTop.coe_injective (WithBot.coe_injective (Option.some.inj hT))).symm
    have e4 : (O : ℝ) = 0 := by
      have : f.fl ((A : ℝ) + T) = f.num f.zer := by
        rw [e3, ← fl_zero]; congr 1; simp only; ring
      rw [hO] at this
      have : O = f.zer := WithTop.coe_injective (WithBot.coe_injective this)
      rw [this]
    have e5 : f.fl ((O : ℝ) / D) = f.num f.zer := by rw [e4, zero_div, fl_zero]
    rw [hv] at e5
    have : v = f.zer := WithTop.coe_injective (WithBot.coe_injective e5)
    rw [this]

/-- **C136 (b)** The rounded projection is monotone in the density. -/
theorem C136_projection_monotone {rho rho' beta eta : f.F} (hb : 0 ≤ (beta : ℝ)) (he0 : 0 ≤ (eta : ℝ)) (he1 : (eta : ℝ) ≤ 1)
    (hr0 : 0 ≤ (rho : ℝ)) (hr1 : (rho' : ℝ) ≤ 1) (hle : (rho : ℝ) ≤ rho') {v v' : f.F}
    (hv : project (f.arith log exp) tanh (some (f.num rho)) (some (f.num beta)) (some (f.num eta)) = some (f.num v))
    (hv' : project (f.arith log exp) tanh (some (f.num rho')) (some (f.num beta)) (some (f.num eta)) = some (f.num v')) :
    (v : ℝ) ≤ v' := by
  obtain ⟨a1, b1, d1, d2, e, A, B, D, ha1, hA, hd1, hd10, hb1, hB, hA0, hB0, hA1, hB1, hd2, hD, hDd, hD0, hden⟩ :=
    projectDenominator_spec hs log exp tanh ht hb he0 he1
  have hone := f.one
  have key : ∀ r : f.F, 0 ≤ (r : ℝ) → (r : ℝ) ≤ 1 → ∃ t0 t1 T O : f.F, f.fl ((r : ℝ) - eta) = f.num t0 ∧ f.fl ((t0 : ℝ) * beta) = f.num t1 ∧
      tanh (some (f.num t1)) = some (f.num T) ∧ f.fl ((A : ℝ) + T) = f.num O ∧
      project (f.arith log exp) tanh (some (f.num r)) (some (f.num beta)) (some (f.num eta)) = some (f.fl ((O : ℝ) / D)) := by
    intro r h0 h1
    obtain ⟨t0, ht0, htl, htu⟩ := f.fl_between (f.neg 1 hone) hone (r := (r : ℝ) - eta) (by linarith) (by linarith)
    obtain ⟨t1, ht1, -, -⟩ := f.fl_between (f.neg _ beta.2) beta.2 (r := (t0 : ℝ) * beta) (by nlinarith) (by nlinarith)
    obtain ⟨T, hT, hTl, hTu⟩ := ht.value (f.num t1)
    obtain ⟨O, hO, -, -⟩ := f.fl_between (f.neg 4 hs.four) hs.four (r := (A : ℝ) + T) (by linarith) (by linarith)
    refine ⟨t0, t1, T, O, ht0, ht1, hT, hO, ?_⟩
    have k1 : f.mul (some (f.num beta)) (some (f.num eta)) = some (f.num a1) := by rw [mul_num, ha1]
    show f.div (f.add (tanh (f.mul (some (f.num beta)) (some (f.num eta))))
      (tanh (f.mul (f.sub (some (f.num r)) (some (f.num eta))) (some (f.num beta)))))
      (projectDenominator (f.arith log exp) tanh (some (f.num beta)) (some (f.num eta))) = _
    rw [hden, k1, sub_num, ht0, mul_num, ht1, hA, hT]
    show f.div (f.add (some (f.num A)) (some (f.num T))) (some (f.num D)) = _
    rw [add_num, hO, div_num _ _ _ hD0.ne']
  obtain ⟨t0, t1, T, O, h1, h2, h3, h4, h5⟩ := key rho hr0 (by linarith)
  obtain ⟨t0', t1', T', O', h1', h2', h3', h4', h5'⟩ := key rho' (by linarith) hr1
  rw [hv] at h5
  rw [hv'] at h5'
  have g0 : (t0 : ℝ) ≤ t0' := mono_num h1 h1' (by linarith)
  have g1 : (t1 : ℝ) ≤ t1' := mono_num h2 h2' (mul_le_mul_of_nonneg_right g0 hb)
  have g2 : (T : ℝ) ≤ T' := f.num_le.mp (ht.mono _ _ _ _ (f.num_le.mpr g1) h3 h3')
  have g3 : (O : ℝ) ≤ O' := mono_num h4 h4' (by linarith)
  exact mono_num (Option.some.inj h5).symm (Option.some.inj h5').symm (div_le_div_of_nonneg_right g3 hD0.le)

/-- **C136 (c)** The rounded derivative of the projection is a number (or infinite), never NaN and never negative, also where `cosh`
overflows. -/
theorem C136_derivative_nonneg (hc : FairCosh f cosh) {rho beta eta : f.F} (hb : 0 ≤ (beta : ℝ)) (he0 : 0 ≤ (eta : ℝ)) (he1 : (eta : ℝ) ≤ 1)
    (hr0 : 0 ≤ (rho : ℝ)) (hr1 : (rho : ℝ) ≤ 1) :
    ∃ v, projectDeriv (f.arith log exp) tanh cosh (some (f.num rho)) (some (f.num beta)) (some (f.num eta)) = some v ∧ f.fl 0 ≤ v := by
  obtain ⟨a1, b1, d1, d2, e, A, B, D, ha1, hA, hd1, hd10, hb1, hB, hA0, hB0, hA1, hB1, hd2, hD, hDd, hD0, hden⟩ :=
    projectDenominator_spec hs log exp tanh ht hb he0 he1
  have hone := f.one
  obtain ⟨t0, ht0, htl, htu⟩ := f.fl_between (f.neg 1 hone) hone (r := (rho : ℝ) - eta) (by linarith) (by linarith)
  obtain ⟨t1, ht1, -, -⟩ := f.fl_between (f.neg _ beta.2) beta.2 (r := (t0 : ℝ) * beta) (by nlinarith) (by nlinarith)
  obtain ⟨c, hcc, hc1⟩ := hc (f.num t1)
  -- the square
  have hsq : ∃ q, f.mul (some c) (some c) = some q ∧ f.fl 1 ≤ q := by
    rcases f.num_cases c with rfl | rfl | ⟨x, rfl⟩
    · rw [fl_one] at hc1; exact absurd (le_bot_iff.mp hc1) (f.fin_num _).1
    · exact ⟨⊤, f.mul_top_top, le_top⟩
    · rw [fl_one, num_le] at hc1
      exact ⟨_, f.mul_num x x, f.mono (by nlinarith)⟩
  obtain ⟨q, hq, hq1⟩ := hsq
  -- the reciprocal
  have hrec : ∃ r : f.F, f.div (some (f.fl 1)) (some q) = some (f.num r) ∧ 0 ≤ (r : ℝ) ∧ (r : ℝ) ≤ 1 := by
    rcases f.num_cases q with rfl | rfl | ⟨x, rfl⟩
    · rw [fl_one] at hq1; exact absurd (le_bot_iff.mp hq1) (f.fin_num _).1
    · refine ⟨f.zer, ?_, le_rfl, zero_le_one⟩
      rw [fl_one]
      show some (f.fl 0) = _
      rw [fl_zero]
    · rw [fl_one, num_le] at hq1
      simp only at hq1
      have hx : 0 < (x : ℝ) := by linarith
      obtain ⟨r, hr, hr0, hr1⟩ := f.fl_between f.zero hone (r := 1 / (x : ℝ)) (by positivity) ((div_le_one hx).mpr hq1)
      exact ⟨r, by rw [fl_one, div_num _ _ _ hx.ne']; simp only; rw [hr], hr0, hr1⟩
  obtain ⟨r, hr, hrn, hru⟩ := hrec
  obtain ⟨o, ho, ho0, -⟩ := f.fl_between f.zero beta.2 (r := (r : ℝ) * beta) (by positivity) (mul_le_of_le_one_left hb hru)
  refine ⟨f.fl ((o : ℝ) / D), ?_, f.fl_nonneg (by positivity)⟩
  show f.div (f.mul (f.div (some (f.fl ((1 : ℚ) : ℝ))) (f.mul (cosh (f.mul (f.sub (some (f.num rho)) (some (f.num eta))) (some (f.num beta))))
    (cosh (f.mul (f.sub (some (f.num rho)) (some (f.num eta))) (some (f.num beta)))))) (some (f.num beta)))
    (projectDenominator (f.arith log exp) tanh (some (f.num beta)) (some (f.num eta))) = _
  rw [hden, sub_num, ht0, mul_num, ht1, hcc, hq, Rat.cast_one, hr, mul_num, ho, div_num _ _ _ hD0.ne']

end

theorem pow_num (x y : f.F) (hx : 0 ≤ (x : ℝ)) (hy : 0 ≤ (y : ℝ)) :
    f.pow (some (f.num x)) (some (f.num y)) = some (f.fl ((x : ℝ) ^ (y : ℝ))) := by
  show (if (x : ℝ) < 0 ∧ ¬ ∃ k : ℤ, (k : ℝ) = y then none
    else if (x : ℝ) = 0 ∧ (y : ℝ) < 0 then some ⊤ else some (f.fl ((x : ℝ) ^ (y : ℝ)))) = _
  rw [if_neg (fun h => absurd h.1 (not_lt.mpr hx)), if_neg (fun h => absurd h.2 (not_lt.mpr hy))]

section
variable (log exp : Flt f.Num → Flt f.Num)

/-- The steps of the rounded SIMP law. -/
theorem simpModulus_spec {rho E0 Emin p : f.F} (hr0 : 0 ≤ (rho : ℝ)) (hr1 : (rho : ℝ) ≤ 1) (hm : 0 ≤ (Emin : ℝ)) (hE : (Emin : ℝ) ≤ E0)
    (h2 : 2 * (E0 : ℝ) ∈ f.F) (hp : 0 ≤ (p : ℝ)) :
    ∃ q d m v : f.F, f.fl ((rho : ℝ) ^ (p : ℝ)) = f.num q ∧ f.fl ((E0 : ℝ) - Emin) = f.num d ∧ 0 ≤ (d : ℝ) ∧ f.fl ((d : ℝ) * q) = f.num m ∧ 0 ≤ (m : ℝ) ∧
      f.fl ((Emin : ℝ) + m) = f.num v ∧ (Emin : ℝ) ≤ v ∧
      simpModulus (f.arith log exp) (some (f.num rho)) (some (f.num E0)) (some (f.num Emin)) (some (f.num p)) = some (f.num v) := by
  obtain ⟨q, hq, hq0, hq1⟩ := f.fl_between f.zero f.one (Real.rpow_nonneg hr0 p) (Real.rpow_le_one hr0 hr1 hp)
  obtain ⟨d, hd, hd0, hd1⟩ := f.fl_between f.zero E0.2 (r := (E0 : ℝ) - Emin) (by linarith) (by linarith)
  obtain ⟨m, hmm, hm0, hm1⟩ := f.fl_between f.zero d.2 (r := (d : ℝ) * q) (by positivity) (mul_le_of_le_one_right hd0 hq1)
  obtain ⟨v, hv, hv0, hv1⟩ := f.fl_between Emin.2 h2 (r := (Emin : ℝ) + m) (by linarith) (by linarith)
  refine ⟨q, d, m, v, hq, hd, hd0, hmm, hm0, hv, hv0, ?_⟩
  show f.add (some (f.num Emin)) (f.mul (f.sub (some (f.num E0)) (some (f.num Emin))) (f.pow (some (f.num rho)) (some (f.num p)))) = _
  rw [pow_num _ _ hr0 hp, hq, sub_num, hd, mul_num, hmm, add_num, hv]

/-- **C137 (a)** In rounded arithmetic the SIMP modulus of a density in `[0, 1]` is a finite number, not below `Emin`, and exactly `Emin`
at density 0 (`p > 0`), as long as `2 E0` does not overflow. -/
theorem C137_simp_modulus {rho E0 Emin p : f.F} (hr0 : 0 ≤ (rho : ℝ)) (hr1 : (rho : ℝ) ≤ 1) (hm : 0 ≤ (Emin : ℝ)) (hE : (Emin : ℝ) ≤ E0)
    (h2 : 2 * (E0 : ℝ) ∈ f.F) (hp : 0 ≤ (p : ℝ)) :
    ∃ v : f.F, simpModulus (f.arith log exp) (some (f.num rho)) (some (f.num E0)) (some (f.num Emin)) (some (f.num p)) = some (f.num v) ∧
      (Emin : ℝ) ≤ v ∧ (v : ℝ) ≤ 2 * E0 ∧ ((rho : ℝ) = 0 → 0 < (p : ℝ) → v = Emin) := by
  obtain ⟨q, d, m, v, hq, hd, hd0, hmm, hm0, hv, hv0, hs⟩ := simpModulus_spec log exp hr0 hr1 hm hE h2 hp
  refine ⟨v, hs, hv0, ?_, ?_⟩
  · have hq1 : (q : ℝ) ≤ 1 := mono_num (b := ⟨1, f.one⟩) hq f.fl_one (Real.rpow_le_one hr0 hr1 hp)
    have hd1 : (d : ℝ) ≤ E0 := mono_num hd (f.repr E0) (by linarith)
    have hm1 : (m : ℝ) ≤ d := mono_num hmm (f.repr d) (mul_le_of_le_one_right hd0 hq1)
    exact mono_num (b := ⟨2 * E0, h2⟩) hv (f.repr ⟨2 * E0, h2⟩) (by simp only; linarith)
  · intro hz hp0
    have e1 : q = f.zer := by
      rw [hz, Real.zero_rpow hp0.ne', fl_zero] at hq
      exact (WithTop.coe_injective (WithBot.coe_injective hq)).symm
    have e2 : m = f.zer := by
      rw [e1, show ((d : ℝ) * (f.zer : ℝ)) = 0 from mul_zero _, fl_zero] at hmm
      exact (WithTop.coe_injective (WithBot.coe_injective hmm)).symm
    rw [e2, show ((Emin : ℝ) + (f.zer : ℝ)) = Emin from add_zero _] at hv
    exact (WithTop.coe_injective (WithBot.coe_injective ((f.repr Emin).symm.trans hv))).symm

/-- **C137 (b)** The rounded SIMP modulus is monotone in the density. -/
theorem C137_simp_monotone {rho rho' E0 Emin p v v' : f.F} (hr0 : 0 ≤ (rho : ℝ)) (hle : (rho : ℝ) ≤ rho') (hr1 : (rho' : ℝ) ≤ 1)
    (hm : 0 ≤ (Emin : ℝ)) (hE : (Emin : ℝ) ≤ E0) (h2 : 2 * (E0 : ℝ) ∈ f.F) (hp : 0 ≤ (p : ℝ))
    (hv : simpModulus (f.arith log exp) (some (f.num rho)) (some (f.num E0)) (some (f.num Emin)) (some (f.num p)) = some (f.num v))
    (hv' : simpModulus (f.arith log exp) (some (f.num rho')) (some (f.num E0)) (some (f.num Emin)) (some (f.num p)) = some (f.num v')) :
    (v : ℝ) ≤ v' := by
  obtain ⟨q, d, m, w, hq, hd, hd0, hmm, hm0, hw, -, hs⟩ := simpModulus_spec log exp hr0 (hle.trans hr1) hm hE h2 hp
  obtain ⟨q', d', m', w', hq', hd', -, hmm', hm0', hw', -, hs'⟩ := simpModulus_spec log exp (hr0.trans hle) hr1 hm hE h2 hp
  have e : d = d' := WithTop.coe_injective (WithBot.coe_injective (hd.symm.trans hd'))
  subst e
  rw [hv] at hs
  rw [hv'] at hs'
  rw [WithTop.coe_injective (WithBot.coe_injective (Option.some.inj hs)), WithTop.coe_injective (WithBot.coe_injective (Option.some.inj hs'))]
  have g1 : (q : ℝ) ≤ q' := mono_num hq hq' (Real.rpow_le_rpow hr0 hle hp)
  have g2 : (m : ℝ) ≤ m' := mono_num hmm hmm' (mul_le_mul_of_nonneg_left g1 hd0)
  exact mono_num hw hw' (by linarith)

/-- The steps of the rounded RAMP law. -/
theorem rampModulus_spec {rho E0 Emin p : f.F} (hr0 : 0 ≤ (rho : ℝ)) (hr1 : (rho : ℝ) ≤ 1) (hm : 0 ≤ (Emin : ℝ)) (hE : (Emin : ℝ) ≤ E0)
    (h2 : 2 * (E0 : ℝ) ∈ f.F) (hp : 0 ≤ (p : ℝ)) {M : ℝ} (hM : M ∈ f.F) (hpM : 1 + (p : ℝ) ≤ M) :
    ∃ a b c q d m v : f.F, f.fl (1 - (rho : ℝ)) = f.num a ∧ f.fl ((p : ℝ) * a) = f.num b ∧ f.fl (1 + (b : ℝ)) = f.num c ∧ 1 ≤ (c : ℝ) ∧
      f.fl ((rho : ℝ) / c) = f.num q ∧ f.fl ((E0 : ℝ) - Emin) = f.num d ∧ 0 ≤ (d : ℝ) ∧ f.fl ((d : ℝ) * q) = f.num m ∧
      f.fl ((Emin : ℝ) + m) = f.num v ∧ (Emin : ℝ) ≤ v ∧ (v : ℝ) ≤ 2 * E0 ∧
      rampModulus (f.arith log exp) (some (f.num rho)) (some (f.num E0)) (some (f.num Emin)) (some (f.num p)) = some (f.num v) := by
  obtain ⟨a, ha, ha0, ha1⟩ := f.fl_between f.zero f.one (r := 1 - (rho : ℝ)) (by linarith) (by linarith)
  obtain ⟨b, hb, hb0, hb1⟩ := f.fl_between f.zero p.2 (r := (p : ℝ) * a) (by positivity) (mul_le_of_le_one_right hp ha1)
  obtain ⟨c, hc, hc0, -⟩ := f.fl_between f.one hM (r := 1 + (b : ℝ)) (by linarith) (by linarith)
  have hcp : 0 < (c : ℝ) := by linarith
  obtain ⟨q, hq, hq0, hq1⟩ := f.fl_between f.zero f.one (r := (rho : ℝ) / c) (by positivity) ((div_le_one hcp).mpr (by linarith))
  obtain ⟨d, hd, hd0, hd1⟩ := f.fl_between f.zero E0.2 (r := (E0 : ℝ) - Emin) (by linarith) (by linarith)
  obtain ⟨m, hmm, hm0, hm1⟩ := f.fl_between f.zero d.2 (r := (d : ℝ) * q) (by positivity) (mul_le_of_le_one_right hd0 hq1)
  obtain ⟨v, hv, hv0, hv1⟩ := f.fl_between Emin.2 h2 (r := (Emin : ℝ) + m) (by linarith) (by linarith)
  refine ⟨a, b, c, q, d, m, v, ha, hb, hc, hc0, hq, hd, hd0, hmm, hv, hv0, hv1, ?_⟩
  have k : f.sub (some (f.fl ((1 : ℚ) : ℝ))) (some (f.num rho)) = some (f.num a) := by
    rw [Rat.cast_one, fl_one, sub_num]; simp only; rw [ha]
  have k2 : f.add (some (f.fl ((1 : ℚ) : ℝ))) (some (f.num b)) = some (f.num c) := by
    rw [Rat.cast_one, fl_one, add_num]; simp only; rw [hc]
  show f.add (some (f.num Emin)) (f.mul (f.sub (some (f.num E0)) (some (f.num Emin))) (f.div (some (f.num rho))
    (f.add (some (f.fl ((1 : ℚ) : ℝ))) (f.mul (some (f.num p)) (f.sub (some (f.fl ((1 : ℚ) : ℝ))) (some (f.num rho))))))) = _
  rw [k, mul_num, hb, k2, div_num _ _ _ hcp.ne', hq, sub_num, hd, mul_num, hmm, add_num, hv]

/-- **C137 (c)** The rounded RAMP modulus of a density in `[0, 1]` is a finite number between `Emin` and `2 E0`, exactly `Emin` at density 0,
and monotone in the density, for every `p ≥ 0` for which `1 + p` does not overflow. -/
theorem C137_ramp_modulus {rho E0 Emin p : f.F} (hr0 : 0 ≤ (rho : ℝ)) (hr1 : (rho : ℝ) ≤ 1) (hm : 0 ≤ (Emin : ℝ)) (hE : (Emin : ℝ) ≤ E0)
    (h2 : 2 * (E0 : ℝ) ∈ f.F) (hp : 0 ≤ (p : ℝ)) {M : ℝ} (hM : M ∈ f.F) (hpM : 1 + (p : ℝ) ≤ M) :
    ∃ v : f.F, rampModulus (f.arith log exp) (some (f.num rho)) (some (f.num E0)) (some (f.num Emin)) (some (f.num p)) = some (f.num v) ∧
      (Emin : ℝ) ≤ v ∧ (v : ℝ) ≤ 2 * E0 ∧ ((rho : ℝ) = 0 → v = Emin) ∧
      ∀ rho' v' : f.F, (rho : ℝ) ≤ rho' → (rho' : ℝ) ≤ 1 →
        rampModulus (f.arith log exp) (some (f.num rho')) (some (f.num E0)) (some (f.num Emin)) (some (f.num p)) = some (f.num v') →
        (v : ℝ) ≤ v' := by
  obtain ⟨a, b, c, q, d, m, v, ha, hb, hc, hc0, hq, hd, hd0, hmm, hv, hv0, hv1, hs⟩ := rampModulus_spec log exp hr0 hr1 hm hE h2 hp hM hpM
  refine ⟨v, hs, hv0, hv1, ?_, ?_⟩
  · intro hz
    have e1 : q = f.zer := by
      rw [hz, zero_div, fl_zero] at hq
      exact (WithTop.coe_injective (WithBot.coe_injective hq)).symm
    have e2 : m = f.zer := by
      rw [e1, show ((d : ℝ) * (f.zer : ℝ)) = 0 from mul_zero _, fl_zero] at hmm
      exact (WithTop.coe_injective (WithBot.coe_injective hmm)).symm
    rw [e2, show ((Emin : ℝ) + (f.zer : ℝ)) = Emin from add_zero _] at hv
    exact (WithTop.coe_injective (WithBot.coe_injective ((f.repr Emin).symm.trans hv))).symm
  · intro rho' v' hle hr1' hv'
    obtain ⟨a', b', c', q', d', m', w', ha', hb', hc', hc0', hq', hd', -, hmm', hw', -, -, hs'⟩ :=
      rampModulus_spec log exp (hr0.trans hle) hr1' hm hE h2 hp hM hpM
    have e : d = d' := WithTop.coe_injective (WithBot.coe_injective (hd.symm.trans hd'))
    subst e
    rw [hv'] at hs'
    rw [WithTop.coe_injective (WithBot.coe_injective (Option.some.inj hs'))]
    have g1 : (a' : ℝ) ≤ a := mono_num ha' ha (by linarith)
    have g2 : (b' : ℝ) ≤ b := mono_num hb' hb (mul_le_mul_of_nonneg_left g1 hp)
    have g3 : (c' : ℝ) ≤ c := mono_num hc' hc (by linarith)
    have g4 : (q : ℝ) ≤ q' := mono_num hq hq' (div_le_div₀ (hr0.trans hle) hle (by linarith) g3)
    have g5 : (m : ℝ) ≤ m' := mono_num hmm hmm' (mul_le_mul_of_nonneg_left g4 hd0)
    exact mono_num hv hw' (by linarith)

include hs in
theorem two_mem : (2 : ℝ) ∈ f.F := by
  rcases f.double 1 f.one zero_le_one with h2 | h2
  · rwa [mul_one] at h2
  · have := f.mono (by norm_num : (2 * 1 : ℝ) ≤ 4)
    rw [h2, show (4 : ℝ) = ((⟨4, hs.four⟩ : f.F) : ℝ) from rfl, f.repr] at this
    exact absurd (top_le_iff.mp this) (f.fin_num _).2

/-- A non-positive real number is rounded to a non-positive number or to minus infinity. -/
theorem fl_nonpos_cases {r : ℝ} (h : r ≤ 0) : f.fl r = ⊥ ∨ ∃ z : f.F, f.fl r = f.num z ∧ (z : ℝ) ≤ 0 := by
  have l := f.fl_nonpos h
  rcases f.num_cases (f.fl r) with e | e | ⟨z, e⟩
  · exact Or.inl e
  · rw [e] at l; exact absurd l (not_le.mpr f.zero_lt_top)
  · rw [e, num_le_zero] at l
    exact Or.inr ⟨z, e, l⟩

include hs in
/-- **C137 (d)** The rounded SIMP sensitivity of an element is never NaN and never positive: density in `[0, 1]`, energy `≥ 0`, `p ≥ 1`,
`0 ≤ Emin ≤ E0`, and neither `2 E0`, `2 energy` nor `p (E0 - Emin)` overflows. At worst it is minus infinity. -/
theorem C137_simp_sensitivity {rho energy E0 Emin p : f.F} (hr0 : 0 ≤ (rho : ℝ)) (hr1 : (rho : ℝ) ≤ 1) (he : 0 ≤ (energy : ℝ))
    (hm : 0 ≤ (Emin : ℝ)) (hE : (Emin : ℝ) ≤ E0) (h2 : 2 * (E0 : ℝ) ∈ f.F) (hp : 1 ≤ (p : ℝ)) (hen : 2 * (energy : ℝ) ∈ f.F)
    {M : ℝ} (hM : M ∈ f.F) (hpM : (p : ℝ) * E0 ≤ M) :
    ∃ v, simpSensitivity (f.arith log exp) (some (f.num rho)) (some (f.num energy)) (some (f.num E0)) (some (f.num Emin)) (some (f.num p)) = some v ∧
      v ≤ f.fl 0 := by
  obtain ⟨d, hd, hd0, hd1⟩ := f.fl_between f.zero E0.2 (r := (E0 : ℝ) - Emin) (by linarith) (by linarith)
  obtain ⟨pd, hpd, hpd0, -⟩ := f.fl_between f.zero hM (r := (p : ℝ) * d) (by positivity)
    ((mul_le_mul_of_nonneg_left hd1 (by linarith)).trans hpM)
  obtain ⟨p1, hp1, hp10, -⟩ := f.fl_between f.zero p.2 (r := (p : ℝ) - 1) (by linarith) (by linarith)
  obtain ⟨e6, h6, h60, h61⟩ := f.fl_between f.zero f.one (r := 1 / 10 ^ 6) (by positivity) (by norm_num)
  obtain ⟨e12, h12, h120, -⟩ := lit_eps (f := f)
  -- the density with its floor
  obtain ⟨x, hx, hx0, hx1⟩ : ∃ x : f.F, max (f.num rho) (f.num e6) = f.num x ∧ 0 ≤ (x : ℝ) ∧ (x : ℝ) ≤ 1 := by
    rcases le_total (f.num rho) (f.num e6) with h | h
    · exact ⟨e6, max_eq_right h, h60, h61⟩
    · exact ⟨rho, max_eq_left h, hr0, hr1⟩
  obtain ⟨w, hw, hw0, hw1⟩ := f.fl_between f.zero f.one (Real.rpow_nonneg hx0 p1) (Real.rpow_le_one hx0 hx1 hp10)
  obtain ⟨dE, hdE, hdE0, -⟩ := f.fl_between f.zero pd.2 (r := (pd : ℝ) * w) (by positivity) (mul_le_of_le_one_right hpd0 hw1)
  obtain ⟨q, d', m, E, hq, hd', -, hmm, hm0, hv, hE0', hS⟩ := simpModulus_spec log exp hx0 hx1 hm hE h2 (by linarith : 0 ≤ (p : ℝ))
  have ed : d = d' := WithTop.coe_injective (WithBot.coe_injective (hd.symm.trans hd'))
  subst ed
  obtain ⟨D, hD, hD0⟩ : ∃ D : f.F, max (f.num E) (f.num e12) = f.num D ∧ 0 < (D : ℝ) := by
    rcases le_total (f.num E) (f.num e12) with h | h
    · exact ⟨e12, max_eq_right h, h120⟩
    · exact ⟨E, max_eq_left h, h120.trans_le (f.num_le.mp h)⟩
  have n2 : (-2 : ℝ) ∈ f.F := f.neg 2 (two_mem hs)
  have l2 : f.fl ((-2 : ℚ) : ℝ) = f.num ⟨-2, n2⟩ := by
    rw [show ((-2 : ℚ) : ℝ) = -2 by norm_num]; exact f.repr ⟨-2, n2⟩
  have hU : f.fl (((⟨-2, n2⟩ : f.F) : ℝ) * energy) = f.num ⟨-(2 * energy), f.neg _ hen⟩ := by
    rw [show ((⟨-2, n2⟩ : f.F) : ℝ) * energy = -(2 * energy) by simp only; ring]
    exact f.repr ⟨-(2 * energy), f.neg _ hen⟩
  have l6 : f.fl ((1 / 10 ^ 6 : ℚ) : ℝ) = f.num e6 := by rw [← h6]; congr 1; norm_num
  have l12 : f.fl ((1 / 10 ^ 12 : ℚ) : ℝ) = f.num e12 := by rw [← h12]; congr 1; norm_num
  have lx : maximum (some (f.num rho)) (some (f.fl ((1 / 10 ^ 6 : ℚ) : ℝ))) = some (f.num x) := by
    rw [l6]; exact congrArg some hx
  have lD : maximum (some (f.num E)) (some (f.fl ((1 / 10 ^ 12 : ℚ) : ℝ))) = some (f.num D) := by
    rw [l12]; exact congrArg some hD
  have lp1 : f.sub (some (f.num p)) (some (f.fl ((1 : ℚ) : ℝ))) = some (f.num p1) := by
    rw [Rat.cast_one, fl_one, sub_num]; simp only; rw [hp1]
  have lE : f.add (some (f.num Emin)) (f.mul (some (f.num d)) (f.pow (some (f.num x)) (some (f.num p)))) = some (f.num E) := by
    rw [pow_num _ _ hx0 (by linarith), hq, mul_num, hmm, add_num, hv]
  have key : simpSensitivity (f.arith log exp) (some (f.num rho)) (some (f.num energy)) (some (f.num E0)) (some (f.num Emin)) (some (f.num p)) =
      f.div (some (f.fl (((⟨-(2 * energy), f.neg _ hen⟩ : f.F) : ℝ) * dE))) (some (f.num D)) := by
    show f.div (f.mul (f.mul (some (f.fl ((-2 : ℚ) : ℝ))) (some (f.num energy)))
      (f.mul (f.mul (some (f.num p)) (f.sub (some (f.num E0)) (some (f.num Emin))))
        (f.pow (maximum (some (f.num rho)) (some (f.fl ((1 / 10 ^ 6 : ℚ) : ℝ)))) (f.sub (some (f.num p)) (some (f.fl ((1 : ℚ) : ℝ)))))))
      (maximum (f.add (some (f.num Emin)) (f.mul (f.sub (some (f.num E0)) (some (f.num Emin)))
        (f.pow (maximum (some (f.num rho)) (some (f.fl ((1 / 10 ^ 6 : ℚ) : ℝ)))) (some (f.num p))))) (some (f.fl ((1 / 10 ^ 12 : ℚ) : ℝ)))) = _
    rw [lx, lp1, sub_num, hd, lE, lD, l2, mul_num, hU, mul_num, hpd, pow_num _ _ hx0 hp10, hw, mul_num, hdE, mul_num]
  rw [key]
  rcases fl_nonpos_cases (f := f) (r := ((⟨-(2 * energy), f.neg _ hen⟩ : f.F) : ℝ) * dE)
    (by simp only; nlinarith [mul_nonneg he hdE0]) with h | ⟨z, h, hz⟩
  · refine ⟨⊥, ?_, f.bot_lt_zero.le⟩
    rw [h]
    show some (if 0 ≤ (D : ℝ) then (⊥ : f.Num) else _) = _
    rw [if_pos hD0.le]
  · refine ⟨f.fl ((z : ℝ) / D), ?_, f.fl_nonpos (div_nonpos_of_nonpos_of_nonneg hz hD0.le)⟩
    rw [h, div_num _ _ _ hD0.ne']

end

/-! ### A format and a library that meet the hypotheses -/

/-- The rounded real `tanh`. -/
def libTanh (f : Format) : Flt f.Num → Flt f.Num
  | none => none
  | some none => some (f.fl (-1))
  | some (some none) => some (f.fl 1)
  | some (some (some x)) => some (f.fl (Real.tanh x))

/-- The rounded real `cosh`. -/
def libCosh (f : Format) : Flt f.Num → Flt f.Num
  | none => none
  | some none => some ⊤
  | some (some none) => some ⊤
  | some (some (some x)) => some (f.fl (Real.cosh x))

theorem tanh_abs_le (x : ℝ) : -1 ≤ Real.tanh x ∧ Real.tanh x ≤ 1 := by
  have h := one_sub_tanh_sq x
  have h2 : 0 ≤ (Real.cosh x ^ 2)⁻¹ := by positivity
  constructor <;> nlinarith

theorem fl_neg_one : f.fl (-1) = f.num ⟨-1, f.neg 1 f.one⟩ := f.repr ⟨-1, f.neg 1 f.one⟩

include hs in
theorem fairTanh_lib : FairTanh f (libTanh f) where
  value := by
    intro a
    rcases f.num_cases a with rfl | rfl | ⟨x, rfl⟩
    · exact ⟨⟨-1, f.neg 1 f.one⟩, congrArg some fl_neg_one, le_rfl, by norm_num⟩
    · exact ⟨⟨1, f.one⟩, congrArg some f.fl_one, by norm_num, le_rfl⟩
    · obtain ⟨z, hz, h1, h2⟩ := f.fl_between (f.neg 1 f.one) f.one (tanh_abs_le x).1 (tanh_abs_le x).2
      exact ⟨z, congrArg some hz, h1, h2⟩
  mono := by
    intro a b c d hab hc hd
    have key : ∀ a, ∃ r : ℝ, libTanh f (some a) = some (f.fl r) ∧ -1 ≤ r ∧ r ≤ 1 ∧ (a = ⊥ → r = -1) ∧ (a = ⊤ → r = 1) ∧
        ∀ x, a = f.num x → r = Real.tanh x := by
      intro a
      rcases f.num_cases a with rfl | rfl | ⟨x, rfl⟩
      · exact ⟨-1, rfl, le_rfl, by norm_num, fun _ => rfl, fun h => (nomatch h), fun x h => absurd h.symm (f.fin_num x).1⟩
      · exact ⟨1, rfl, by norm_num, le_rfl, fun h => (nomatch h), fun _ => rfl, fun x h => absurd h.symm (f.fin_num x).2⟩
      · exact ⟨Real.tanh x, rfl, (tanh_abs_le x).1, (tanh_abs_le x).2, fun h => absurd h (f.fin_num x).1, fun h => absurd h (f.fin_num x).2,
          fun y h => by rw [WithTop.coe_injective (WithBot.coe_injective h)]⟩
    obtain ⟨r, h1, hl, hu, hb, ht, hn⟩ := key a
    obtain ⟨r', h1', hl', hu', hb', ht', hn'⟩ := key b
    rw [h1] at hc
    rw [h1'] at hd
    rw [← Option.some.inj hc, ← Option.some.inj hd]
    refine f.mono ?_
    rcases f.num_cases a with e | e | ⟨x, e⟩
    · rw [hb e]; exact hl'
    · rw [ht' (top_le_iff.mp (e ▸ hab))]; exact hu
    · rcases f.num_cases b with e' | e' | ⟨y, e'⟩
      · rw [e'] at hab
        exact absurd (e ▸ le_bot_iff.mp hab : f.num x = ⊥) (f.fin_num x).1
      · rw [ht' e']; exact hu
      · rw [hn x e, hn' y e']
        rw [e, e', num_le] at hab
        exact tanh_strictMono.monotone hab
  odd := by
    intro a c hc
    rcases f.num_cases a with rfl | rfl | ⟨x, rfl⟩
    · rw [← Option.some.inj (show some (f.fl (-1)) = some c from hc)]
      show some (f.fl 1) = _
      rw [hs.odd 1, fl_one, negate_num, negate_num]
      simp only [neg_neg]
    · rw [← Option.some.inj (show some (f.fl 1) = some c from hc)]
      show some (f.fl (-1)) = _
      rw [hs.odd 1]
    · rw [← Option.some.inj (show some (f.fl (Real.tanh x)) = some c from hc), negate_num]
      show some (f.fl (Real.tanh (-(x : ℝ)))) = _
      rw [Real.tanh_neg, hs.odd]

theorem fairCosh_lib : FairCosh f (libCosh f) := by
  intro a
  rcases f.num_cases a with rfl | rfl | ⟨x, rfl⟩
  · exact ⟨⊤, rfl, le_top⟩
  · exact ⟨⊤, rfl, le_top⟩
  · exact ⟨_, rfl, f.mono (Real.one_le_cosh x)⟩

/-- Change of sign of a double. -/
def dneg : WithBot (WithTop doubles) → WithBot (WithTop doubles)
  | none => ⊤
  | some none => ⊥
  | some (some x) => (((⟨-x, by
      obtain ⟨m, e, h1, h2, h3, hx⟩ := x.2
      exact ⟨-m, e, by rwa [abs_neg], h2, h3, by rw [hx]; push_cast; ring⟩⟩ : doubles) : WithTop doubles) : WithBot (WithTop doubles))

theorem dcases (a : WithBot (WithTop doubles)) : a = ⊥ ∨ a = ⊤ ∨ ∃ x : doubles, a = ((x : WithTop doubles) : WithBot (WithTop doubles)) := by
  rcases a with _ | _ | x
  · exact Or.inl rfl
  · exact Or.inr (Or.inl rfl)
  · exact Or.inr (Or.inr ⟨x, rfl⟩)

theorem dneg_dneg (a : WithBot (WithTop doubles)) : dneg (dneg a) = a := by
  rcases dcases a with rfl | rfl | ⟨x, rfl⟩
  · rfl
  · rfl
  · exact congrArg (fun y : doubles => ((y : WithTop doubles) : WithBot (WithTop doubles))) (Subtype.ext (neg_neg (x : ℝ)))

theorem dneg_anti {a b : WithBot (WithTop doubles)} (hab : a ≤ b) : dneg b ≤ dneg a := by
  rcases dcases a with rfl | rfl | ⟨x, rfl⟩
  · exact le_top
  · rw [top_le_iff.mp hab]
  · rcases dcases b with rfl | rfl | ⟨y, rfl⟩
    · exact absurd (le_bot_iff.mp hab) WithBot.coe_ne_bot
    · exact bot_le
    · have h1 : (x : ℝ) ≤ y := by
        have := WithTop.coe_le_coe.mp (WithBot.coe_le_coe.mp hab)
        exact this
      exact WithBot.coe_le_coe.mpr (WithTop.coe_le_coe.mpr (show -(y : ℝ) ≤ -(x : ℝ) from neg_le_neg h1))

theorem negate_eq_dneg {fl : ℝ → WithBot (WithTop doubles)} (h : DoubleRounding fl) (a : WithBot (WithTop doubles)) :
    (doubleFormat fl h).negate a = dneg a := by
  rcases dcases a with rfl | rfl | ⟨x, rfl⟩
  · rfl
  · rfl
  · exact (doubleFormat fl h).negate_num x

/-- A rounding to doubles that commutes with the change of sign exists (toward zero, say). -/
theorem exists_symmetric : ∃ fl, ∃ h : DoubleRounding fl, (doubleFormat fl h).Symmetric := by
  obtain ⟨g, hg⟩ := exists_doubleRounding
  have m0 : (0 : ℝ) ∈ doubles := ⟨0, 0, by norm_num, by norm_num, by norm_num, by simp⟩
  have nz : dneg (g 0) = g 0 := by
    rw [show g 0 = _ from hg.repr ⟨0, m0⟩]
    exact congrArg (fun y : doubles => ((y : WithTop doubles) : WithBot (WithTop doubles))) (Subtype.ext neg_zero)
  obtain ⟨fl, hfl⟩ : ∃ fl : ℝ → WithBot (WithTop doubles), ∀ x, fl x = if 0 ≤ x then g x else dneg (g (-x)) := ⟨_, fun _ => rfl⟩
  have h : DoubleRounding fl := by
    refine ⟨?_, ?_, ?_⟩
    · intro x y hxy
      rw [hfl, hfl]
      by_cases hx : 0 ≤ x
      · rw [if_pos hx, if_pos (hx.trans hxy)]; exact hg.mono hxy
      · rw [if_neg hx]
        have hx' := (not_le.mp hx).le
        by_cases hy : 0 ≤ y
        · rw [if_pos hy]
          refine (dneg_anti (hg.mono (by linarith : (0 : ℝ) ≤ -x))).trans ?_
          rw [nz]; exact hg.mono hy
        · rw [if_neg hy]
          exact dneg_anti (hg.mono (by linarith))
    · intro x
      rw [hfl]
      by_cases hx : 0 ≤ (x : ℝ)
      · rw [if_pos hx]; exact hg.repr x
      · rw [if_neg hx]
        have m1 : -(x : ℝ) ∈ doubles := (doubleFormat g hg).neg x x.2
        rw [show g (-(x : ℝ)) = _ from hg.repr ⟨-x, m1⟩]
        exact congrArg (fun y : doubles => ((y : WithTop doubles) : WithBot (WithTop doubles))) (Subtype.ext (neg_neg (x : ℝ)))
    · intro x hx
      have : (0 : ℝ) ≤ x := le_trans (by positivity) hx
      rw [hfl, if_pos this]; exact hg.over x hx
  refine ⟨fl, h, ?_, ?_⟩
  · intro x
    refine Eq.trans ?_ (negate_eq_dneg h (fl x)).symm
    show fl (-x) = dneg (fl x)
    rw [hfl, hfl, neg_neg]
    rcases lt_trichotomy x 0 with hx | rfl | hx
    · rw [if_pos (by linarith), if_neg (not_le.mpr hx), dneg_dneg]
    · rw [if_pos (by norm_num), if_pos le_rfl, neg_zero, nz]
    · rw [if_neg (by linarith), if_pos hx.le]
  · exact ⟨4, 0, by norm_num, by norm_num, by norm_num, by norm_num⟩

theorem int_mem {fl : ℝ → WithBot (WithTop doubles)} (h : DoubleRounding fl) (k : ℕ) (hk : k < 2 ^ 53) : (k : ℝ) ∈ (doubleFormat fl h).F :=
  ⟨k, 0, by rw [abs_of_nonneg (by positivity)]; exact_mod_cast hk, by norm_num, by norm_num, by simp⟩

/-- Case: the projection of density 1/2 for `beta = 8`, `eta = 1/2` in double precision. -/
example : ∃ fl, ∃ h : DoubleRounding fl, ∃ v : (doubleFormat fl h).F,
    project ((doubleFormat fl h).arith id id) (libTanh (doubleFormat fl h)) (some (fl (1 / 2))) (some (fl 8)) (some (fl (1 / 2))) =
      some ((doubleFormat fl h).num v) ∧ 0 ≤ (v : ℝ) ∧ (v : ℝ) ≤ 1 := by
  obtain ⟨fl, h, hs⟩ := exists_symmetric
  have h8 : ((8 : ℕ) : ℝ) ∈ (doubleFormat fl h).F := int_mem h 8 (by norm_num)
  obtain ⟨v, hv, h0, h1, -⟩ := C136_projection_unit hs id id _ (fairTanh_lib hs) (rho := ⟨1 / 2, (doubleFormat fl h).half⟩) (beta := ⟨_, h8⟩)
    (eta := ⟨1 / 2, (doubleFormat fl h).half⟩) (by norm_num) (by norm_num) (by norm_num) (by norm_num) (by norm_num)
  refine ⟨fl, h, v, ?_, h0, h1⟩
  rw [← hv]
  have e1 : fl (1 / 2) = (doubleFormat fl h).num ⟨1 / 2, (doubleFormat fl h).half⟩ := h.repr ⟨1 / 2, (doubleFormat fl h).half⟩
  have e2 : fl 8 = (doubleFormat fl h).num ⟨_, h8⟩ := by
    rw [show (8 : ℝ) = ((8 : ℕ) : ℝ) by norm_num]; exact h.repr ⟨_, h8⟩
  rw [e1, e2]

/-- Case: the derivative of the projection at density 1 for the steep `beta = 4096`, where `cosh` overflows. -/
example : ∃ fl, ∃ h : DoubleRounding fl, ∃ v, projectDeriv ((doubleFormat fl h).arith id id) (libTanh (doubleFormat fl h))
    (libCosh (doubleFormat fl h)) (some (fl 1)) (some (fl ((4096 : ℕ) : ℝ))) (some (fl (1 / 2))) = some v ∧ fl 0 ≤ v := by
  obtain ⟨fl, h, hs⟩ := exists_symmetric
  have h8 : ((4096 : ℕ) : ℝ) ∈ (doubleFormat fl h).F := int_mem h 4096 (by norm_num)
  obtain ⟨v, hv, h0⟩ := C136_derivative_nonneg hs id id _ _ (fairTanh_lib hs) fairCosh_lib (rho := ⟨1, (doubleFormat fl h).one⟩) (beta := ⟨_, h8⟩)
    (eta := ⟨1 / 2, (doubleFormat fl h).half⟩) (by norm_num) (by norm_num) (by norm_num) (by norm_num) (by norm_num)
  refine ⟨fl, h, v, ?_, h0⟩
  rw [← hv]
  have e1 : fl (1 / 2) = (doubleFormat fl h).num ⟨1 / 2, (doubleFormat fl h).half⟩ := h.repr ⟨1 / 2, (doubleFormat fl h).half⟩
  have e2 : fl ((4096 : ℕ) : ℝ) = (doubleFormat fl h).num ⟨_, h8⟩ := h.repr ⟨_, h8⟩
  have e3 : fl 1 = (doubleFormat fl h).num ⟨1, (doubleFormat fl h).one⟩ := h.repr ⟨1, (doubleFormat fl h).one⟩
  rw [e1, e2, e3]

/-- Case: steel, `E0 = 210000`, `Emin = 1`, `p = 3`, density 1/2, energy 7. -/
example : ∃ fl, ∃ h : DoubleRounding fl, ∃ v, simpSensitivity ((doubleFormat fl h).arith id id) (some (fl (1 / 2))) (some (fl ((7 : ℕ) : ℝ)))
    (some (fl ((210000 : ℕ) : ℝ))) (some (fl 1)) (some (fl ((3 : ℕ) : ℝ))) = some v ∧ v ≤ fl 0 := by
  obtain ⟨fl, h, hs⟩ := exists_symmetric
  have n : ∀ k : ℕ, k < 2 ^ 53 → (k : ℝ) ∈ (doubleFormat fl h).F := int_mem h
  obtain ⟨v, hv, h0⟩ := C137_simp_sensitivity hs id id (rho := ⟨1 / 2, (doubleFormat fl h).half⟩) (energy := ⟨_, n 7 (by norm_num)⟩)
    (E0 := ⟨_, n 210000 (by norm_num)⟩) (Emin := ⟨1, (doubleFormat fl h).one⟩) (p := ⟨_, n 3 (by norm_num)⟩) (by norm_num) (by norm_num)
    (by norm_num) (by norm_num) (by norm_num) (by have := n 420000 (by norm_num); norm_num at this ⊢; exact this) (by norm_num)
    (by have := n 14 (by norm_num); norm_num at this ⊢; exact this) (n 630000 (by norm_num)) (by norm_num)
  refine ⟨fl, h, v, ?_, h0⟩
  rw [← hv]
  have e1 : fl (1 / 2) = (doubleFormat fl h).num ⟨1 / 2, (doubleFormat fl h).half⟩ := h.repr ⟨1 / 2, (doubleFormat fl h).half⟩
  have e2 : ∀ (k : ℕ) (hk : k < 2 ^ 53), fl (k : ℝ) = (doubleFormat fl h).num ⟨_, n k hk⟩ := fun k hk => h.repr ⟨_, n k hk⟩
  have e3 : fl 1 = (doubleFormat fl h).num ⟨1, (doubleFormat fl h).one⟩ := h.repr ⟨1, (doubleFormat fl h).one⟩
  rw [e1, e2 7 (by norm_num), e2 210000 (by norm_num), e2 3 (by norm_num), e3]

end
end Verif.Spec.Format
