import Verif.Lemmas.Projection

/-! Property theorems C22, C23: Heaviside projection. -/
namespace Verif.Props
open Verif Verif.Projection

/-- **C22 (a)** For every sharpness `beta > 0` and every threshold, the projection maps `[0,1]` into `[0,1]`, is
strictly increasing on all of `ℝ`, and sends 0 to exactly 0. -/
theorem C22_heaviside_range_and_monotone (beta eta : ℝ) (hb : 0 < beta) :
    (∀ r, 0 ≤ r → r ≤ 1 → 0 ≤ heaviside r beta eta ∧ heaviside r beta eta ≤ 1) ∧
    (∀ r s, r < s → heaviside r beta eta < heaviside s beta eta) ∧ heaviside 0 beta eta = 0 := by
  refine ⟨fun r h0 h1 => ⟨?_, ?_⟩, fun r s h => heaviside_strictMono hb eta h, heaviside_zero beta eta⟩
  · have := heaviside_mono hb.le eta h0
    simpa only [heaviside_zero] using this
  · exact (heaviside_mono hb.le eta h1).trans (heaviside_one_lt hb.le eta).le

/-- **C22 (b)** Full density is never mapped to exactly 1 (the `1e-12` regulariser), but to within
`1e-12 / (tanh(beta eta) + tanh(beta (1 - eta)))` of it. -/
theorem C22_heaviside_one (beta eta : ℝ) (hb : 0 < beta) :
    heaviside 1 beta eta < 1 ∧
    1 - heaviside 1 beta eta ≤ (1 / 10 ^ 12) / (Real.tanh (beta * eta) + Real.tanh (beta * (1 - eta))) := by
  refine ⟨heaviside_one_lt hb.le eta, ?_⟩
  have hd := denom_pos hb eta
  have he := eps12_pos
  have hde := denom_eps_pos hb.le eta
  have : 1 - heaviside 1 beta eta =
      eps12 / (Real.tanh (beta * eta) + Real.tanh (beta * (1 - eta)) + eps12) := by
    unfold heaviside; simp only; rw [eq_div_iff hde.ne', sub_mul, div_mul_cancel₀ _ hde.ne']; ring
  rw [this]
  have : (1 / 10 ^ 12 : ℝ) = eps12 := rfl
  rw [this]
  exact div_le_div_of_nonneg_left he.le hd (by linarith)

/-- **C22 (c)** With `beta = 0` the projection degenerates: every density is mapped to 0. -/
theorem C22_heaviside_beta_zero (r eta : ℝ) : heaviside r 0 eta = 0 := by
  unfold heaviside; simp

example : (0 : ℝ) < 8 := by norm_num

/-- **C23 (a)** The derivative routine is the derivative of the projection at every real density. -/
theorem C23_derivative_correct (rho beta eta : ℝ) :
    HasDerivAt (fun r => heaviside r beta eta) (heavisideDeriv rho beta eta) rho :=
  hasDerivAt_heaviside rho beta eta

/-- **C23 (b)** The in-place variants compute the same numbers as the plain ones. -/
theorem C23_inplace_agree (rho beta eta : ℝ) :
    heavisideInplace rho beta eta = heaviside rho beta eta ∧
    heavisideDerivInplace rho beta eta = heavisideDeriv rho beta eta := by
  constructor
  · unfold heavisideInplace heaviside
    simp only [mul_comm (rho - eta) beta]
  · unfold heavisideDerivInplace heavisideDeriv
    simp only [mul_comm (rho - eta) beta, one_sub_tanh_sq]
    ring

/-- **C23 (c)** The derivative is positive for `beta > 0`, so chain-rule sensitivities keep their sign. -/
theorem C23_derivative_pos (rho beta eta : ℝ) (hb : 0 < beta) : 0 < heavisideDeriv rho beta eta := by
  unfold heavisideDeriv
  simp only
  have h1 := Real.tanh_sq_lt_one (beta * (rho - eta))
  exact div_pos (mul_pos hb (by linarith)) (denom_eps_pos hb.le eta)

example : heaviside 0 8 0.5 = 0 ∧ 0 < heavisideDeriv 0.3 8 0.5 :=
  ⟨(C22_heaviside_range_and_monotone 8 0.5 (by norm_num)).2.2, C23_derivative_pos _ _ _ (by norm_num)⟩

end Verif.Props
