import Verif.Lemmas.Material

/-! Property theorems C24 - C26: material interpolation and its sensitivities. -/
namespace Verif.Props
open Verif Verif.Material

/-- **C24 (a)** SIMP stays in `[E_min, E_0]` on densities in `[0,1]`, attains both ends, and is monotone. -/
theorem C24_simp_range_and_monotone (E0 Emin p : ℝ) (hE : Emin ≤ E0) (hp : 0 < p) :
    (∀ r, 0 ≤ r → r ≤ 1 → Emin ≤ simp r E0 Emin p ∧ simp r E0 Emin p ≤ E0) ∧
    (∀ r s, 0 ≤ r → r ≤ s → simp r E0 Emin p ≤ simp s E0 Emin p) ∧
    simp 0 E0 Emin p = Emin ∧ simp 1 E0 Emin p = E0 := by
  have hd : 0 ≤ E0 - Emin := by linarith
  refine ⟨fun r h0 h1 => ⟨?_, ?_⟩, fun r s h0 h => ?_, ?_, ?_⟩
  · unfold simp
    have := mul_nonneg hd (Real.rpow_nonneg h0 p); linarith
  · unfold simp
    have := mul_le_mul_of_nonneg_left (Real.rpow_le_one h0 h1 hp.le) hd; linarith
  · unfold simp
    have := mul_le_mul_of_nonneg_left (Real.rpow_le_rpow h0 h hp.le) hd; linarith
  · unfold simp; rw [Real.zero_rpow hp.ne']; ring
  · unfold simp; rw [Real.one_rpow]; ring

/-- **C24 (b)** A larger penalty never raises the modulus of an intermediate density (continuation in `p` only
softens intermediate material). -/
theorem C24_simp_antitone_in_penalty (E0 Emin p q r : ℝ) (hE : Emin ≤ E0) (hp : 0 < p) (hpq : p ≤ q)
    (h0 : 0 ≤ r) (h1 : r ≤ 1) : simp r E0 Emin q ≤ simp r E0 Emin p := by
  have hd : 0 ≤ E0 - Emin := by linarith
  have : r ^ q ≤ r ^ p := by
    rcases h0.eq_or_lt with rfl | h0'
    · rw [Real.zero_rpow hp.ne', Real.zero_rpow (by linarith)]
    · exact Real.rpow_le_rpow_of_exponent_ge h0' h1 hpq
  unfold simp
  have := mul_le_mul_of_nonneg_left this hd
  linarith

/-- **C24 (c)** The modulus used in the sensitivity code agrees with the one used in the analysis for every density
above the `1e-6` floor, and below it differs by at most `(E_0 - E_min) (1e-6)^p`. -/
theorem C24_sensitivity_modulus_agrees (E0 Emin p r : ℝ) (hE : Emin ≤ E0) (hp : 0 < p) (h0 : 0 ≤ r) :
    (1 / 10 ^ 6 ≤ r → eSimp r E0 Emin p = simp r E0 Emin p) ∧
    simp r E0 Emin p ≤ eSimp r E0 Emin p ∧
    eSimp r E0 Emin p ≤ simp r E0 Emin p + (E0 - Emin) * (1 / 10 ^ 6) ^ p := by
  have hd : 0 ≤ E0 - Emin := by linarith
  have hf := floor6_pos
  have h1 : 1 / 10 ^ 6 ≤ r → eSimp r E0 Emin p = simp r E0 Emin p := by
    intro h
    unfold eSimp simp; rw [max_eq_left]; exact h
  refine ⟨h1, ?_, ?_⟩
  · unfold eSimp simp
    have := Real.rpow_le_rpow h0 (le_max_left r floor6) hp.le
    have := mul_le_mul_of_nonneg_left this hd
    linarith
  · have hr := mul_nonneg hd (Real.rpow_nonneg h0 p)
    have hq := mul_nonneg hd (Real.rpow_nonneg hf.le p)
    rcases le_total floor6 r with h | h
    · rw [h1 h]
      have : (1 / 10 ^ 6 : ℝ) = floor6 := rfl
      rw [this]; linarith
    · unfold eSimp simp
      rw [max_eq_right h]
      have : (1 / 10 ^ 6 : ℝ) = floor6 := rfl
      rw [this]; linarith

/-- **C24 (d)** The Lamé parameters derived from a positive modulus are admissible for `0 ≤ nu < 1/2`: both
non-negative, the shear modulus positive. -/
theorem C24_lame_admissible (E nu : ℝ) (hE : 0 < E) (h0 : 0 ≤ nu) (h1 : nu < 1 / 2) :
    0 ≤ (lamMu E nu).1 ∧ 0 < (lamMu E nu).2 := by
  unfold lamMu
  constructor
  · apply div_nonneg (by positivity)
    apply mul_nonneg <;> linarith
  · apply div_pos hE; linarith

example : (0.1 : ℝ) ≤ 210 ∧ (0 : ℝ) < 3 ∧ (0 : ℝ) ≤ 0.5 ∧ (0.5 : ℝ) ≤ 1 := by norm_num

/-- **C25 (a)** `dE_drho_simp` is the derivative of the SIMP modulus used in the analysis at every density at or
above the `1e-6` floor. -/
theorem C25_simp_derivative (rho E0 Emin p : ℝ) (h : 1 / 10 ^ 6 ≤ rho) :
    HasDerivAt (fun r => simp r E0 Emin p) (dESimp rho E0 Emin p) rho := by
  have hf := floor6_pos
  have h' : floor6 ≤ rho := h
  have : dESimp rho E0 Emin p = p * (E0 - Emin) * rho ^ (p - 1) := by
    unfold dESimp; rw [max_eq_left h']
  rw [this]
  exact hasDerivAt_simp (by linarith)

/-- **C25 (b)** The compliance sensitivity never predicts that adding material increases compliance. -/
theorem C25_simp_sensitivity_nonpos (rho U E0 Emin p : ℝ) (hE : Emin ≤ E0) (hp : 0 ≤ p) (hU : 0 ≤ U) :
    dCSimp rho U E0 Emin p ≤ 0 := by
  unfold dCSimp dESimp
  simp only
  have hf := floor6_pos
  have h1 : 0 ≤ (max rho floor6) ^ (p - 1) := Real.rpow_nonneg (le_max_of_le_right hf.le) _
  have hm : 0 < max (eSimp rho E0 Emin p) floor12 := lt_max_of_lt_right floor12_pos
  have hd : 0 ≤ E0 - Emin := by linarith
  apply div_nonpos_of_nonpos_of_nonneg _ hm.le
  have : 0 ≤ U * (p * (E0 - Emin) * (max rho floor6) ^ (p - 1)) := by positivity
  nlinarith

/-- **C25 (c)** If the element strain energy handed to the sensitivity is that of the analysis, `U = E(rho) w` with `w`
the energy for unit modulus, then the sensitivity is `-2 w dE/drho`, the fixed-displacement derivative of
`-2 w E(rho)`. -/
theorem C25_simp_sensitivity_physical (rho w E0 Emin p : ℝ) (h : 1 / 10 ^ 6 ≤ rho)
    (hE : 1 / 10 ^ 12 ≤ simp rho E0 Emin p) :
    HasDerivAt (fun r => -(2 * w * simp r E0 Emin p)) (dCSimp rho (simp rho E0 Emin p * w) E0 Emin p) rho := by
  have hd := ((C25_simp_derivative rho E0 Emin p h).const_mul (2 * w)).neg
  refine hd.congr_deriv ?_
  have he : eSimp rho E0 Emin p = simp rho E0 Emin p := by
    unfold eSimp simp; rw [max_eq_left]; exact h
  have hpos : 0 < simp rho E0 Emin p := lt_of_lt_of_le (by positivity) hE
  have hE' : floor12 ≤ simp rho E0 Emin p := hE
  unfold dCSimp
  simp only
  rw [he, max_eq_left hE']
  field_simp

example : (1 / 10 ^ 6 : ℝ) ≤ 0.5 ∧ (1 / 10 ^ 12 : ℝ) ≤ simp 0.5 210 0 1 := by
  refine ⟨by norm_num, ?_⟩
  unfold simp; norm_num

/-- **C26 (a)** The RAMP modulus used in the analysis: range, ends, monotonicity. -/
theorem C26_ramp_range_and_monotone (E0 Emin p : ℝ) (hE : Emin ≤ E0) (hp : 0 ≤ p) :
    (∀ r, 0 ≤ r → r ≤ 1 → Emin ≤ ramp r E0 Emin p ∧ ramp r E0 Emin p ≤ E0) ∧
    (∀ r s, 0 ≤ r → r ≤ s → s ≤ 1 → ramp r E0 Emin p ≤ ramp s E0 Emin p) ∧
    ramp 0 E0 Emin p = Emin ∧ ramp 1 E0 Emin p = E0 := by
  have hd : 0 ≤ E0 - Emin := by linarith
  refine ⟨fun r h0 h1 => ⟨?_, ?_⟩, fun r s h0 h h1 => ?_, ?_, ?_⟩
  · unfold ramp
    have := mul_nonneg hd (div_nonneg h0 (ramp_denom_pos h1 hp).le); linarith
  · unfold ramp
    have h2 : r / (1 + p * (1 - r)) ≤ 1 := by
      rw [div_le_one (ramp_denom_pos h1 hp)]
      nlinarith
    have := mul_le_mul_of_nonneg_left h2 hd; linarith
  · unfold ramp
    have h2 : r / (1 + p * (1 - r)) ≤ s / (1 + p * (1 - s)) := by
      rw [div_le_div_iff₀ (ramp_denom_pos (h.trans h1) hp) (ramp_denom_pos h1 hp)]
      nlinarith
    have := mul_le_mul_of_nonneg_left h2 hd; linarith
  · unfold ramp; simp
  · unfold ramp; simp

/-- **C26, negation** The RAMP derivative routine is not the derivative of the RAMP modulus: for every `p > 0`, every
density in `(0, 1]` and every `E_min ≠ E_0` the modulus has a derivative and the routine returns something else. -/
theorem C26_ramp_derivative_wrong (rho E0 Emin p : ℝ) (h0 : 0 < rho) (h1 : rho ≤ 1) (hp : 0 < p) (hE : Emin ≠ E0) :
    ∃ d, HasDerivAt (fun r => ramp r E0 Emin p) d rho ∧ dERamp rho E0 Emin p ≠ d := by
  have hden := ramp_denom_pos h1 hp.le
  refine ⟨_, hasDerivAt_ramp hden.ne', ?_⟩
  unfold dERamp
  simp only
  intro h
  rw [div_left_inj' (by positivity)] at h
  have h2 := mul_left_cancel₀ (sub_ne_zero.mpr hE.symm) h
  nlinarith

/-- **C26, negation of the sign claim** At full density and `p > 1` the routine has the wrong sign: it predicts that
adding material increases compliance whenever the element stores energy. -/
theorem C26_ramp_sensitivity_wrong_sign (U E0 Emin p : ℝ) (hp : 1 < p) (hE : Emin < E0) (hU : 0 < U) :
    dERamp 1 E0 Emin p < 0 ∧ 0 < dCRamp 1 U E0 Emin p := by
  have h1 : dERamp 1 E0 Emin p < 0 := by
    unfold dERamp
    simp only [sub_self, mul_zero, add_zero, mul_one, one_pow, div_one]
    nlinarith
  refine ⟨h1, ?_⟩
  unfold dCRamp
  simp only
  apply div_pos
  · nlinarith
  · exact lt_max_of_lt_right floor12_pos

/-- **C26, what does hold** (missing: the routine is not the derivative for `p > 0`, `rho > 0`): the exact error of the
routine; it vanishes only for void elements or `p = 0`. -/
theorem C26_ramp_derivative_partial (rho E0 Emin p : ℝ) (h1 : rho ≤ 1) (hp : 0 ≤ p) :
    HasDerivAt (fun r => ramp r E0 Emin p)
      (dERamp rho E0 Emin p + 2 * p * rho * (E0 - Emin) / (1 + p * (1 - rho)) ^ 2) rho := by
  have hden := ramp_denom_pos h1 hp
  refine (hasDerivAt_ramp hden.ne').congr_deriv ?_
  unfold dERamp
  simp only
  field_simp
  ring

/-- **C26 (b)** The in-place RAMP routines agree with the plain ones. -/
theorem C26_ramp_inplace_agree (rho U E0 Emin p : ℝ) :
    dERampInplace rho E0 Emin p = dERamp rho E0 Emin p ∧ dCRampInplace rho U E0 Emin p = dCRamp rho U E0 Emin p := by
  refine ⟨rfl, ?_⟩
  unfold dCRampInplace dCRamp dERampInplace dERamp
  simp only
  ring

/-- **C26 (e)** The modulus a RAMP sensitivity divides by is the modulus of the RAMP law: the sensitivity is minus twice the
energy times the derivative the code uses over the modulus of the composer, wherever that is at least `1e-12`. -/
theorem C26_ramp_same_modulus (rho U E0 Emin p : ℝ) (h : 1 / 10 ^ 12 ≤ ramp rho E0 Emin p) :
    dCRamp rho U E0 Emin p = -2 * U * dERamp rho E0 Emin p / ramp rho E0 Emin p := by
  have he : eRamp rho E0 Emin p = ramp rho E0 Emin p := rfl
  unfold dCRamp
  simp only [he]
  rw [max_eq_left (by unfold floor12; exact h)]

/-- **C26 (c)** The modulus law and the sensitivity selected for a run always belong together, and any other name is
rejected. -/
theorem C26_interpolation_selection (interp : String) :
    (interpolationFuncs "SIMP" = .ok (simp, dCSimp)) ∧ (interpolationFuncs "RAMP" = .ok (ramp, dCRamp)) ∧
    (interp ≠ "SIMP" → interp ≠ "RAMP" → interpolationFuncs interp = .error .valueError) := by
  refine ⟨by simp [interpolationFuncs], by simp [interpolationFuncs], fun h1 h2 => by simp [interpolationFuncs, h1, h2]⟩

/-- **C26 (d)** The environment variable `SCITOPT_SENSITIVITY_MODE` does not matter: unset, or set to one of the four names, whatever the
case and the blanks around it (`norm`), there is one mode; every other setting is rejected by the function that reads it
(`_sensitivity_mode`, which the pinned code never calls). -/
theorem C26_sensitivity_mode (norm : String → String) (hn : norm "current" = "current") (raw : String) :
    sensitivityMode norm none = .ok "current" ∧
    (norm raw = "current" ∨ norm raw = "default" ∨ norm raw = "physical" ∨ norm raw = "scaled" →
      sensitivityMode norm (some raw) = .ok "current") ∧
    (norm raw ≠ "current" ∧ norm raw ≠ "default" ∧ norm raw ≠ "physical" ∧ norm raw ≠ "scaled" →
      sensitivityMode norm (some raw) = .error .valueError) := by
  refine ⟨?_, fun h => ?_, fun h => ?_⟩
  · unfold sensitivityMode
    simp [hn]
  · unfold sensitivityMode
    simp only [Option.getD_some]
    rw [if_pos (by simpa using h)]
  · unfold sensitivityMode
    simp only [Option.getD_some]
    rw [if_neg (by simpa using h)]

/- Witness with ordinary parameters: rho = 1, p = 3, E0 = 210, Emin = 0. -/
example : dERamp 1 210 0 3 = -420 := by unfold dERamp; norm_num

end Verif.Props
