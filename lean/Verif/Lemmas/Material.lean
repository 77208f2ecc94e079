import Verif.Model.Material
import Mathlib.Analysis.SpecialFunctions.Pow.Deriv
import Mathlib.Tactic.Linarith
import Mathlib.Tactic.FieldSimp
import Mathlib.Tactic.Ring
import Mathlib.Tactic.Positivity
import Mathlib.Tactic.NormNum

/-! Helper lemmas for the material laws. -/
namespace Verif.Material

theorem floor6_pos : 0 < floor6 := by unfold floor6; positivity
theorem floor12_pos : 0 < floor12 := by unfold floor12; positivity

theorem hasDerivAt_simp {rho E0 Emin p : ℝ} (h : 0 < rho) :
    HasDerivAt (fun r => simp r E0 Emin p) (p * (E0 - Emin) * rho ^ (p - 1)) rho := by
  unfold simp
  have h1 := (Real.hasDerivAt_rpow_const (p := p) (Or.inl h.ne')).const_mul (E0 - Emin)
  have h2 := h1.const_add Emin
  exact h2.congr_deriv (by ring)

theorem hasDerivAt_ramp {rho E0 Emin p : ℝ} (h : 1 + p * (1 - rho) ≠ 0) :
    HasDerivAt (fun r => ramp r E0 Emin p) ((E0 - Emin) * (1 + p) / (1 + p * (1 - rho)) ^ 2) rho := by
  unfold ramp
  have hd : HasDerivAt (fun r : ℝ => 1 + p * (1 - r)) (-p) rho := by
    have := (((hasDerivAt_id rho).const_sub 1).const_mul p).const_add 1
    exact this.congr_deriv (by ring)
  have h1 := ((hasDerivAt_id rho).div hd h).const_mul (E0 - Emin)
  have h2 : HasDerivAt (fun r => Emin + (E0 - Emin) * (r / (1 + p * (1 - r)))) _ rho := h1.const_add Emin
  refine h2.congr_deriv ?_
  simp only [id]
  field_simp
  ring

theorem ramp_denom_pos {rho p : ℝ} (h1 : rho ≤ 1) (hp : 0 ≤ p) : 0 < 1 + p * (1 - rho) := by
  have := mul_nonneg hp (sub_nonneg.mpr h1); linarith

end Verif.Material
