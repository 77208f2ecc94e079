import Verif.Model.Projection
import Mathlib.Analysis.SpecialFunctions.Trigonometric.DerivHyp
import Mathlib.Analysis.Calculus.Deriv.MeanValue
import Mathlib.Tactic.Linarith
import Mathlib.Tactic.FieldSimp
import Mathlib.Tactic.Ring
import Mathlib.Tactic.Positivity

/-! Helper lemmas about `tanh` and the projection. -/
namespace Verif.Projection
open Real

theorem hasDerivAt_tanh (x : ℝ) : HasDerivAt tanh (1 - tanh x ^ 2) x := by
  have h : tanh = fun y => sinh y / cosh y := by funext y; exact tanh_eq_sinh_div_cosh y
  have hd := (hasDerivAt_sinh x).div (hasDerivAt_cosh x) (cosh_pos x).ne'
  have h2 : HasDerivAt (fun y => sinh y / cosh y) _ x := hd
  rw [h]
  refine h2.congr_deriv ?_
  have hc := (cosh_pos x).ne'
  field_simp

theorem tanh_strictMono : StrictMono tanh := by
  apply strictMono_of_deriv_pos
  intro x
  rw [(hasDerivAt_tanh x).deriv]
  have := tanh_sq_lt_one x
  linarith

theorem one_sub_tanh_sq (x : ℝ) : 1 - tanh x ^ 2 = (cosh x ^ 2)⁻¹ := by
  have hc := (cosh_pos x).ne'
  have h := cosh_sq x
  rw [tanh_eq_sinh_div_cosh]
  field_simp
  linarith

theorem eps12_pos : 0 < eps12 := by unfold eps12; positivity

/-- The normalisation `tanh(βη) + tanh(β(1-η))` is non-negative for every threshold. -/
theorem denom_nonneg {beta : ℝ} (hb : 0 ≤ beta) (eta : ℝ) :
    0 ≤ tanh (beta * eta) + tanh (beta * (1 - eta)) := by
  have : tanh (-(beta * eta)) ≤ tanh (beta * (1 - eta)) := by
    apply tanh_strictMono.monotone; nlinarith
  rw [tanh_neg] at this; linarith

theorem denom_pos {beta : ℝ} (hb : 0 < beta) (eta : ℝ) :
    0 < tanh (beta * eta) + tanh (beta * (1 - eta)) := by
  have : tanh (-(beta * eta)) < tanh (beta * (1 - eta)) := by
    apply tanh_strictMono; nlinarith
  rw [tanh_neg] at this; linarith

theorem denom_eps_pos {beta : ℝ} (hb : 0 ≤ beta) (eta : ℝ) :
    0 < tanh (beta * eta) + tanh (beta * (1 - eta)) + eps12 := by
  have := denom_nonneg hb eta
  have := eps12_pos
  linarith

theorem heaviside_mono {beta : ℝ} (hb : 0 ≤ beta) (eta : ℝ) : Monotone fun r => heaviside r beta eta := by
  intro a b hab
  unfold heaviside
  simp only
  have hp := denom_eps_pos hb eta
  have : tanh (beta * (a - eta)) ≤ tanh (beta * (b - eta)) := by
    apply tanh_strictMono.monotone; nlinarith
  gcongr

theorem heaviside_strictMono {beta : ℝ} (hb : 0 < beta) (eta : ℝ) :
    StrictMono fun r => heaviside r beta eta := by
  intro a b hab
  unfold heaviside
  simp only
  have hp := denom_eps_pos hb.le eta
  have : tanh (beta * (a - eta)) < tanh (beta * (b - eta)) := by
    apply tanh_strictMono; nlinarith
  gcongr

theorem heaviside_zero (beta eta : ℝ) : heaviside 0 beta eta = 0 := by
  unfold heaviside
  have : beta * (0 - eta) = -(beta * eta) := by ring
  simp only [this, tanh_neg]
  simp

theorem heaviside_one_lt {beta : ℝ} (hb : 0 ≤ beta) (eta : ℝ) : heaviside 1 beta eta < 1 := by
  unfold heaviside
  simp only
  rw [div_lt_one (denom_eps_pos hb eta)]
  have := eps12_pos
  linarith

theorem hasDerivAt_heaviside (rho beta eta : ℝ) :
    HasDerivAt (fun r => heaviside r beta eta) (heavisideDeriv rho beta eta) rho := by
  unfold heaviside heavisideDeriv
  simp only
  have h1 : HasDerivAt (fun r : ℝ => beta * (r - eta)) beta rho := by
    simpa using ((hasDerivAt_id rho).sub_const eta).const_mul beta
  have h2 := (hasDerivAt_tanh (beta * (rho - eta))).comp rho h1
  have h3 := (h2.const_add (tanh (beta * eta))).div_const (tanh (beta * eta) + tanh (beta * (1 - eta)) + eps12)
  exact h3.congr_deriv (by ring)

end Verif.Projection
