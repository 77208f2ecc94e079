import Verif.Model.LogMOC
import Verif.Lemmas.OC

/-! Helper lemmas about the logarithmic update. -/
namespace Verif.LogMOC
open Verif Verif.OC

theorem clip_self {x lo hi : ℝ} (h1 : lo ≤ x) (h2 : x ≤ hi) : clip x lo hi = x := by
  unfold clip; rw [max_eq_left h1, min_eq_left h2]

/-- The update in closed form: an exponential step clipped between `rho^2/(rho+m)` and `rho+m`, then to the box. -/
theorem logUpdate_eq {rho dL eta m rhoMin rhoMax c : ℝ} (hmin : 0 < rhoMin) (h1 : rhoMin ≤ rho) (h2 : rho ≤ rhoMax)
    (hm : 0 ≤ m) : logUpdate rho dL eta m rhoMin rhoMax c =
      clip (clip (rho * Real.exp (-(eta * clip dL (-c) c))) (rho / (1 + m / rho)) (rho * (1 + m / rho))) rhoMin rhoMax
    := by
  have hr : 0 < rho := by linarith
  have hq : 0 < 1 + m / rho := by have : 0 ≤ m / rho := by positivity
                                  linarith
  unfold logUpdate
  simp only [clip_self h1 h2, Real.exp_log hr]
  congr 1
  unfold clip
  rw [Real.exp_monotone.map_min, Real.exp_monotone.map_max, Real.exp_sub, Real.exp_log hr, add_comm (m / rho) 1,
    Real.exp_sub, Real.exp_log hr, Real.exp_log hq]
  have e3 : Real.exp (Real.log rho - Real.log (1 + m / rho) + 2 * Real.log (1 + m / rho)) = rho * (1 + m / rho) := by
    rw [show Real.log rho - Real.log (1 + m / rho) + 2 * Real.log (1 + m / rho) =
      Real.log rho + Real.log (1 + m / rho) by ring, Real.exp_add, Real.exp_log hr, Real.exp_log hq]
  rw [e3, Real.exp_neg]
  rfl

theorem bounds {rho m : ℝ} (hr : 0 < rho) (hm : 0 ≤ m) :
    rho - m ≤ rho / (1 + m / rho) ∧ rho / (1 + m / rho) ≤ rho ∧ rho ≤ rho * (1 + m / rho) ∧
      rho * (1 + m / rho) = rho + m := by
  have hq : (0 : ℝ) ≤ m / rho := by positivity
  have e : rho * (1 + m / rho) = rho + m := by field_simp
  refine ⟨?_, ?_, by rw [e]; linarith, e⟩
  · rw [le_div_iff₀ (by linarith)]
    have : m / rho * rho = m := by field_simp
    nlinarith [mul_nonneg hq hm]
  · apply div_le_self hr.le; linarith

theorem scaleUpdate_pos {n : ℕ} {rs : Option ℝ} {x k : ℝ} (h : scaleUpdate n rs x = .ok k) (hx : 0 < x)
    (hrs : ∀ r, rs = some r → 0 ≤ r) : 0 < k := by
  unfold scaleUpdate at h
  split_ifs at h
  · cases hr : rs with
    | none => rw [hr] at h; cases h
    | some r =>
      rw [hr] at h
      simp only [Except.ok.injEq] at h
      rw [← h]
      have := hrs r hr
      have h1 : (0 : ℝ) ≤ 0.2 * r := by positivity
      have h2 : (0 : ℝ) < (1 - 0.2) * x := mul_pos (by norm_num) hx
      linarith
  · simp only [Except.ok.injEq] at h
    rw [← h]; exact hx

end Verif.LogMOC
