import Verif.Model.Spacial
import Verif.Spec.Filter
import Mathlib.Algebra.BigOperators.Field
import Mathlib.Algebra.Order.BigOperators.Group.Finset
import Mathlib.Algebra.Order.BigOperators.Ring.Finset
import Mathlib.Tactic.Linarith
import Mathlib.Tactic.Positivity
import Mathlib.Tactic.FieldSimp

/-! Helper lemmas about row-normalised kernels. -/
namespace Verif.Spacial
open Verif
open Classical

variable {E : Type} [Fintype E] {d : ℕ}

theorem kernel_nonneg_pos (kind : Kind) (r : ℝ) (hr : 0 < r) (sigma : Option ℝ) :
    (∀ x, 0 ≤ x → 0 ≤ kernel kind r sigma x) ∧ 0 < kernel kind r sigma 0 := by
  cases kind with
  | linear => exact ⟨fun x _ => le_max_left _ _, by simp [kernel, hr]⟩
  | quadratic =>
    constructor
    · intro x hx
      simp only [kernel]
      split_ifs with h
      · exact le_rfl
      · push Not at h
        have : x / r ≤ 1 := (div_le_one hr).mpr h.le
        have h0 : 0 ≤ x / r := by positivity
        nlinarith
    · simp [kernel, hr.not_ge]
  | gaussian => exact ⟨fun x _ => (Real.exp_pos _).le, Real.exp_pos _⟩

variable {c : E → EuclideanSpace ℝ (Fin d)} {ker : ℝ → ℝ} {sup : ℝ} {vol : Option (E → ℝ)} {S : Finset E}

theorem weight_nonneg (hk : ∀ x, 0 ≤ x → 0 ≤ ker x) (hv : ∀ v, vol = some v → ∀ e, 0 ≤ v e) (i j : E) :
    0 ≤ weight c ker sup vol i j := by
  unfold weight
  split_ifs
  · cases hvol : vol with
    | none => exact hk _ dist_nonneg
    | some v => exact mul_nonneg (hk _ dist_nonneg) (hv v hvol j)
  · exact le_rfl

theorem weight_self_pos (h0 : 0 < ker 0) (hs : 0 ≤ sup) (hv : ∀ v, vol = some v → ∀ e, 0 < v e) (i : E) :
    0 < weight c ker sup vol i i := by
  unfold weight
  rw [dist_self, if_pos hs]
  cases hvol : vol with
  | none => exact h0
  | some v => exact mul_pos h0 (hv v hvol i)

theorem rowSum_pos (hk : ∀ x, 0 ≤ x → 0 ≤ ker x) (h0 : 0 < ker 0) (hs : 0 ≤ sup)
    (hv : ∀ v, vol = some v → ∀ e, 0 < v e) {i : E} (hi : i ∈ S) : 0 < ∑ k ∈ S, weight c ker sup vol i k :=
  Finset.sum_pos' (fun k _ => weight_nonneg hk (fun v h e => (hv v h e).le) i k)
    ⟨i, hi, weight_self_pos h0 hs hv i⟩

theorem matrix_nonneg (hk : ∀ x, 0 ≤ x → 0 ≤ ker x) (hv : ∀ v, vol = some v → ∀ e, 0 ≤ v e) (i j : E) :
    0 ≤ matrix c ker sup vol S i j := by
  unfold matrix
  simp only
  apply mul_nonneg _ (weight_nonneg hk hv i j)
  split_ifs
  · norm_num
  · exact div_nonneg zero_le_one (Finset.sum_nonneg fun k _ => weight_nonneg hk hv i k)

theorem matrix_row_sum (hk : ∀ x, 0 ≤ x → 0 ≤ ker x) (h0 : 0 < ker 0) (hs : 0 ≤ sup)
    (hv : ∀ v, vol = some v → ∀ e, 0 < v e) {i : E} (hi : i ∈ S) : ∑ j ∈ S, matrix c ker sup vol S i j = 1 := by
  have hpos := rowSum_pos (c := c) (vol := vol) (S := S) hk h0 hs hv hi
  unfold matrix
  simp only
  rw [← Finset.mul_sum, if_neg hpos.ne', one_div, inv_mul_cancel₀ hpos.ne']

/-- A convex combination stays in range. -/
theorem convex_range {w x : E → ℝ} (hw : ∀ j ∈ S, 0 ≤ w j) (h1 : ∑ j ∈ S, w j = 1) {lo hi : ℝ}
    (hx : ∀ j ∈ S, lo ≤ x j ∧ x j ≤ hi) : lo ≤ ∑ j ∈ S, w j * x j ∧ ∑ j ∈ S, w j * x j ≤ hi := by
  constructor
  · calc lo = ∑ j ∈ S, w j * lo := by rw [← Finset.sum_mul, h1, one_mul]
      _ ≤ _ := Finset.sum_le_sum fun j hj => mul_le_mul_of_nonneg_left (hx j hj).1 (hw j hj)
  · calc _ ≤ ∑ j ∈ S, w j * hi := Finset.sum_le_sum fun j hj => mul_le_mul_of_nonneg_left (hx j hj).2 (hw j hj)
      _ = hi := by rw [← Finset.sum_mul, h1, one_mul]

end Verif.Spacial
