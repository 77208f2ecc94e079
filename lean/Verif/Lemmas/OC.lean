import Verif.Model.OC
import Verif.Lemmas.Projection
import Mathlib.Algebra.BigOperators.Field
import Mathlib.Algebra.Order.BigOperators.Group.Finset
import Mathlib.Tactic.NormNum
import Mathlib.Topology.Order.IntermediateValue
import Mathlib.Tactic.Push

/-! Helper lemmas about the OC bisection. -/
namespace Verif.OC
open Verif
open Classical

variable {E : Type} [Fintype E]

theorem clip_mem {x lo hi : ℝ} (h : lo ≤ hi) : lo ≤ clip x lo hi ∧ clip x lo hi ≤ hi :=
  ⟨le_min (le_max_right _ _) h, min_le_right _ _⟩

theorem clip_mono {x y lo hi : ℝ} (h : x ≤ y) : clip x lo hi ≤ clip y lo hi :=
  min_le_min_right _ (max_le_max_right _ h)

/-- The conditions under which the scaling rate is a number. -/
theorem scaling_some {P : Params E} {l : ℝ} {e : E} (hl : 0 < l + P.eps) (hd : P.dC e ≤ 0) :
    ∃ s, scaling P l e = some s := by
  unfold scaling
  rw [if_neg hl.ne']
  have hb : ¬ -(P.dC e) / (l + P.eps) < 0 := not_lt.mpr (div_nonneg (by linarith) hl.le)
  simp only [hb, false_and, if_false]
  split_ifs <;> exact ⟨_, rfl⟩

theorem candidate_some {P : Params E} {l : ℝ} {e : E} (hl : 0 < l + P.eps) (hd : P.dC e ≤ 0) :
    ∃ r, candidate P l e = some r := by
  obtain ⟨s, hs⟩ := scaling_some hl hd
  exact ⟨_, by unfold candidate; rw [hs]; rfl⟩

/-- A positive sensitivity makes the candidate NaN for a fractional exponent. -/
theorem candidate_none {P : Params E} {l : ℝ} {e : E} (hl : 0 < l + P.eps) (hd : 0 < P.dC e)
    (heta : ¬ ∃ k : ℤ, (k : ℝ) = P.eta) : candidate P l e = none := by
  unfold candidate scaling
  rw [if_neg hl.ne']
  have hb : -(P.dC e) / (l + P.eps) < 0 := div_neg_of_neg_of_pos (by linarith) hl
  simp only [hb, heta, not_false_iff, and_self, if_true, Option.map_none]

theorem candidate_box {P : Params E} {l : ℝ} {e : E} {r : ℝ} (h : candidate P l e = some r)
    (hm : 0 ≤ P.moveLimit) (h1 : P.rhoMin ≤ P.rhoE e) (h2 : P.rhoE e ≤ P.rhoMax) :
    (P.rhoMin ≤ r ∧ r ≤ P.rhoMax) ∧ |r - P.rhoE e| ≤ P.moveLimit := by
  unfold candidate at h
  cases hs : scaling P l e with
  | none => rw [hs] at h; simp at h
  | some s =>
    rw [hs] at h
    simp only [Option.map_some, Option.some.injEq] at h
    subst h
    have hlo : max (P.rhoE e - P.moveLimit) P.rhoMin ≤ min (P.rhoE e + P.moveLimit) P.rhoMax := by
      apply max_le <;> apply le_min <;> linarith
    have hc := clip_mem (x := P.rhoE e * s) hlo
    have a1 := le_max_left (P.rhoE e - P.moveLimit) P.rhoMin
    have a2 := le_max_right (P.rhoE e - P.moveLimit) P.rhoMin
    have b1 := min_le_left (P.rhoE e + P.moveLimit) P.rhoMax
    have b2 := min_le_right (P.rhoE e + P.moveLimit) P.rhoMax
    refine ⟨⟨by linarith [hc.1], by linarith [hc.2]⟩, ?_⟩
    rw [abs_le]
    constructor <;> linarith [hc.1, hc.2]

/-- General induction principle for the bisection loop: an invariant of the bracket that holds initially and is kept by
both branches holds at exit. -/
theorem bisect_invariant {P : Params E} (I : ℝ → ℝ → Prop)
    (hpos : ∀ l1 l2 x, I l1 l2 → volError P (0.5 * (l1 + l2)) = some x → x > 0 → ¬ |x| < P.volTol →
      I (0.5 * (l1 + l2)) l2)
    (hneg : ∀ l1 l2, I l1 l2 → (¬ ∃ x, volError P (0.5 * (l1 + l2)) = some x ∧ x > 0) →
      (¬ ∃ x, volError P (0.5 * (l1 + l2)) = some x ∧ |x| < P.volTol) → I l1 (0.5 * (l1 + l2))) :
    ∀ k i l1 l2, I l1 l2 → I (bisect P k i l1 l2).l1 (bisect P k i l1 l2).l2 := by
  intro k
  induction k with
  | zero =>
    intro i l1 l2 h
    unfold bisect
    simp only
    split_ifs <;> exact h
  | succ k ih =>
    intro i l1 l2 h
    unfold bisect
    simp only
    split_ifs with h1 h2 h3
    · exact h
    · exact h
    · obtain ⟨x, hx, hx0⟩ := h3
      exact ih _ _ _ (hpos _ _ x h hx hx0 (fun hlt => h1 ⟨x, hx, hlt⟩))
    · exact ih _ _ _ (hneg _ _ h h3 h1)

/-- At exit the outputs are those of the final bracket. -/
theorem bisect_out (P : Params E) : ∀ k i l1 l2,
    (bisect P k i l1 l2).lmid = 0.5 * ((bisect P k i l1 l2).l1 + (bisect P k i l1 l2).l2) ∧
    (bisect P k i l1 l2).volError = volError P (bisect P k i l1 l2).lmid ∧
    (bisect P k i l1 l2).rho = candidate P (bisect P k i l1 l2).lmid := by
  intro k
  induction k with
  | zero => intro i l1 l2; unfold bisect; simp only; split_ifs <;> exact ⟨rfl, rfl, rfl⟩
  | succ k ih =>
    intro i l1 l2
    unfold bisect
    simp only
    split_ifs <;> first | exact ⟨rfl, rfl, rfl⟩ | exact ih _ _ _

/-- Why the loop stopped. -/
theorem bisect_stop (P : Params E) : ∀ k i l1 l2,
    (∃ x, (bisect P k i l1 l2).volError = some x ∧ |x| < P.volTol) ∨ (bisect P k i l1 l2).iters = i + k ∨
    |(bisect P k i l1 l2).l2 - (bisect P k i l1 l2).l1| ≤ P.tolerance := by
  intro k
  induction k with
  | zero =>
    intro i l1 l2
    unfold bisect
    simp only
    split_ifs with h
    · exact Or.inl h
    · exact Or.inr (Or.inl rfl)
  | succ k ih =>
    intro i l1 l2
    unfold bisect
    simp only
    split_ifs with h h2 h3
    · exact Or.inl h
    · exact Or.inr (Or.inr h2)
    · rcases ih (i + 1) (0.5 * (l1 + l2)) l2 with h' | h' | h'
      · exact Or.inl h'
      · exact Or.inr (Or.inl (by rw [h']; omega))
      · exact Or.inr (Or.inr h')
    · rcases ih (i + 1) l1 (0.5 * (l1 + l2)) with h' | h' | h'
      · exact Or.inl h'
      · exact Or.inr (Or.inl (by rw [h']; omega))
      · exact Or.inr (Or.inr h')

theorem bisect_iters_le (P : Params E) : ∀ k i l1 l2,
    i ≤ (bisect P k i l1 l2).iters ∧ (bisect P k i l1 l2).iters ≤ i + k := by
  intro k
  induction k with
  | zero => intro i l1 l2; unfold bisect; simp only; split_ifs <;> simp [stop]
  | succ k ih =>
    intro i l1 l2
    unfold bisect
    simp only
    split_ifs
    · simp [stop]
    · simp [stop]
    · have := ih (i + 1) (0.5 * (l1 + l2)) l2; omega
    · have := ih (i + 1) l1 (0.5 * (l1 + l2)); omega

/-- The bracket width is halved at every iteration. -/
theorem bisect_width (P : Params E) : ∀ k i l1 l2,
    ((bisect P k i l1 l2).l2 - (bisect P k i l1 l2).l1) * 2 ^ ((bisect P k i l1 l2).iters - i) = l2 - l1 := by
  intro k
  induction k with
  | zero => intro i l1 l2; unfold bisect; simp only; split_ifs <;> simp [stop]
  | succ k ih =>
    intro i l1 l2
    unfold bisect
    simp only
    split_ifs
    · simp [stop]
    · simp [stop]
    · have h1 := ih (i + 1) (0.5 * (l1 + l2)) l2
      have h2 := (bisect_iters_le P k (i + 1) (0.5 * (l1 + l2)) l2).1
      have e : (bisect P k (i + 1) (0.5 * (l1 + l2)) l2).iters - i =
        (bisect P k (i + 1) (0.5 * (l1 + l2)) l2).iters - (i + 1) + 1 := by omega
      rw [e, pow_succ, ← mul_assoc, h1]; ring
    · have h1 := ih (i + 1) l1 (0.5 * (l1 + l2))
      have h2 := (bisect_iters_le P k (i + 1) l1 (0.5 * (l1 + l2))).1
      have e : (bisect P k (i + 1) l1 (0.5 * (l1 + l2))).iters - i =
        (bisect P k (i + 1) l1 (0.5 * (l1 + l2))).iters - (i + 1) + 1 := by omega
      rw [e, pow_succ, ← mul_assoc, h1]; ring

/-- A bracket of width at most `tol * 2^j` needs at most `j` halvings. -/
theorem bisect_iters_log (P : Params E) : ∀ k i l1 l2 j, l1 ≤ l2 → l2 - l1 ≤ P.tolerance * 2 ^ j →
    (bisect P k i l1 l2).iters ≤ i + j := by
  intro k
  induction k with
  | zero => intro i l1 l2 j _ _; have := (bisect_iters_le P 0 i l1 l2).2; omega
  | succ k ih =>
    intro i l1 l2 j h12 hw
    unfold bisect
    simp only
    split_ifs with h1 h2 h3
    · simp [stop]
    · simp [stop]
    · cases j with
      | zero => exact absurd (by rw [abs_of_nonneg (by linarith)]; simpa using hw) h2
      | succ j =>
        have e : P.tolerance * 2 ^ (j + 1) = 2 * (P.tolerance * 2 ^ j) := by ring
        rw [e] at hw
        have := ih (i + 1) (0.5 * (l1 + l2)) l2 j (by linarith) (by linarith); omega
    · cases j with
      | zero => exact absurd (by rw [abs_of_nonneg (by linarith)]; simpa using hw) h2
      | succ j =>
        have e : P.tolerance * 2 ^ (j + 1) = 2 * (P.tolerance * 2 ^ j) := by ring
        rw [e] at hw
        have := ih (i + 1) l1 (0.5 * (l1 + l2)) j (by linarith) (by linarith); omega

/-- The bracket stays inside the initial one. -/
theorem bisect_nested (P : Params E) (k i : ℕ) (l1 l2 : ℝ) (h : l1 ≤ l2) :
    l1 ≤ (bisect P k i l1 l2).l1 ∧ (bisect P k i l1 l2).l1 ≤ (bisect P k i l1 l2).l2 ∧
      (bisect P k i l1 l2).l2 ≤ l2 := by
  apply bisect_invariant (fun a b => l1 ≤ a ∧ a ≤ b ∧ b ≤ l2)
  · rintro a b x ⟨h1, h2, h3⟩ _ _ _
    refine ⟨?_, ?_, h3⟩ <;> linarith
  · rintro a b ⟨h1, h2, h3⟩ _ _
    refine ⟨h1, ?_, ?_⟩ <;> linarith
  · exact ⟨le_rfl, h, le_rfl⟩

/-- Monotonicity of the scaling rate in the multiplier. -/
theorem scaling_antitone {P : Params E} {l l' : ℝ} {e : E} {s s' : ℝ} (hd : P.dC e ≤ 0) (heta : 0 ≤ P.eta)
    (hl : 0 < l + P.eps) (hll : l ≤ l') (h : scaling P l e = some s) (h' : scaling P l' e = some s') : s' ≤ s := by
  have hl' : 0 < l' + P.eps := by linarith
  unfold scaling at h h'
  rw [if_neg hl.ne'] at h
  rw [if_neg hl'.ne'] at h'
  have hb : 0 ≤ -(P.dC e) / (l + P.eps) := div_nonneg (by linarith) hl.le
  have hb' : 0 ≤ -(P.dC e) / (l' + P.eps) := div_nonneg (by linarith) hl'.le
  simp only [not_lt.mpr hb, not_lt.mpr hb', false_and, if_false, not_lt.mpr heta, and_false,
    Option.some.injEq] at h h'
  subst h h'
  apply clip_mono
  apply Real.rpow_le_rpow hb' _ heta
  apply div_le_div_of_nonneg_left (by linarith) hl (by linarith)

theorem candidate_antitone {P : Params E} {l l' : ℝ} {e : E} {r r' : ℝ} (hd : P.dC e ≤ 0) (heta : 0 ≤ P.eta)
    (hl : 0 < l + P.eps) (hll : l ≤ l') (hr : 0 ≤ P.rhoE e) (h : candidate P l e = some r)
    (h' : candidate P l' e = some r') : r' ≤ r := by
  unfold candidate at h h'
  cases hs : scaling P l e with
  | none => rw [hs] at h; simp at h
  | some s =>
    cases hs' : scaling P l' e with
    | none => rw [hs'] at h'; simp at h'
    | some s' =>
      rw [hs] at h; rw [hs'] at h'
      simp only [Option.map_some, Option.some.injEq] at h h'
      subst h h'
      exact clip_mono (mul_le_mul_of_nonneg_left (scaling_antitone hd heta hl hll hs hs') hr)

/-- The volume error is a number when no sensitivity is positive. -/
theorem volError_some {P : Params E} {l : ℝ} (hl : 0 < l + P.eps) (hd : ∀ e ∈ P.design, P.dC e ≤ 0) :
    volError P l = some ((∑ e ∈ P.design, Projection.heavisideInplace (P.filter (fullCandidate P l) e) P.beta P.betaEta
      * P.volume e) / P.volumeSum - P.volFrac) := by
  unfold volError
  rw [if_neg]
  rintro ⟨e, he, h⟩
  obtain ⟨r, hr⟩ := candidate_some (P := P) hl (hd e he)
  rw [hr] at h; simp at h

theorem heavisideInplace_eq (r b e : ℝ) : Projection.heavisideInplace r b e = Projection.heaviside r b e := by
  unfold Projection.heavisideInplace Projection.heaviside
  simp only [mul_comm (r - e) b]

/-- The volume error is non-increasing in the multiplier for an order-preserving filter. -/
theorem volError_antitone {P : Params E} (hd : ∀ e ∈ P.design, P.dC e ≤ 0) (heta : 0 ≤ P.eta) (heps : 0 < P.eps)
    (hr : ∀ e ∈ P.design, 0 ≤ P.rhoE e) (hvol : ∀ e ∈ P.design, 0 ≤ P.volume e) (hsum : 0 ≤ P.volumeSum)
    (hbeta : 0 ≤ P.beta) (hfilter : Monotone P.filter) {l l' : ℝ} (h0 : 0 ≤ l) (hll : l ≤ l') {x x' : ℝ}
    (h : volError P l = some x) (h' : volError P l' = some x') : x' ≤ x := by
  have hl : 0 < l + P.eps := by linarith
  have hl' : 0 < l' + P.eps := by linarith
  rw [volError_some hl hd] at h
  rw [volError_some hl' hd] at h'
  simp only [Option.some.injEq] at h h'
  subst h h'
  have hfull : fullCandidate P l' ≤ fullCandidate P l := by
    intro e
    unfold fullCandidate
    split_ifs with he
    · obtain ⟨r, h1⟩ := candidate_some (P := P) hl (hd e he)
      obtain ⟨r', h2⟩ := candidate_some (P := P) hl' (hd e he)
      rw [h1, h2]
      exact candidate_antitone (hd e he) heta hl hll (hr e he) h1 h2
    · exact le_rfl
  have hf := hfilter hfull
  have : ∑ e ∈ P.design, Projection.heavisideInplace (P.filter (fullCandidate P l') e) P.beta P.betaEta * P.volume e ≤
      ∑ e ∈ P.design, Projection.heavisideInplace (P.filter (fullCandidate P l) e) P.beta P.betaEta * P.volume e := by
    apply Finset.sum_le_sum
    intro e he
    rw [heavisideInplace_eq, heavisideInplace_eq]
    exact mul_le_mul_of_nonneg_right (Projection.heaviside_mono hbeta P.betaEta (hf e)) (hvol e he)
  have := div_le_div_of_nonneg_right this hsum
  linarith

end Verif.OC
