import Mathlib.Data.List.GetD
import Mathlib.Data.Multiset.Sort
import Mathlib.Data.Real.Archimedean
import Mathlib.Algebra.Order.Floor.Ring
import Mathlib.Tactic.Linarith
import Mathlib.Tactic.Ring

/-!
`numpy.percentile` with its default method: linear interpolation between the neighbours in the sorted list. It is external to the
package; this is its documented definition.
-/
namespace Verif.Spec

noncomputable section

/-- Interpolation at the (possibly fractional) position `t` of a list. -/
def interpolate (l : List ℝ) (t : ℝ) : ℝ :=
  l.getD ⌊t⌋₊ 0 + (t - ⌊t⌋₊) * (l.getD (min (⌊t⌋₊ + 1) (l.length - 1)) 0 - l.getD ⌊t⌋₊ 0)

/-- The `q`-th percentile of a non-empty collection. -/
def percentile (q : ℝ) (s : Multiset ℝ) : ℝ := interpolate (s.sort (· ≤ ·)) (q / 100 * (s.card - 1))

theorem interpolate_map (a : ℝ) (l : List ℝ) (t : ℝ) : interpolate (l.map (a * ·)) t = a * interpolate l t := by
  have h : ∀ n, (l.map (a * ·)).getD n 0 = a * l.getD n 0 := by
    intro n
    by_cases hn : n < l.length
    · rw [List.getD_eq_getElem _ _ (by simpa using hn), List.getD_eq_getElem _ _ hn, List.getElem_map]
    · rw [List.getD_eq_default _ _ (by simpa using hn), List.getD_eq_default _ _ (by simpa using hn), mul_zero]
  unfold interpolate
  rw [h, h, List.length_map]
  ring

/-- It is positively homogeneous. -/
theorem percentile_map {a : ℝ} (ha : 0 < a) (q : ℝ) (s : Multiset ℝ) : percentile q (s.map (a * ·)) = a * percentile q s := by
  unfold percentile
  rw [← Multiset.map_sort (r := (· ≤ ·)) (r' := (· ≤ ·)) (f := (a * ·)) (s := s) (fun x _ y _ => (mul_le_mul_iff_right₀ ha).symm),
    Multiset.card_map, interpolate_map]

/-- It lies between any bounds of the collection. -/
theorem percentile_mem {q lo hi : ℝ} (hq : 0 ≤ q ∧ q ≤ 100) {s : Multiset ℝ} (hs : s ≠ 0) (h : ∀ x ∈ s, lo ≤ x ∧ x ≤ hi) :
    lo ≤ percentile q s ∧ percentile q s ≤ hi := by
  have hc : 0 < s.card := Multiset.card_pos.2 hs
  obtain ⟨l, hl⟩ : ∃ l, l = s.sort (· ≤ ·) := ⟨_, rfl⟩
  have hlen : l.length = s.card := by rw [hl, Multiset.length_sort]
  have hm : ∀ x ∈ l, x ∈ s := fun x hx => by rw [hl, Multiset.mem_sort] at hx; exact hx
  have hmem : ∀ n, n < l.length → lo ≤ l.getD n 0 ∧ l.getD n 0 ≤ hi := by
    intro n hn
    rw [List.getD_eq_getElem _ _ hn]
    exact h _ (hm _ (List.getElem_mem hn))
  obtain ⟨t, ht⟩ : ∃ t : ℝ, t = q / 100 * (s.card - 1) := ⟨_, rfl⟩
  have hc1 : (1 : ℝ) ≤ s.card := by exact_mod_cast hc
  have ht0 : 0 ≤ t := by rw [ht]; exact mul_nonneg (by linarith) (by linarith)
  have ht1 : t ≤ s.card - 1 := by
    rw [ht]
    exact mul_le_of_le_one_left (by linarith) (by linarith)
  have hf := Nat.floor_le ht0
  have hf1 := Nat.lt_floor_add_one t
  have hn : ⌊t⌋₊ < l.length := by
    rw [hlen]
    have : (⌊t⌋₊ : ℝ) < s.card := by linarith
    exact_mod_cast this
  have h1 := hmem _ hn
  have h2 := hmem (min (⌊t⌋₊ + 1) (l.length - 1)) (lt_of_le_of_lt (min_le_right _ _) (by omega))
  unfold percentile
  rw [← hl, ← ht]
  unfold interpolate
  constructor <;> nlinarith

end
end Verif.Spec
