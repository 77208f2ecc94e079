import Verif.Model.Adjacency
import Mathlib.Algebra.Order.BigOperators.Group.List
import Mathlib.Data.List.Count

/-! Helper lemmas about face adjacency. -/
namespace Verif.Adjacency
variable {n : ℕ}

theorem contribution_count (elems : List (Fin n)) (i j : Fin n) :
    (contribution elems i).count j = (contribution elems j).count i := by
  unfold contribution
  split
  · rename_i a b
    by_cases h1 : a = i <;> by_cases h2 : b = i <;> by_cases h3 : a = j <;> by_cases h4 : b = j <;>
      simp_all
  · rfl

theorem adjacency_count (faces : Fin n → List (List ℕ)) (i j : Fin n) :
    (adjacency faces i).count j = (adjacency faces j).count i := by
  unfold adjacency
  rw [List.count_flatMap, List.count_flatMap]
  congr 1
  apply List.map_congr_left
  intro f _
  exact contribution_count _ _ _

theorem mem_elemsOf {faces : Fin n → List (List ℕ)} {f : List ℕ} {i : Fin n} :
    i ∈ elemsOf faces f ↔ f ∈ faces i := by
  unfold elemsOf
  simp only [List.mem_flatMap, List.mem_finRange, true_and, List.mem_replicate]
  constructor
  · rintro ⟨a, h, rfl⟩
    exact List.count_pos_iff.mp (Nat.pos_of_ne_zero h)
  · intro h
    exact ⟨i, (List.count_pos_iff.mpr h).ne', rfl⟩

theorem mem_faceKeys {faces : Fin n → List (List ℕ)} {f : List ℕ} : f ∈ faceKeys faces ↔ ∃ i, f ∈ faces i := by
  unfold faceKeys
  simp

theorem mem_adjacency {faces : Fin n → List (List ℕ)} {i j : Fin n} :
    j ∈ adjacency faces i ↔ ∃ f, elemsOf faces f = [i, j] ∨ elemsOf faces f = [j, i] := by
  unfold adjacency
  rw [List.mem_flatMap]
  constructor
  · rintro ⟨f, -, hf⟩
    refine ⟨f, ?_⟩
    unfold contribution at hf
    split at hf
    · rename_i a b hab
      rw [hab]
      simp only [List.mem_append] at hf
      rcases hf with h | h
      · split_ifs at h with h1
        · simp only [List.mem_singleton] at h; subst h1 h; left; rfl
        · simp at h
      · split_ifs at h with h1
        · simp only [List.mem_singleton] at h; subst h1 h; right; rfl
        · simp at h
    · simp at hf
  · rintro ⟨f, hf⟩
    refine ⟨f, ?_, ?_⟩
    · rw [mem_faceKeys]
      exact ⟨i, mem_elemsOf.mp (by rcases hf with h | h <;> rw [h] <;> simp)⟩
    · unfold contribution
      rcases hf with h | h <;> rw [h] <;> simp

theorem count_elemsOf (faces : Fin n → List (List ℕ)) (f : List ℕ) (i : Fin n) :
    (elemsOf faces f).count i = (faces i).count f := by
  unfold elemsOf
  rw [List.count_flatMap]
  have : (List.map (List.count i ∘ fun k => List.replicate ((faces k).count f) k) (List.finRange n)) =
      (List.finRange n).map fun k => if k = i then (faces i).count f else 0 := by
    apply List.map_congr_left
    intro k _
    simp only [Function.comp, List.count_replicate]
    by_cases h : k = i
    · subst h; simp
    · simp [h]
  rw [this]
  have hn := List.nodup_finRange n
  have hm := List.mem_finRange i
  generalize List.finRange n = l at hn hm
  induction l with
  | nil => simp at hm
  | cons a l ih =>
    rw [List.nodup_cons] at hn
    simp only [List.map_cons, List.sum_cons]
    by_cases h : a = i
    · subst h
      have : (l.map fun k => if k = a then (faces a).count f else 0).sum = 0 := by
        apply List.sum_eq_zero
        intro x hx
        simp only [List.mem_map] at hx
        obtain ⟨k, hk, rfl⟩ := hx
        rw [if_neg]
        rintro rfl
        exact hn.1 hk
      rw [this, if_pos rfl, add_zero]
    · rw [if_neg h, zero_add]
      exact ih hn.2 (by rcases List.mem_cons.mp hm with h' | h'; exact absurd h'.symm h; exact h')

theorem key_eq_iff {l l' : List ℕ} : key l = key l' ↔ l.Perm l' := by
  unfold key
  constructor
  · intro h
    have h1 := List.perm_insertionSort (· ≤ ·) l
    have h2 := List.perm_insertionSort (· ≤ ·) l'
    rw [h] at h1
    exact h1.symm.trans h2
  · intro h
    apply List.Perm.eq_of_pairwise (le := fun a b => a ≤ b) (fun a b _ _ h1 h2 => le_antisymm h1 h2)
    · exact List.pairwise_insertionSort (· ≤ ·) l
    · exact List.pairwise_insertionSort (· ≤ ·) l'
    · exact (List.perm_insertionSort _ l).trans (h.trans (List.perm_insertionSort _ l').symm)

end Verif.Adjacency
