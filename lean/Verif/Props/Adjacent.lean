import Verif.Props.Mesh
import Mathlib.Data.Finset.Card

/-! Theorems about the element adjacency matrices (C113). -/
namespace Verif.Mesh
open Spec

/-- **C113 (partial: what the matrix holds).** For a mesh whose elements have distinct nodes and fewer than 256 of them,
the entry of `build_element_adjacency_matrix` at `(i, j)` is the number of nodes the two elements have in common.  It is
documented to be 1. -/
theorem C113_entry_counts_shared_nodes_partial (t : Conn) (hdist : ∀ nodes ∈ t, nodes.Nodup)
    (hsize : ∀ nodes ∈ t, nodes.length < 256) (i j : ℕ) (a b : List ℕ) (ha : t[i]? = some a) (hb : t[j]? = some b) :
    entry (slowPairs t) i j = (a.toFinset ∩ b.toFinset).card := by
  obtain ⟨hi, rfl⟩ := List.getElem?_eq_some_iff.1 ha
  obtain ⟨hj, rfl⟩ := List.getElem?_eq_some_iff.1 hb
  have ei : t.getD i [] = t[i] := by simp [List.getD, hi]
  have ej : t.getD j [] = t[j] := by simp [List.getD, hj]
  have hcount : (slowPairs t).count (i, j) = (t[i].toFinset ∩ t[j].toFinset).card := by
    rw [count_slowPairs hi, ei, ej, List.countP_eq_length_filter,
      ← List.toFinset_card_of_nodup ((hdist _ (List.getElem_mem hi)).filter _)]
    congr 1
    ext x
    simp [hj]
  have hle : (slowPairs t).count (i, j) < 256 := by
    rw [count_slowPairs hi, ei]
    exact lt_of_le_of_lt List.countP_le_length (hsize _ (List.getElem_mem hi))
  rw [entry, Nat.mod_eq_of_lt hle, hcount]

/-- **C113 (pattern).** The nonzero entries of `build_element_adjacency_matrix` are exactly the pairs of elements with a
common node; the diagonal entry is nonzero for every element with a node. -/
theorem C113_nonzero_iff_share_node (t : Conn) (hsize : ∀ nodes ∈ t, nodes.length < 256) (i j : ℕ) (hi : i < t.length) :
    entry (slowPairs t) i j ≠ 0 ↔ ShareNode t i j :=
  slow_entry hsize hi

/-- **C113 (symmetry).** Both matrices are symmetric in their nonzero pattern; the first one also in its values. -/
theorem C113_symmetric (t : Conn) (hdist : ∀ nodes ∈ t, nodes.Nodup) (hsize : ∀ nodes ∈ t, nodes.length < 256) (i j : ℕ)
    (hi : i < t.length) (hj : j < t.length) :
    entry (slowPairs t) i j = entry (slowPairs t) j i ∧ entry (fastPairs t) i j = entry (fastPairs t) j i := by
  constructor
  · rw [C113_entry_counts_shared_nodes_partial t hdist hsize i j _ _ (List.getElem?_eq_getElem hi)
      (List.getElem?_eq_getElem hj), C113_entry_counts_shared_nodes_partial t hdist hsize j i _ _
      (List.getElem?_eq_getElem hj) (List.getElem?_eq_getElem hi), Finset.inter_comm]
  · have h1 := fast_entry_eq (t := t) (j := j) hi
    have h2 := fast_entry_eq (t := t) (j := i) hj
    rw [h1, h2]
    have : (ShareNode t i j ∧ i ≠ j) ↔ (ShareNode t j i ∧ j ≠ i) :=
      ⟨fun ⟨⟨n, h, h'⟩, hne⟩ => ⟨⟨n, h', h⟩, hne.symm⟩, fun ⟨⟨n, h, h'⟩, hne⟩ => ⟨⟨n, h', h⟩, hne.symm⟩⟩
    by_cases h : ShareNode t i j ∧ i ≠ j
    · rw [if_pos h, if_pos (this.1 h)]
    · rw [if_neg h, if_neg (fun h' => h (this.2 h'))]

open Classical in
/-- **C113 (fast variant).** The matrix of `build_element_adjacency_matrix_fast` does hold ones: its entry is 1 for two
different elements with a common node and 0 otherwise, without any bound on the element size. Its diagonal is zero. -/
theorem C113_fast_zero_one (t : Conn) (i j : ℕ) (hi : i < t.length) :
    entry (fastPairs t) i j = if ShareNode t i j ∧ i ≠ j then 1 else 0 :=
  fast_entry_eq hi

/-- Two hexahedra with a common face, the second one above the first. -/
def twoHexes : Conn := [[0, 1, 2, 3, 4, 5, 6, 7], [4, 5, 6, 7, 8, 9, 10, 11]]

/-- **C113 (refuted).** `build_element_adjacency_matrix` is documented to return 1 for elements with a common node. Two
hexahedra with a common face get 4, and each gets 8 on the diagonal. -/
theorem C113_entries_not_one : ∃ t : Conn, (∀ nodes ∈ t, nodes.length = 8 ∧ nodes.Nodup) ∧ ShareNode t 0 1 ∧
    entry (slowPairs t) 0 1 = 4 ∧ entry (slowPairs t) 0 0 = 8 :=
  ⟨twoHexes, by decide, ⟨4, ⟨_, rfl, by decide⟩, ⟨_, rfl, by decide⟩⟩, by decide +kernel, by decide +kernel⟩

/-- **C113 (refuted: the two builders).** The two functions do not build the same matrix, not even up to the values: one
holds the diagonal and the other does not. -/
theorem C113_variants_differ : ∃ t : Conn, (∀ nodes ∈ t, nodes.length = 8 ∧ nodes.Nodup) ∧
    entry (slowPairs t) 0 0 ≠ 0 ∧ entry (fastPairs t) 0 0 = 0 ∧
    entry (slowPairs t) 0 1 ≠ entry (fastPairs t) 0 1 :=
  ⟨twoHexes, by decide, by decide +kernel, by decide +kernel, by decide +kernel⟩

/-- Non-vacuity: `strip` meets the hypotheses, with neighbours sharing an edge and elements sharing nothing. -/
example : (∀ nodes ∈ strip, nodes.Nodup ∧ nodes.length < 256) ∧ entry (slowPairs strip) 0 1 = 2 ∧
    entry (slowPairs strip) 0 2 = 0 ∧ entry (fastPairs strip) 0 1 = 1 ∧ entry (fastPairs strip) 1 1 = 0 := by
  decide +kernel

end Verif.Mesh
