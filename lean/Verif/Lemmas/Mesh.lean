import Verif.Model.Mesh
import Verif.Spec.Mesh
import Mathlib.Data.List.Count

namespace Verif.Mesh
open Spec

theorem mem_setAdd {s : List ℕ} {x y : ℕ} : y ∈ setAdd s x ↔ y ∈ s ∨ y = x := by
  unfold setAdd
  split_ifs with h
  · constructor
    · exact Or.inl
    · rintro (h' | rfl) <;> assumption
  · simp

theorem nodup_setAdd {s : List ℕ} {x : ℕ} (h : s.Nodup) : (setAdd s x).Nodup := by
  unfold setAdd
  split_ifs with h'
  · exact h
  · exact List.nodup_append.2 ⟨h, by simp, by
      intro a ha b hb; simp at hb; subst hb; rintro rfl; exact h' ha⟩

theorem mem_setUpdate {xs : List ℕ} : ∀ {s : List ℕ} {y : ℕ}, y ∈ setUpdate s xs ↔ y ∈ s ∨ y ∈ xs := by
  unfold setUpdate
  induction xs with
  | nil => simp
  | cons a xs ih =>
    intro s y
    rw [List.foldl_cons, ih, mem_setAdd, List.mem_cons, or_assoc]

theorem nodup_setUpdate {xs : List ℕ} : ∀ {s : List ℕ}, s.Nodup → (setUpdate s xs).Nodup := by
  unfold setUpdate
  induction xs with
  | nil => simp
  | cons a xs ih => intro s h; exact ih (nodup_setAdd h)

theorem mem_sorted {s : List ℕ} {y : ℕ} : y ∈ sorted s ↔ y ∈ s := by simp [sorted]

theorem sorted_pairwise {s : List ℕ} (h : s.Nodup) : (sorted s).Pairwise (· < ·) := by
  have h1 : (sorted s).Pairwise (· ≤ ·) := List.pairwise_insertionSort (· ≤ ·) s
  have h2 : (sorted s).Nodup := (List.perm_insertionSort (· ≤ ·) s).nodup_iff.2 h
  exact (List.pairwise_and_iff.2 ⟨h1, h2⟩).imp fun h => lt_of_le_of_ne h.1 h.2

theorem mem_unique {l : List ℕ} {y : ℕ} : y ∈ unique l ↔ y ∈ l := by
  simp [unique, mem_sorted]

theorem mem_add {T : Table} {n e m x : ℕ} : x ∈ T.add n e m ↔ x ∈ T m ∨ (m = n ∧ x = e) := by
  unfold Table.add
  split_ifs with h
  · rw [mem_setAdd]; simp [h]
  · simp [h]

theorem mem_foldl_add {nodes : List ℕ} {e : ℕ} : ∀ {T : Table} {m x : ℕ},
    x ∈ nodes.foldl (fun T n => Table.add T n e) T m ↔ x ∈ T m ∨ (m ∈ nodes ∧ x = e) := by
  induction nodes with
  | nil => simp
  | cons a l ih =>
    intro T m x
    rw [List.foldl_cons, ih, mem_add, List.mem_cons]
    tauto

theorem mem_nodeTableFrom : ∀ (t : Conn) (e : ℕ) (T : Table) (m x : ℕ),
    x ∈ nodeTableFrom e t T m ↔ x ∈ T m ∨ ∃ i, x = e + i ∧ Contains t i m := by
  intro t
  induction t with
  | nil => intro e T m x; simp [nodeTableFrom, Contains]
  | cons nodes rest ih =>
    intro e T m x
    rw [nodeTableFrom, ih, mem_foldl_add]
    constructor
    · rintro ((h | ⟨h1, h2⟩) | ⟨i, h1, h2⟩)
      · exact Or.inl h
      · exact Or.inr ⟨0, by omega, nodes, by simp, h1⟩
      · obtain ⟨l, hl, hm⟩ := h2
        exact Or.inr ⟨i + 1, by omega, l, by simpa using hl, hm⟩
    · rintro (h | ⟨i, h1, l, hl, hm⟩)
      · exact Or.inl (Or.inl h)
      · cases i with
        | zero => simp at hl; subst hl; exact Or.inl (Or.inr ⟨hm, by omega⟩)
        | succ i => exact Or.inr ⟨i, by omega, l, by simpa using hl, hm⟩

theorem mem_nodeTable {t : Conn} {m x : ℕ} : x ∈ nodeTable t m ↔ Contains t x m := by
  unfold nodeTable
  rw [mem_nodeTableFrom]
  simp

theorem foldl_setUpdate_mem {f : ℕ → List ℕ} {l : List ℕ} : ∀ {s : List ℕ} {y : ℕ},
    y ∈ l.foldl (fun s n => setUpdate s (f n)) s ↔ y ∈ s ∨ ∃ n ∈ l, y ∈ f n := by
  induction l with
  | nil => simp
  | cons a l ih =>
    intro s y
    rw [List.foldl_cons, ih, mem_setUpdate]
    simp only [List.mem_cons, exists_eq_or_imp]
    tauto

theorem foldl_setUpdate_nodup {f : ℕ → List ℕ} {l : List ℕ} : ∀ {s : List ℕ}, s.Nodup →
    (l.foldl (fun s n => setUpdate s (f n)) s).Nodup := by
  induction l with
  | nil => simp
  | cons a l ih => intro s h; exact ih (nodup_setUpdate h)

theorem collect_lists (t : Conn) (targets : List ℕ) :
    Lists (collect (nodeTable t) targets) (Touches t targets) := by
  unfold collect
  refine ⟨sorted_pairwise (foldl_setUpdate_nodup List.nodup_nil), fun e => ?_⟩
  rw [mem_sorted, foldl_setUpdate_mem]
  simp only [List.not_mem_nil, false_or, mem_unique, mem_nodeTable, Touches]

theorem mem_connected {t : Conn} {node j : ℕ} : j ∈ connected t node ↔ Contains t j node := by
  simp only [connected, List.mem_filter, List.mem_range, decide_eq_true_eq, Contains]
  constructor
  · rintro ⟨h, hm⟩
    exact ⟨t[j], by simp [h], by simpa [List.getD, h] using hm⟩
  · rintro ⟨l, hl, hm⟩
    obtain ⟨h, rfl⟩ := List.getElem?_eq_some_iff.1 hl
    exact ⟨h, by simpa [List.getD, h] using hm⟩

theorem nodup_connected (t : Conn) (node : ℕ) : (connected t node).Nodup :=
  List.nodup_range.filter _

/-- the number of times the pair occurs in the coordinate lists is the number of nodes of `i` that `j` contains -/
theorem count_slowPairs {t : Conn} {i j : ℕ} (hi : i < t.length) :
    (slowPairs t).count (i, j) = (t.getD i []).countP fun node => decide (node ∈ t.getD j [] ∧ j < t.length) := by
  have hrow : ∀ (nodes : List ℕ) (k : ℕ),
      (nodes.flatMap fun node => (connected t node).map fun j => (k, j)).count (i, j) =
        if k = i then nodes.countP fun node => decide (node ∈ t.getD j [] ∧ j < t.length) else 0 := by
    intro nodes k
    induction nodes with
    | nil => simp
    | cons a l ih =>
      rw [List.flatMap_cons, List.count_append, ih, List.countP_cons]
      by_cases hk : k = i
      · subst hk
        simp only [if_true]
        have hinj : Function.Injective fun j : ℕ => (k, j) := fun a b h => by simpa using h
        rw [List.count_map_of_injective _ (fun j : ℕ => (k, j)) hinj]
        have : (connected t a).count j = if decide (a ∈ t.getD j [] ∧ j < t.length) = true then 1 else 0 := by
          split_ifs with h
          · apply List.count_eq_one_of_mem (nodup_connected t a)
            simp only [decide_eq_true_eq] at h
            simp only [connected, List.mem_filter, List.mem_range, decide_eq_true_eq]
            exact ⟨h.2, h.1⟩
          · apply List.count_eq_zero_of_not_mem
            simp only [decide_eq_true_eq] at h
            simp only [connected, List.mem_filter, List.mem_range, decide_eq_true_eq]
            tauto
        rw [this]; omega
      · rw [if_neg hk, if_neg hk, List.count_eq_zero_of_not_mem]
        simp [hk]
  have hcount : ∀ l : List ℕ, l.Nodup → (l.flatMap fun i => (t.getD i []).flatMap fun node =>
      (connected t node).map fun j => (i, j)).count (i, j) =
      if i ∈ l then (t.getD i []).countP fun node => decide (node ∈ t.getD j [] ∧ j < t.length) else 0 := by
    intro l hl
    induction l with
    | nil => simp
    | cons a l ih =>
      rw [List.flatMap_cons, List.count_append, hrow, ih (List.nodup_cons.1 hl).2]
      by_cases ha : a = i
      · subst ha
        rw [if_pos rfl, if_neg (List.nodup_cons.1 hl).1, if_pos (by simp)]; simp
      · rw [if_neg ha]
        simp only [List.mem_cons, Ne.symm ha, false_or, Nat.zero_add]
  rw [slowPairs, hcount _ List.nodup_range, if_pos (List.mem_range.2 hi)]

theorem contains_iff {t : Conn} {e n : ℕ} : Contains t e n ↔ e < t.length ∧ n ∈ t.getD e [] := by
  constructor
  · rintro ⟨l, hl, hm⟩
    obtain ⟨h, rfl⟩ := List.getElem?_eq_some_iff.1 hl
    exact ⟨h, by simpa [List.getD, h] using hm⟩
  · rintro ⟨h, hm⟩
    exact ⟨t[e], by simp [h], by simpa [List.getD, h] using hm⟩

theorem slow_entry {t : Conn} (hsize : ∀ nodes ∈ t, nodes.length < 256) {i j : ℕ} (hi : i < t.length) :
    entry (slowPairs t) i j ≠ 0 ↔ ShareNode t i j := by
  have hlen : (t.getD i []).length < 256 := by
    have : t.getD i [] = t[i] := by simp [List.getD, hi]
    rw [this]; exact hsize _ (List.getElem_mem hi)
  unfold entry
  rw [count_slowPairs hi, Nat.mod_eq_of_lt (lt_of_le_of_lt List.countP_le_length hlen),
    ← Nat.pos_iff_ne_zero, List.countP_pos_iff]
  simp only [decide_eq_true_eq, ShareNode, contains_iff]
  constructor
  · rintro ⟨n, h1, h2, h3⟩; exact ⟨n, ⟨hi, h1⟩, h3, h2⟩
  · rintro ⟨n, ⟨_, h1⟩, h3, h2⟩; exact ⟨n, h1, h2, h3⟩

theorem le_foldl_max {l : List ℕ} : ∀ {a : ℕ}, a ≤ l.foldl max a ∧ ∀ x ∈ l, x ≤ l.foldl max a := by
  induction l with
  | nil => simp
  | cons b l ih =>
    intro a
    obtain ⟨h1, h2⟩ := ih (a := max a b)
    refine ⟨le_trans (le_max_left a b) h1, fun x hx => ?_⟩
    rcases List.mem_cons.1 hx with rfl | hx
    · exact le_trans (le_max_right a _) h1
    · exact h2 x hx

theorem fastNeighbors_aux {t : Conn} {e1 : ℕ} {l : List ℕ} : ∀ {s : List ℕ}, s.Nodup →
    let r := l.foldl (fun s n =>
      if e1 ∈ nodeTable t n then setUpdate s ((nodeTable t n).filter fun e2 => decide (e1 ≠ e2)) else s) s
    r.Nodup ∧ ∀ y, y ∈ r ↔ y ∈ s ∨ ∃ n ∈ l, Contains t e1 n ∧ Contains t y n ∧ e1 ≠ y := by
  induction l with
  | nil => intro s h; simpa using h
  | cons a l ih =>
    intro s h
    simp only [List.foldl_cons]
    by_cases ha : e1 ∈ nodeTable t a
    · rw [if_pos ha]
      obtain ⟨r1, r2⟩ := ih (nodup_setUpdate (xs := (nodeTable t a).filter fun e2 => decide (e1 ≠ e2)) h)
      refine ⟨r1, fun y => ?_⟩
      rw [r2, mem_setUpdate]
      simp only [List.mem_filter, mem_nodeTable, decide_eq_true_eq, List.mem_cons, exists_eq_or_imp]
      rw [mem_nodeTable] at ha
      tauto
    · rw [if_neg ha]
      obtain ⟨r1, r2⟩ := ih h
      refine ⟨r1, fun y => ?_⟩
      rw [r2]
      rw [mem_nodeTable] at ha
      simp only [List.mem_cons, exists_eq_or_imp]
      tauto

theorem mem_fastNeighbors {t : Conn} {e1 y : ℕ} : y ∈ fastNeighbors t e1 ↔ ShareNode t e1 y ∧ e1 ≠ y := by
  unfold fastNeighbors
  rw [(fastNeighbors_aux List.nodup_nil).2 y]
  simp only [List.not_mem_nil, false_or, ShareNode]
  constructor
  · rintro ⟨n, -, h1, h2, h3⟩; exact ⟨⟨n, h1, h2⟩, h3⟩
  · rintro ⟨⟨n, h1, h2⟩, h3⟩
    refine ⟨n, ?_, h1, h2, h3⟩
    obtain ⟨l, hl, hm⟩ := h1
    have hl' := List.mem_of_getElem? hl
    have := (le_foldl_max (l := t.flatten) (a := 0)).2 n (List.mem_flatten.2 ⟨l, hl', hm⟩)
    rw [List.mem_range]; omega

open Classical in
theorem fast_entry_eq {t : Conn} {i j : ℕ} (hi : i < t.length) :
    entry (fastPairs t) i j = if ShareNode t i j ∧ i ≠ j then 1 else 0 := by
  have hnd : ∀ k, (fastNeighbors t k).Nodup := fun k => (fastNeighbors_aux List.nodup_nil).1
  have hcount : ∀ l : List ℕ, l.Nodup → (l.flatMap fun e => (fastNeighbors t e).map fun a => (e, a)).count (i, j) =
      (@ite _ (i ∈ l) (List.instDecidableMemOfLawfulBEq i l) ((fastNeighbors t i).count j) 0) := by
    intro l hl
    induction l with
    | nil => simp
    | cons a l ih =>
      rw [List.flatMap_cons, List.count_append, ih (List.nodup_cons.1 hl).2]
      by_cases ha : a = i
      · subst ha
        have hinj : Function.Injective fun j : ℕ => (a, j) := fun x b h => by simpa using h
        rw [List.count_map_of_injective _ (fun j : ℕ => (a, j)) hinj, if_neg (List.nodup_cons.1 hl).1,
          if_pos (by simp)]; simp
      · rw [List.count_eq_zero_of_not_mem (by simp [ha])]
        simp only [List.mem_cons, Ne.symm ha, false_or, Nat.zero_add]
  unfold entry
  rw [fastPairs, hcount _ List.nodup_range, if_pos (List.mem_range.2 hi)]
  by_cases h : j ∈ fastNeighbors t i
  · rw [List.count_eq_one_of_mem (hnd i) h, if_pos (mem_fastNeighbors.1 h)]
  · rw [List.count_eq_zero_of_not_mem h, if_neg fun h' => h (mem_fastNeighbors.2 h')]

theorem fast_entry {t : Conn} {i j : ℕ} (hi : i < t.length) :
    entry (fastPairs t) i j ≠ 0 ↔ ShareNode t i j ∧ i ≠ j := by
  rw [fast_entry_eq hi]
  split_ifs with h <;> simp [h]

theorem adjacentFrom_lists {t : Conn} {pairs : List (ℕ × ℕ)} {idx : List ℕ} (h : ∀ i ∈ idx, i < t.length)
    (hp : ∀ i j, i < t.length → j ∉ idx → i ∈ idx → (entry pairs i j ≠ 0 ↔ ShareNode t i j)) :
    ∃ r, adjacentFrom t.length pairs idx = .ok r ∧
      Lists r (fun j => j ∉ idx ∧ ∃ i ∈ idx, ShareNode t i j) := by
  unfold adjacentFrom
  rw [if_pos (by simpa [List.all_eq_true] using h)]
  refine ⟨_, rfl, sorted_pairwise ((foldl_setUpdate_nodup List.nodup_nil).filter _), fun e => ?_⟩
  rw [mem_sorted, List.mem_filter, foldl_setUpdate_mem]
  simp only [List.not_mem_nil, false_or, nonzeroRow, List.mem_filter, List.mem_range, decide_eq_true_eq]
  constructor
  · rintro ⟨⟨i, hi, h1, h2⟩, h3⟩
    exact ⟨h3, i, hi, (hp i e (h i hi) h3 hi).1 h2⟩
  · rintro ⟨h3, i, hi, h2⟩
    refine ⟨⟨i, hi, ?_, (hp i e (h i hi) h3 hi).2 h2⟩, h3⟩
    obtain ⟨n, -, hn⟩ := h2
    exact (contains_iff.1 hn).1

end Verif.Mesh
