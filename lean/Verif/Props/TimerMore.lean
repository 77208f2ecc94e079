import Verif.Props.Timer

/-! C47, C48, C66 continued: manual records and resets, the sort keys, and the labels of bar charts. -/
namespace Verif.Timer

open Snapshot (Name)
open History (dset dget dset_new dget_of_mem dget_none dset_keys dset_nodup mem_dset)

noncomputable section

/-- **C47 (manual records and resets).** `add` appends one duration under its name and changes nothing else; `reset` of a name
forgets the records of exactly that name; `reset` without a name forgets all records. None of them raises or touches the open
sections. -/
theorem C47_add_and_reset (C : Cfg) (s : St) (hs : (s.records.map Prod.fst).Nodup) (k : Name) (d : ℝ) :
    (recordsOf (run C (.add k d) s).1 k = recordsOf s k ++ [d] ∧
      ∀ k', k' ≠ k → recordsOf (run C (.add k d) s).1 k' = recordsOf s k') ∧
    (recordsOf (run C (.reset (some k)) s).1 k = [] ∧
      ∀ k', k' ≠ k → recordsOf (run C (.reset (some k)) s).1 k' = recordsOf s k') ∧
    (∀ k', recordsOf (run C (.reset none) s).1 k' = []) ∧
    (run C (.add k d) s).2 = false ∧ (∀ n, (run C (.reset n) s).2 = false) := by
  refine ⟨⟨?_, fun k' hk => ?_⟩, ⟨?_, fun k' hk => ?_⟩, fun k' => rfl, rfl, ?_⟩
  · unfold recordsOf
    simp only [run]
    rw [recordsOf_appendRec hs, if_pos rfl]
  · unfold recordsOf
    simp only [run]
    rw [recordsOf_appendRec hs, if_neg (Ne.symm hk), List.append_nil]
  · unfold recordsOf
    simp only [run]
    rw [dget_none]
    · rfl
    · simp
  · unfold recordsOf
    simp only [run]
    congr 1
    unfold dget
    congr 1
    generalize s.records = l
    induction l with
    | nil => rfl
    | cons x l ih =>
      by_cases hx : x.1 = k
      · rw [List.filter_cons, if_neg (by simp [hx]), List.find?_cons, ih]
        have : (x.1 == k') = false := by rw [hx]; simpa using Ne.symm hk
        rw [this]
      · rw [List.filter_cons, if_pos (by simp [hx]), List.find?_cons, List.find?_cons, ih]
  · intro n; cases n <;> rfl

/-- Non-vacuity: two names, one reset. -/
example : let s : St := { records := [(['a'], [1, 2]), (['b'], [3])] }
    let C : Cfg := ⟨fun n => n, true, '>'⟩
    (s.records.map Prod.fst).Nodup ∧ (run C (.reset (some ['a'])) s).1.records = [(['b'], [3])] := by
  refine ⟨by decide, ?_⟩
  simp [run]

/-- **C48 (sort keys).** Sorted in descending (ascending) order by total, average, maximum or count, the summary lists the sections so
that that very number never increases (decreases). -/
theorem C48_summary_sort_keys (l : List Stats) :
    ((summary l .total true).Pairwise (fun a b => b.total ≤ a.total) ∧ (summary l .total false).Pairwise (fun a b => a.total ≤ b.total)) ∧
    ((summary l .avg true).Pairwise (fun a b => b.avg ≤ a.avg) ∧ (summary l .avg false).Pairwise (fun a b => a.avg ≤ b.avg)) ∧
    ((summary l .max true).Pairwise (fun a b => b.max ≤ a.max) ∧ (summary l .max false).Pairwise (fun a b => a.max ≤ b.max)) ∧
    ((summary l .count true).Pairwise (fun a b => b.count ≤ a.count) ∧
      (summary l .count false).Pairwise (fun a b => a.count ≤ b.count)) := by
  have h := fun k b => (C48_summary_sorted l k b).2
  refine ⟨⟨?_, ?_⟩, ⟨?_, ?_⟩, ⟨?_, ?_⟩, ?_, ?_⟩
  · simpa [Key.of] using h .total true
  · simpa [Key.of] using h .total false
  · simpa [Key.of] using h .avg true
  · simpa [Key.of] using h .avg false
  · simpa [Key.of] using h .max true
  · simpa [Key.of] using h .max false
  · simpa [Key.of] using h .count true
  · simpa [Key.of] using h .count false

theorem count_intercalate {sep : Char} {π : List Name} (h : Clean sep π) : ([sep].intercalate π).count sep = π.length - 1 := by
  obtain ⟨h1, h2⟩ := h
  induction π with
  | nil => exact absurd rfl h1
  | cons x π ih =>
    have hx : x.count sep = 0 := List.count_eq_zero.2 (h2 x (by simp))
    match π, ih with
    | [], _ => simp [hx]
    | y :: π, ih =>
      have := ih (by simp) (fun z hz => h2 z (List.mem_cons_of_mem _ hz))
      rw [List.intercalate_cons_cons, List.count_append, List.count_append, this, hx]
      simp
      omega

/-- **C66 (labels).** The label of a section in a bar chart is its own name, indented by two blanks for every enclosing section. -/
theorem C66_label_shows_depth_and_name {sep : Char} (outer : List Name) (n : Name) (h : Clean sep (outer ++ [n])) :
    label sep ([sep].intercalate (outer ++ [n])) = List.replicate (2 * outer.length) ' ' ++ n := by
  unfold label
  rw [split_join h, count_intercalate h]
  simp only [List.length_append, List.length_singleton, Nat.add_sub_cancel, List.getLast?_concat, Option.getD_some]
  congr 1
  induction outer.length with
  | zero => rfl
  | succ m ih =>
    rw [List.replicate_succ, List.flatten_cons, ih, show 2 * (m + 1) = 2 * m + 1 + 1 by omega, List.replicate_succ, List.replicate_succ]
    rfl

/-- Non-vacuity. -/
example : Clean '>' ["iter".toList, "solve".toList] ∧ label '>' "iter>solve".toList = "  solve".toList :=
  ⟨⟨by decide, by decide⟩, by decide⟩

end
end Verif.Timer
