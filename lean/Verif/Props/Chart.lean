import Verif.Model.Chart
import Verif.Props.Timer

/-! Property theorems C156: timing charts show where the time went. -/
namespace Verif.Timer

open Snapshot (Name)

noncomputable section

/-- Every segment begins where the ones before it end, starting at 0. -/
def Gapless (row : List Seg) : Prop := ∀ i s, row[i]? = some s → s.left = ((row.take i).map Seg.width).sum

theorem abut_left (x : ℝ) (l : List (Name × ℝ)) (i : ℕ) (s : Seg) (h : (abut x l)[i]? = some s) :
    s.left = x + (((abut x l).take i).map Seg.width).sum := by
  induction l generalizing x i with
  | nil => simp [abut] at h
  | cons a l ih =>
    obtain ⟨n, v⟩ := a
    cases i with
    | zero =>
      simp only [abut, List.getElem?_cons_zero, Option.some.injEq] at h
      subst h
      simp
    | succ i =>
      simp only [abut, List.getElem?_cons_succ] at h
      rw [ih _ _ h]
      simp only [abut, List.take_succ_cons, List.map_cons, List.sum_cons]
      ring

theorem abut_parts (x : ℝ) (l : List (Name × ℝ)) : (abut x l).map (fun s => (s.owner, s.width)) = l := by
  induction l generalizing x with
  | nil => rfl
  | cons a l ih => obtain ⟨n, v⟩ := a; simp [abut, ih]

theorem stackRow_gapless (sep : Char) (l : List Stats) (k : Key) (s : Stats) : Gapless (stackRow sep l k s) := by
  intro i g h
  cases i with
  | zero =>
    simp only [stackRow, List.getElem?_cons_zero, Option.some.injEq] at h
    subst h
    simp
  | succ i =>
    simp only [stackRow, List.getElem?_cons_succ] at h
    rw [abut_left _ _ _ _ h]
    simp only [stackRow, List.take_succ_cons, List.map_cons, List.sum_cons]

theorem childTotal_perm {sep : Char} {l l' : List Stats} (h : l.Perm l') (n : Name) :
    ((childrenOf sep l n).map Stats.total).sum = childTotal sep l' n := by
  unfold childTotal childrenOf
  exact ((h.filter _).map _).sum_eq

/-- **C156 (a)** Stacked bars. After a program on a fresh hierarchical timer (monotone clock, section names without the separator, at least one
nested section), with the metric "total" and in any order: there is one row per top-level section; its first segment is the section's own
time (total minus the totals of its direct children), followed by one segment per direct child as wide as the child's total; segments do not
overlap or leave gaps, and the row is as long as the section's total. -/
theorem C156_stacked_bars_partial (C : Cfg) (hc : Monotone C.clock) (hh : C.hierarchical = true) (p : Prog) (hp : Plain p) (hf : SepFree C p)
    (k : Key) (descending : Bool) (hn : ∃ st ∈ stats (after C p), C.sep ∈ st.name) :
    ∃ rows, stacked C.sep (summary (stats (after C p)) k descending) .total = .ok rows ∧
      rows.map Prod.fst = ((summary (stats (after C p)) k descending).filter fun s => decide (C.sep ∉ s.name)).map Stats.name ∧
      ∀ row ∈ rows, ∃ st ∈ stats (after C p), st.name = row.1 ∧ C.sep ∉ st.name ∧
        Gapless row.2 ∧ (∀ g ∈ row.2, 0 ≤ g.width) ∧ (row.2.map Seg.width).sum = st.total ∧
        row.2.head?.map (fun g => (g.owner, g.width)) = some (st.name, st.total - childTotal C.sep (stats (after C p)) st.name) ∧
        (row.2.tail.map fun g => (g.owner, g.width)) =
          (childrenOf C.sep (summary (stats (after C p)) k descending) st.name).map fun c => (c.name, c.total) := by
  classical
  obtain ⟨hperm, -⟩ := C48_summary_sorted (stats (after C p)) k descending
  generalize hL : summary (stats (after C p)) k descending = L at hperm ⊢
  obtain ⟨st0, hst0, hsep0⟩ := hn
  have hmem0 : st0 ∈ L := hperm.mem_iff.2 hst0
  refine ⟨(L.filter fun s => decide (C.sep ∉ s.name)).map fun s => (s.name, stackRow C.sep L .total s), ?_, ?_, ?_⟩
  · unfold stacked
    rw [if_neg (by cases L <;> simp at hmem0 ⊢), if_neg]
    simp only [List.any_eq_true, decide_eq_true_eq, not_not]
    exact ⟨st0, hmem0, hsep0⟩
  · simp [Function.comp_def]
  · intro row hrow
    obtain ⟨s, hs, rfl⟩ := List.mem_map.1 hrow
    obtain ⟨hsL, hsep⟩ := List.mem_filter.1 hs
    have hst : s ∈ stats (after C p) := hperm.mem_iff.1 hsL
    have hle := (C48_children_within_parent_partial C hc hh p hp hf).1 s hst
    have hct := childTotal_perm (sep := C.sep) hperm s.name
    have hself : max (s.total - ((childrenOf C.sep L s.name).map Stats.total).sum) 0 =
        s.total - childTotal C.sep (stats (after C p)) s.name := by
      rw [hct, max_eq_left]
      linarith
    have hrowEq : stackRow C.sep L .total s = ⟨s.name, 0, s.total - childTotal C.sep (stats (after C p)) s.name⟩ ::
        abut (s.total - childTotal C.sep (stats (after C p)) s.name) ((childrenOf C.sep L s.name).map fun c => (c.name, c.total)) := by
      unfold stackRow
      simp only [Key.of, hself]
    refine ⟨s, hst, rfl, by simpa using hsep, stackRow_gapless _ _ _ _, ?_, ?_, ?_, ?_⟩
    · intro g hg
      simp only [hrowEq, List.mem_cons] at hg
      rcases hg with rfl | hg
      · simp only
        linarith
      · have hg' : (g.owner, g.width) ∈ (abut (s.total - childTotal C.sep (stats (after C p)) s.name)
            ((childrenOf C.sep L s.name).map fun c => (c.name, c.total))).map (fun s => (s.owner, s.width)) :=
          List.mem_map.2 ⟨g, hg, rfl⟩
        rw [abut_parts] at hg'
        obtain ⟨c, hc', he⟩ := List.mem_map.1 hg'
        have hcl : c ∈ stats (after C p) := hperm.mem_iff.1 (List.mem_of_mem_filter hc')
        obtain ⟨-, -, -, -, -, -, h1, h2⟩ := C48_statistics_consistent C hc p hp c hcl
        simp only [Prod.mk.injEq] at he
        rw [← he.2]
        linarith
    · simp only [hrowEq, List.map_cons, List.sum_cons]
      have hw : (abut (s.total - childTotal C.sep (stats (after C p)) s.name)
          ((childrenOf C.sep L s.name).map fun c => (c.name, c.total))).map Seg.width =
          (childrenOf C.sep L s.name).map Stats.total := by
        have := congrArg (List.map Prod.snd) (abut_parts (s.total - childTotal C.sep (stats (after C p)) s.name)
          ((childrenOf C.sep L s.name).map fun c => (c.name, c.total)))
        simpa [Function.comp_def] using this
      rw [hw, hct]
      ring
    · simp [hrowEq]
    · simp only [hrowEq, List.tail_cons]
      exact abut_parts _ _

/-- Three nested sections, each entered once, under a clock that ticks once per reading: `a` takes 5, `a>b` 3 and `a>b>c` 1. -/
def nested3 : Prog := .sect "a".toList (.sect "b".toList (.sect "c".toList .skip))

/-- The clock that ticks once per reading. -/
def ticking : Cfg := ⟨fun n => n, true, '>'⟩

theorem nested3_records : (after ticking nested3).records = [("a>b>c".toList, [1]), ("a>b".toList, [3]), ("a".toList, [5])] := by
  simp [after, run, nested3, ticking, Cfg.fullName, appendRec, History.dset, History.dget, List.intercalate]
  norm_num

theorem nested3_stats : stats (after ticking nested3) =
    [⟨"a>b>c".toList, 1, 1, 1, 1⟩, ⟨"a>b".toList, 1, 3, 3, 3⟩, ⟨"a".toList, 1, 5, 5, 5⟩] := by
  unfold stats
  rw [nested3_records]
  simp [statOf]

/-- The direct children among three nested sections. -/
theorem nested_kids (x y z : Stats) (hx : x.name = "a>b>c".toList) (hy : y.name = "a>b".toList) (hz : z.name = "a".toList) :
    childrenOf '>' [x, y, z] "a".toList = [y] ∧ childrenOf '>' [x, y, z] "a>b".toList = [x] ∧
    childrenOf '>' [x, y, z] "a>b>c".toList = [] := by
  unfold childrenOf
  simp only [List.filter_cons, List.filter_nil, hx, hy, hz]
  refine ⟨?_, ?_, ?_⟩
  · rw [show (decide ('>' ∈ "a>b>c".toList) && decide (parentName '>' "a>b>c".toList = "a".toList)) = false by decide,
      show (decide ('>' ∈ "a>b".toList) && decide (parentName '>' "a>b".toList = "a".toList)) = true by decide,
      show (decide ('>' ∈ "a".toList) && decide (parentName '>' "a".toList = "a".toList)) = false by decide]
    rfl
  · rw [show (decide ('>' ∈ "a>b>c".toList) && decide (parentName '>' "a>b>c".toList = "a>b".toList)) = true by decide,
      show (decide ('>' ∈ "a>b".toList) && decide (parentName '>' "a>b".toList = "a>b".toList)) = false by decide,
      show (decide ('>' ∈ "a".toList) && decide (parentName '>' "a".toList = "a>b".toList)) = false by decide]
    rfl
  · rw [show (decide ('>' ∈ "a>b>c".toList) && decide (parentName '>' "a>b>c".toList = "a>b>c".toList)) = false by decide,
      show (decide ('>' ∈ "a>b".toList) && decide (parentName '>' "a>b".toList = "a>b>c".toList)) = false by decide,
      show (decide ('>' ∈ "a".toList) && decide (parentName '>' "a".toList = "a>b>c".toList)) = false by decide]
    rfl

/-- The stacked chart of three nested sections. -/
theorem nested_stacked (x y z : Stats) (hx : x.name = "a>b>c".toList) (hy : y.name = "a>b".toList) (hz : z.name = "a".toList) :
    ∃ rows, stacked '>' [x, y, z] .total = .ok rows ∧ rows.map (fun r => (r.1, r.2.map fun g => (g.owner, g.width))) =
      [("a".toList, [("a".toList, max (z.total - y.total) 0), ("a>b".toList, y.total)])] := by
  refine ⟨[(z.name, stackRow '>' [x, y, z] .total z)], ?_, ?_⟩
  · unfold stacked
    rw [if_neg (by simp), if_neg]
    · simp only [List.filter_cons, List.filter_nil, hx, hy, hz]
      rw [show decide ('>' ∉ "a>b>c".toList) = false by decide, show decide ('>' ∉ "a>b".toList) = false by decide,
        show decide ('>' ∉ "a".toList) = true by decide]
      simp [hz]
    · simp only [List.any_cons, hx, show decide ('>' ∈ "a>b>c".toList) = true by decide]
      simp
  · simp only [List.map_cons, List.map_nil, stackRow, hz, (nested_kids x y z hx hy hz).1, abut, Key.of, hy]
    simp

/-- **C156 (b)** Not every section that has children gets a row, as the documentation of `stacked_nested` says: a section inside another one
never does, whatever the timer holds; its children's time is then nowhere in the chart. Here `a>b` has the child `a>b>c`, and the chart is
one row, `a`: 2 and `a>b`: 3. -/
theorem C156_inner_sections_without_row (sep : Char) (l : List Stats) (k : Key) (rows : List (Name × List Seg))
    (h : stacked sep l k = .ok rows) :
    (∀ row ∈ rows, sep ∉ row.1) ∧
    (∃ rows', stacked '>' (stats (after ticking nested3)) .total = .ok rows' ∧
      rows'.map (fun r => (r.1, r.2.map fun g => (g.owner, g.width))) =
        [("a".toList, [("a".toList, 2), ("a>b".toList, 3)])]) := by
  constructor
  · unfold stacked at h
    split_ifs at h
    cases h
    intro row hrow
    obtain ⟨s, hs, rfl⟩ := List.mem_map.1 hrow
    simpa using (List.mem_filter.1 hs).2
  · rw [nested3_stats]
    obtain ⟨rows', h1, h2⟩ := nested_stacked ⟨"a>b>c".toList, 1, 1, 1, 1⟩ ⟨"a>b".toList, 1, 3, 3, 3⟩ ⟨"a".toList, 1, 5, 5, 5⟩ rfl rfl rfl
    refine ⟨rows', h1, ?_⟩
    rw [h2]
    norm_num

/-- **C156 (c)** With `use_self_time=True` the children are subtracted twice: `a` alone takes 2 of 5, `a>b` alone 2 of 3; the row of `a` shows no
own time at all and is 2 long instead of 5. -/
theorem C156_self_time_subtracted_twice :
    (selfStats '>' (stats (after ticking nested3))).map (fun s => (s.name, s.total)) =
      [("a>b>c".toList, 1), ("a>b".toList, 2), ("a".toList, 2)] ∧
    (∃ rows', stacked '>' (selfStats '>' (stats (after ticking nested3))) .total = .ok rows' ∧
      rows'.map (fun r => (r.1, r.2.map fun g => (g.owner, g.width))) =
        [("a".toList, [("a".toList, 0), ("a>b".toList, 2)])]) := by
  have hk := nested_kids ⟨"a>b>c".toList, 1, 1, 1, 1⟩ ⟨"a>b".toList, 1, 3, 3, 3⟩ ⟨"a".toList, 1, 5, 5, 5⟩ rfl rfl rfl
  have hc : ∀ l n, childTotal '>' l n = ((childrenOf '>' l n).map Stats.total).sum := fun _ _ => rfl
  have hs : selfStats '>' (stats (after ticking nested3)) =
      [⟨"a>b>c".toList, 1, 1, 1, 1⟩, ⟨"a>b".toList, 1, 2, 2, 2⟩, ⟨"a".toList, 1, 2, 2, 2⟩] := by
    rw [nested3_stats]
    simp only [selfStats, List.map_cons, List.map_nil, hc, hk.1, hk.2.1, hk.2.2]
    norm_num
  rw [hs]
  obtain ⟨rows', h1, h2⟩ := nested_stacked ⟨"a>b>c".toList, 1, 1, 1, 1⟩ ⟨"a>b".toList, 1, 2, 2, 2⟩ ⟨"a".toList, 1, 2, 2, 2⟩ rfl rfl rfl
  refine ⟨by simp, rows', h1, ?_⟩
  rw [h2]
  norm_num

/-- **C156 (d)** A pie has one wedge per section, as large as the metric, the total in its title is their sum, and a wedge is labelled exactly
when its share reaches the threshold. It is refused exactly when there is nothing to show. -/
theorem C156_pie (l : List Stats) (k : Key) (threshold : Option ℝ) :
    (pie l k threshold = .error .valueError ↔ ∀ s ∈ l, k.of s = 0) ∧
    (∀ c, pie l k threshold = .ok c →
      c.wedges.map (fun w => (w.owner, w.size)) = l.map (fun s => (s.name, k.of s)) ∧ c.total = (l.map k.of).sum ∧
      ∀ w ∈ c.wedges, (w.label = w.owner ∨ w.label = []) ∧
        (c.total ≠ 0 → w.owner ≠ [] → (w.label = w.owner ↔ ∀ t, threshold = some t → t ≤ w.size / c.total))) := by
  classical
  constructor
  · unfold pie
    cases l with
    | nil => simp
    | cons a l =>
      rw [if_neg (by simp)]
      simp only
      split_ifs with h
      · simpa using h
      · simp only [reduceCtorEq, false_iff]
        intro hz
        exact h (by simpa using hz)
  · intro c hc
    unfold pie at hc
    by_cases h1 : l.isEmpty = true
    · rw [if_pos h1] at hc; cases hc
    rw [if_neg h1] at hc
    simp only at hc
    by_cases h2 : ((l.map k.of).all fun v => decide (v = 0)) = true
    · rw [if_pos h2] at hc; cases hc
    rw [if_neg h2] at hc
    cases hc
    refine ⟨by simp [Function.comp_def], rfl, ?_⟩
    intro w hw
    obtain ⟨s, hs, rfl⟩ := List.mem_map.1 hw
    refine ⟨?_, ?_⟩
    · have hor : ∀ (c : Prop) [Decidable c] (n : Name), (if c then n else []) = n ∨ (if c then n else []) = [] := by
        intro c _ n
        split
        · left; rfl
        · right; rfl
      exact hor _ _
    · intro ht hne
      simp only at ht hne ⊢
      cases threshold with
      | none => simp
      | some t =>
        rw [if_pos ht]
        simp only [Option.all_some, decide_eq_true_eq, Option.some.injEq, forall_eq']
        by_cases h3 : t ≤ k.of s / (l.map k.of).sum
        · simp [h3]
        · simp only [h3, iff_false, if_false]
          exact fun h => hne h.symm

/-- **C156 (e)** With `use_self_time=True` no time is counted twice: for every program as in (a) the total of the pie is the sum of the totals of
the top-level sections. -/
theorem C156_pie_self_time_partial (C : Cfg) (hc : Monotone C.clock) (hh : C.hierarchical = true) (p : Prog) (hp : Plain p) (hf : SepFree C p)
    (k : Key) (descending : Bool) (threshold : Option ℝ) (c : Pie)
    (h : pie (summary (selfStats C.sep (stats (after C p))) k descending) .total threshold = .ok c) :
    c.total = (((stats (after C p)).filter fun s => decide (C.sep ∉ s.name)).map Stats.total).sum := by
  rw [((C156_pie _ _ _).2 c h).2.1, ← C48_self_times_add_up_partial C hc hh p hp hf]
  exact ((C48_summary_sorted (selfStats C.sep (stats (after C p))) k descending).1.map Stats.total).sum_eq

/-- **C156 (f)** By default it is: the pie of the run of (b), which took 5, has total 9. -/
theorem C156_pie_counts_twice (threshold : Option ℝ) :
    ∃ c, pie (stats (after ticking nested3)) .total threshold = .ok c ∧ c.total = 9 := by
  cases h : pie (stats (after ticking nested3)) .total threshold with
  | error e =>
    exfalso
    have hne : ¬ ∀ s ∈ stats (after ticking nested3), Key.total.of s = 0 := by
      rw [nested3_stats]
      simp [Key.of]
    have he : e = .valueError := by
      unfold pie at h
      split_ifs at h
      · cases h; rfl
      · simp only at h
        split_ifs at h
        cases h; rfl
    subst he
    exact hne ((C156_pie _ _ _).1.1 h)
  | ok c =>
    refine ⟨c, rfl, ?_⟩
    rw [((C156_pie _ _ _).2 c h).2.1, nested3_stats]
    simp [Key.of]
    norm_num

/- Non-vacuity of (a) and (e): the program of (b). -/
example : Monotone ticking.clock ∧ ticking.hierarchical = true ∧ Plain nested3 ∧ SepFree ticking nested3 ∧
    ∃ st ∈ stats (after ticking nested3), ticking.sep ∈ st.name := by
  refine ⟨fun a b h => by simpa [ticking] using h, rfl, ?_, by unfold SepFree; decide, ?_⟩
  · simp [nested3, Plain]
  · rw [nested3_stats]
    exact ⟨_, List.mem_cons_self, by decide⟩

end
end Verif.Timer
