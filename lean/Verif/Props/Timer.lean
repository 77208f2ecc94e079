import Mathlib.Tactic.FieldSimp
import Verif.Lemmas.Timer

/-!
Section timer (C47, C48) and running averages (C66).
-/
namespace Verif.Timer

open Snapshot (Name)
open History (dset dget dset_new dget_of_mem dget_none dset_keys dset_nodup mem_dset)

noncomputable section

/-! ### C47: one record per entered section -/

/-- Specification: the paths of the sections a program enters when the sections `o` are open, in the order in which they are left,
and whether the program raises. -/
def entered : List Name → Prog → List (List Name) × Bool
  | _, .skip => ([], false)
  | _, .fail => ([], true)
  | o, .seq p q => if (entered o p).2 then entered o p else ((entered o p).1 ++ (entered o q).1, (entered o q).2)
  | o, .attempt p q => if (entered o p).2 then ((entered o p).1 ++ (entered o q).1, (entered o q).2) else entered o p
  | o, .sect m b => ((entered (o ++ [m]) b).1 ++ [o ++ [m]], (entered (o ++ [m]) b).2)
  | _, .add _ _ | _, .reset _ => ([], false)

/-- Specification: the name of a section with a given path. -/
def recordName (C : Cfg) (π : List Name) : Name :=
  if C.hierarchical then [C.sep].intercalate π else π.getLast?.getD []

/-- The records under a name. -/
def recordsOf (s : St) (k : Name) : List ℝ := (dget s.records k).getD []

theorem entered_log (clock : ℕ → ℝ) (p : Prog) (o : List Name) (n : ℕ) :
    entered o p = ((log clock o n p).1.map Prod.fst, (log clock o n p).2.2) := by
  induction p generalizing o n with
  | skip => rfl
  | fail => rfl
  | add => rfl
  | reset => rfl
  | seq p q ihp ihq =>
    simp only [entered, log, ihp o n]
    split_ifs with h
    · rfl
    · rw [ihq o (log clock o n p).2.1]; simp
  | attempt p q ihp ihq =>
    simp only [entered, log, ihp o n]
    split_ifs with h
    · rw [ihq o (log clock o n p).2.1]; simp
    · rfl
  | sect m b ih => simp only [entered, log, ih (o ++ [m]) (n + 1)]; simp

theorem recordsOf_appendRec {d : List (Name × List ℝ)} (hd : (d.map Prod.fst).Nodup) (k k' : Name) (x : ℝ) :
    (dget (appendRec d k x) k').getD [] = (dget d k').getD [] ++ if k = k' then [x] else [] := by
  have hnd := appendRec_nodup hd k x
  unfold appendRec at hnd ⊢
  by_cases hk : k = k'
  · subst hk
    rw [if_pos rfl]
    have : (k, (dget d k).getD [] ++ [x]) ∈ dset d k ((dget d k).getD [] ++ [x]) := by
      unfold dset
      split_ifs with h
      · obtain ⟨y, hy, hyk⟩ := List.any_eq_true.1 h
        exact List.mem_map.2 ⟨y, hy, by rw [if_pos (by simpa using hyk)]⟩
      · exact List.mem_append_right _ (by simp)
    rw [dget_of_mem hnd this]; rfl
  · rw [if_neg hk, List.append_nil]
    congr 1
    by_cases hk' : k' ∈ d.map Prod.fst
    · obtain ⟨y, hy, rfl⟩ := List.mem_map.1 hk'
      rw [dget_of_mem hd (show (y.1, y.2) ∈ d from hy)]
      apply dget_of_mem hnd
      unfold dset
      split_ifs
      · exact List.mem_map.2 ⟨y, hy, by rw [if_neg (Ne.symm hk)]⟩
      · exact List.mem_append_left _ hy
    · rw [dget_none hk', dget_none]
      intro hm
      obtain ⟨y, hy, rfl⟩ := List.mem_map.1 hm
      rcases mem_dset hy with h | h
      · exact hk' (List.mem_map.2 ⟨y, h, rfl⟩)
      · exact hk (by rw [h])

/-- **C47.** Whatever a program of nested, repeated and failing sections does, afterwards the stack of open sections is as before,
exceptions propagate unchanged, and under every name the number of records has grown by the number of entered sections with that
name (their path joined by the separator, or the plain name for a flat timer). -/
theorem C47_sections_recorded_once (C : Cfg) (p : Prog) (hp : Plain p) (s : St) (hs : (s.records.map Prod.fst).Nodup) :
    (run C p s).1.stack = s.stack ∧ (run C p s).2 = (entered s.stack p).2 ∧
    ∀ k, (recordsOf (run C p s).1 k).length =
      (recordsOf s k).length + ((entered s.stack p).1.filter fun π => decide (recordName C π = k)).length := by
  rw [run_log C p hp s, entered_log C.clock p s.stack s.reads]
  refine ⟨rfl, rfl, fun k => ?_⟩
  unfold recordsOf
  simp only
  generalize (log C.clock s.stack s.reads p).1 = L
  generalize s.records = d at hs
  clear hp
  induction L generalizing d with
  | nil => simp [addLog]
  | cons x L ih =>
    show ((dget (addLog C (appendRec d (C.pathName x.1) x.2) L) k).getD []).length = _
    rw [ih _ (appendRec_nodup hs _ _), recordsOf_appendRec hs, List.length_append, List.map_cons, List.filter_cons]
    have : recordName C x.1 = C.pathName x.1 := rfl
    by_cases h : C.pathName x.1 = k
    · rw [if_pos h, if_pos (by simpa [this] using h)]
      simp only [List.length_cons, List.length_nil]; omega
    · rw [if_neg h, if_neg (by simpa [this] using h)]
      simp

/-- **C47 (stack).** Also with `add` and `reset` at any point, the stack of open sections is restored. -/
theorem C47_stack_restored (C : Cfg) (p : Prog) (s : St) : (run C p s).1.stack = s.stack := by
  induction p generalizing s with
  | skip => rfl
  | fail => rfl
  | add => rfl
  | reset n => cases n <;> rfl
  | seq p q ihp ihq =>
    simp only [run]
    split_ifs
    · exact ihp s
    · rw [ihq, ihp]
  | attempt p q ihp ihq =>
    simp only [run]
    split_ifs
    · rw [ihq, ihp]
    · exact ihp s
  | sect m b ih => simp only [run, ih]; simp

/-- Non-vacuity: the second `solve` raises; both are recorded under `iter>solve`, the section after the exception is not entered. -/
example : let C : Cfg := ⟨fun n => n, true, '>'⟩
    let p := Prog.sect "iter".toList (.seq (.sect "solve".toList .skip) (.seq (.sect "solve".toList .fail) (.sect "late".toList .skip)))
    Plain p ∧ (entered [] p).2 = true ∧
    (entered [] p).1 = [["iter".toList, "solve".toList], ["iter".toList, "solve".toList], ["iter".toList]] ∧
    recordName C ["iter".toList, "solve".toList] = "iter>solve".toList :=
  ⟨⟨trivial, trivial, trivial⟩, by decide, by decide, by decide⟩

/-! ### C48: consistent totals -/

/-- The timer after a program run on a fresh timer. -/
def after (C : Cfg) (p : Prog) : St := (run C p {}).1

theorem after_eq {C : Cfg} {p : Prog} (hp : Plain p) :
    (after C p).records = addLog C [] (log C.clock [] 0 p).1 := by
  unfold after; rw [run_log C p hp]

theorem mem_appendRec {d : List (Name × List ℝ)} {k : Name} {x : ℝ} {y : Name × List ℝ} (h : y ∈ appendRec d k x) :
    y ∈ d ∨ (y.1 = k ∧ ∃ l, (l = [] ∨ (k, l) ∈ d) ∧ y.2 = l ++ [x]) := by
  rcases mem_dset h with h | h
  · exact Or.inl h
  · right
    rw [h]
    refine ⟨rfl, (dget d k).getD [], ?_, rfl⟩
    cases hg : dget d k with
    | none => left; rfl
    | some l =>
      right
      unfold dget at hg
      rw [Option.map_eq_some_iff] at hg
      obtain ⟨z, hz, rfl⟩ := hg
      have h2 : (z.1 == k) = true := by simpa using List.find?_some hz
      have h3 : z.1 = k := by simpa using h2
      have := List.mem_of_find?_eq_some hz
      simp only [Option.getD_some]
      rw [← h3]; exact this

theorem addLog_mem (C : Cfg) (L : List (List Name × ℝ)) (d : List (Name × List ℝ))
    (hd : ∀ y ∈ d, y.2 ≠ [] ∧ ∀ v ∈ y.2, 0 ≤ v) (hL : ∀ x ∈ L, 0 ≤ x.2) :
    ∀ y ∈ addLog C d L, y.2 ≠ [] ∧ ∀ v ∈ y.2, 0 ≤ v := by
  induction L generalizing d with
  | nil => exact hd
  | cons x L ih =>
    refine ih _ (fun y hy => ?_) fun z hz => hL z (List.mem_cons_of_mem _ hz)
    rcases mem_appendRec hy with hy | ⟨-, l, hl, hy⟩
    · exact hd y hy
    · rw [hy]
      refine ⟨by simp, fun v hv => ?_⟩
      rcases List.mem_append.1 hv with hv | hv
      · rcases hl with rfl | hl
        · simp at hv
        · exact (hd _ hl).2 v hv
      · rw [List.mem_singleton.1 hv]; exact hL x (List.mem_cons_self ..)

theorem foldl_max (vs : List ℝ) (v : ℝ) : vs.foldl max v ∈ v :: vs ∧ ∀ x ∈ v :: vs, x ≤ vs.foldl max v := by
  induction vs generalizing v with
  | nil => simp
  | cons a vs ih =>
    obtain ⟨h1, h2⟩ := ih (max v a)
    simp only [List.foldl_cons]
    constructor
    · rcases List.mem_cons.1 h1 with h | h
      · rw [h]; rcases max_choice v a with h | h <;> simp [h]
      · simp [h]
    · intro x hx
      have h0 := h2 (max v a) (List.mem_cons_self ..)
      rcases List.mem_cons.1 hx with rfl | hx
      · exact (le_max_left _ _).trans h0
      · rcases List.mem_cons.1 hx with rfl | hx
        · exact (le_max_right _ _).trans h0
        · exact h2 x (List.mem_cons_of_mem _ hx)

/-- **C48 (statistics).** After any program on a fresh timer with a monotone clock, the statistics of each section come from its
records: their number, their sum, their mean, their maximum, which is at most the total. -/
theorem C48_statistics_consistent (C : Cfg) (hc : Monotone C.clock) (p : Prog) (hp : Plain p) (st : Stats)
    (h : st ∈ stats (after C p)) :
    let vs := recordsOf (after C p) st.name
    vs ≠ [] ∧ st.count = vs.length ∧ st.total = vs.sum ∧ st.avg * st.count = st.total ∧ st.max ∈ vs ∧ (∀ v ∈ vs, v ≤ st.max) ∧
      0 ≤ st.max ∧ st.max ≤ st.total := by
  have hnd : ((after C p).records.map Prod.fst).Nodup := by rw [after_eq hp]; exact addLog_nodup C _ _ (by simp)
  have hall : ∀ y ∈ (after C p).records, y.2 ≠ [] ∧ ∀ v ∈ y.2, 0 ≤ v := by
    rw [after_eq hp]
    exact addLog_mem C _ _ (by simp) (log_good hc p [] 0).nonneg
  unfold stats at h
  obtain ⟨y, hy, hst⟩ := List.mem_filterMap.1 h
  obtain ⟨hy1, hy2⟩ := hall y hy
  obtain ⟨k, vs⟩ := y
  rcases vs with _ | ⟨v, vs⟩
  · exact absurd rfl hy1
  · simp only [statOf, Option.some.injEq] at hst
    subst hst
    have hrec : recordsOf (after C p) k = v :: vs := by
      unfold recordsOf; rw [dget_of_mem hnd hy]; rfl
    have hm := foldl_max vs v
    have hpos : (0 : ℝ) < ((v :: vs).length : ℝ) := by exact_mod_cast Nat.succ_pos _
    simp only
    rw [hrec]
    refine ⟨by simp, rfl, rfl, by field_simp, hm.1, hm.2, hy2 _ hm.1, ?_⟩
    exact List.single_le_sum hy2 _ hm.1

/-- The separator occurs in no section name. -/
def SepFree (C : Cfg) (p : Prog) : Prop := ∀ m ∈ names p, C.sep ∉ m

/-- A path of names without separators. -/
def Clean (sep : Char) (π : List Name) : Prop := π ≠ [] ∧ ∀ m ∈ π, sep ∉ m

theorem split_join {sep : Char} {π : List Name} (h : Clean sep π) : ([sep].intercalate π).splitOn sep = π :=
  List.splitOn_intercalate sep h.2 h.1

theorem join_inj {sep : Char} {π ρ : List Name} (h : Clean sep π) (h' : Clean sep ρ)
    (e : [sep].intercalate π = [sep].intercalate ρ) : π = ρ := by
  rw [← split_join h, ← split_join h', e]

theorem parent_join {sep : Char} {π : List Name} (h : Clean sep π) :
    parentName sep ([sep].intercalate π) = [sep].intercalate π.dropLast := by
  unfold parentName; rw [split_join h]

theorem sep_mem_join {sep : Char} {π : List Name} (h : Clean sep π) : sep ∈ [sep].intercalate π ↔ π.dropLast ≠ [] := by
  rcases π with _ | ⟨a, _ | ⟨b, π⟩⟩
  · exact absurd rfl h.1
  · simp only [List.dropLast_singleton, ne_eq, not_true_eq_false, iff_false]
    have : [sep].intercalate [a] = a := by simp [List.intercalate]
    rw [this]; exact h.2 a (by simp)
  · simp only [List.dropLast_cons_cons, ne_eq, List.cons_ne_nil, not_false_eq_true, iff_true]
    simp [List.intercalate, List.intersperse]

theorem clean_log {C : Cfg} {p : Prog} (hf : SepFree C p) : ∀ x ∈ (log C.clock [] 0 p).1, Clean C.sep x.1 := by
  intro x hx
  refine ⟨?_, fun m hm => ?_⟩
  · have aux : ∀ (p : Prog) (o : List Name) (n : ℕ), ∀ x ∈ (log C.clock o n p).1, x.1 ≠ [] := by
      intro p
      induction p with
      | skip => simp [log]
      | fail => simp [log]
      | add => simp [log]
      | reset => simp [log]
      | seq p q ihp ihq =>
        intro o n x hx
        simp only [log] at hx
        split_ifs at hx
        · exact ihp _ _ x hx
        · exact (List.mem_append.1 hx).elim (ihp _ _ x) (ihq _ _ x)
      | attempt p q ihp ihq =>
        intro o n x hx
        simp only [log] at hx
        split_ifs at hx
        · exact (List.mem_append.1 hx).elim (ihp _ _ x) (ihq _ _ x)
        · exact ihp _ _ x hx
      | sect m b ih =>
        intro o n x hx
        simp only [log] at hx
        rcases List.mem_append.1 hx with h | h
        · exact ih _ _ x h
        · rw [List.mem_singleton.1 h]; simp
    exact aux p [] 0 x hx
  · rcases log_names C.clock p [] 0 x hx m hm with h | h
    · simp at h
    · exact hf m h

theorem stats_filter_sum (s : St) (P : Name → Prop) [DecidablePred P] :
    (((stats s).filter fun c => decide (P c.name)).map Stats.total).sum = dsum s.records P := by
  unfold stats dsum
  induction s.records with
  | nil => simp
  | cons y d ih =>
    obtain ⟨k, vs⟩ := y
    rcases vs with _ | ⟨v, vs⟩
    · rw [List.filterMap_cons_none (show statOf (k, []) = none from rfl), ih]
      simp
    · rw [List.filterMap_cons_some (show statOf (k, v :: vs) = some _ from rfl), List.filter_cons]
      by_cases h : P k
      · rw [if_pos (by simpa using h)]
        simp only [List.map_cons, List.sum_cons, ih, if_pos h]
      · rw [if_neg (by simpa using h)]
        simp only [List.map_cons, List.sum_cons, ih, if_neg h, zero_add]

theorem childTotal_eq (sep : Char) (s : St) (k : Name) :
    childTotal sep (stats s) k = dsum s.records fun c => sep ∈ c ∧ parentName sep c = k := by
  rw [← stats_filter_sum]
  unfold childTotal
  simp only [Bool.decide_and]

/-- Every record of a hierarchical timer belongs to a clean path of the log. -/
theorem addLog_keys (C : Cfg) (L : List (List Name × ℝ)) (d : List (Name × List ℝ)) (y : Name × List ℝ)
    (hy : y ∈ addLog C d L) : y.1 ∈ d.map Prod.fst ∨ ∃ x ∈ L, C.pathName x.1 = y.1 := by
  induction L generalizing d with
  | nil => exact Or.inl (List.mem_map.2 ⟨y, hy, rfl⟩)
  | cons x L ih =>
    rcases ih _ hy with h | ⟨z, hz, h⟩
    · obtain ⟨z, hz, hzy⟩ := List.mem_map.1 h
      rcases mem_appendRec hz with h | ⟨h, -⟩
      · exact Or.inl (List.mem_map.2 ⟨z, h, hzy⟩)
      · exact Or.inr ⟨x, List.mem_cons_self .., by rw [← hzy, h]⟩
    · exact Or.inr ⟨z, List.mem_cons_of_mem _ hz, h⟩

theorem keys_addLog (C : Cfg) (L : List (List Name × ℝ)) (d : List (Name × List ℝ)) :
    (∀ k ∈ d.map Prod.fst, k ∈ (addLog C d L).map Prod.fst) ∧
    ∀ x ∈ L, C.pathName x.1 ∈ (addLog C d L).map Prod.fst := by
  have hkeep : ∀ (d : List (Name × List ℝ)) (k : Name) (v : ℝ), k ∈ (appendRec d k v).map Prod.fst ∧
      ∀ k' ∈ d.map Prod.fst, k' ∈ (appendRec d k v).map Prod.fst := by
    intro d k v
    unfold appendRec
    by_cases h : k ∈ d.map Prod.fst
    · rw [dset_keys h]; exact ⟨h, fun _ => id⟩
    · rw [dset_new h]
      exact ⟨by simp, fun k' h' => by rw [List.map_append]; exact List.mem_append_left _ h'⟩
  induction L generalizing d with
  | nil => exact ⟨fun k h => h, by simp⟩
  | cons x L ih =>
    obtain ⟨h1, h2⟩ := ih (appendRec d (C.pathName x.1) x.2)
    obtain ⟨h3, h4⟩ := hkeep d (C.pathName x.1) x.2
    refine ⟨fun k hk => h1 k (h4 k hk), fun z hz => ?_⟩
    rcases List.mem_cons.1 hz with rfl | hz
    · exact h1 _ h3
    · exact h2 z hz

theorem dsum_single (d : List (Name × List ℝ)) (hd : (d.map Prod.fst).Nodup) {k : Name} {vs : List ℝ} (h : (k, vs) ∈ d) :
    vs.sum = dsum d fun c => c = k := by
  classical
  unfold dsum
  induction d with
  | nil => simp at h
  | cons y d ih =>
    rw [List.map_cons, List.nodup_cons] at hd
    simp only [List.map_cons, List.sum_cons]
    rcases List.mem_cons.1 h with rfl | h
    · rw [if_pos rfl]
      refine (add_eq_left.2 (List.sum_eq_zero ?_)).symm
      intro z hz
      obtain ⟨w, hw, rfl⟩ := List.mem_map.1 hz
      rw [if_neg]
      intro hwk
      exact hd.1 (List.mem_map.2 ⟨w, hw, hwk⟩)
    · have hyk : y.1 ≠ k := fun hyk => hd.1 (List.mem_map.2 ⟨_, h, hyk.symm⟩)
      rw [if_neg hyk, zero_add]; exact ih hd.2 h

/-- Statistics of a hierarchical timer after a program without separators in names: each belongs to a path, with its own total and
the total of its children. -/
theorem stat_path {C : Cfg} (hh : C.hierarchical = true) {p : Prog} (hp : Plain p) (hf : SepFree C p) {st : Stats}
    (h : st ∈ stats (after C p)) :
    ∃ π, Clean C.sep π ∧ st.name = [C.sep].intercalate π ∧ (∃ x ∈ (log C.clock [] 0 p).1, x.1 = π) ∧
      st.total = own (log C.clock [] 0 p).1 π ∧
      childTotal C.sep (stats (after C p)) st.name = kids (log C.clock [] 0 p).1 π := by
  have hpn : ∀ π, C.pathName π = [C.sep].intercalate π := fun π => by unfold Cfg.pathName; rw [if_pos hh]
  have hnd : ((after C p).records.map Prod.fst).Nodup := by rw [after_eq hp]; exact addLog_nodup C _ _ (by simp)
  have hcl := clean_log hf
  have hchild := childTotal_eq C.sep (after C p) st.name
  unfold stats at h
  obtain ⟨y, hy, hst⟩ := List.mem_filterMap.1 h
  obtain ⟨k, vs⟩ := y
  rcases vs with _ | ⟨v, vs⟩
  · simp [statOf] at hst
  simp only [statOf, Option.some.injEq] at hst
  subst hst
  have hy' := hy
  rw [after_eq hp] at hy'
  rcases addLog_keys C _ _ _ hy' with hk | ⟨x, hx, hxk⟩
  · simp at hk
  rw [hpn] at hxk
  simp only at hxk hchild
  refine ⟨x.1, hcl x hx, hxk.symm, ⟨x, hx, rfl⟩, ?_, ?_⟩
  · simp only
    rw [dsum_single _ hnd hy, after_eq hp, dsum_addLog C _ _ (by simp)]
    simp only [dsum, List.map_nil, List.sum_nil, zero_add, own]
    apply wsum_congr
    intro z hz
    rw [hpn, ← hxk]
    exact ⟨join_inj (hcl z hz) (hcl x hx), fun h => by rw [h]⟩
  · simp only
    rw [hchild, after_eq hp, dsum_addLog C _ _ (by simp)]
    simp only [dsum, List.map_nil, List.sum_nil, zero_add, kids]
    apply wsum_congr
    intro z hz
    have hz' := hcl z hz
    rw [hpn, sep_mem_join hz', parent_join hz', ← hxk]
    constructor
    · rintro ⟨h1, h2⟩
      exact join_inj ⟨h1, fun m hm => hz'.2 m (List.mem_of_mem_dropLast hm)⟩ (hcl x hx) h2
    · intro h
      rw [h]
      exact ⟨(hcl x hx).1, rfl⟩

/-- **C48 (nesting).** After a program on a fresh hierarchical timer with a monotone clock, whose section names do not contain the
separator, each section's total is at least the sum of its direct children's totals, so the reported self time is exactly the
difference, with the average per call. -/
theorem C48_children_within_parent_partial (C : Cfg) (hc : Monotone C.clock) (hh : C.hierarchical = true) (p : Prog)
    (hp : Plain p) (hf : SepFree C p) :
    (∀ st ∈ stats (after C p), childTotal C.sep (stats (after C p)) st.name ≤ st.total) ∧
    (selfStats C.sep (stats (after C p))).map (fun s => (s.name, s.count, s.total, s.avg)) =
      (stats (after C p)).map fun s => (s.name, s.count, s.total - childTotal C.sep (stats (after C p)) s.name,
        (s.total - childTotal C.sep (stats (after C p)) s.name) / s.count) := by
  have key : ∀ st ∈ stats (after C p), childTotal C.sep (stats (after C p)) st.name ≤ st.total := by
    intro st hst
    obtain ⟨π, hπ, -, -, h1, h2⟩ := stat_path hh hp hf hst
    rw [h1, h2]
    exact (log_good hc p [] 0).nest π hπ.1
  refine ⟨key, ?_⟩
  unfold selfStats
  rw [List.map_map]
  apply List.map_congr_left
  intro st hst
  have hc0 : st.count ≠ 0 := by
    obtain ⟨y, -, hy⟩ := List.mem_filterMap.1 hst
    obtain ⟨k, vs⟩ := y
    rcases vs with _ | ⟨v, vs⟩
    · simp [statOf] at hy
    · simp only [statOf, Option.some.injEq] at hy
      rw [← hy]; simp
  simp only [Function.comp, Prod.mk.injEq, true_and]
  rw [if_pos hc0, max_eq_left (sub_nonneg.2 (key st hst))]
  exact ⟨rfl, rfl⟩

theorem names_nodup (s : St) (h : (s.records.map Prod.fst).Nodup) : ((stats s).map Stats.name).Nodup := by
  unfold stats
  induction hr : s.records generalizing s with
  | nil => simp
  | cons y d ih =>
    obtain ⟨k, vs⟩ := y
    rw [hr, List.map_cons, List.nodup_cons] at h
    have ih := ih ⟨s.stack, d, s.reads⟩ h.2 rfl
    rcases vs with _ | ⟨v, vs⟩
    · rw [List.filterMap_cons_none (show statOf (k, []) = none from rfl)]; exact ih
    · rw [List.filterMap_cons_some (show statOf (k, v :: vs) = some _ from rfl), List.map_cons, List.nodup_cons]
      refine ⟨?_, ih⟩
      intro hm
      obtain ⟨st, hst, hn⟩ := List.mem_map.1 hm
      obtain ⟨z, hz, hzs⟩ := List.mem_filterMap.1 hst
      obtain ⟨k', vs'⟩ := z
      rcases vs' with _ | ⟨v', vs'⟩
      · simp [statOf] at hzs
      · simp only [statOf, Option.some.injEq] at hzs
        subst hzs
        exact h.1 (List.mem_map.2 ⟨_, hz, hn⟩)

theorem sum_ite_eq {l : List Name} (hl : l.Nodup) (a : Name) (x : ℝ) :
    (l.map fun k => if a = k then x else 0).sum = if a ∈ l then x else 0 := by
  induction l with
  | nil => simp
  | cons b l ih =>
    rw [List.nodup_cons] at hl
    simp only [List.map_cons, List.sum_cons, ih hl.2, List.mem_cons]
    by_cases hab : a = b
    · subst hab; simp [hl.1]
    · simp [hab]

theorem sum_map_swap {β γ : Type} (l : List β) (m : List γ) (f : β → γ → ℝ) :
    (l.map fun b => (m.map fun c => f b c).sum).sum = (m.map fun c => (l.map fun b => f b c).sum).sum := by
  induction l with
  | nil => simp
  | cons b l ih =>
    simp only [List.map_cons, List.sum_cons, ih]
    induction m with
    | nil => simp
    | cons c m ihm =>
      simp only [List.map_cons, List.sum_cons] at ihm ⊢
      have h0 : ∀ m : List γ, (m.map fun c => f b c).sum + (m.map fun c => (l.map fun b => f b c).sum).sum =
          (m.map fun c => f b c + (l.map fun b => f b c).sum).sum := by
        intro m
        induction m with
        | nil => simp
        | cons c m ih => simp only [List.map_cons, List.sum_cons]; rw [← ih]; ring
      rw [← h0 m]; ring

/-- **C48 (no double counting).** Under the same conditions the self times of all sections add up to the total time of the outermost
sections. -/
theorem C48_self_times_add_up_partial (C : Cfg) (hc : Monotone C.clock) (hh : C.hierarchical = true) (p : Prog)
    (hp : Plain p) (hf : SepFree C p) :
    ((selfStats C.sep (stats (after C p))).map Stats.total).sum =
      (((stats (after C p)).filter fun s => decide (C.sep ∉ s.name)).map Stats.total).sum := by
  classical
  have hpn : ∀ π, C.pathName π = [C.sep].intercalate π := fun π => by unfold Cfg.pathName; rw [if_pos hh]
  have hnd : ((after C p).records.map Prod.fst).Nodup := by rw [after_eq hp]; exact addLog_nodup C _ _ (by simp)
  have hcl := clean_log hf
  have hg := log_good hc p [] 0
  obtain ⟨hle, -⟩ := C48_children_within_parent_partial C hc hh p hp hf
  have hself : ((selfStats C.sep (stats (after C p))).map Stats.total).sum =
      ((stats (after C p)).map Stats.total).sum -
        ((stats (after C p)).map fun s => childTotal C.sep (stats (after C p)) s.name).sum := by
    unfold selfStats
    rw [List.map_map]
    have : ∀ l : List Stats, (∀ s ∈ l, childTotal C.sep (stats (after C p)) s.name ≤ s.total) →
        (l.map (Stats.total ∘ fun s =>
          (⟨s.name, s.count, Max.max (s.total - childTotal C.sep (stats (after C p)) s.name) 0,
            if s.count ≠ 0 then Max.max (s.total - childTotal C.sep (stats (after C p)) s.name) 0 / s.count else 0,
            Max.max (s.total - childTotal C.sep (stats (after C p)) s.name) 0⟩ : Stats))).sum =
        (l.map Stats.total).sum - (l.map fun s => childTotal C.sep (stats (after C p)) s.name).sum := by
      intro l hl
      induction l with
      | nil => simp
      | cons s l ih =>
        simp only [List.map_cons, List.sum_cons, Function.comp] at ih ⊢
        rw [ih fun s hs => hl s (List.mem_cons_of_mem _ hs),
          max_eq_left (sub_nonneg.2 (hl s (List.mem_cons_self ..)))]
        ring
    exact this _ hle
  have hall : ∀ (P : Name → Prop) [DecidablePred P],
      (((stats (after C p)).filter fun s => decide (P s.name)).map Stats.total).sum =
        wsum (log C.clock [] 0 p).1 fun π => P ([C.sep].intercalate π) := by
    intro P _
    rw [stats_filter_sum, after_eq hp, dsum_addLog C _ _ (by simp)]
    simp [dsum, hpn]
  have htot : ((stats (after C p)).map Stats.total).sum = wsum (log C.clock [] 0 p).1 fun _ => True := by
    have := hall (fun _ => True)
    simpa using this
  have hchild : ((stats (after C p)).map fun s => childTotal C.sep (stats (after C p)) s.name).sum =
      wsum (log C.clock [] 0 p).1 fun π => C.sep ∈ [C.sep].intercalate π := by
    have h1 : ∀ k, childTotal C.sep (stats (after C p)) k =
        ((log C.clock [] 0 p).1.map fun x => if C.sep ∈ [C.sep].intercalate x.1 ∧
          parentName C.sep ([C.sep].intercalate x.1) = k then x.2 else 0).sum := by
      intro k
      rw [childTotal_eq, after_eq hp, dsum_addLog C _ _ (by simp)]
      simp only [dsum, List.map_nil, List.sum_nil, zero_add, wsum, hpn]
    simp only [h1]
    rw [sum_map_swap]
    unfold wsum
    congr 1
    apply List.map_congr_left
    intro x hx
    by_cases hs : C.sep ∈ [C.sep].intercalate x.1
    · simp only [hs, true_and, if_true]
      have hmm : ((stats (after C p)).map fun s => if parentName C.sep ([C.sep].intercalate x.1) = s.name then x.2 else 0) =
          ((stats (after C p)).map Stats.name).map fun k =>
            if parentName C.sep ([C.sep].intercalate x.1) = k then x.2 else 0 := by
        rw [List.map_map]; rfl
      rw [hmm, sum_ite_eq (names_nodup _ hnd), if_pos]
      rw [parent_join (hcl x hx)]
      rw [sep_mem_join (hcl x hx)] at hs
      rcases hg.parent x hx with h | ⟨y, hy, h⟩
      · exact absurd h hs
      · have hkey := (keys_addLog C (log C.clock [] 0 p).1 []).2 y hy
        rw [← after_eq hp, hpn, h] at hkey
        obtain ⟨z, hz, hzn⟩ := List.mem_map.1 hkey
        have hne : z.2 ≠ [] := by
          have := addLog_mem C _ [] (by simp) hg.nonneg
          rw [← after_eq hp] at this
          exact (this z hz).1
        obtain ⟨k, vs⟩ := z
        rcases vs with _ | ⟨v, vs⟩
        · exact absurd rfl hne
        · exact List.mem_map.2 ⟨_, List.mem_filterMap.2 ⟨_, hz, rfl⟩, hzn⟩
    · simp [hs]
  rw [hself, htot, hchild, hall fun k => C.sep ∉ k]
  unfold wsum
  induction (log C.clock [] 0 p).1 with
  | nil => simp
  | cons x L ih =>
    simp only [List.map_cons, List.sum_cons]
    rw [← ih]
    by_cases hs : C.sep ∈ [C.sep].intercalate x.1
    · simp only [hs, if_true, not_true_eq_false, if_false]; ring
    · simp only [hs, if_true, not_false_eq_true, if_false]; ring

/-- Non-vacuity: two iterations with a nested section. -/
example : let C : Cfg := ⟨fun n => n, true, '>'⟩
    let it := Prog.sect "iter".toList (.sect "solve".toList .skip)
    Monotone C.clock ∧ Plain (.seq it it) ∧ SepFree C (.seq it it) ∧
    (log C.clock [] 0 (.seq it it)).1.map Prod.fst =
      [["iter".toList, "solve".toList], ["iter".toList], ["iter".toList, "solve".toList], ["iter".toList]] :=
  ⟨fun _ _ h => by simpa using h, ⟨trivial, trivial⟩, by unfold SepFree; decide, by simp [log]⟩

/-- **C48 (refuted for names containing the separator).** A section named `a>b` that is not nested in `a` is counted as its child: its
time exceeds the total of `a`, and the self times no longer add up to the total. -/
theorem C48_separator_in_name_miscounted :
    let C : Cfg := ⟨fun n => (n : ℝ) ^ 2, true, '>'⟩
    let p := Prog.seq (.sect "a".toList .skip) (.sect "a>b".toList .skip)
    (stats (after C p)).map (fun s => (s.name, s.total)) = [("a".toList, 1), ("a>b".toList, 5)] ∧
    childTotal '>' (stats (after C p)) "a".toList = 5 ∧
    (selfStats '>' (stats (after C p))).map (fun s => (s.name, s.total)) = [("a".toList, 0), ("a>b".toList, 5)] := by
  intro C p
  have hrec : (after C p).records = [("a".toList, [1]), ("a>b".toList, [5])] := by
    unfold after
    simp only [p, run, Cfg.fullName, C]
    norm_num [appendRec, dset, dget]
    have hne : ¬ "a".toList = "a>b".toList := by decide
    simp only [if_neg hne]; rfl
  have hst : stats (after C p) = [⟨"a".toList, 1, 1, 1, 1⟩, ⟨"a>b".toList, 1, 5, 5, 5⟩] := by
    unfold stats; rw [hrec]; simp [statOf]
  have hpar : parentName '>' "a>b".toList = "a".toList := by decide
  have hc1 : childTotal '>' (stats (after C p)) "a".toList = 5 := by
    rw [hst]; unfold childTotal
    have h1 : (decide ('>' ∈ "a".toList) && decide (parentName '>' "a".toList = "a".toList)) = false := by decide
    have h2 : (decide ('>' ∈ "a>b".toList) && decide (parentName '>' "a>b".toList = "a".toList)) = true := by decide
    simp only [List.filter_cons, h1, h2]; simp
  have hc2 : childTotal '>' (stats (after C p)) "a>b".toList = 0 := by
    rw [hst]; unfold childTotal
    have h1 : (decide ('>' ∈ "a".toList) && decide (parentName '>' "a".toList = "a>b".toList)) = false := by decide
    have h2 : (decide ('>' ∈ "a>b".toList) && decide (parentName '>' "a>b".toList = "a>b".toList)) = false := by decide
    simp only [List.filter_cons, h1, h2]; simp
  refine ⟨by rw [hst]; rfl, hc1, ?_⟩
  unfold selfStats
  rw [List.map_map]
  rw [hst] at hc1 hc2 ⊢
  simp only [List.map_cons, List.map_nil, Function.comp, hc1, hc2]
  norm_num

/-- **C48 (summary).** `summary` returns the same statistics, sorted by the chosen key in the chosen direction. -/
theorem C48_summary_sorted (l : List Stats) (key : Key) (descending : Bool) :
    (summary l key descending).Perm l ∧
    (summary l key descending).Pairwise fun a b => if descending then key.of b ≤ key.of a else key.of a ≤ key.of b := by
  classical
  unfold summary
  refine ⟨List.perm_insertionSort _ _, ?_⟩
  cases descending
  · have : Std.Total fun a b : Stats => key.of a ≤ key.of b := ⟨fun a b => le_total _ _⟩
    have : IsTrans Stats fun a b : Stats => key.of a ≤ key.of b := ⟨fun _ _ _ h1 h2 => le_trans h1 h2⟩
    simpa using List.pairwise_insertionSort (fun a b : Stats => key.of a ≤ key.of b) l
  · have : Std.Total fun a b : Stats => key.of b ≤ key.of a := ⟨fun a b => le_total _ _⟩
    have : IsTrans Stats fun a b : Stats => key.of b ≤ key.of a := ⟨fun _ _ _ h1 h2 => le_trans h2 h1⟩
    simpa using List.pairwise_insertionSort (fun a b : Stats => key.of b ≤ key.of a) l

/-! ### C66: running averages -/

/-- Specification: the values passed under a name so far. -/
def valuesOf (calls : List (Name × ℝ)) (n : Name) : List ℝ := (calls.filter fun c => c.1 = n).map Prod.snd

/-- The state after a sequence of updates. -/
def runAfter (calls : List (Name × ℝ)) : Run := calls.foldl (fun r c => (updateOne r c.1 c.2).1) {}

theorem dget_dset {β : Type} {d : List (Name × β)} (hd : (d.map Prod.fst).Nodup) (k k' : Name) (v : β) :
    dget (dset d k v) k' = if k = k' then some v else dget d k' := by
  have hnd := dset_nodup (k := k) (v := v) hd
  by_cases hk : k = k'
  · subst hk
    rw [if_pos rfl]
    apply dget_of_mem hnd
    unfold dset
    split_ifs with h
    · obtain ⟨y, hy, hyk⟩ := List.any_eq_true.1 h
      exact List.mem_map.2 ⟨y, hy, by rw [if_pos (by simpa using hyk)]⟩
    · exact List.mem_append_right _ (by simp)
  · rw [if_neg hk]
    by_cases hk' : k' ∈ d.map Prod.fst
    · obtain ⟨y, hy, rfl⟩ := List.mem_map.1 hk'
      rw [dget_of_mem hd (show (y.1, y.2) ∈ d from hy)]
      apply dget_of_mem hnd
      unfold dset
      split_ifs
      · exact List.mem_map.2 ⟨y, hy, by rw [if_neg (Ne.symm hk)]⟩
      · exact List.mem_append_left _ hy
    · rw [dget_none hk', dget_none]
      intro hm
      obtain ⟨y, hy, rfl⟩ := List.mem_map.1 hm
      rcases mem_dset hy with h | h
      · exact hk' (List.mem_map.2 ⟨y, h, rfl⟩)
      · exact hk (by rw [h])

theorem run_inv (calls : List (Name × ℝ)) :
    ((runAfter calls).means.map Prod.fst).Nodup ∧ ((runAfter calls).counts.map Prod.fst).Nodup ∧
    ∀ n, (dget (runAfter calls).counts n).getD 0 = (valuesOf calls n).length ∧
      (valuesOf calls n = [] → dget (runAfter calls).means n = none) ∧
      (valuesOf calls n ≠ [] → dget (runAfter calls).means n = some ((valuesOf calls n).sum / (valuesOf calls n).length)) := by
  induction calls using List.reverseRecOn with
  | nil =>
    refine ⟨by simp [runAfter], by simp [runAfter], fun n => ⟨rfl, fun _ => rfl, fun h => absurd rfl h⟩⟩
  | append_singleton calls c ih =>
    obtain ⟨h1, h2, h3⟩ := ih
    have hr : runAfter (calls ++ [c]) = (updateOne (runAfter calls) c.1 c.2).1 := by
      simp [runAfter, List.foldl_append]
    have hv : ∀ n, valuesOf (calls ++ [c]) n = valuesOf calls n ++ if c.1 = n then [c.2] else [] := by
      intro n
      unfold valuesOf
      rw [List.filter_append, List.map_append]
      by_cases h : c.1 = n <;> simp [h]
    rw [hr]
    refine ⟨dset_nodup h1, dset_nodup h2, fun n => ?_⟩
    simp only [updateOne]
    rw [dget_dset h1, dget_dset h2, hv n]
    obtain ⟨hc1, hc2, hc3⟩ := h3 n
    by_cases hn : c.1 = n
    · subst hn
      simp only [if_true, Option.getD_some, List.length_append, List.length_cons, List.length_nil, Nat.zero_add]
      refine ⟨by rw [hc1], fun h => by simp at h, fun _ => ?_⟩
      congr 1
      rw [hc1]
      by_cases he : valuesOf calls c.1 = []
      · rw [hc2 he, he]; simp
      · rw [hc3 he]
        have hpos : (0 : ℝ) < ((valuesOf calls c.1).length : ℝ) := by
          exact_mod_cast List.length_pos_iff.2 he
        simp only [Option.getD_some, List.sum_append, List.sum_cons, List.sum_nil, add_zero, Nat.cast_add, Nat.cast_one]
        field_simp
        ring
    · simp only [if_neg hn, List.append_nil]
      exact ⟨hc1, hc2, hc3⟩

/-- **C66.** The running average returned for a name is the arithmetic mean of all values passed under that name so far. -/
theorem C66_running_average_is_mean_partial (calls : List (Name × ℝ)) (n : Name) (v : ℝ) :
    (updateOne (runAfter calls) n v).2 = (valuesOf calls n ++ [v]).sum / (valuesOf calls n ++ [v]).length := by
  have h := (run_inv (calls ++ [(n, v)])).2.2 n
  have hr : runAfter (calls ++ [(n, v)]) = (updateOne (runAfter calls) n v).1 := by
    simp [runAfter, List.foldl_append]
  have hv : valuesOf (calls ++ [(n, v)]) n = valuesOf calls n ++ [v] := by
    unfold valuesOf; simp
  rw [hv, hr] at h
  have h' := h.2.2 (by simp)
  simp only [updateOne] at h' ⊢
  rw [dget_dset (run_inv calls).1, if_pos rfl] at h'
  exact Option.some.inj h'

/-- **C66 (plots).** A plot updates the sections one by one, so each plotted value is the mean of that label's values. -/
theorem C66_plot_values (calls : List (Name × ℝ)) (l : List (Name × ℝ)) :
    updateAll (runAfter calls) l = (runAfter (calls ++ l), (List.range l.length).map fun i =>
      match l[i]? with
      | none => 0
      | some x => let vs := valuesOf (calls ++ l.take i) x.1 ++ [x.2]; vs.sum / vs.length) := by
  induction l generalizing calls with
  | nil => simp [updateAll]
  | cons x l ih =>
    have hr : (updateOne (runAfter calls) x.1 x.2).1 = runAfter (calls ++ [x]) := by
      simp [runAfter, List.foldl_append]
    simp only [updateAll, hr, ih (calls ++ [x])]
    rw [C66_running_average_is_mean_partial]
    simp only [List.append_assoc, List.singleton_append, List.length_cons, List.range_succ_eq_map, List.map_cons, List.map_map]
    congr 1
    simp

/-- **C66 (refuted for bar charts).** A bar chart of a hierarchical timer labels sections by their last name only, so sections with the
same last name share one running average: here the section `b>solve`, timed once with 3, is plotted as 2. -/
theorem C66_bar_chart_mixes_sections :
    label '>' "a>solve".toList = label '>' "b>solve".toList ∧
    (updateAll {} [(label '>' "a>solve".toList, 1), (label '>' "b>solve".toList, 3)]).2 = [1, 2] := by
  have h : label '>' "a>solve".toList = label '>' "b>solve".toList := by decide
  refine ⟨h, ?_⟩
  rw [h]
  have := C66_plot_values [] [(label '>' "b>solve".toList, 1), (label '>' "b>solve".toList, 3)]
  have h0 : runAfter [] = {} := rfl
  rw [h0] at this
  rw [this]
  simp [List.range_succ, valuesOf]
  norm_num

end
end Verif.Timer
