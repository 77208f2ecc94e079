import Mathlib.Data.List.Nodup
import Mathlib.Data.List.Basic
import Verif.Model.History

namespace Verif.History

open Snapshot (Name)

section Dict
variable {β : Type}

theorem dset_new {d : List (Name × β)} {k : Name} {v : β} (h : k ∉ d.map Prod.fst) : dset d k v = d ++ [(k, v)] := by
  unfold dset
  rw [if_neg]
  intro hc
  rw [List.any_eq_true] at hc
  obtain ⟨x, hx, hk⟩ := hc
  exact h (List.mem_map.2 ⟨x, hx, by simpa using hk⟩)

theorem dget_of_mem {d : List (Name × β)} (hn : (d.map Prod.fst).Nodup) {k : Name} {v : β} (h : (k, v) ∈ d) :
    dget d k = some v := by
  unfold dget
  induction d with
  | nil => simp at h
  | cons x d ih =>
    rw [List.map_cons, List.nodup_cons] at hn
    rw [List.find?_cons]
    rcases List.mem_cons.1 h with rfl | h
    · simp
    · have : x.1 ≠ k := fun hk => hn.1 (hk ▸ List.mem_map.2 ⟨_, h, rfl⟩)
      have hb : (x.1 == k) = false := by simpa using this
      rw [hb]
      exact ih hn.2 h

theorem dget_none {d : List (Name × β)} {k : Name} (h : k ∉ d.map Prod.fst) : dget d k = none := by
  unfold dget
  rw [Option.map_eq_none_iff, List.find?_eq_none]
  intro x hx hk
  exact h (List.mem_map.2 ⟨x, hx, by simpa using hk⟩)

theorem dset_keys {d : List (Name × β)} {k : Name} {v : β} (h : k ∈ d.map Prod.fst) :
    (dset d k v).map Prod.fst = d.map Prod.fst := by
  unfold dset
  split_ifs with hc
  · rw [List.map_map]
    apply List.map_congr_left
    intro x _
    simp only [Function.comp]
    split_ifs with hx
    · exact hx.symm
    · rfl
  · exfalso; apply hc
    obtain ⟨x, hx, hk⟩ := List.mem_map.1 h
    exact List.any_eq_true.2 ⟨x, hx, by simpa using hk⟩

theorem dset_nodup {d : List (Name × β)} {k : Name} {v : β} (hn : (d.map Prod.fst).Nodup) :
    ((dset d k v).map Prod.fst).Nodup := by
  by_cases h : k ∈ d.map Prod.fst
  · rwa [dset_keys h]
  · rw [dset_new h, List.map_append, List.nodup_append]
    refine ⟨hn, by simp, ?_⟩
    intro a ha b hb hab
    simp at hb
    subst hab; subst hb; exact h ha

theorem mem_dset {d : List (Name × β)} {k : Name} {v : β} {x : Name × β} (h : x ∈ dset d k v) : x ∈ d ∨ x = (k, v) := by
  unfold dset at h
  split_ifs at h
  · obtain ⟨y, hy, rfl⟩ := List.mem_map.1 h
    split_ifs
    · exact Or.inr rfl
    · exact Or.inl hy
  · rcases List.mem_append.1 h with h | h
    · exact Or.inl h
    · exact Or.inr (by simpa using h)

end Dict

variable {α : Type}

/-- The number of statistics of a row. -/
def width (s : Series α) : ℕ := if s.plotType = stdType then 4 else 3

/-- A history whose entries are all floats, or all rows of the right length. -/
def Regular (s : Series α) : Prop :=
  (∃ xs : List α, s.data = xs.map .scalar) ∨ ∃ rows : List (List α), s.data = rows.map .row ∧ ∀ r ∈ rows, r.length = width s

theorem scalars_map (xs : List α) : scalars (xs.map .scalar) = some xs := by
  induction xs with
  | nil => rfl
  | cons x xs ih => simp [scalars, ih]

theorem rowsOf_map (rows : List (List α)) : rowsOf (rows.map .row) = some rows := by
  induction rows with
  | nil => rfl
  | cons x xs ih => simp [rowsOf, ih]

theorem two_le_width (s : Series α) : 1 < width s := by unfold width; split_ifs <;> omega

theorem regular_array {s : Series α} (h : Regular s) : ∃ a, s.dataArray = .ok a ∧ dataList a = s.data := by
  rcases h with ⟨xs, hd⟩ | ⟨rows, hd, hl⟩
  · unfold Series.dataArray
    rcases xs with _ | ⟨x, xs⟩
    · rw [hd]; exact ⟨_, rfl, rfl⟩
    · rw [hd]
      simp only [List.map_cons, scalars_map]
      exact ⟨_, rfl, rfl⟩
  · unfold Series.dataArray
    rcases rows with _ | ⟨x, rows⟩
    · rw [hd]; exact ⟨_, rfl, rfl⟩
    · rw [hd]
      have hx : x.length = width s := hl x (by simp)
      have hall : ∀ r ∈ x :: rows, r.length = x.length := fun r hr => by rw [hl r hr, hx]
      have ha : arrayOfRows x.length (x :: rows) = .ok ⟨(x :: rows).length, x.length, fun i j =>
          ((x :: rows)[i.val]'i.isLt)[j.val]'(by rw [hall _ (List.getElem_mem _)]; exact j.isLt)⟩ := by
        unfold arrayOfRows; rw [dif_pos hall]
      simp only [List.map_cons, rowsOf_map, ha]
      refine ⟨_, rfl, ?_⟩
      have hw : (if s.plotType = stdType then 4 else 3) = x.length := by rw [hx]; rfl
      have h1 : 1 < x.length := by rw [hx]; exact two_le_width s
      rw [hw]
      simp only [dataList]
      rw [if_pos (by simpa [Arr2.take, Arr2.T] using h1)]
      have : ∀ (c : ℕ) (l : List (List α)) (hc : ∀ r ∈ l, r.length = c),
          (Arr2.take (Arr2.T ⟨l.length, c, fun i j =>
            (l[i.val]'i.isLt)[j.val]'(by rw [hc _ (List.getElem_mem _)]; exact j.isLt)⟩) c).T.rows = l := by
        intro c l hc
        unfold Arr2.rows
        apply List.ext_getElem
        · simp [Arr2.T, Arr2.take]
        · intro i h1 h2
          rw [List.getElem_ofFn]
          have hli : (l[i]).length = c := hc _ (List.getElem_mem _)
          apply List.ext_getElem
          · simp [Arr2.T, Arr2.take, hli]
          · intro j h3 h4
            rw [List.getElem_ofFn]
            rfl
      rw [this x.length (x :: rows) hall]
      rfl

/-- The array a regular history is saved as. -/
def arrOf (s : Series α) : Arr α := match s.dataArray with
  | .ok a => a
  | .error _ => .one []

theorem arrOf_spec {s : Series α} (h : Regular s) : s.dataArray = .ok (arrOf s) ∧ dataList (arrOf s) = s.data := by
  obtain ⟨a, h1, h2⟩ := regular_array h
  have : arrOf s = a := by unfold arrOf; rw [h1]
  rw [this]; exact ⟨h1, h2⟩

/-- The arrays written for a collection. -/
def entries (c : Coll α) : File α :=
  c.flatMap fun x => [(x.1, arrOf x.2), (x.1 ++ headerSuffix, .strs x.2.header)]

theorem toArrays_filter (acc : File α) (c : Coll α) :
    toArrays acc c = toArrays acc (c.filter fun x => x.2.isLogged) := by
  induction c generalizing acc with
  | nil => rfl
  | cons x c ih =>
    obtain ⟨n, s⟩ := x
    by_cases h : s.isLogged = true
    · rw [List.filter_cons_of_pos (by simpa using h)]
      simp only [toArrays, if_pos h]
      cases s.dataArray with
      | error e => rfl
      | ok a => exact ih _
    · rw [List.filter_cons_of_neg (by simpa using h)]
      simp only [toArrays, if_neg h]
      exact ih _

theorem mem_entries_keys {c : Coll α} {k : Name} :
    k ∈ (entries c).map Prod.fst ↔ ∃ x ∈ c, k = x.1 ∨ k = x.1 ++ headerSuffix := by
  unfold entries
  rw [List.mem_map]
  constructor
  · rintro ⟨y, hy, rfl⟩
    obtain ⟨x, hx, hy⟩ := List.mem_flatMap.1 hy
    simp only [List.mem_cons, List.not_mem_nil, or_false] at hy
    rcases hy with rfl | rfl
    · exact ⟨x, hx, Or.inl rfl⟩
    · exact ⟨x, hx, Or.inr rfl⟩
  · rintro ⟨x, hx, rfl | rfl⟩
    · exact ⟨_, List.mem_flatMap.2 ⟨x, hx, List.mem_cons_self ..⟩, rfl⟩
    · exact ⟨_, List.mem_flatMap.2 ⟨x, hx, List.mem_cons_of_mem _ (List.mem_cons_self ..)⟩, rfl⟩

theorem entries_nodup {c : Coll α} (hn : (c.map Prod.fst).Nodup) (hh : ∀ x ∈ c, ¬ headerSuffix <:+ x.1) :
    ((entries c).map Prod.fst).Nodup := by
  induction c with
  | nil => simp [entries]
  | cons x c ih =>
    rw [List.map_cons, List.nodup_cons] at hn
    have ih := ih hn.2 fun y hy => hh y (List.mem_cons_of_mem _ hy)
    have hx : ∀ y ∈ c, x.1 ≠ y.1 := fun y hy he => hn.1 (he ▸ List.mem_map.2 ⟨y, hy, rfl⟩)
    have hs : ∀ a b : Name, a ++ headerSuffix = b → headerSuffix <:+ b := fun a b h => ⟨a, h⟩
    have hk := @mem_entries_keys α c
    show (x.1 :: (x.1 ++ headerSuffix) :: (entries c).map Prod.fst).Nodup
    rw [List.nodup_cons, List.nodup_cons, List.mem_cons, hk, hk]
    refine ⟨?_, ?_, ih⟩
    · rintro (h | ⟨y, hy, h | h⟩)
      · exact hh x (by simp) (hs _ _ h.symm)
      · exact hx y hy h
      · exact hh x (by simp) (hs _ _ h.symm)
    · rintro ⟨y, hy, h | h⟩
      · exact hh y (List.mem_cons_of_mem _ hy) (hs _ _ h)
      · exact hx y hy (List.append_cancel_right h)

theorem toArrays_entries (acc : File α) (c : Coll α) (hl : ∀ x ∈ c, x.2.isLogged = true) (hr : ∀ x ∈ c, Regular x.2)
    (hn : ((acc ++ entries c).map Prod.fst).Nodup) : toArrays acc c = .ok (acc ++ entries c) := by
  induction c generalizing acc with
  | nil => simp [toArrays, entries]
  | cons x c ih =>
    obtain ⟨n, s⟩ := x
    have hs : s.isLogged = true := hl _ (List.mem_cons_self ..)
    have ha := (arrOf_spec (hr _ (List.mem_cons_self ..))).1
    simp only at ha
    simp only [toArrays, if_pos hs, ha]
    have he : acc ++ entries ((n, s) :: c) = (acc ++ [(n, arrOf s)] ++ [(n ++ headerSuffix, .strs s.header)]) ++ entries c := by
      simp [entries]
    rw [he] at hn ⊢
    have hn1 := hn
    rw [List.map_append, List.nodup_append] at hn1
    have hn2 := hn1.1
    rw [List.map_append, List.nodup_append] at hn2
    have hn3 := hn2.1
    rw [List.map_append, List.nodup_append] at hn3
    rw [dset_new (d := acc), dset_new]
    · exact ih _ (fun y hy => hl y (List.mem_cons_of_mem _ hy)) (fun y hy => hr y (List.mem_cons_of_mem _ hy)) hn
    · intro hm; exact hn2.2.2 _ hm _ (by simp) rfl
    · intro hm; exact hn3.2.2 _ hm _ (by simp) rfl

/-- A restored history: the data and plot type come from the file, the rest from the collection read into. -/
def restored (old : Coll α) (x : Name × Series α) : Name × Series α :=
  (x.1, { x.2 with constants := (dget old x.1).bind (·.constants), constantNames := (dget old x.1).bind (·.constantNames), ylog := ((dget old x.1).map (·.ylog)).getD false })

theorem importLoop_entries (old : Coll α) (f : File α) (acc : Coll α) (c : Coll α) (hr : ∀ x ∈ c, Regular x.2)
    (hname : ∀ x ∈ c, x.2.name = x.1) (hh : ∀ x ∈ c, ¬ headerSuffix <:+ x.1)
    (hf : ∀ x ∈ c, dget f (x.1 ++ headerSuffix) = some (.strs x.2.header))
    (hn : ((acc ++ c).map Prod.fst).Nodup) :
    importLoop old f acc (entries c) = .ok (acc ++ c.map (restored old)) := by
  induction c generalizing acc with
  | nil => simp [importLoop, entries]
  | cons x c ih =>
    obtain ⟨n, s⟩ := x
    have h1 : ¬ headerSuffix <:+ n := hh _ (List.mem_cons_self ..)
    have h2 : headerSuffix <:+ n ++ headerSuffix := List.suffix_append _ _
    have h3 : dget f (n ++ headerSuffix) = some (.strs s.header) := hf _ (List.mem_cons_self ..)
    have h4 : s.name = n := hname _ (List.mem_cons_self ..)
    have ha : dataList (arrOf s) = s.data := (arrOf_spec (hr (n, s) (List.mem_cons_self ..))).2
    have he : entries ((n, s) :: c) = (n, arrOf s) :: (n ++ headerSuffix, .strs s.header) :: entries c := rfl
    have hrh : readHeader f n = .ok (n, s.plotType) := by
      unfold readHeader; rw [h3]; simp only [Series.header, h4]
    rw [he]
    simp only [importLoop, if_neg h1, if_pos h2, hrh]
    have hn' := hn
    rw [List.map_append, List.nodup_append] at hn'
    rw [dset_new (fun hm => hn'.2.2 _ hm n (by simp) rfl)]
    have hre : (n, rebuild old n s.plotType (arrOf s)) = restored old (n, s) := by
      unfold rebuild restored
      rw [ha]
      cases s
      simp only at h4
      subst h4
      rfl
    rw [hre, ih _ (fun y hy => hr y (List.mem_cons_of_mem _ hy)) (fun y hy => hname y (List.mem_cons_of_mem _ hy))
      (fun y hy => hh y (List.mem_cons_of_mem _ hy)) (fun y hy => hf y (List.mem_cons_of_mem _ hy))]
    · simp
    · have : ((acc ++ [restored old (n, s)] ++ c).map Prod.fst) = (acc ++ (n, s) :: c).map Prod.fst := by
        simp [restored]
      rw [this]; exact hn

theorem restored_self {c : Coll α} (hn : (c.map Prod.fst).Nodup) {x : Name × Series α} (h : x ∈ c) :
    restored c x = x := by
  obtain ⟨n, s⟩ := x
  unfold restored
  rw [dget_of_mem hn h]
  rfl

end Verif.History
