import Verif.Props.Recorder
import Mathlib.Tactic.NormNum

/-! C116 continued: views and export of the recorded histories; C117: comparing histories. -/
namespace Verif.Recorder
open Verif.History Verif.Recorder.Spec
open Verif.Snapshot (Name)

theorem uniform_cases {α : Type} {s : Series α} (h : Uniform s) : s.data = [] ∨
    (∃ x xs, s.data = .scalar x :: xs.map .scalar ∧ scalars (xs.map .scalar) = some xs) ∨
    (∃ r rs, s.data = .row r :: rs.map .row ∧ rowsOf (rs.map .row) = some rs ∧ ∀ r' ∈ rs, r'.length = r.length) := by
  rcases h with ⟨xs, h⟩ | ⟨w, rows, h, hw⟩
  · rcases xs with _ | ⟨x, xs⟩
    · exact Or.inl h
    · exact Or.inr (Or.inl ⟨x, xs, h, scalars_map xs⟩)
  · rcases rows with _ | ⟨r, rs⟩
    · exact Or.inl h
    · exact Or.inr (Or.inr ⟨r, rs, h, rowsOf_map rs, fun r' hr' => by
        rw [hw r' (List.mem_cons_of_mem _ hr'), hw r (by simp)]⟩)

theorem scalars_some {α : Type} : ∀ {l : List (Entry α)} {xs : List α}, scalars l = some xs → l = xs.map .scalar
  | [], xs, h => by simp only [scalars, Option.some.injEq] at h; subst h; rfl
  | .scalar x :: l, xs, h => by
    simp only [scalars, Option.map_eq_some_iff] at h
    obtain ⟨ys, hys, rfl⟩ := h
    rw [scalars_some hys]; rfl
  | .row _ :: _, xs, h => by simp [scalars] at h

theorem rowsOf_some {α : Type} : ∀ {l : List (Entry α)} {xs : List (List α)}, rowsOf l = some xs → l = xs.map .row
  | [], xs, h => by simp only [rowsOf, Option.some.injEq] at h; subst h; rfl
  | .row x :: l, xs, h => by
    simp only [rowsOf, Option.map_eq_some_iff] at h
    obtain ⟨ys, hys, rfl⟩ := h
    rw [rowsOf_some hys]; rfl
  | .scalar _ :: _, xs, h => by simp [rowsOf] at h

theorem dataNpArray_uniform {α : Type} {s : Series α} (h : Uniform s) (hne : s.data ≠ []) :
    dataNpArray s = .ok s.data := by
  rcases uniform_cases h with h | ⟨x, xs, h, h'⟩ | ⟨r, rs, h, h', hr⟩
  · exact absurd h hne
  · unfold dataNpArray
    rw [h]
    simp only [h']
  · unfold dataNpArray
    rw [h]
    simp only [h']
    rw [if_pos (by simpa using hr)]

theorem dataNpArray_fails {α : Type} {s : Series α} (h : ¬ (Uniform s ∧ s.data ≠ [])) :
    dataNpArray s = .error .valueError := by
  rcases hd : s.data with _ | ⟨e, l⟩
  · unfold dataNpArray; rw [hd]
  · have hu : ¬ Uniform s := fun hu => h ⟨hu, by rw [hd]; simp⟩
    cases e with
    | scalar x =>
      unfold dataNpArray
      rw [hd]
      simp only
      rcases hs : scalars l with _ | xs
      · rfl
      · exact absurd (Or.inl ⟨x :: xs, by rw [hd, scalars_some hs]; rfl⟩) hu
    | row r =>
      unfold dataNpArray
      rw [hd]
      simp only
      rcases hs : rowsOf l with _ | rs
      · rfl
      · simp only
        rw [if_neg]
        intro hall
        refine hu (Or.inr ⟨r.length, r :: rs, by rw [hd, rowsOf_some hs]; rfl, ?_⟩)
        intro r' hr'
        rcases List.mem_cons.1 hr' with rfl | hr'
        · rfl
        · simpa using (List.all_eq_true.1 hall) r' hr'

theorem mapM_all_ok {A B : Type} {g : A → Res B} (f : A → B) : ∀ (l : List A), (∀ a ∈ l, g a = .ok (f a)) →
    l.mapM g = .ok (l.map f)
  | [], _ => rfl
  | a :: l, h => by
    rw [List.mapM_cons, h a (by simp), mapM_all_ok f l fun b hb => h b (List.mem_cons_of_mem _ hb)]
    rfl

theorem mapM_fails {A B : Type} {g : A → Res B} (e : Err) : ∀ (l : List A), (∀ a ∈ l, (∃ b, g a = .ok b) ∨ g a = .error e) →
    (∃ a ∈ l, g a = .error e) → l.mapM g = .error e
  | [], _, ⟨a, ha, _⟩ => by simp at ha
  | a :: l, h, ⟨b, hb, hbe⟩ => by
    rw [List.mapM_cons]
    rcases h a (by simp) with ⟨x, hx⟩ | hx
    · rw [hx]
      have hbl : b ∈ l := by
        rcases List.mem_cons.1 hb with rfl | hb
        · rw [hbe] at hx; cases hx
        · exact hb
      have := mapM_fails e l (fun b hb => h b (List.mem_cons_of_mem _ hb)) ⟨b, hbl, hbe⟩
      simp only [this, bind, Except.bind]
    · rw [hx]; rfl

/-- **C116 (views).** `as_object` and `as_object_latest` of a collection whose histories all have data of one kind give every
history under its name: all its entries, and its last entry. -/
theorem C116_views {α : Type} (c : Coll α) (h : ∀ x ∈ c, Uniform x.2 ∧ x.2.data ≠ []) :
    asObject c = .ok (c.map fun x => (x.1, x.2.data)) ∧
      ∃ o, asObjectLatest c = .ok o ∧ List.Forall₂ (fun x y => y.1 = x.1 ∧ x.2.data.getLast? = some y.2) c o := by
  constructor
  · unfold asObject
    refine mapM_all_ok (fun x : Name × Series α => (x.1, x.2.data)) c fun x hx => ?_
    rw [dataNpArray_uniform (h x hx).1 (h x hx).2]
    rfl
  · unfold asObjectLatest
    have : ∀ l : Coll α, (∀ x ∈ l, Uniform x.2 ∧ x.2.data ≠ []) → ∃ o,
        l.mapM (fun x => do
          let a ← dataNpArray x.2
          match a.getLast? with
          | none => (.error .indexError : Res (Name × Entry α))
          | some e => pure (x.1, e)) = .ok o ∧ List.Forall₂ (fun x y => y.1 = x.1 ∧ x.2.data.getLast? = some y.2) l o := by
      intro l
      induction l with
      | nil => intro _; exact ⟨[], rfl, .nil⟩
      | cons x l ih =>
        intro hl
        obtain ⟨o, h1, h2⟩ := ih fun y hy => hl y (List.mem_cons_of_mem _ hy)
        obtain ⟨hu, hne⟩ := hl x (by simp)
        obtain ⟨e, he⟩ : ∃ e, x.2.data.getLast? = some e := ⟨_, List.getLast?_eq_getLast_of_ne_nil hne⟩
        refine ⟨(x.1, e) :: o, ?_, .cons ⟨rfl, he⟩ h2⟩
        rw [List.mapM_cons, h1, dataNpArray_uniform hu hne]
        simp only [bind, Except.bind, he, pure, Except.pure]
    exact this c h

/-- **C116 (views, failures).** If one history is empty or mixes numbers and rows, both views raise `ValueError`. -/
theorem C116_views_fail {α : Type} (c : Coll α) (h : ∃ x ∈ c, ¬ (Uniform x.2 ∧ x.2.data ≠ [])) :
    asObject c = .error .valueError ∧ asObjectLatest c = .error .valueError := by
  obtain ⟨x, hx, hbad⟩ := h
  constructor
  · refine mapM_fails .valueError c (fun y _ => ?_) ⟨x, hx, ?_⟩
    · by_cases hy : Uniform y.2 ∧ y.2.data ≠ []
      · exact Or.inl ⟨_, by rw [dataNpArray_uniform hy.1 hy.2]; rfl⟩
      · exact Or.inr (by rw [dataNpArray_fails hy]; rfl)
    · rw [dataNpArray_fails hbad]; rfl
  · refine mapM_fails .valueError c (fun y _ => ?_) ⟨x, hx, ?_⟩
    · by_cases hy : Uniform y.2 ∧ y.2.data ≠ []
      · left
        obtain ⟨e, he⟩ : ∃ e, y.2.data.getLast? = some e := ⟨_, List.getLast?_eq_getLast_of_ne_nil hy.2⟩
        refine ⟨(y.1, e), ?_⟩
        rw [dataNpArray_uniform hy.1 hy.2]
        simp only [bind, Except.bind, he, pure, Except.pure]
      · exact Or.inr (by rw [dataNpArray_fails hy]; rfl)
    · rw [dataNpArray_fails hbad]; rfl

theorem regular_uniform {α : Type} {s : Series α} (h : Regular s) : Uniform s := by
  rcases h with h | ⟨rows, h1, h2⟩
  · exact Or.inl h
  · exact Or.inr ⟨_, rows, h1, h2⟩

theorem column_last {V : Type} {c : Coll ℝ} {o : List (Name × Entry ℝ)} {name : String} {P : V → Entry ℝ → Prop} {vs : List V}
    {v : V} (ho : List.Forall₂ (fun x y => y.1 = x.1 ∧ x.2.data.getLast? = some y.2) c o) (h : Column c name P vs)
    (hv : vs.getLast? = some v) : ∃ e, (name.toList, e) ∈ o ∧ P v e := by
  obtain ⟨s, hs, hf⟩ := h
  have key : ∀ (c : Coll ℝ) (o : List (Name × Entry ℝ)),
      List.Forall₂ (fun x y => y.1 = x.1 ∧ x.2.data.getLast? = some y.2) c o → (name.toList, s) ∈ c →
      ∃ e, (name.toList, e) ∈ o ∧ s.data.getLast? = some e := by
    intro c o h
    induction h with
    | nil => simp
    | @cons x y c o hxy _ ih =>
      intro hm
      rcases List.mem_cons.1 hm with rfl | hm
      · exact ⟨y.2, by rw [show name.toList = y.1 from hxy.1.symm]; simp, hxy.2⟩
      · obtain ⟨e, h1, h2⟩ := ih hm
        exact ⟨e, List.mem_cons_of_mem _ h1, h2⟩
  obtain ⟨e, h1, h2⟩ := key c o ho hs
  refine ⟨e, h1, ?_⟩
  have last : ∀ (vs : List V) (d : List (Entry ℝ)), List.Forall₂ P vs d → vs.getLast? = some v → d.getLast? = some e → P v e := by
    intro vs d h
    induction h with
    | nil => simp
    | @cons a b l m hab ht ih =>
      intro hl hm
      cases ht with
      | nil =>
        simp only [List.getLast?_singleton, Option.some.injEq] at hl hm
        subst hl; subst hm; exact hab
      | cons h' t' =>
        rw [List.getLast?_cons_cons] at hl hm
        exact ih hl hm
  exact last vs s.data hf hv h2

/-- **C116 (`params_latest`, OC).** Before the first iteration `params_latest` raises `ValueError`. After at least one
iteration it returns the eleven values of the last iteration. -/
theorem C116_oc_latest (nTasks : ℕ) (h0 : 0 < nTasks) (objective : String) (hobj : IsObjective objective)
    (objectiveLog : Bool) (vs : List OCLine) (hp : ∀ v ∈ vs, Proper nTasks v.toLine) :
    asObjectLatest (ocRecorder nTasks objective.toList objectiveLog) = .error .valueError ∧
    ∀ v, vs.getLast? = some v → ∃ c o, record (ocFeeds objective.toList)
        (ocRecorder nTasks objective.toList objectiveLog) vs = .ok c ∧ asObjectLatest c = .ok o ∧ o.length = 11 ∧
      (objective.toList, .scalar v.objective) ∈ o ∧ ("vol_error".toList, .scalar v.volError) ∈ o ∧
      ("lmid".toList, .scalar v.lmid) ∈ o ∧ ("kkt_residual".toList, .scalar v.kkt) ∈ o ∧
      ("rho_change_max".toList, .scalar v.rhoChange) ∈ o ∧ ("neumann_scale".toList, .scalar v.neumannScale) ∈ o ∧
      (∃ e, ("rho_projected".toList, e) ∈ o ∧ Statistics v.rhoProjected e) ∧
      (∃ e, ("energy".toList, e) ∈ o ∧ Statistics v.energy e) ∧ (∃ e, ("-dC".toList, e) ∈ o ∧ Statistics v.minusDC e) ∧
      (∃ e, ("scaling_rate".toList, e) ∈ o ∧ Statistics v.scalingRate e) := by
  constructor
  · refine (C116_views_fail _ ?_).2
    obtain ⟨x, hx, -⟩ := List.mem_map.1 ((ocKeys_mem nTasks objective hobj objectiveLog "lmid".toList).2
      (by unfold ocNames; simp only [List.mem_cons, true_or]))
    exact ⟨x, hx, fun h => h.2 (ocEmpty nTasks objective.toList objectiveLog x hx).1⟩
  · intro v hv
    obtain ⟨c, h1, h2, -, -, h4, h5⟩ := C116_oc_histories nTasks h0 objective hobj objectiveLog vs hp
    obtain ⟨c', k1, -, -, k4, -⟩ := (ocPlan nTasks h0 objective hobj objectiveLog vs hp).run
    rw [h1, Except.ok.injEq] at k1
    subst k1
    obtain ⟨o, ho, hf⟩ := (C116_views c fun x hx => ⟨regular_uniform (k4 x hx).2, fun hd => by
      have := (k4 x hx).1
      rw [hd] at this
      cases vs with
      | nil => simp at hv
      | cons _ _ => simp at this⟩).2
    have sc : ∀ {name : String} {f : OCLine → ℝ}, Column c name (fun v e => e = .scalar (f v)) vs →
        (name.toList, .scalar (f v)) ∈ o := fun h => by
      obtain ⟨e, he, rfl⟩ := column_last hf h hv
      exact he
    have st : ∀ {name : String} {f : OCLine → List ℝ}, Column c name (fun v e => Statistics (f v) e) vs →
        ∃ e, (name.toList, e) ∈ o ∧ Statistics (f v) e :=
      fun {_ f} h => column_last (P := fun v e => Statistics (f v) e) hf h hv
    exact ⟨c, o, h1, ho, by rw [← hf.length_eq, h2], sc h4.objective, sc h4.volError, sc h5, sc h4.kkt, sc h4.rhoChange,
      sc h4.neumannScale, st h4.rhoProjected, st h4.energy, st h4.minusDC, st h4.scalingRate⟩

theorem plan_exportable {V : Type} {c0 : Coll ℝ} {names : List Name} {feeds : V → List (Name × Input ℝ)} {vs : List V}
    (P : Plan c0 names feeds vs) (hvs : vs ≠ []) (hne : names ≠ [])
    (hh : ∀ n ∈ names, ¬ headerSuffix <:+ n ∧ n ≠ "file".toList) :
    ∃ c, record feeds c0 vs = .ok c ∧ Exportable c ∧ (c.filter fun x => x.2.isLogged) = c := by
  obtain ⟨c, h1, h2, h3, h4, -⟩ := P.run
  have hname : ∀ x ∈ c, x.1 ∈ names := fun x hx =>
    (P.keys _).1 (by rw [← h2]; exact List.mem_map_of_mem (f := Prod.fst) hx)
  have hlog : ∀ x ∈ c, x.2.isLogged = true := fun x hx => by
    unfold Series.isLogged
    rw [(h4 x hx).1]
    have : 0 < vs.length := List.length_pos_iff.2 hvs
    simpa using this
  refine ⟨c, h1, ⟨h3, fun x hx _ => (h4 x hx).2, fun x hx _ => (hh _ (hname x hx)).1, fun x hx _ => (hh _ (hname x hx)).2, ?_⟩,
    List.filter_eq_self.2 hlog⟩
  obtain ⟨n, hn⟩ := List.exists_mem_of_ne_nil _ hne
  obtain ⟨x, hx, -⟩ := List.mem_map.1 (by rw [h2]; exact (P.keys n).2 hn : n ∈ c.map Prod.fst)
  exact ⟨x, hx, hlog x hx⟩

/-- **C116 (file).** After at least one iteration of OC or LogMOC, exporting the recorder writes its file without losing or
changing a history, and reading the file into any recorder gives the same names, data and plot types: a restarted run
continues with the complete histories. -/
theorem C116_histories_file (nTasks : ℕ) (h0 : 0 < nTasks) (objective : String) (hobj : IsObjective objective)
    (objectiveLog : Bool) (D : Dir ℝ) :
    (∀ vs : List OCLine, vs ≠ [] → (∀ v ∈ vs, Proper nTasks v.toLine) → ∃ c D',
      record (ocFeeds objective.toList) (ocRecorder nTasks objective.toList objectiveLog) vs = .ok c ∧
      exportHistories D "histories.npz".toList c = .ok (D', c) ∧ ∀ old : Coll ℝ, ∃ c',
        importHistories D' "histories.npz".toList old = .ok c' ∧
        List.Forall₂ (fun x x' => x'.1 = x.1 ∧ x'.2.data = x.2.data ∧ x'.2.plotType = x.2.plotType) c c') ∧
    (∀ vs : List LogLine, vs ≠ [] → (∀ v ∈ vs, Proper nTasks v.toLine ∧ v.dVChain ≠ [] ∧ v.dL ≠ []) → ∃ c D',
      record (logFeeds objective.toList) (logRecorder nTasks objective.toList objectiveLog) vs = .ok c ∧
      exportHistories D "histories.npz".toList c = .ok (D', c) ∧ ∀ old : Coll ℝ, ∃ c',
        importHistories D' "histories.npz".toList old = .ok c' ∧
        List.Forall₂ (fun x x' => x'.1 = x.1 ∧ x'.2.data = x.2.data ∧ x'.2.plotType = x.2.plotType) c c') := by
  have suf : npzSuffix <:+ "histories.npz".toList := by decide
  constructor
  · intro vs hvs hp
    obtain ⟨c, h1, h2, h3⟩ := plan_exportable (ocPlan nTasks h0 objective hobj objectiveLog vs hp) hvs (by simp [ocNames])
      (by rcases hobj with rfl | rfl | rfl <;> decide)
    obtain ⟨D', k1, -, k3⟩ := C45_round_trip_partial D "histories.npz".toList c h2 suf
    rw [h3] at k1
    refine ⟨c, D', h1, k1, fun old => ?_⟩
    obtain ⟨c', k4, k5⟩ := k3 old
    rw [h3] at k5
    exact ⟨c', k4, k5.imp fun x y h => ⟨h.1, h.2.2.1, h.2.2.2⟩⟩
  · intro vs hvs hp
    obtain ⟨c, h1, h2, h3⟩ := plan_exportable (logPlan nTasks h0 objective hobj objectiveLog vs hp) hvs (by simp [logNames])
      (by rcases hobj with rfl | rfl | rfl <;> decide)
    obtain ⟨D', k1, -, k3⟩ := C45_round_trip_partial D "histories.npz".toList c h2 suf
    rw [h3] at k1
    refine ⟨c, D', h1, k1, fun old => ?_⟩
    obtain ⟨c', k4, k5⟩ := k3 old
    rw [h3] at k5
    exact ⟨c', k4, k5.imp fun x y h => ⟨h.1, h.2.2.1, h.2.2.2⟩⟩

/-- Non-vacuity: two iterations with two load cases and three design elements. -/
def exampleLine : OCLine where
  volError := 0.1
  kkt := 0.5
  minusDC := [1, 2, 3]
  rhoChange := 0.2
  rhoProjected := [0, 0.5, 1]
  energy := [1, 2, 3]
  objective := 12
  scalingRate := [1, 1, 0.5]
  uMax := [2, 3]
  neumannScale := 1
  lmid := 0.25

example : (∀ v ∈ [exampleLine, { exampleLine with lmid := 0.5 }], Proper 2 v.toLine) ∧ IsObjective "compliance" ∧
    [exampleLine, { exampleLine with lmid := 0.5 }] ≠ [] := by
  refine ⟨?_, Or.inl rfl, by simp⟩
  intro v hv
  rcases List.mem_cons.1 hv with rfl | hv
  · exact ⟨rfl, by simp [exampleLine], by simp [exampleLine], by simp [exampleLine], by simp [exampleLine]⟩
  · rw [List.mem_singleton.1 hv]
    exact ⟨rfl, by simp [exampleLine], by simp [exampleLine], by simp [exampleLine], by simp [exampleLine]⟩

/-! ### C117: comparing histories -/

theorem zip_all_close : ∀ {xs ys : List Num}, xs.length = ys.length →
    ((xs.zip ys).all (fun p => close p.1 p.2) = true ↔ List.Forall₂ (fun x y => close x y = true) xs ys)
  | [], [], _ => by simp
  | [], _ :: _, h => by simp at h
  | _ :: _, [], h => by simp at h
  | x :: xs, y :: ys, h => by
    have ih := zip_all_close (xs := xs) (ys := ys) (by simpa using h)
    rw [List.zip_cons_cons, List.all_cons, Bool.and_eq_true, ih, List.forall₂_cons]

theorem forall₂_scalars {xs ys : List Num} : List.Forall₂ (fun x y => close x y = true) xs ys ↔
    List.Forall₂ EntryClose (xs.map .scalar) (ys.map .scalar) := by
  rw [List.forall₂_map_left_iff, List.forall₂_map_right_iff]
  constructor <;> intro h <;> refine h.imp fun x y hxy => ?_
  · exact .scalar x y hxy
  · cases hxy; assumption

theorem forall₂_rows {w : ℕ} : ∀ {rs qs : List (List Num)}, (∀ r ∈ rs, r.length = w) → (∀ q ∈ qs, q.length = w) →
    rs.length = qs.length → (List.Forall₂ (fun x y => close x y = true) rs.flatten qs.flatten ↔
      List.Forall₂ EntryClose (rs.map .row) (qs.map .row))
  | [], [], _, _, _ => by simp
  | [], _ :: _, _, _, h => by simp at h
  | _ :: _, [], _, _, h => by simp at h
  | r :: rs, q :: qs, h1, h2, h => by
    have ih := forall₂_rows (rs := rs) (qs := qs) (fun r hr => h1 r (List.mem_cons_of_mem _ hr))
      (fun r hr => h2 r (List.mem_cons_of_mem _ hr)) (by simpa using h)
    have hl : r.length = q.length := by rw [h1 r (by simp), h2 q (by simp)]
    rw [List.flatten_cons, List.flatten_cons, List.map_cons, List.map_cons, List.forall₂_cons, ← ih]
    constructor
    · intro hf
      have ht := List.forall₂_take_append _ _ _ hf
      have hd := List.forall₂_drop_append _ _ _ hf
      rw [← hl, List.take_left] at ht
      rw [← hl, List.drop_left] at hd
      exact ⟨.row _ _ ht, hd⟩
    · rintro ⟨h, hf⟩
      cases h with
      | row _ _ h => exact List.rel_append h hf

/-- The shape and the entries of the data of a uniform history. -/
theorem asFloats_uniform {s : Series Num} (h : Uniform s) : ∃ x, asFloats s.data = .ok x := by
  rcases uniform_cases h with h | ⟨x, xs, h, h'⟩ | ⟨r, rs, h, h', hr⟩
  · exact ⟨_, by rw [h]; rfl⟩
  · exact ⟨([(x :: xs).length], x :: xs), by rw [h]; simp only [asFloats, h']⟩
  · exact ⟨([(r :: rs).length, r.length], (r :: rs).flatten), by
      rw [h]; simp only [asFloats, h']; rw [if_pos (by simpa using hr)]⟩

theorem compare_data {s t : Series Num} {x y : List ℕ × List Num} (hs : Uniform s) (ht : Uniform t)
    (hx : asFloats s.data = .ok x) (hy : asFloats t.data = .ok y) :
    (x.1 = y.1 ∧ (x.2.zip y.2).all (fun p => close p.1 p.2) = true) ↔ List.Forall₂ EntryClose s.data t.data := by
  have rowsEq : ∀ {r : List Num} {rs : List (List Num)}, (∀ r' ∈ rs, r'.length = r.length) →
      asFloats (.row r :: rs.map .row) = .ok ([(r :: rs).length, r.length], (r :: rs).flatten) := fun {r rs} hr => by
    simp only [asFloats, rowsOf_map]
    rw [if_pos (by simpa using hr)]
  have scalEq : ∀ {x : Num} {xs : List Num},
      asFloats (.scalar x :: xs.map .scalar) = .ok ([(x :: xs).length], x :: xs) := fun {x xs} => by
    simp only [asFloats, scalars_map]
  rcases uniform_cases hs with h | ⟨a, as, h, -⟩ | ⟨r, rs, h, -, hr⟩ <;>
    rcases uniform_cases ht with h' | ⟨b, bs, h', -⟩ | ⟨q, qs, h', -, hq⟩ <;> rw [h] at hx ⊢ <;> rw [h'] at hy ⊢
  · simp only [asFloats, Except.ok.injEq] at hx hy
    subst hx; subst hy
    simp
  · rw [scalEq, Except.ok.injEq] at hy
    simp only [asFloats, Except.ok.injEq] at hx
    subst hx; subst hy
    constructor
    · rintro ⟨h1, -⟩; simp at h1
    · intro h1; exact absurd h1.length_eq (by simp)
  · rw [rowsEq hq, Except.ok.injEq] at hy
    simp only [asFloats, Except.ok.injEq] at hx
    subst hx; subst hy
    constructor
    · rintro ⟨h1, -⟩; simp at h1
    · intro h1; exact absurd h1.length_eq (by simp)
  · rw [scalEq, Except.ok.injEq] at hx
    simp only [asFloats, Except.ok.injEq] at hy
    subst hx; subst hy
    constructor
    · rintro ⟨h1, -⟩; simp at h1
    · intro h1; exact absurd h1.length_eq (by simp)
  · rw [scalEq, Except.ok.injEq] at hx hy
    subst hx; subst hy
    rw [show (Entry.scalar a :: as.map Entry.scalar) = (a :: as).map Entry.scalar from rfl,
      show (Entry.scalar b :: bs.map Entry.scalar) = (b :: bs).map Entry.scalar from rfl, ← forall₂_scalars]
    constructor
    · rintro ⟨h1, h2⟩
      have hl : (a :: as).length = (b :: bs).length := by simpa using h1
      exact (zip_all_close hl).1 h2
    · intro h1
      exact ⟨by rw [h1.length_eq], (zip_all_close h1.length_eq).2 h1⟩
  · rw [scalEq, Except.ok.injEq] at hx
    rw [rowsEq hq, Except.ok.injEq] at hy
    subst hx; subst hy
    constructor
    · rintro ⟨h1, -⟩; simp at h1
    · intro h1
      rw [List.forall₂_cons] at h1
      exact absurd h1.1 (by intro h; cases h)
  · rw [rowsEq hr, Except.ok.injEq] at hx
    simp only [asFloats, Except.ok.injEq] at hy
    subst hx; subst hy
    constructor
    · rintro ⟨h1, -⟩; simp at h1
    · intro h1; exact absurd h1.length_eq (by simp)
  · rw [rowsEq hr, Except.ok.injEq] at hx
    rw [scalEq, Except.ok.injEq] at hy
    subst hx; subst hy
    constructor
    · rintro ⟨h1, -⟩; simp at h1
    · intro h1
      rw [List.forall₂_cons] at h1
      exact absurd h1.1 (by intro h; cases h)
  · rw [rowsEq hr, Except.ok.injEq] at hx
    rw [rowsEq hq, Except.ok.injEq] at hy
    subst hx; subst hy
    rw [show (Entry.row r :: rs.map Entry.row) = (r :: rs).map Entry.row from rfl,
      show (Entry.row q :: qs.map Entry.row) = (q :: qs).map Entry.row from rfl]
    have hr' : ∀ z ∈ r :: rs, z.length = r.length := fun z hz => by
      rcases List.mem_cons.1 hz with rfl | hz
      · rfl
      · exact hr z hz
    have hq' : ∀ z ∈ q :: qs, z.length = q.length := fun z hz => by
      rcases List.mem_cons.1 hz with rfl | hz
      · rfl
      · exact hq z hz
    constructor
    · rintro ⟨h1, h2⟩
      have hlen : (r :: rs).length = (q :: qs).length := (List.cons.inj h1).1
      have hw : r.length = q.length := (List.cons.inj (List.cons.inj h1).2).1
      rw [← forall₂_rows hr' (fun z hz => (hq' z hz).trans hw.symm) hlen]
      refine (zip_all_close ?_).1 h2
      rw [List.length_flatten, List.length_flatten, List.map_congr_left (g := fun _ => r.length) hr',
        List.map_congr_left (l := q :: qs) (g := fun _ => r.length) fun z hz => (hq' z hz).trans hw.symm,
        List.map_const', List.map_const', hlen]
    · intro h1
      have hlen : (r :: rs).length = (q :: qs).length := by simpa using h1.length_eq
      have hw : r.length = q.length := by
        rw [List.map_cons, List.map_cons, List.forall₂_cons] at h1
        cases h1.1 with
        | row _ _ h => exact h.length_eq
      have h2 := (forall₂_rows hr' (fun z hz => (hq' z hz).trans hw.symm) hlen).2 h1
      exact ⟨by rw [hlen, hw], (zip_all_close h2.length_eq).2 h2⟩

/-- **C117 (exactness).** For collections of uniform histories with distinct names, the comparison never raises, and answers
`True` exactly if both have the same names and under every name the same plot type, the same number of entries and entry by
entry the same shape and close numbers. -/
theorem C117_true_iff (h1 h2 : Coll Num) (n2 : (h2.map Prod.fst).Nodup) (u1 : ∀ x ∈ h1, Uniform x.2)
    (u2 : ∀ x ∈ h2, Uniform x.2) :
    ∃ r, compareHistories h1 h2 = .ok r ∧ (r = true ↔ (∀ n, n ∈ h1.map Prod.fst ↔ n ∈ h2.map Prod.fst) ∧
      ∀ n s t, (n, s) ∈ h1 → (n, t) ∈ h2 → s.plotType = t.plotType ∧ List.Forall₂ EntryClose s.data t.data) := by
  have loop : ∀ l : Coll Num, (∀ x ∈ l, Uniform x.2) → (∀ x ∈ l, x.1 ∈ h2.map Prod.fst) → ∃ r, compareLoop h2 l = .ok r ∧
      (r = true ↔ ∀ n s t, (n, s) ∈ l → (n, t) ∈ h2 → s.plotType = t.plotType ∧ List.Forall₂ EntryClose s.data t.data) := by
    intro l
    induction l with
    | nil => intro _ _; exact ⟨true, rfl, by simp⟩
    | cons x l ih =>
      intro hu hk
      obtain ⟨key, a⟩ := x
      obtain ⟨r, hr, hiff⟩ := ih (fun x hx => hu x (List.mem_cons_of_mem _ hx)) fun x hx => hk x (List.mem_cons_of_mem _ hx)
      obtain ⟨z, hz, hzk⟩ := List.mem_map.1 (hk (key, a) (by simp))
      have hget : dget h2 key = some z.2 := by
        have := dget_of_mem n2 (show (z.1, z.2) ∈ h2 from hz)
        rwa [hzk] at this
      have hz' : (key, z.2) ∈ h2 := mem_of_dget hget
      have huniq : ∀ t, (key, t) ∈ h2 → t = z.2 := fun t ht =>
        Option.some.inj ((dget_of_mem n2 ht).symm.trans hget)
      have hua : Uniform a := hu (key, a) (by simp)
      obtain ⟨fx, hfx⟩ := asFloats_uniform hua
      obtain ⟨fy, hfy⟩ := asFloats_uniform (u2 z hz)
      have hcmp := compare_data hua (u2 z hz) hfx hfy
      unfold compareLoop
      rw [hget]
      simp only
      by_cases hp : a.plotType = z.2.plotType
      · rw [if_neg (not_not.2 hp)]
        simp only [hfx, hfy, bind, Except.bind]
        by_cases hsh : fx.1 = fy.1
        · rw [if_neg (not_not.2 hsh)]
          by_cases hcl : (fx.2.zip fy.2).all (fun p => close p.1 p.2) = true
          · rw [if_pos hcl]
            refine ⟨r, hr, ?_⟩
            rw [hiff]
            constructor
            · intro H n s t hs ht
              rcases List.mem_cons.1 hs with h | hs
              · simp only [Prod.mk.injEq] at h
                obtain ⟨rfl, rfl⟩ := h
                rw [huniq t ht]
                exact ⟨hp, hcmp.1 ⟨hsh, hcl⟩⟩
              · exact H n s t hs ht
            · intro H n s t hs ht
              exact H n s t (List.mem_cons_of_mem _ hs) ht
          · rw [if_neg hcl]
            exact ⟨false, rfl, by simpa using ⟨key, a, Or.inl ⟨rfl, rfl⟩, z.2, hz', fun _ h => hcl (hcmp.2 h).2⟩⟩
        · rw [if_pos hsh]
          exact ⟨false, rfl, by simpa using ⟨key, a, Or.inl ⟨rfl, rfl⟩, z.2, hz', fun _ h => hsh (hcmp.2 h).1⟩⟩
      · rw [if_pos hp]
        exact ⟨false, rfl, by simpa using ⟨key, a, Or.inl ⟨rfl, rfl⟩, z.2, hz', fun h => absurd h hp⟩⟩
  unfold compareHistories
  by_cases hk : ((h1.all fun x => (h2.map Prod.fst).contains x.1) && (h2.all fun x => (h1.map Prod.fst).contains x.1)) = true
  · rw [if_pos hk]
    rw [Bool.and_eq_true, List.all_eq_true, List.all_eq_true] at hk
    have k1 : ∀ x ∈ h1, x.1 ∈ h2.map Prod.fst := fun x hx => List.contains_iff_mem.1 (hk.1 x hx)
    have k2 : ∀ x ∈ h2, x.1 ∈ h1.map Prod.fst := fun x hx => List.contains_iff_mem.1 (hk.2 x hx)
    obtain ⟨r, hr, hiff⟩ := loop h1 u1 k1
    refine ⟨r, hr, hiff.trans ⟨fun H => ⟨fun n => ⟨fun hn => ?_, fun hn => ?_⟩, H⟩, fun H => H.2⟩⟩
    · obtain ⟨x, hx, rfl⟩ := List.mem_map.1 hn; exact k1 x hx
    · obtain ⟨x, hx, rfl⟩ := List.mem_map.1 hn; exact k2 x hx
  · rw [if_neg hk]
    refine ⟨false, rfl, ?_⟩
    simp only [Bool.false_eq_true, false_iff]
    rintro ⟨H, -⟩
    apply hk
    rw [Bool.and_eq_true, List.all_eq_true, List.all_eq_true]
    exact ⟨fun x hx => List.contains_iff_mem.2 ((H x.1).1 (List.mem_map_of_mem (f := Prod.fst) hx)),
      fun x hx => List.contains_iff_mem.2 ((H x.1).2 (List.mem_map_of_mem (f := Prod.fst) hx))⟩


/-- **C117 (meaning of close).** Two finite numbers count as equal exactly if they differ by at most `1e-8` plus `1e-5` times
the magnitude of the second; not-a-number counts as equal to itself and infinities as equal to themselves; nothing else
does. -/
theorem C117_close_iff (x y : Num) : close x y = true ↔
    (∃ a b, x = .fin a ∧ y = .fin b ∧ |a - b| ≤ 1 / 10 ^ 8 + 1 / 10 ^ 5 * |b|) ∨ (x = .nan ∧ y = .nan) ∨
      ∃ p, x = .inf p ∧ y = .inf p := by
  cases x with
  | fin a =>
    cases y with
    | fin b =>
      simp only [close, decide_eq_true_eq]
      exact ⟨fun h => Or.inl ⟨a, b, rfl, rfl, h⟩, fun h => by
        rcases h with ⟨a', b', h1, h2, h⟩ | ⟨h1, _⟩ | ⟨p, h1, _⟩
        · cases h1; cases h2; exact h
        · cases h1
        · cases h1⟩
    | inf q => simp [close]
    | nan => simp [close]
  | inf p =>
    cases y with
    | fin b => simp [close]
    | inf q => cases p <;> cases q <;> simp [close]
    | nan => simp [close]
  | nan =>
    cases y with
    | fin b => simp [close]
    | inf q => simp [close]
    | nan => simp [close]

theorem close_refl (x : Num) : close x x = true := by
  rw [C117_close_iff]
  cases x with
  | fin a => exact Or.inl ⟨a, a, rfl, rfl, by rw [sub_self, abs_zero]; positivity⟩
  | inf p => exact Or.inr (Or.inr ⟨p, rfl, rfl⟩)
  | nan => exact Or.inr (Or.inl ⟨rfl, rfl⟩)

theorem entryClose_refl (e : Entry Num) : EntryClose e e := by
  cases e with
  | scalar x => exact .scalar x x (close_refl x)
  | row xs => exact .row xs xs (List.forall₂_same.2 fun x _ => close_refl x)

/-- **C117 (reflexive).** A collection of uniform histories compares as equal to itself, and to any collection with the same
names, data and plot types, in whatever order and whatever the other attributes of its histories. -/
theorem C117_reflexive (h1 h2 : Coll Num) (n1 : (h1.map Prod.fst).Nodup) (n2 : (h2.map Prod.fst).Nodup)
    (u1 : ∀ x ∈ h1, Uniform x.2) (hn : ∀ n, n ∈ h1.map Prod.fst ↔ n ∈ h2.map Prod.fst)
    (hs : ∀ n s t, (n, s) ∈ h1 → (n, t) ∈ h2 → t.plotType = s.plotType ∧ t.data = s.data) :
    compareHistories h1 h2 = .ok true ∧ compareHistories h1 h1 = .ok true := by
  have u2 : ∀ x ∈ h2, Uniform x.2 := fun x hx => by
    obtain ⟨y, hy, hk⟩ := List.mem_map.1 ((hn x.1).2 (List.mem_map_of_mem (f := Prod.fst) hx))
    have h := (hs x.1 y.2 x.2 (by rw [← hk]; exact hy) hx).2
    have hu := u1 y hy
    unfold Uniform at hu ⊢
    rwa [h]
  constructor
  · obtain ⟨r, hr, hiff⟩ := C117_true_iff h1 h2 n2 u1 u2
    have : r = true := hiff.2 ⟨hn, fun n s t h h' => by
      obtain ⟨e1, e2⟩ := hs n s t h h'
      rw [e1, e2]
      exact ⟨rfl, List.forall₂_same.2 fun e _ => entryClose_refl e⟩⟩
    rw [hr, this]
  · obtain ⟨r, hr, hiff⟩ := C117_true_iff h1 h1 n1 u1 u1
    have : r = true := hiff.2 ⟨fun _ => Iff.rfl, fun n s t h h' => by
      have : s = t := Option.some.inj ((dget_of_mem n1 h).symm.trans (dget_of_mem n1 h'))
      subst this
      exact ⟨rfl, List.forall₂_same.2 fun e _ => entryClose_refl e⟩⟩
    rw [hr, this]

/-- **C117 (round trip).** Histories that were exported and imported again compare as equal to the original ones. -/
theorem C117_round_trip (D : Dir Num) (path : Name) (c : Coll Num) (hc : Exportable c)
    (hall : ∀ x ∈ c, x.2.isLogged = true) (hu : ∀ x ∈ c, Uniform x.2) (hsuf : npzSuffix <:+ path) :
    ∃ D', exportHistories D path c = .ok (D', c) ∧
      ∀ old, ∃ c', importHistories D' path old = .ok c' ∧ compareHistories c c' = .ok true := by
  have hfil : (c.filter fun x => x.2.isLogged) = c := List.filter_eq_self.2 hall
  obtain ⟨D', k1, -, k3⟩ := C45_round_trip_partial D path c hc hsuf
  rw [hfil] at k1
  refine ⟨D', k1, fun old => ?_⟩
  obtain ⟨c', k4, k5⟩ := k3 old
  rw [hfil] at k5
  have hkeys : c'.map Prod.fst = c.map Prod.fst := by
    clear k1 k3 k4 hfil hu hall hc
    induction k5 with
    | nil => rfl
    | cons h _ ih => rw [List.map_cons, List.map_cons, ih, h.1]
  have n1 : (c.map Prod.fst).Nodup := hc.named.1
  have n2 : (c'.map Prod.fst).Nodup := by rw [hkeys]; exact n1
  refine ⟨c', k4, (C117_reflexive c c' n1 n2 hu (fun n => by rw [hkeys]) fun n s t hs ht => ?_).1⟩
  have : ∃ s', (n, s') ∈ c ∧ t.data = s'.data ∧ t.plotType = s'.plotType := by
    clear k1 k3 k4 hfil hu hall hc hkeys n1 n2 hs
    induction k5 with
    | nil => simp at ht
    | @cons a b l l' h _ ih =>
      rcases List.mem_cons.1 ht with h' | h'
      · subst h'
        exact ⟨a.2, by rw [show n = a.1 from h.1]; exact List.mem_cons_self .., h.2.2.1, h.2.2.2⟩
      · obtain ⟨s', h1, h2⟩ := ih h'
        exact ⟨s', List.mem_cons_of_mem _ h1, h2⟩
  obtain ⟨s', h1, h2, h3⟩ := this
  have : s = s' := Option.some.inj ((dget_of_mem n1 hs).symm.trans (dget_of_mem n1 h1))
  subst this
  exact ⟨h3, h2⟩

/-- A history with the one number `x`. -/
def single (x : ℝ) : Coll Num :=
  [("c".toList, { name := "c".toList, plotType := valueType, ylog := false, data := [.scalar (.fin x)] })]

theorem single_compare (x y : ℝ) : compareHistories (single x) (single y) =
    .ok (close (.fin x) (.fin y)) := by
  have h : ∀ z : ℝ, asFloats [Entry.scalar (Num.fin z)] = .ok ([1], [.fin z]) := fun z => rfl
  simp only [compareHistories, single, compareLoop, dget, h]
  simp [bind, Except.bind]
  rw [h]
  rcases hc : close (.fin x) (.fin y) with _ | _ <;> simp [pure, Except.pure, hc]

/-- A series whose entries have different shapes. -/
theorem asFloats_ragged {s : Series Num} (h : ¬ Uniform s) : asFloats s.data = .error .valueError := by
  rcases hd : s.data with _ | ⟨a, l⟩
  · exact absurd (Or.inl ⟨[], hd⟩) h
  · cases a with
    | scalar x =>
      simp only [asFloats]
      rcases hs : scalars l with _ | xs
      · rfl
      · exact absurd (Or.inl ⟨x :: xs, by rw [hd, scalars_some hs]; rfl⟩) h
    | row r =>
      simp only [asFloats]
      rcases hs : rowsOf l with _ | rs
      · rfl
      · simp only
        split_ifs with hr
        · refine absurd (Or.inr ⟨r.length, r :: rs, by rw [hd, rowsOf_some hs]; rfl, ?_⟩) h
          simpa using hr
        · rfl

/-- **C117.** A history with entries of different shapes cannot be compared, not even with itself: a ValueError, not `False`. -/
theorem C117_ragged_rejected (name : Name) (s t : Series Num) (h : s.plotType = t.plotType) (hr : ¬ Uniform s ∨ ¬ Uniform t) :
    compareHistories [(name, s)] [(name, t)] = .error .valueError := by
  have hget : dget [(name, t)] name = some t := by simp [dget]
  unfold compareHistories
  rw [if_pos (by simp)]
  simp only [compareLoop, hget, h, ne_eq, not_true_eq_false, if_false]
  by_cases hs : Uniform s
  · obtain ⟨x, hx⟩ := asFloats_uniform hs
    have ht : ¬ Uniform t := by
      rcases hr with hr | hr
      · exact absurd hs hr
      · exact hr
    rw [hx, asFloats_ragged ht]
    rfl
  · rw [asFloats_ragged hs]
    rfl

/-- Non-vacuity: a number followed by a row. -/
example : ¬ Uniform ({ name := "c".toList, plotType := valueType, ylog := false, data := [.scalar .nan, .row [.nan]] } : Series Num) := by
  rintro (⟨xs, h⟩ | ⟨w, rows, h, -⟩)
  · rcases xs with _ | ⟨a, _ | ⟨b, xs⟩⟩ <;> simp at h
  · rcases rows with _ | ⟨a, rows⟩ <;> simp at h

/-- **C117 (not symmetric, refuted).** The answer can depend on the order of the two collections, and being equal in this
sense is not transitive. -/
theorem C117_not_symmetric : (∃ h1 h2 : Coll Num, compareHistories h1 h2 = .ok true ∧ compareHistories h2 h1 = .ok false) ∧
    ∃ h1 h2 h3 : Coll Num, compareHistories h1 h2 = .ok true ∧ compareHistories h2 h3 = .ok true ∧
      compareHistories h1 h3 = .ok false := by
  constructor
  · refine ⟨single 1000000, single 1000010.00005, ?_, ?_⟩
    · rw [single_compare]
      simp only [close, Except.ok.injEq, decide_eq_true_eq]
      norm_num [abs_of_pos, abs_of_neg]
    · rw [single_compare]
      simp only [close, Except.ok.injEq, decide_eq_false_iff_not]
      norm_num [abs_of_pos, abs_of_neg]
  · refine ⟨single 0, single (1 / 10 ^ 8), single (2 / 10 ^ 8 ), ?_, ?_, ?_⟩
    all_goals
      rw [single_compare]
      simp only [close, Except.ok.injEq, decide_eq_true_eq, decide_eq_false_iff_not]
      norm_num [abs_of_pos, abs_of_neg]

/-- Non-vacuity of C117: histories of floats and of rows, with a number that is not finite. -/
def mixed : Coll Num :=
  [("c".toList, { name := "c".toList, plotType := valueType, ylog := false, data := [.scalar (.fin 3), .scalar .nan] }),
   ("r".toList, { name := "r".toList, plotType := stdType, ylog := false, data := [.row [.fin 0, .fin 1, .fin 2, .inf true]] })]

example : (mixed.map Prod.fst).Nodup ∧ (∀ x ∈ mixed, Uniform x.2) ∧ compareHistories mixed mixed = .ok true := by
  have n : (mixed.map Prod.fst).Nodup := by decide
  have u : ∀ x ∈ mixed, Uniform x.2 := by
    intro x hx
    simp only [mixed, List.mem_cons, List.not_mem_nil, or_false] at hx
    rcases hx with rfl | rfl
    · exact Or.inl ⟨[.fin 3, .nan], rfl⟩
    · exact Or.inr ⟨4, [[.fin 0, .fin 1, .fin 2, .inf true]], rfl, by simp⟩
  exact ⟨n, u, (C117_reflexive mixed mixed n n u (fun _ => Iff.rfl) fun n' s t hs ht => by
    have : s = t := Option.some.inj ((dget_of_mem n hs).symm.trans (dget_of_mem n ht))
    subst this; exact ⟨rfl, rfl⟩).2⟩

end Verif.Recorder
