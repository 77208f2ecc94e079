import Verif.Spec.Recorder
import Verif.Props.Cli

/-! C116: the histories of a run; C117: comparing histories. -/
namespace Verif.Recorder
open Verif.History Verif.Recorder.Spec
open Verif.Snapshot (Name)

/-! ### Feeding -/

/-- The entry an input adds to a history of the given plot type. -/
noncomputable def entryOf (plot : Name) : Input ℝ → Res (Entry ℝ)
  | .scalar x => .ok (.scalar x)
  | .array xs => (statRow plot xs).map .row

theorem add_eq {s : Series ℝ} {x : Input ℝ} {e : Entry ℝ} (h : entryOf s.plotType x = .ok e) :
    s.add x = .ok { s with data := s.data ++ [e] } := by
  cases x with
  | scalar x => simp only [entryOf, Except.ok.injEq] at h; subst h; rfl
  | array xs =>
    simp only [entryOf] at h
    simp only [Series.add]
    rcases hr : statRow s.plotType xs with er | r
    · rw [hr] at h; simp [Except.map] at h
    · rw [hr] at h
      simp only [Except.map, Except.ok.injEq] at h
      subst h
      rfl

theorem feedData_eq {c : Coll ℝ} {name : Name} {s : Series ℝ} {x : Input ℝ} {e : Entry ℝ} (hs : dget c name = some s)
    (h : entryOf s.plotType x = .ok e) : feedData c name x = .ok (dset c name { s with data := s.data ++ [e] }) := by
  unfold feedData
  rw [hs]
  simp only [add_eq h, bind, Except.bind]

/-- One iteration: every fed history gets one entry, the others none. -/
theorem feedAll_eq : ∀ (feeds : List (Name × Input ℝ)) (c : Coll ℝ), (c.map Prod.fst).Nodup → (feeds.map Prod.fst).Nodup →
    (∀ p ∈ feeds, ∃ s e, dget c p.1 = some s ∧ entryOf s.plotType p.2 = .ok e) →
    ∃ c', feedAll c feeds = .ok c' ∧ c'.map Prod.fst = c.map Prod.fst ∧
      (∀ n, n ∉ feeds.map Prod.fst → dget c' n = dget c n) ∧
      ∀ p ∈ feeds, ∀ s, dget c p.1 = some s → ∃ e, entryOf s.plotType p.2 = .ok e ∧
        dget c' p.1 = some { s with data := s.data ++ [e] } := by
  intro feeds
  induction feeds with
  | nil => intro c _ _ _; exact ⟨c, rfl, rfl, fun _ _ => rfl, by simp⟩
  | cons p feeds ih =>
    intro c hc hf hok
    obtain ⟨name, x⟩ := p
    obtain ⟨s, e, hs, he⟩ := hok (name, x) (by simp)
    have hm : name ∈ c.map Prod.fst := List.mem_map.2 ⟨_, mem_of_dget hs, rfl⟩
    simp only [List.map_cons, List.nodup_cons] at hf
    have hget : ∀ n, n ≠ name → dget (dset c name { s with data := s.data ++ [e] }) n = dget c n := fun n hn => by
      rw [Cli.dget_set, if_neg (Ne.symm hn)]
    have hne : ∀ p ∈ feeds, p.1 ≠ name := fun p hp h => hf.1 (h ▸ List.mem_map_of_mem (f := Prod.fst) hp)
    obtain ⟨c', h1, h2, h3, h4⟩ := ih (dset c name { s with data := s.data ++ [e] })
      (by rw [dset_keys hm]; exact hc) hf.2 fun p hp => by
        rw [hget p.1 (hne p hp)]
        exact hok p (List.mem_cons_of_mem _ hp)
    refine ⟨c', ?_, by rw [h2, dset_keys hm], ?_, ?_⟩
    · simp only [feedAll, feedData_eq hs he, bind, Except.bind]
      exact h1
    · intro n hn
      simp only [List.map_cons, List.mem_cons, not_or] at hn
      rw [h3 n hn.2, hget n hn.1]
    · intro p hp s' hs'
      rcases List.mem_cons.1 hp with rfl | hp
      · have : s = s' := Option.some.inj (hs.symm.trans hs')
        subst this
        exact ⟨e, he, by rw [h3 name hf.1, Cli.dget_set, if_pos rfl]⟩
      · exact h4 p hp s' (by rw [hget p.1 (hne p hp)]; exact hs')

/-- The whole recording: the input of every iteration, history by history. -/
theorem record_eq {V : Type} (feeds : V → List (Name × Input ℝ)) (names : List Name) (hnames : names.Nodup)
    (hfeeds : ∀ v, (feeds v).map Prod.fst = names) : ∀ (vs : List V) (c : Coll ℝ), (c.map Prod.fst).Nodup →
    (∀ v ∈ vs, ∀ p ∈ feeds v, ∃ s e, dget c p.1 = some s ∧ entryOf s.plotType p.2 = .ok e) →
    ∃ c', record feeds c vs = .ok c' ∧ c'.map Prod.fst = c.map Prod.fst ∧
      (∀ n, n ∉ names → dget c' n = dget c n) ∧
      ∀ n ∈ names, ∀ s, dget c n = some s → ∃ es, dget c' n = some { s with data := s.data ++ es } ∧
        List.Forall₂ (fun v e => ∀ x, (n, x) ∈ feeds v → entryOf s.plotType x = .ok e) vs es := by
  intro vs
  induction vs with
  | nil =>
    intro c _ _
    exact ⟨c, rfl, rfl, fun _ _ => rfl, fun n _ s hs => ⟨[], by simpa using hs, .nil⟩⟩
  | cons v vs ih =>
    intro c hc hok
    obtain ⟨c1, h1, h2, h3, h4⟩ := feedAll_eq (feeds v) c hc (by rw [hfeeds]; exact hnames) (hok v (by simp))
    obtain ⟨c', k1, k2, k3, k4⟩ := ih c1 (by rw [h2]; exact hc) fun w hw p hp => by
      obtain ⟨s, e, hs, he⟩ := hok w (List.mem_cons_of_mem _ hw) p hp
      have hpn : p.1 ∈ (feeds v).map Prod.fst := by
        rw [hfeeds v, ← hfeeds w]; exact List.mem_map_of_mem (f := Prod.fst) hp
      obtain ⟨q, hq, hqp⟩ := List.mem_map.1 hpn
      obtain ⟨e', -, he'⟩ := h4 q hq s (by rw [hqp]; exact hs)
      rw [hqp] at he'
      exact ⟨_, e, he', he⟩
    refine ⟨c', by simp only [record, h1, bind, Except.bind]; exact k1, by rw [k2, h2], fun n hn => ?_, ?_⟩
    · rw [k3 n hn, h3 n (by rw [hfeeds]; exact hn)]
    · intro n hn s hs
      have hpn : n ∈ (feeds v).map Prod.fst := by rw [hfeeds v]; exact hn
      obtain ⟨q, hq, rfl⟩ := List.mem_map.1 hpn
      obtain ⟨e, he, hget⟩ := h4 q hq s hs
      obtain ⟨es, h5, h6⟩ := k4 q.1 hn _ hget
      refine ⟨e :: es, by rw [h5]; simp, .cons (fun x hx => ?_) h6⟩
      have : q.2 = x := by
        have hnd : ((feeds v).map Prod.fst).Nodup := by rw [hfeeds v]; exact hnames
        have := (dget_of_mem hnd (show (q.1, q.2) ∈ feeds v from hq)).symm.trans (dget_of_mem hnd hx)
        exact Option.some.inj this
      rw [← this]; exact he

theorem entry_statistics {xs : List ℝ} {e : Entry ℝ} (hx : xs ≠ []) (h : entryOf stdType (.array xs) = .ok e) :
    Statistics xs e := by
  obtain ⟨s', lo, mu, hi, h1, h2, h3, h4, -, -, h5⟩ :=
    C65_statistics_bracket_field { name := [], plotType := stdType } xs hx
  rcases h5 with ⟨hne, -⟩ | ⟨-, sd, h6, h7, h8, -⟩
  · exact absurd rfl hne
  · have := add_eq (s := { name := [], plotType := stdType }) h
    rw [h1, Except.ok.injEq] at this
    rw [this] at h8
    simp only [List.nil_append, List.cons.injEq, and_true] at h8
    exact ⟨lo, mu, hi, sd, h8, h2, h3, h4, h6, h7⟩

theorem entry_array {plot : Name} {xs : List ℝ} (hx : xs ≠ []) : ∃ e, entryOf plot (.array xs) = .ok e := by
  obtain ⟨x, l, rfl⟩ := List.exists_cons_of_ne_nil hx
  exact ⟨_, rfl⟩

theorem forall₂_imp_mem {A B : Type} {R S : A → B → Prop} : ∀ {l : List A} {m : List B}, List.Forall₂ R l m →
    (∀ a ∈ l, ∀ b, R a b → S a b) → List.Forall₂ S l m
  | _, _, .nil, _ => .nil
  | _, _, .cons h t, H => .cons (H _ (by simp) _ h) (forall₂_imp_mem t fun a ha b hb => H a (List.mem_cons_of_mem _ ha) b hb)

theorem forall₂_right {A B : Type} {R : A → B → Prop} : ∀ {l : List A} {m : List B}, List.Forall₂ R l m →
    ∀ b ∈ m, ∃ a ∈ l, R a b
  | _, _, .nil, b, hb => by simp at hb
  | _, _, .cons h t, b, hb => by
    rcases List.mem_cons.1 hb with rfl | hb
    · exact ⟨_, by simp, h⟩
    · obtain ⟨a, ha, hr⟩ := forall₂_right t b hb
      exact ⟨a, List.mem_cons_of_mem _ ha, hr⟩

/-- A recorder and the `feed_data` calls of its iterations: distinct names, each fed once per iteration, always with a float or
always with a non-empty array. -/
structure Plan {V : Type} (c0 : Coll ℝ) (names : List Name) (feeds : V → List (Name × Input ℝ)) (vs : List V) : Prop where
  distinct : names.Nodup
  keysDistinct : (c0.map Prod.fst).Nodup
  keys : ∀ n, n ∈ c0.map Prod.fst ↔ n ∈ names
  feedNames : ∀ v, (feeds v).map Prod.fst = names
  empty : ∀ x ∈ c0, x.2.data = [] ∧ x.2.name = x.1
  kind : ∀ n ∈ names, (∀ v ∈ vs, ∃ y, (n, .scalar y) ∈ feeds v) ∨ (∀ v ∈ vs, ∃ ys, ys ≠ [] ∧ (n, .array ys) ∈ feeds v)

theorem Plan.run {V : Type} {c0 : Coll ℝ} {names : List Name} {feeds : V → List (Name × Input ℝ)} {vs : List V}
    (h : Plan c0 names feeds vs) : ∃ c, record feeds c0 vs = .ok c ∧ c.map Prod.fst = c0.map Prod.fst ∧ WellNamed c ∧
      (∀ x ∈ c, x.2.data.length = vs.length ∧ Regular x.2) ∧
      ∀ n ∈ names, ∀ s, dget c0 n = some s → ∃ s', (n, s') ∈ c ∧ s'.plotType = s.plotType ∧
        List.Forall₂ (fun v e => ∀ x, (n, x) ∈ feeds v → entryOf s.plotType x = .ok e) vs s'.data := by
  have hc0 : (c0.map Prod.fst).Nodup := h.keysDistinct
  have uniq : ∀ v n x y, (n, x) ∈ feeds v → (n, y) ∈ feeds v → x = y := fun v n x y hx hy => by
    have hnd : ((feeds v).map Prod.fst).Nodup := by rw [h.feedNames v]; exact h.distinct
    exact Option.some.inj ((dget_of_mem hnd hx).symm.trans (dget_of_mem hnd hy))
  have hok : ∀ v ∈ vs, ∀ p ∈ feeds v, ∃ s e, dget c0 p.1 = some s ∧ entryOf s.plotType p.2 = .ok e := by
    intro v hv p hp
    have hpn : p.1 ∈ names := by rw [← h.feedNames v]; exact List.mem_map_of_mem (f := Prod.fst) hp
    obtain ⟨x, hx, hxp⟩ := List.mem_map.1 ((h.keys _).2 hpn)
    refine ⟨x.2, ?_⟩
    have hget : dget c0 p.1 = some x.2 := by rw [← hxp]; exact dget_of_mem hc0 hx
    rcases h.kind p.1 hpn with hk | hk
    · obtain ⟨y, hy⟩ := hk v hv
      exact ⟨.scalar y, hget, by rw [uniq v p.1 p.2 _ hp hy]; rfl⟩
    · obtain ⟨ys, hne, hy⟩ := hk v hv
      obtain ⟨e, he⟩ := entry_array (plot := x.2.plotType) hne
      exact ⟨e, hget, by rw [uniq v p.1 p.2 _ hp hy]; exact he⟩
  obtain ⟨c, h1, h2, -, h4⟩ := record_eq feeds names h.distinct h.feedNames vs c0 hc0 hok
  have hc : (c.map Prod.fst).Nodup := by rw [h2]; exact hc0
  -- every history of the result
  have main : ∀ x ∈ c, x.1 ∈ names ∧ ∃ s, dget c0 x.1 = some s ∧ x.2.plotType = s.plotType ∧ x.2.name = x.1 ∧
      List.Forall₂ (fun v e => ∀ y, (x.1, y) ∈ feeds v → entryOf s.plotType y = .ok e) vs x.2.data := by
    intro x hx
    have hx0 : x.1 ∈ c0.map Prod.fst := by rw [← h2]; exact List.mem_map_of_mem (f := Prod.fst) hx
    have hxn : x.1 ∈ names := (h.keys _).1 hx0
    obtain ⟨z, hz, hzx⟩ := List.mem_map.1 hx0
    have hs : dget c0 x.1 = some z.2 := by rw [← hzx]; exact dget_of_mem hc0 hz
    obtain ⟨es, h5, h6⟩ := h4 x.1 hxn z.2 hs
    have hx2 : x.2 = { z.2 with data := z.2.data ++ es } :=
      Option.some.inj ((dget_of_mem hc (show (x.1, x.2) ∈ c from hx)).symm.trans h5)
    obtain ⟨e1, e2⟩ := h.empty z hz
    refine ⟨hxn, z.2, hs, by rw [hx2], by rw [hx2]; exact e2.trans hzx, ?_⟩
    rw [hx2]
    simpa [e1] using h6
  refine ⟨c, h1, h2, ⟨hc, fun x hx => ?_⟩, ?_, ?_⟩
  · obtain ⟨-, -, -, -, hname, -⟩ := main x hx
    exact hname
  · intro x hx
    obtain ⟨hxn, s, hs, hp, -, hf⟩ := main x hx
    refine ⟨hf.length_eq.symm, ?_⟩
    rcases h.kind x.1 hxn with hk | hk
    · left
      have : ∀ e ∈ x.2.data, ∃ y, e = Entry.scalar y := by
        intro e he
        obtain ⟨v, hv, hr⟩ := forall₂_right hf e he
        obtain ⟨y, hy⟩ := hk v hv
        have := hr _ hy
        simp only [entryOf, Except.ok.injEq] at this
        exact ⟨y, this.symm⟩
      clear hf
      generalize x.2.data = d at this
      induction d with
      | nil => exact ⟨[], rfl⟩
      | cons e d ih =>
        obtain ⟨y, rfl⟩ := this e (by simp)
        obtain ⟨ys, hys⟩ := ih fun e he => this e (List.mem_cons_of_mem _ he)
        exact ⟨y :: ys, by rw [hys]; rfl⟩
    · right
      have : ∀ e ∈ x.2.data, ∃ r : List ℝ, e = Entry.row r ∧ r.length = width x.2 := by
        intro e he
        obtain ⟨v, hv, hr⟩ := forall₂_right hf e he
        obtain ⟨ys, hne, hy⟩ := hk v hv
        have h7 := hr _ hy
        obtain ⟨y, l, rfl⟩ := List.exists_cons_of_ne_nil hne
        simp only [entryOf, statRow, Except.map, Except.ok.injEq] at h7
        refine ⟨_, h7.symm, ?_⟩
        unfold width
        rw [hp]
        split_ifs <;> rfl
      clear hf
      generalize hw : width x.2 = w at this
      generalize x.2.data = d at this
      induction d with
      | nil => exact ⟨[], rfl, by simp⟩
      | cons e d ih =>
        obtain ⟨y, rfl, hy⟩ := this e (by simp)
        obtain ⟨ys, hys, hl⟩ := ih fun e he => this e (List.mem_cons_of_mem _ he)
        refine ⟨y :: ys, by rw [hys]; rfl, fun r hr => ?_⟩
        rcases List.mem_cons.1 hr with rfl | hr
        · exact hy
        · exact hl r hr
  · intro n hn s hs
    obtain ⟨x, hx, hxn⟩ := List.mem_map.1 (by rw [h2]; exact (h.keys _).2 hn : n ∈ c.map Prod.fst)
    subst hxn
    obtain ⟨-, s', hs', hp, -, hf⟩ := main x hx
    have : s = s' := Option.some.inj (hs.symm.trans hs')
    subst this
    exact ⟨x.2, hx, hp, hf⟩

/-! ### The two optimizers -/

/-- The names an OC iteration feeds, in order. -/
def ocNames (objective : Name) : List Name :=
  ["lmid".toList, "vol_error".toList, "-dC".toList, "kkt_residual".toList, "rho_change_max".toList, "rho_projected".toList,
   "energy".toList, objective, "scaling_rate".toList, "u_max".toList, "neumann_scale".toList]

/-- The names a LogMOC iteration feeds, in order. -/
def logNames (objective : Name) : List Name :=
  ["lambda_v".toList, "constraint_coeff".toList, "vol_error".toList, "-dC".toList, "dV_chain".toList,
   "volume_chain_scale".toList, "dL".toList, "kkt_residual".toList, "rho_change_max".toList, "rho_projected".toList,
   "energy".toList, objective, "scaling_rate".toList, "u_max".toList, "neumann_scale".toList]

theorem uMax_kind {V : Type} (line : V → Line) (feeds : V → List (Name × Input ℝ)) (nTasks : ℕ) (h0 : 0 < nTasks) (vs : List V)
    (hp : ∀ v ∈ vs, Proper nTasks (line v)) (hm : ∀ v, ("u_max".toList, uMaxInput (line v).uMax) ∈ feeds v) :
    (∀ v ∈ vs, ∃ y, ("u_max".toList, .scalar y) ∈ feeds v) ∨
      (∀ v ∈ vs, ∃ ys, ys ≠ [] ∧ ("u_max".toList, .array ys) ∈ feeds v) := by
  by_cases h1 : nTasks = 1
  · left
    intro v hv
    refine ⟨(line v).uMax.headD 0, ?_⟩
    have := hm v
    rwa [uMaxInput, if_pos ((hp v hv).1.trans h1)] at this
  · right
    intro v hv
    refine ⟨(line v).uMax, ?_, ?_⟩
    · intro h
      have := (hp v hv).1
      rw [h] at this
      simp at this
      omega
    · have := hm v
      rwa [uMaxInput, if_neg (by rw [(hp v hv).1]; exact h1)] at this

theorem addSeries_keys {c : Coll ℝ} {l : List Name} {n p : Name} {y : Bool} (hc : c.map Prod.fst = l) (hn : n ∉ l) :
    (addSeries c n p y).map Prod.fst = l ++ [n] := by
  unfold addSeries register
  subst hc
  rw [dset_new hn]
  simp

theorem commonKeys (nTasks : ℕ) (objective : String) (hobj : IsObjective objective) (objectiveLog : Bool) :
    (addRecorder nTasks objective.toList objectiveLog).map Prod.fst = ["rho_projected".toList, "energy".toList,
      "vol_error".toList, "u_max".toList, objective.toList, "scaling_rate".toList, "neumann_scale".toList,
      "rho_change_max".toList, "kkt_residual".toList] := by
  have h1 := addSeries_keys (c := []) (l := []) (n := "rho_projected".toList) (p := stdType) (y := false) rfl (by simp)
  have h2 := addSeries_keys (n := "energy".toList) (p := stdType) (y := false) h1 (by decide)
  have h3 := addSeries_keys (n := "vol_error".toList) (p := valueType) (y := false) h2 (by decide)
  have h4 := addSeries_keys (n := "u_max".toList) (p := if nTasks > 1 then stdType else valueType) (y := false) h3 (by decide)
  have h5 := addSeries_keys (n := objective.toList) (p := valueType) (y := objectiveLog) h4
    (by rcases hobj with rfl | rfl | rfl <;> decide)
  have h6 := addSeries_keys (n := "scaling_rate".toList) (p := stdType) (y := false) h5
    (by rcases hobj with rfl | rfl | rfl <;> decide)
  have h7 := addSeries_keys (n := "neumann_scale".toList) (p := valueType) (y := false) h6
    (by rcases hobj with rfl | rfl | rfl <;> decide)
  have h8 := addSeries_keys (n := "rho_change_max".toList) (p := valueType) (y := false) h7
    (by rcases hobj with rfl | rfl | rfl <;> decide)
  have h9 := addSeries_keys (n := "kkt_residual".toList) (p := valueType) (y := false) h8
    (by rcases hobj with rfl | rfl | rfl <;> decide)
  exact h9

theorem ocKeys (nTasks : ℕ) (objective : String) (hobj : IsObjective objective) (objectiveLog : Bool) :
    (ocRecorder nTasks objective.toList objectiveLog).map Prod.fst = ["rho_projected".toList, "energy".toList,
      "vol_error".toList, "u_max".toList, objective.toList, "scaling_rate".toList, "neumann_scale".toList,
      "rho_change_max".toList, "kkt_residual".toList, "-dC".toList, "lmid".toList] := by
  have h0 := commonKeys nTasks objective hobj objectiveLog
  have h1 := addSeries_keys (n := "-dC".toList) (p := stdType) (y := true) h0
    (by rcases hobj with rfl | rfl | rfl <;> decide)
  have h2 := addSeries_keys (n := "lmid".toList) (p := valueType) (y := true) h1
    (by rcases hobj with rfl | rfl | rfl <;> decide)
  exact h2

theorem logKeys (nTasks : ℕ) (objective : String) (hobj : IsObjective objective) (objectiveLog : Bool) :
    (logRecorder nTasks objective.toList objectiveLog).map Prod.fst = ["rho_projected".toList, "energy".toList,
      "vol_error".toList, "u_max".toList, objective.toList, "scaling_rate".toList, "neumann_scale".toList,
      "rho_change_max".toList, "kkt_residual".toList, "dL".toList, "-dC".toList, "lambda_v".toList,
      "constraint_coeff".toList, "dV_chain".toList, "volume_chain_scale".toList] := by
  have h0 := commonKeys nTasks objective hobj objectiveLog
  have h1 := addSeries_keys (n := "dL".toList) (p := stdType) (y := false) h0
    (by rcases hobj with rfl | rfl | rfl <;> decide)
  have h2 := addSeries_keys (n := "-dC".toList) (p := stdType) (y := true) h1
    (by rcases hobj with rfl | rfl | rfl <;> decide)
  have h3 := addSeries_keys (n := "lambda_v".toList) (p := valueType) (y := false) h2
    (by rcases hobj with rfl | rfl | rfl <;> decide)
  have h4 := addSeries_keys (n := "constraint_coeff".toList) (p := valueType) (y := false) h3
    (by rcases hobj with rfl | rfl | rfl <;> decide)
  have h5 := addSeries_keys (n := "dV_chain".toList) (p := stdType) (y := true) h4
    (by rcases hobj with rfl | rfl | rfl <;> decide)
  have h6 := addSeries_keys (n := "volume_chain_scale".toList) (p := valueType) (y := true) h5
    (by rcases hobj with rfl | rfl | rfl <;> decide)
  exact h6

theorem ocNames_nodup (objective : String) (hobj : IsObjective objective) : (ocNames objective.toList).Nodup := by
  rcases hobj with rfl | rfl | rfl <;> decide

theorem ocKeys_nodup (nTasks : ℕ) (objective : String) (hobj : IsObjective objective) (objectiveLog : Bool) :
    ((ocRecorder nTasks objective.toList objectiveLog).map Prod.fst).Nodup := by
  rw [ocKeys nTasks objective hobj]
  rcases hobj with rfl | rfl | rfl <;> decide

theorem ocReorder (a0 a1 a2 a3 a4 a5 a6 a7 a8 a9 a10 n : Name) :
    n ∈ [a0, a1, a2, a3, a4, a5, a6, a7, a8, a9, a10] ↔ n ∈ [a10, a2, a9, a8, a7, a0, a1, a4, a5, a3, a6] := by
  simp only [List.mem_cons, List.not_mem_nil, or_false]
  constructor <;> (rintro (h | h | h | h | h | h | h | h | h | h | h) <;> simp [h])

theorem ocKeys_mem (nTasks : ℕ) (objective : String) (hobj : IsObjective objective) (objectiveLog : Bool) (n : Name) :
    n ∈ (ocRecorder nTasks objective.toList objectiveLog).map Prod.fst ↔ n ∈ ocNames objective.toList := by
  rw [ocKeys nTasks objective hobj]
  exact ocReorder _ _ _ _ _ _ _ _ _ _ _ _

theorem ocEmpty (nTasks : ℕ) (objective : Name) (objectiveLog : Bool) :
    ∀ x ∈ ocRecorder nTasks objective objectiveLog, x.2.data = [] ∧ x.2.name = x.1 := by
  have : ∀ (c : Coll ℝ) n p y, (∀ x ∈ c, x.2.data = [] ∧ x.2.name = x.1) →
      ∀ x ∈ addSeries c n p y, x.2.data = [] ∧ x.2.name = x.1 := by
    intro c n p y hc x hx
    rcases mem_dset hx with h | rfl
    · exact hc x h
    · exact ⟨rfl, rfl⟩
  unfold ocRecorder addRecorder
  exact this _ _ _ _ (this _ _ _ _ (this _ _ _ _ (this _ _ _ _ (this _ _ _ _ (this _ _ _ _ (this _ _ _ _ (this _ _ _ _
    (this _ _ _ _ (this _ _ _ _ (this _ _ _ _ (by simp)))))))))))

theorem ocKind (nTasks : ℕ) (h0 : 0 < nTasks) (objective : Name) (vs : List OCLine) (hp : ∀ v ∈ vs, Proper nTasks v.toLine) :
    ∀ n ∈ ocNames objective, (∀ v ∈ vs, ∃ y, (n, .scalar y) ∈ ocFeeds objective v) ∨
      (∀ v ∈ vs, ∃ ys, ys ≠ [] ∧ (n, .array ys) ∈ ocFeeds objective v) := by
  intro n hn
  have hu := uMax_kind OCLine.toLine (ocFeeds objective) nTasks h0 vs hp fun v => by simp [ocFeeds, commonFeeds]
  simp only [ocNames, List.mem_cons, List.not_mem_nil, or_false] at hn
  rcases hn with rfl | rfl | rfl | rfl | rfl | rfl | rfl | rfl | rfl | rfl | rfl
  · exact Or.inl fun v _ => ⟨v.lmid, by simp [ocFeeds]⟩
  · exact Or.inl fun v _ => ⟨v.volError, by simp [ocFeeds]⟩
  · exact Or.inr fun v hv => ⟨v.minusDC, (hp v hv).2.1, by simp [ocFeeds]⟩
  · exact Or.inl fun v _ => ⟨v.kkt, by simp [ocFeeds]⟩
  · exact Or.inl fun v _ => ⟨v.rhoChange, by simp [ocFeeds, commonFeeds]⟩
  · exact Or.inr fun v hv => ⟨v.rhoProjected, (hp v hv).2.2.1, by simp [ocFeeds, commonFeeds]⟩
  · exact Or.inr fun v hv => ⟨v.energy, (hp v hv).2.2.2.1, by simp [ocFeeds, commonFeeds]⟩
  · exact Or.inl fun v _ => ⟨v.objective, by simp [ocFeeds, commonFeeds]⟩
  · exact Or.inr fun v hv => ⟨v.scalingRate, (hp v hv).2.2.2.2, by simp [ocFeeds, commonFeeds]⟩
  · exact hu
  · exact Or.inl fun v _ => ⟨v.neumannScale, by simp [ocFeeds, commonFeeds]⟩

theorem ocPlan (nTasks : ℕ) (h0 : 0 < nTasks) (objective : String) (hobj : IsObjective objective) (objectiveLog : Bool)
    (vs : List OCLine) (hp : ∀ v ∈ vs, Proper nTasks v.toLine) :
    Plan (ocRecorder nTasks objective.toList objectiveLog) (ocNames objective.toList) (ocFeeds objective.toList) vs where
  distinct := ocNames_nodup objective hobj
  keysDistinct := ocKeys_nodup nTasks objective hobj objectiveLog
  keys := ocKeys_mem nTasks objective hobj objectiveLog
  feedNames := fun _ => rfl
  empty := ocEmpty nTasks objective.toList objectiveLog
  kind := ocKind nTasks h0 objective.toList vs hp

theorem logNames_nodup (objective : String) (hobj : IsObjective objective) : (logNames objective.toList).Nodup := by
  rcases hobj with rfl | rfl | rfl <;> decide

theorem logKeys_nodup (nTasks : ℕ) (objective : String) (hobj : IsObjective objective) (objectiveLog : Bool) :
    ((logRecorder nTasks objective.toList objectiveLog).map Prod.fst).Nodup := by
  rw [logKeys nTasks objective hobj]
  rcases hobj with rfl | rfl | rfl <;> decide

theorem logReorder (a0 a1 a2 a3 a4 a5 a6 a7 a8 a9 a10 a11 a12 a13 a14 n : Name) :
    n ∈ [a0, a1, a2, a3, a4, a5, a6, a7, a8, a9, a10, a11, a12, a13, a14] ↔ n ∈ [a11, a12, a2, a10, a13, a14, a9, a8, a7, a0, a1, a4, a5, a3, a6] := by
  simp only [List.mem_cons, List.not_mem_nil, or_false]
  constructor <;> (rintro (h | h | h | h | h | h | h | h | h | h | h | h | h | h | h) <;> simp [h])

theorem logKeys_mem (nTasks : ℕ) (objective : String) (hobj : IsObjective objective) (objectiveLog : Bool) (n : Name) :
    n ∈ (logRecorder nTasks objective.toList objectiveLog).map Prod.fst ↔ n ∈ logNames objective.toList := by
  rw [logKeys nTasks objective hobj]
  exact logReorder _ _ _ _ _ _ _ _ _ _ _ _ _ _ _ _

theorem logEmpty (nTasks : ℕ) (objective : Name) (objectiveLog : Bool) :
    ∀ x ∈ logRecorder nTasks objective objectiveLog, x.2.data = [] ∧ x.2.name = x.1 := by
  have : ∀ (c : Coll ℝ) n p y, (∀ x ∈ c, x.2.data = [] ∧ x.2.name = x.1) →
      ∀ x ∈ addSeries c n p y, x.2.data = [] ∧ x.2.name = x.1 := by
    intro c n p y hc x hx
    rcases mem_dset hx with h | rfl
    · exact hc x h
    · exact ⟨rfl, rfl⟩
  unfold logRecorder addRecorder
  exact this _ _ _ _ (this _ _ _ _ (this _ _ _ _ (this _ _ _ _ (this _ _ _ _ (this _ _ _ _ (this _ _ _ _ (this _ _ _ _
    (this _ _ _ _ (this _ _ _ _ (this _ _ _ _ (this _ _ _ _ (this _ _ _ _ (this _ _ _ _ (this _ _ _ _
      (by simp)))))))))))))))

theorem logKind (nTasks : ℕ) (h0 : 0 < nTasks) (objective : Name) (vs : List LogLine) (hp : ∀ v ∈ vs, Proper nTasks v.toLine ∧ v.dVChain ≠ [] ∧ v.dL ≠ []) :
    ∀ n ∈ logNames objective, (∀ v ∈ vs, ∃ y, (n, .scalar y) ∈ logFeeds objective v) ∨
      (∀ v ∈ vs, ∃ ys, ys ≠ [] ∧ (n, .array ys) ∈ logFeeds objective v) := by
  intro n hn
  have hu := uMax_kind LogLine.toLine (logFeeds objective) nTasks h0 vs (fun v hv => (hp v hv).1) fun v => by
    simp [logFeeds, commonFeeds]
  simp only [logNames, List.mem_cons, List.not_mem_nil, or_false] at hn
  rcases hn with rfl | rfl | rfl | rfl | rfl | rfl | rfl | rfl | rfl | rfl | rfl | rfl | rfl | rfl | rfl
  · exact Or.inl fun v _ => ⟨v.lambdaV, by simp [logFeeds]⟩
  · exact Or.inl fun v _ => ⟨v.constraintCoeff, by simp [logFeeds]⟩
  · exact Or.inl fun v _ => ⟨v.volError, by simp [logFeeds]⟩
  · exact Or.inr fun v hv => ⟨v.minusDC, (hp v hv).1.2.1, by simp [logFeeds]⟩
  · exact Or.inr fun v hv => ⟨v.dVChain, (hp v hv).2.1, by simp [logFeeds]⟩
  · exact Or.inl fun v _ => ⟨v.volumeChainScale, by simp [logFeeds]⟩
  · exact Or.inr fun v hv => ⟨v.dL, (hp v hv).2.2, by simp [logFeeds]⟩
  · exact Or.inl fun v _ => ⟨v.kkt, by simp [logFeeds]⟩
  · exact Or.inl fun v _ => ⟨v.rhoChange, by simp [logFeeds, commonFeeds]⟩
  · exact Or.inr fun v hv => ⟨v.rhoProjected, (hp v hv).1.2.2.1, by simp [logFeeds, commonFeeds]⟩
  · exact Or.inr fun v hv => ⟨v.energy, (hp v hv).1.2.2.2.1, by simp [logFeeds, commonFeeds]⟩
  · exact Or.inl fun v _ => ⟨v.objective, by simp [logFeeds, commonFeeds]⟩
  · exact Or.inr fun v hv => ⟨v.scalingRate, (hp v hv).1.2.2.2.2, by simp [logFeeds, commonFeeds]⟩
  · exact hu
  · exact Or.inl fun v _ => ⟨v.neumannScale, by simp [logFeeds, commonFeeds]⟩

theorem logPlan (nTasks : ℕ) (h0 : 0 < nTasks) (objective : String) (hobj : IsObjective objective) (objectiveLog : Bool)
    (vs : List LogLine) (hp : ∀ v ∈ vs, Proper nTasks v.toLine ∧ v.dVChain ≠ [] ∧ v.dL ≠ []) :
    Plan (logRecorder nTasks objective.toList objectiveLog) (logNames objective.toList) (logFeeds objective.toList) vs where
  distinct := logNames_nodup objective hobj
  keysDistinct := logKeys_nodup nTasks objective hobj objectiveLog
  keys := logKeys_mem nTasks objective hobj objectiveLog
  feedNames := fun _ => rfl
  empty := logEmpty nTasks objective.toList objectiveLog
  kind := logKind nTasks h0 objective.toList vs hp

theorem dget_add_eq (c : Coll ℝ) (n p : Name) (y : Bool) :
    dget (addSeries c n p y) n = some { name := n, plotType := p, ylog := y } := by
  unfold addSeries register
  rw [Cli.dget_set, if_pos rfl]

theorem dget_add_ne {c : Coll ℝ} {n m p : Name} {y : Bool} (h : m ≠ n) : dget (addSeries c m p y) n = dget c n := by
  unfold addSeries register
  rw [Cli.dget_set, if_neg h]

/-- The histories of statistics that every optimizer registers. -/
theorem common_std (nTasks : ℕ) (objective : String) (hobj : IsObjective objective) (objectiveLog : Bool) (n : Name)
    (h : n = "rho_projected".toList ∨ n = "energy".toList ∨ n = "scaling_rate".toList ∨ (n = "u_max".toList ∧ 1 < nTasks)) :
    ∃ s, dget (addRecorder nTasks objective.toList objectiveLog) n = some s ∧ s.plotType = stdType := by
  have hne : objective.toList ≠ "rho_projected".toList ∧ objective.toList ≠ "energy".toList ∧
      objective.toList ≠ "scaling_rate".toList ∧ objective.toList ≠ "u_max".toList := by
    rcases hobj with rfl | rfl | rfl <;> decide
  unfold addRecorder
  rcases h with rfl | rfl | rfl | ⟨rfl, h1⟩
  · rw [dget_add_ne (by decide), dget_add_ne (by decide), dget_add_ne (by decide), dget_add_ne (by decide),
      dget_add_ne hne.1, dget_add_ne (by decide), dget_add_ne (by decide), dget_add_ne (by decide), dget_add_eq]
    exact ⟨_, rfl, rfl⟩
  · rw [dget_add_ne (by decide), dget_add_ne (by decide), dget_add_ne (by decide), dget_add_ne (by decide),
      dget_add_ne hne.2.1, dget_add_ne (by decide), dget_add_ne (by decide), dget_add_eq]
    exact ⟨_, rfl, rfl⟩
  · rw [dget_add_ne (by decide), dget_add_ne (by decide), dget_add_ne (by decide), dget_add_eq]
    exact ⟨_, rfl, rfl⟩
  · rw [dget_add_ne (by decide), dget_add_ne (by decide), dget_add_ne (by decide), dget_add_ne (by decide),
      dget_add_ne hne.2.2.2, dget_add_eq]
    exact ⟨_, rfl, if_pos h1⟩

theorem oc_std (nTasks : ℕ) (objective : String) (hobj : IsObjective objective) (objectiveLog : Bool) (n : Name)
    (h : n = "-dC".toList ∨ n = "rho_projected".toList ∨ n = "energy".toList ∨ n = "scaling_rate".toList ∨
      (n = "u_max".toList ∧ 1 < nTasks)) :
    ∃ s, dget (ocRecorder nTasks objective.toList objectiveLog) n = some s ∧ s.plotType = stdType := by
  unfold ocRecorder
  rcases h with rfl | h
  · rw [dget_add_ne (by decide), dget_add_eq]
    exact ⟨_, rfl, rfl⟩
  · have h1 : "lmid".toList ≠ n ∧ "-dC".toList ≠ n := by
      rcases h with rfl | rfl | rfl | ⟨rfl, -⟩ <;> decide
    rw [dget_add_ne h1.1, dget_add_ne h1.2]
    exact common_std nTasks objective hobj objectiveLog n h

theorem log_std (nTasks : ℕ) (objective : String) (hobj : IsObjective objective) (objectiveLog : Bool) (n : Name)
    (h : n = "dL".toList ∨ n = "-dC".toList ∨ n = "dV_chain".toList ∨ n = "rho_projected".toList ∨ n = "energy".toList ∨
      n = "scaling_rate".toList ∨ (n = "u_max".toList ∧ 1 < nTasks)) :
    ∃ s, dget (logRecorder nTasks objective.toList objectiveLog) n = some s ∧ s.plotType = stdType := by
  unfold logRecorder
  rcases h with rfl | rfl | rfl | h
  · rw [dget_add_ne (by decide), dget_add_ne (by decide), dget_add_ne (by decide), dget_add_ne (by decide),
      dget_add_ne (by decide), dget_add_eq]
    exact ⟨_, rfl, rfl⟩
  · rw [dget_add_ne (by decide), dget_add_ne (by decide), dget_add_ne (by decide), dget_add_ne (by decide), dget_add_eq]
    exact ⟨_, rfl, rfl⟩
  · rw [dget_add_ne (by decide), dget_add_eq]
    exact ⟨_, rfl, rfl⟩
  · have h1 : "volume_chain_scale".toList ≠ n ∧ "dV_chain".toList ≠ n ∧ "constraint_coeff".toList ≠ n ∧
        "lambda_v".toList ≠ n ∧ "-dC".toList ≠ n ∧ "dL".toList ≠ n := by
      rcases h with rfl | rfl | rfl | ⟨rfl, -⟩ <;> decide
    rw [dget_add_ne h1.1, dget_add_ne h1.2.1, dget_add_ne h1.2.2.1, dget_add_ne h1.2.2.2.1, dget_add_ne h1.2.2.2.2.1,
      dget_add_ne h1.2.2.2.2.2]
    exact common_std nTasks objective hobj objectiveLog n h

/-- What `Plan.run` says about one history. -/
def Told {V : Type} (c0 c : Coll ℝ) (names : List Name) (feeds : V → List (Name × Input ℝ)) (vs : List V) : Prop :=
  ∀ n ∈ names, ∀ s, dget c0 n = some s → ∃ s', (n, s') ∈ c ∧ s'.plotType = s.plotType ∧
    List.Forall₂ (fun v e => ∀ x, (n, x) ∈ feeds v → entryOf s.plotType x = .ok e) vs s'.data

theorem Told.scalar {V : Type} {c0 c : Coll ℝ} {names : List Name} {feeds : V → List (Name × Input ℝ)} {vs : List V}
    (h : Told c0 c names feeds vs) (hk : ∀ n ∈ names, n ∈ c0.map Prod.fst) (hc0 : (c0.map Prod.fst).Nodup) (name : String)
    (hn : name.toList ∈ names) (f : V → ℝ) (hf : ∀ v, (name.toList, .scalar (f v)) ∈ feeds v) :
    Column c name (fun v e => e = .scalar (f v)) vs := by
  obtain ⟨x, hx, hxn⟩ := List.mem_map.1 (hk _ hn)
  obtain ⟨s', h1, -, h3⟩ := h _ hn x.2 (by rw [← hxn]; exact dget_of_mem hc0 hx)
  refine ⟨s', h1, forall₂_imp_mem h3 fun v _ e he => ?_⟩
  have := he _ (hf v)
  simp only [entryOf, Except.ok.injEq] at this
  exact this.symm

theorem Told.stats {V : Type} {c0 c : Coll ℝ} {names : List Name} {feeds : V → List (Name × Input ℝ)} {vs : List V}
    (h : Told c0 c names feeds vs) (name : String) (hn : name.toList ∈ names)
    (hs : ∃ s, dget c0 name.toList = some s ∧ s.plotType = stdType) (f : V → List ℝ) (hne : ∀ v ∈ vs, f v ≠ [])
    (hf : ∀ v ∈ vs, (name.toList, .array (f v)) ∈ feeds v) :
    Column c name (fun v e => Statistics (f v) e) vs := by
  obtain ⟨s, hs1, hs2⟩ := hs
  obtain ⟨s', h1, -, h3⟩ := h _ hn s hs1
  refine ⟨s', h1, forall₂_imp_mem h3 fun v hv e he => ?_⟩
  have := he _ (hf v hv)
  rw [hs2] at this
  exact entry_statistics (hne v hv) this

theorem Told.uMax {V : Type} {c0 c : Coll ℝ} {names : List Name} {feeds : V → List (Name × Input ℝ)} {vs : List V}
    (h : Told c0 c names feeds vs) (hk : ∀ n ∈ names, n ∈ c0.map Prod.fst) (hc0 : (c0.map Prod.fst).Nodup)
    (hn : "u_max".toList ∈ names) (f : V → List ℝ) (h1 : ∀ v ∈ vs, (f v).length = 1)
    (hf : ∀ v ∈ vs, ("u_max".toList, uMaxInput (f v)) ∈ feeds v) :
    Column c "u_max" (fun v e => ∃ u, f v = [u] ∧ e = .scalar u) vs := by
  obtain ⟨x, hx, hxn⟩ := List.mem_map.1 (hk _ hn)
  obtain ⟨s', k1, -, h3⟩ := h _ hn x.2 (by rw [← hxn]; exact dget_of_mem hc0 hx)
  refine ⟨s', k1, forall₂_imp_mem h3 fun v hv e he => ?_⟩
  obtain ⟨u, hu⟩ := List.length_eq_one_iff.1 (h1 v hv)
  have := he _ (hf v hv)
  rw [hu] at this
  simp only [uMaxInput, List.length_cons, List.length_nil, Nat.zero_add, if_true, List.headD_cons, entryOf,
    Except.ok.injEq] at this
  exact ⟨u, hu, this.symm⟩

theorem Told.common {V : Type} {c0 c : Coll ℝ} {names : List Name} {feeds : V → List (Name × Input ℝ)} {vs : List V}
    (h : Told c0 c names feeds vs) (hk : ∀ n, n ∈ c0.map Prod.fst ↔ n ∈ names) (hc0 : (c0.map Prod.fst).Nodup)
    (line : V → Line) (objective : String) (nTasks : ℕ) (hp : ∀ v ∈ vs, Proper nTasks (line v))
    (hfeed : ∀ v, ∀ p ∈ commonFeeds objective.toList (line v), p ∈ feeds v)
    (hv : ∀ v, ("vol_error".toList, .scalar (line v).volError) ∈ feeds v)
    (hkkt : ∀ v, ("kkt_residual".toList, .scalar (line v).kkt) ∈ feeds v)
    (hdc : ∀ v, ("-dC".toList, .array (line v).minusDC) ∈ feeds v)
    (hsubset : ∀ n ∈ ["vol_error".toList, "kkt_residual".toList, "-dC".toList, "rho_change_max".toList,
      "rho_projected".toList, "energy".toList, objective.toList, "scaling_rate".toList, "u_max".toList,
      "neumann_scale".toList], n ∈ names)
    (hstd : ∀ n, n = "-dC".toList ∨ n = "rho_projected".toList ∨ n = "energy".toList ∨ n = "scaling_rate".toList ∨
      (n = "u_max".toList ∧ 1 < nTasks) → ∃ s, dget c0 n = some s ∧ s.plotType = stdType) :
    Common line objective c vs := by
  have hk' : ∀ n ∈ names, n ∈ c0.map Prod.fst := fun n hn => (hk n).2 hn
  refine ⟨?_, ?_, ?_, ?_, ?_, ?_, ?_, ?_, ?_, ?_, ?_⟩
  · exact h.scalar hk' hc0 _ (hsubset _ (by simp)) (fun v => (line v).volError) hv
  · exact h.scalar hk' hc0 _ (hsubset _ (by simp)) (fun v => (line v).kkt) hkkt
  · exact h.scalar hk' hc0 _ (hsubset _ (by simp)) (fun v => (line v).rhoChange) fun v => hfeed v _ (by simp [commonFeeds])
  · exact h.scalar hk' hc0 _ (hsubset _ (by simp)) (fun v => (line v).objective) fun v => hfeed v _ (by simp [commonFeeds])
  · exact h.scalar hk' hc0 _ (hsubset _ (by simp)) (fun v => (line v).neumannScale) fun v =>
      hfeed v _ (by simp [commonFeeds])
  · exact h.stats _ (hsubset _ (by simp)) (hstd _ (by simp)) (fun v => (line v).minusDC) (fun v hv => (hp v hv).2.1)
      fun v _ => hdc v
  · exact h.stats _ (hsubset _ (by simp)) (hstd _ (by simp)) (fun v => (line v).rhoProjected)
      (fun v hv => (hp v hv).2.2.1) fun v _ => hfeed v _ (by simp [commonFeeds])
  · exact h.stats _ (hsubset _ (by simp)) (hstd _ (by simp)) (fun v => (line v).energy)
      (fun v hv => (hp v hv).2.2.2.1) fun v _ => hfeed v _ (by simp [commonFeeds])
  · exact h.stats _ (hsubset _ (by simp)) (hstd _ (by simp)) (fun v => (line v).scalingRate)
      (fun v hv => (hp v hv).2.2.2.2) fun v _ => hfeed v _ (by simp [commonFeeds])
  · intro h1
    exact h.uMax hk' hc0 (hsubset _ (by simp)) (fun v => (line v).uMax) h1 fun v _ => hfeed v _ (by simp [commonFeeds])
  · intro h1
    rcases vs with _ | ⟨v0, vs⟩
    · obtain ⟨x, hx, hxn⟩ := List.mem_map.1 (hk' _ (hsubset "u_max".toList (by simp)))
      obtain ⟨s', k1, -, h3⟩ := h _ (hsubset "u_max".toList (by simp)) x.2 (by rw [← hxn]; exact dget_of_mem hc0 hx)
      refine ⟨s', k1, ?_⟩
      cases hd : s'.data with
      | nil => exact .nil
      | cons e d => rw [hd] at h3; exact absurd h3.length_eq (by simp)
    · have hn : 1 < nTasks := by rw [← (hp v0 (by simp)).1]; exact h1 v0 (by simp)
      refine h.stats _ (hsubset _ (by simp)) (hstd _ (by simp [hn])) (fun v => (line v).uMax) (fun v hv he => ?_)
        fun v hv => ?_
      · have := h1 v hv
        rw [he] at this
        simp at this
      · have := hfeed v ("u_max".toList, uMaxInput (line v).uMax) (by simp [commonFeeds])
        rwa [uMaxInput, if_neg (by have := h1 v hv; omega)] at this

/-- **C116 (OC).** After any sequence of OC iterations the recorder holds exactly its eleven histories, each with one entry
per iteration in the order of the iterations: the number the iteration recorded, or the minimum, mean, maximum and standard
deviation of the field it recorded; the largest displacement is a number for one load case and its statistics over the load
cases otherwise. -/
theorem C116_oc_histories (nTasks : ℕ) (h0 : 0 < nTasks) (objective : String) (hobj : IsObjective objective)
    (objectiveLog : Bool) (vs : List OCLine) (hp : ∀ v ∈ vs, Proper nTasks v.toLine) :
    ∃ c, record (ocFeeds objective.toList) (ocRecorder nTasks objective.toList objectiveLog) vs = .ok c ∧
      c.length = 11 ∧ (c.map Prod.fst).Nodup ∧ (∀ x ∈ c, x.2.data.length = vs.length) ∧
      Common OCLine.toLine objective c vs ∧ Column c "lmid" (fun v e => e = .scalar v.lmid) vs := by
  have P := ocPlan nTasks h0 objective hobj objectiveLog vs hp
  obtain ⟨c, h1, h2, h3, h4, h5⟩ := P.run
  have hT : Told _ c (ocNames objective.toList) (ocFeeds objective.toList) vs := h5
  refine ⟨c, h1, ?_, h3.1, fun x hx => (h4 x hx).1, ?_, ?_⟩
  · have := congrArg List.length h2
    rw [ocKeys nTasks objective hobj objectiveLog] at this
    simpa using this
  · exact hT.common P.keys P.keysDistinct OCLine.toLine objective nTasks hp
      (fun v p hp => by unfold ocFeeds; exact List.mem_append_right _ hp) (fun v => by simp [ocFeeds])
      (fun v => by simp [ocFeeds]) (fun v => by simp [ocFeeds])
      (fun n hn => by
        simp only [List.mem_cons, List.not_mem_nil, or_false] at hn
        unfold ocNames
        rcases hn with h | h | h | h | h | h | h | h | h | h <;> simp only [h, List.mem_cons, true_or, or_true])
      (fun n hn => oc_std nTasks objective hobj objectiveLog n hn)
  · exact hT.scalar (fun n hn => (P.keys n).2 hn) P.keysDistinct _ (by unfold ocNames; simp only [List.mem_cons, true_or]) (fun v => v.lmid)
      fun v => by simp [ocFeeds]

/-- **C116 (LogMOC).** The same for LogMOC and its fifteen histories. -/
theorem C116_logmoc_histories (nTasks : ℕ) (h0 : 0 < nTasks) (objective : String) (hobj : IsObjective objective)
    (objectiveLog : Bool) (vs : List LogLine) (hp : ∀ v ∈ vs, Proper nTasks v.toLine ∧ v.dVChain ≠ [] ∧ v.dL ≠ []) :
    ∃ c, record (logFeeds objective.toList) (logRecorder nTasks objective.toList objectiveLog) vs = .ok c ∧
      c.length = 15 ∧ (c.map Prod.fst).Nodup ∧ (∀ x ∈ c, x.2.data.length = vs.length) ∧
      Common LogLine.toLine objective c vs ∧ Column c "lambda_v" (fun v e => e = .scalar v.lambdaV) vs ∧
      Column c "constraint_coeff" (fun v e => e = .scalar v.constraintCoeff) vs ∧
      Column c "volume_chain_scale" (fun v e => e = .scalar v.volumeChainScale) vs ∧
      Column c "dV_chain" (fun v e => Statistics v.dVChain e) vs ∧ Column c "dL" (fun v e => Statistics v.dL e) vs := by
  have P := logPlan nTasks h0 objective hobj objectiveLog vs hp
  obtain ⟨c, h1, h2, h3, h4, h5⟩ := P.run
  have hT : Told _ c (logNames objective.toList) (logFeeds objective.toList) vs := h5
  have hk : ∀ n ∈ logNames objective.toList, n ∈ (logRecorder nTasks objective.toList objectiveLog).map Prod.fst :=
    fun n hn => (P.keys n).2 hn
  refine ⟨c, h1, ?_, h3.1, fun x hx => (h4 x hx).1, ?_, ?_, ?_, ?_, ?_, ?_⟩
  · have := congrArg List.length h2
    rw [logKeys nTasks objective hobj objectiveLog] at this
    simpa using this
  · exact hT.common P.keys P.keysDistinct LogLine.toLine objective nTasks (fun v hv => (hp v hv).1)
      (fun v p hp => by unfold logFeeds; exact List.mem_append_right _ hp) (fun v => by simp [logFeeds])
      (fun v => by simp [logFeeds]) (fun v => by simp [logFeeds])
      (fun n hn => by
        simp only [List.mem_cons, List.not_mem_nil, or_false] at hn
        unfold logNames
        rcases hn with h | h | h | h | h | h | h | h | h | h <;> simp only [h, List.mem_cons, true_or, or_true])
      (fun n hn => log_std nTasks objective hobj objectiveLog n (by tauto))
  · exact hT.scalar hk P.keysDistinct _ (by unfold logNames; simp only [List.mem_cons, true_or, or_true])
      (fun v => v.lambdaV) fun v => by simp [logFeeds]
  · exact hT.scalar hk P.keysDistinct _ (by unfold logNames; simp only [List.mem_cons, true_or, or_true])
      (fun v => v.constraintCoeff) fun v => by simp [logFeeds]
  · exact hT.scalar hk P.keysDistinct _ (by unfold logNames; simp only [List.mem_cons, true_or, or_true])
      (fun v => v.volumeChainScale) fun v => by simp [logFeeds]
  · exact hT.stats _ (by unfold logNames; simp only [List.mem_cons, true_or, or_true])
      (log_std nTasks objective hobj objectiveLog _ (by simp)) (fun v => v.dVChain) (fun v hv => (hp v hv).2.1)
      fun v _ => by simp [logFeeds]
  · exact hT.stats _ (by unfold logNames; simp only [List.mem_cons, true_or, or_true])
      (log_std nTasks objective hobj objectiveLog _ (by simp)) (fun v => v.dL) (fun v hv => (hp v hv).2.2)
      fun v _ => by simp [logFeeds]

/-! ### The kinds of the histories -/

/-- Name, plot type and logarithmic axis of every history, in order. -/
def kinds (c : Coll ℝ) : List (Name × Name × Bool) := c.map fun x => (x.1, x.2.plotType, x.2.ylog)

theorem feedData_kinds {c c' : Coll ℝ} {name : Name} {x : Input ℝ} (h : feedData c name x = .ok c') (hd : (c.map Prod.fst).Nodup) :
    kinds c' = kinds c ∧ c'.map Prod.fst = c.map Prod.fst := by
  unfold feedData at h
  rcases hs : dget c name with - | s <;> rw [hs] at h
  · exact nomatch h
  · have hm : name ∈ c.map Prod.fst := List.mem_map.2 ⟨_, mem_of_dget hs, rfl⟩
    rcases ha : s.add x with e | s' <;> simp only [ha, bind, Except.bind] at h
    · exact nomatch h
    · injection h with h
      subst h
      refine ⟨?_, dset_keys hm⟩
      have hk : s'.plotType = s.plotType ∧ s'.ylog = s.ylog := by
        cases x with
        | scalar y => simp only [Series.add, Except.ok.injEq] at ha; subst ha; exact ⟨rfl, rfl⟩
        | array ys =>
          simp only [Series.add] at ha
          rcases hr : statRow s.plotType ys with e | r <;> simp only [hr, bind, Except.bind] at ha
          · exact nomatch ha
          · injection ha with ha
            subst ha
            exact ⟨rfl, rfl⟩
      unfold dset
      rw [if_pos (by
        obtain ⟨y, hy, e⟩ := List.mem_map.1 hm
        exact List.any_eq_true.2 ⟨y, hy, by simp [e]⟩)]
      unfold kinds
      rw [List.map_map]
      apply List.map_congr_left
      intro y hy
      simp only [Function.comp]
      split_ifs with e
      · have : dget c name = some y.2 := by rw [← e]; exact dget_of_mem hd hy
        rw [hs] at this
        injection this with this
        rw [hk.1, hk.2, this, e]
      · rfl

theorem record_kinds {V : Type} (feeds : V → List (Name × Input ℝ)) : ∀ (vs : List V) (c c' : Coll ℝ), (c.map Prod.fst).Nodup →
    record feeds c vs = .ok c' → kinds c' = kinds c := by
  have one : ∀ (l : List (Name × Input ℝ)) (c c' : Coll ℝ), (c.map Prod.fst).Nodup → feedAll c l = .ok c' →
      kinds c' = kinds c ∧ c'.map Prod.fst = c.map Prod.fst := by
    intro l
    induction l with
    | nil => intro c c' _ h; injection h with h; subst h; exact ⟨rfl, rfl⟩
    | cons p l ih =>
      intro c c' hd h
      obtain ⟨n, x⟩ := p
      simp only [feedAll] at h
      rcases h1 : feedData c n x with e | c1 <;> simp only [h1, bind, Except.bind] at h
      · exact nomatch h
      · obtain ⟨k1, k2⟩ := feedData_kinds h1 hd
        obtain ⟨k3, k4⟩ := ih c1 c' (by rw [k2]; exact hd) h
        exact ⟨k3.trans k1, k4.trans k2⟩
  intro vs
  induction vs with
  | nil => intro c c' _ h; injection h with h; subst h; rfl
  | cons v vs ih =>
    intro c c' hd h
    simp only [record] at h
    rcases h1 : feedAll c (feeds v) with e | c1 <;> simp only [h1, bind, Except.bind] at h
    · exact nomatch h
    · obtain ⟨k1, k2⟩ := one _ c c1 hd h1
      exact (ih c1 c' (by rw [k2]; exact hd) h).trans k1

theorem addSeries_kinds {c : Coll ℝ} {l : List (Name × Name × Bool)} {n p : Name} {y : Bool} (hc : kinds c = l)
    (hn : n ∉ l.map Prod.fst) : kinds (addSeries c n p y) = l ++ [(n, p, y)] := by
  subst hc
  have : n ∉ c.map Prod.fst := by simpa [kinds, List.map_map, Function.comp_def] using hn
  unfold addSeries register
  rw [dset_new this]
  simp [kinds]

theorem common_kinds (nTasks : ℕ) (objective : String) (hobj : IsObjective objective) (objectiveLog : Bool) :
    kinds (addRecorder nTasks objective.toList objectiveLog) = commonKinds nTasks objective objectiveLog := by
  have h1 := addSeries_kinds (c := []) (l := []) (n := "rho_projected".toList) (p := stdType) (y := false) rfl (by simp)
  have h2 := addSeries_kinds (n := "energy".toList) (p := stdType) (y := false) h1 (by decide)
  have h3 := addSeries_kinds (n := "vol_error".toList) (p := valueType) (y := false) h2 (by decide)
  have h4 := addSeries_kinds (n := "u_max".toList) (p := if nTasks > 1 then stdType else valueType) (y := false) h3 (by decide)
  have h5 := addSeries_kinds (n := objective.toList) (p := valueType) (y := objectiveLog) h4
    (by simp only [List.map_append, List.map_cons, List.map_nil, List.nil_append, List.cons_append]; rcases hobj with rfl | rfl | rfl <;> decide)
  have h6 := addSeries_kinds (n := "scaling_rate".toList) (p := stdType) (y := false) h5
    (by simp only [List.map_append, List.map_cons, List.map_nil, List.nil_append, List.cons_append]; rcases hobj with rfl | rfl | rfl <;> decide)
  have h7 := addSeries_kinds (n := "neumann_scale".toList) (p := valueType) (y := false) h6
    (by simp only [List.map_append, List.map_cons, List.map_nil, List.nil_append, List.cons_append]; rcases hobj with rfl | rfl | rfl <;> decide)
  have h8 := addSeries_kinds (n := "rho_change_max".toList) (p := valueType) (y := false) h7
    (by simp only [List.map_append, List.map_cons, List.map_nil, List.nil_append, List.cons_append]; rcases hobj with rfl | rfl | rfl <;> decide)
  have h9 := addSeries_kinds (n := "kkt_residual".toList) (p := valueType) (y := false) h8
    (by simp only [List.map_append, List.map_cons, List.map_nil, List.nil_append, List.cons_append]; rcases hobj with rfl | rfl | rfl <;> decide)
  exact h9

/-- **C116 (kinds of histories).** Whatever an OC or LogMOC run recorded, its histories are the documented ones in this order, with these
plot types and logarithmic axes; `u_max` shows statistics exactly when there are several load cases. -/
theorem C116_plot_types (nTasks : ℕ) (objective : String) (hobj : IsObjective objective) (objectiveLog : Bool) :
    (∀ (vs : List OCLine) c, record (ocFeeds objective.toList) (ocRecorder nTasks objective.toList objectiveLog) vs = .ok c →
      c.map (fun x => (x.1, x.2.plotType, x.2.ylog)) = commonKinds nTasks objective objectiveLog ++
        [("-dC".toList, "min-max-mean-std".toList, true), ("lmid".toList, "value".toList, true)]) ∧
    ∀ (vs : List LogLine) c, record (logFeeds objective.toList) (logRecorder nTasks objective.toList objectiveLog) vs = .ok c →
      c.map (fun x => (x.1, x.2.plotType, x.2.ylog)) = commonKinds nTasks objective objectiveLog ++
        [("dL".toList, "min-max-mean-std".toList, false), ("-dC".toList, "min-max-mean-std".toList, true),
         ("lambda_v".toList, "value".toList, false), ("constraint_coeff".toList, "value".toList, false),
         ("dV_chain".toList, "min-max-mean-std".toList, true), ("volume_chain_scale".toList, "value".toList, true)] := by
  have h0 := common_kinds nTasks objective hobj objectiveLog
  constructor
  · intro vs c h
    refine (record_kinds _ vs _ c (ocKeys_nodup nTasks objective hobj objectiveLog) h).trans ?_
    have h1 := addSeries_kinds (n := "-dC".toList) (p := stdType) (y := true) h0
      (by simp only [commonKinds, List.map_cons, List.map_nil]; rcases hobj with rfl | rfl | rfl <;> decide)
    have h2 := addSeries_kinds (n := "lmid".toList) (p := valueType) (y := true) h1
      (by simp only [commonKinds, List.map_append, List.map_cons, List.map_nil, List.cons_append, List.nil_append]; rcases hobj with rfl | rfl | rfl <;> decide)
    simp only [List.append_assoc, List.cons_append, List.nil_append] at h2
    exact h2
  · intro vs c h
    refine (record_kinds _ vs _ c (logKeys_nodup nTasks objective hobj objectiveLog) h).trans ?_
    have h1 := addSeries_kinds (n := "dL".toList) (p := stdType) (y := false) h0
      (by simp only [commonKinds, List.map_cons, List.map_nil]; rcases hobj with rfl | rfl | rfl <;> decide)
    have h2 := addSeries_kinds (n := "-dC".toList) (p := stdType) (y := true) h1
      (by simp only [commonKinds, List.map_append, List.map_cons, List.map_nil, List.cons_append, List.nil_append]; rcases hobj with rfl | rfl | rfl <;> decide)
    have h3 := addSeries_kinds (n := "lambda_v".toList) (p := valueType) (y := false) h2
      (by simp only [commonKinds, List.map_append, List.map_cons, List.map_nil, List.cons_append, List.nil_append]; rcases hobj with rfl | rfl | rfl <;> decide)
    have h4 := addSeries_kinds (n := "constraint_coeff".toList) (p := valueType) (y := false) h3
      (by simp only [commonKinds, List.map_append, List.map_cons, List.map_nil, List.cons_append, List.nil_append]; rcases hobj with rfl | rfl | rfl <;> decide)
    have h5 := addSeries_kinds (n := "dV_chain".toList) (p := stdType) (y := true) h4
      (by simp only [commonKinds, List.map_append, List.map_cons, List.map_nil, List.cons_append, List.nil_append]; rcases hobj with rfl | rfl | rfl <;> decide)
    have h6 := addSeries_kinds (n := "volume_chain_scale".toList) (p := valueType) (y := true) h5
      (by simp only [commonKinds, List.map_append, List.map_cons, List.map_nil, List.cons_append, List.nil_append]; rcases hobj with rfl | rfl | rfl <;> decide)
    simp only [List.append_assoc, List.cons_append, List.nil_append] at h6
    exact h6

end Verif.Recorder
