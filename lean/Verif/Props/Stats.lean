import Verif.Model.Stats
import Verif.Props.History
import Verif.Props.RunHeatErr
import Mathlib.Data.List.Sort
import Mathlib.Data.List.GetD
import Mathlib.Tactic.Linarith

/-! C160: the statistics of nodes and elements. -/
namespace Verif.Stats
open Verif Verif.Task Verif.Mesh

noncomputable section
open Classical

/-! ### Specification -/

/-- `r` is the distance of point `i` to the nearest other point of the list (another position in the list, possibly at the same place). -/
def ToNearest (pts : List Point) (i : ℕ) (r : ℝ) : Prop :=
  ∃ x, pts[i]? = some x ∧ IsLeast {s | ∃ j y, j ≠ i ∧ pts[j]? = some y ∧ s = dist x y} r

/-- `m` splits the numbers in halves: at most half of them are below and at most half of them are above it. -/
def Splits (m : ℝ) (xs : List ℝ) : Prop :=
  2 * (xs.countP fun x => decide (x < m)) ≤ xs.length ∧ 2 * (xs.countP fun x => decide (m < x)) ≤ xs.length

/-- `m` is the median: the midpoint of all numbers that split the values. -/
def IsMedian (m : ℝ) (xs : List ℝ) : Prop :=
  ∃ a b, IsLeast {x | Splits x xs} a ∧ IsGreatest {x | Splits x xs} b ∧ m = (a + b) / 2

/-- The numbers printed for the values `xs`. -/
structure Describes (S : Summary) (xs : List ℝ) : Prop where
  min : History.IsMin S.min xs
  max : History.IsMax S.max xs
  mean : S.mean * xs.length = xs.sum
  median : IsMedian S.median xs
  std : 0 ≤ S.std ∧ S.std ^ 2 * xs.length = (xs.map fun x => (x - S.mean) ^ 2).sum

/-! ### Lemmas -/

theorem sorted_mergeSort (l : List ℝ) : (l.mergeSort fun a b => decide (a ≤ b)).Pairwise (· ≤ ·) := by
  have := List.pairwise_mergeSort (le := fun a b : ℝ => decide (a ≤ b)) (fun a b c h1 h2 => by simp at *; linarith)
    (fun a b => by simpa using le_total a b) l
  exact this.imp fun h => by simpa using h

theorem sorted_unique {a b : List ℝ} (h : a.Perm b) (ha : a.Pairwise (· ≤ ·)) (hb : b.Pairwise (· ≤ ·)) : a = b :=
  h.eq_of_pairwise (fun x y _ _ h1 h2 => le_antisymm h1 h2) ha hb

theorem secondDist_eq (pts : List Point) (i : ℕ) (x : Point) (hx : pts[i]? = some x) :
    secondDist pts x = (((pts.eraseIdx i).map fun y => dist x y).mergeSort fun a b => decide (a ≤ b))[0]? := by
  unfold secondDist
  obtain ⟨hi, rfl⟩ := List.getElem?_eq_some_iff.mp hx
  have hperm : (pts.map fun y => dist pts[i] y).Perm (0 :: (pts.eraseIdx i).map fun y => dist pts[i] y) := by
    have h1 := (List.getElem_cons_eraseIdx_perm hi).symm.map fun y => dist pts[i] y
    simpa using h1
  have h2 : ((pts.map fun y => dist pts[i] y).mergeSort fun a b => decide (a ≤ b)) =
      0 :: ((pts.eraseIdx i).map fun y => dist pts[i] y).mergeSort fun a b => decide (a ≤ b) := by
    refine sorted_unique ((List.mergeSort_perm _ _).trans (hperm.trans ((List.mergeSort_perm _ _).symm.cons _))) (sorted_mergeSort _) ?_
    refine List.pairwise_cons.mpr ⟨fun b hb => ?_, sorted_mergeSort _⟩
    obtain ⟨y, -, rfl⟩ := List.mem_map.mp ((List.mergeSort_perm _ _).mem_iff.mp hb)
    exact dist_nonneg
  rw [h2]
  rfl

theorem secondDist_some (pts : List Point) (i : ℕ) (x : Point) (hx : pts[i]? = some x) (h2 : 2 ≤ pts.length) :
    ∃ r, secondDist pts x = some r ∧ ToNearest pts i r := by
  obtain ⟨hi, rfl⟩ := List.getElem?_eq_some_iff.mp hx
  rw [secondDist_eq pts i _ hx]
  obtain ⟨l, hl⟩ : ∃ l, l = ((pts.eraseIdx i).map fun y => dist pts[i] y).mergeSort fun a b => decide (a ≤ b) := ⟨_, rfl⟩
  have hp : l.Perm ((pts.eraseIdx i).map fun y => dist pts[i] y) := hl ▸ List.mergeSort_perm _ _
  have hs : l.Pairwise (· ≤ ·) := hl ▸ sorted_mergeSort _
  have hlen : l.length = pts.length - 1 := by rw [hp.length_eq, List.length_map, List.length_eraseIdx_of_lt hi]
  rw [← hl]
  have hmem : ∀ s, s ∈ l ↔ ∃ j y, j ≠ i ∧ pts[j]? = some y ∧ s = dist pts[i] y := by
    intro s
    rw [hp.mem_iff, List.mem_map]
    constructor
    · rintro ⟨y, hy, rfl⟩
      obtain ⟨j, hj, hy⟩ := List.mem_eraseIdx_iff_getElem?.mp hy
      exact ⟨j, y, hj, hy, rfl⟩
    · rintro ⟨j, y, hj, hy, rfl⟩
      exact ⟨y, List.mem_eraseIdx_iff_getElem?.mpr ⟨j, hj, hy⟩, rfl⟩
  rcases l with _ | ⟨r, l⟩
  · simp at hlen; omega
  · refine ⟨r, rfl, _, hx, (hmem r).mp (by simp), fun s hs' => ?_⟩
    have := (hmem s).mpr hs'
    rcases List.mem_cons.mp this with rfl | h
    · exact le_refl _
    · exact (List.pairwise_cons.mp hs).1 _ h

theorem median_isMedian (xs : List ℝ) (hne : xs ≠ []) : IsMedian (median xs) xs := by
  obtain ⟨s, hs⟩ : ∃ s, s = xs.mergeSort fun a b => decide (a ≤ b) := ⟨_, rfl⟩
  have hp : s.Perm xs := hs ▸ List.mergeSort_perm _ _
  have ho : s.Pairwise (· ≤ ·) := hs ▸ sorted_mergeSort _
  have hn : 0 < s.length := by rw [hp.length_eq]; exact List.length_pos_iff.mpr hne
  have hmono : ∀ i j (hi : i < s.length) (hj : j < s.length), i ≤ j → s[i] ≤ s[j] := by
    intro i j hi hj hij
    rcases Nat.lt_or_ge i j with h | h
    · exact List.pairwise_iff_getElem.mp ho i j hi hj h
    · have : i = j := le_antisymm hij h
      subst this; exact le_refl _
  -- at most `k` entries are below something not above entry `k`, more below something above it; and likewise from the other side
  have below : ∀ k (hk : k < s.length) m, m ≤ s[k] → (s.countP fun x => decide (x < m)) ≤ k := by
    intro k hk m hm
    rw [← List.take_append_drop k s, List.countP_append]
    have : (s.drop k).countP (fun x => decide (x < m)) = 0 := by
      rw [List.countP_eq_zero]
      intro x hx
      obtain ⟨j, hj, rfl⟩ := List.getElem_of_mem hx
      rw [List.getElem_drop]
      have := hmono k (k + j) hk (by rw [List.length_drop] at hj; omega) (by omega)
      simp only [decide_eq_true_eq, not_lt]; linarith
    rw [this]
    exact (List.countP_le_length).trans (by rw [List.length_take]; omega)
  have above : ∀ k (hk : k < s.length) m, s[k] ≤ m → (s.countP fun x => decide (m < x)) ≤ s.length - 1 - k := by
    intro k hk m hm
    rw [← List.take_append_drop (k + 1) s, List.countP_append]
    have : (s.take (k + 1)).countP (fun x => decide (m < x)) = 0 := by
      rw [List.countP_eq_zero]
      intro x hx
      obtain ⟨j, hj, rfl⟩ := List.getElem_of_mem hx
      rw [List.getElem_take]
      rw [List.length_take] at hj
      have := hmono j k (by omega) hk (by omega)
      simp only [decide_eq_true_eq, not_lt]; linarith
    rw [this, Nat.zero_add]
    refine (List.countP_le_length).trans ?_
    rw [List.length_drop, List.take_append_drop]
    omega
  have moreBelow : ∀ k (hk : k < s.length) m, s[k] < m → k + 1 ≤ s.countP fun x => decide (x < m) := by
    intro k hk m hm
    rw [← List.take_append_drop (k + 1) s, List.countP_append]
    have : (s.take (k + 1)).countP (fun x => decide (x < m)) = (s.take (k + 1)).length := by
      rw [List.countP_eq_length]
      intro x hx
      obtain ⟨j, hj, rfl⟩ := List.getElem_of_mem hx
      rw [List.getElem_take]
      rw [List.length_take] at hj
      have := hmono j k (by omega) hk (by omega)
      simp only [decide_eq_true_eq]; linarith
    rw [this, List.length_take]
    omega
  have moreAbove : ∀ k (hk : k < s.length) m, m < s[k] → s.length - k ≤ s.countP fun x => decide (m < x) := by
    intro k hk m hm
    rw [← List.take_append_drop k s, List.countP_append]
    have : (s.drop k).countP (fun x => decide (m < x)) = (s.drop k).length := by
      rw [List.countP_eq_length]
      intro x hx
      obtain ⟨j, hj, rfl⟩ := List.getElem_of_mem hx
      rw [List.getElem_drop]
      have := hmono k (k + j) hk (by rw [List.length_drop] at hj; omega) (by omega)
      simp only [decide_eq_true_eq]; linarith
    rw [this, List.length_drop, List.take_append_drop]
    omega
  have hk : (s.length - 1) / 2 < s.length := by omega
  have hk' : s.length / 2 < s.length := by omega
  refine ⟨s[(s.length - 1) / 2], s[s.length / 2], ⟨?_, ?_⟩, ⟨?_, ?_⟩, ?_⟩
  · show Splits _ _
    unfold Splits
    rw [← hp.countP_eq, ← hp.countP_eq, ← hp.length_eq]
    have h1 := below _ hk _ (le_refl _)
    have h2 := above _ hk _ (le_refl _)
    omega
  · intro m hm
    by_contra h
    have h1 := moreAbove _ hk m (not_le.mp h)
    have h2 : 2 * (s.countP fun x => decide (m < x)) ≤ s.length := by rw [hp.countP_eq, hp.length_eq]; exact hm.2
    omega
  · show Splits _ _
    unfold Splits
    rw [← hp.countP_eq, ← hp.countP_eq, ← hp.length_eq]
    have h1 := below _ hk' _ (le_refl _)
    have h2 := above _ hk' _ (le_refl _)
    omega
  · intro m hm
    by_contra h
    have h1 := moreBelow _ hk' m (not_le.mp h)
    have h2 : 2 * (s.countP fun x => decide (x < m)) ≤ s.length := by rw [hp.countP_eq, hp.length_eq]; exact hm.1
    omega
  · unfold median
    simp only [← hs]
    by_cases hodd : s.length % 2 = 1
    · rw [if_pos hodd, List.getD_eq_getElem _ _ hk']
      have : (s.length - 1) / 2 = s.length / 2 := by omega
      simp only [this]
      ring
    · rw [if_neg hodd]
      have : s.length / 2 - 1 = (s.length - 1) / 2 := by omega
      rw [this, List.getD_eq_getElem _ _ hk, List.getD_eq_getElem _ _ hk']

theorem summarize_describes (ds : List (Option ℝ)) (xs : List ℝ) (h : ds = xs.map some) (hne : xs ≠ []) :
    ∃ S, summarize ds = .ok S ∧ Describes S xs := by
  have hm : ds.mapM id = some xs := by
    rw [h]
    clear h hne
    induction xs with
    | nil => rfl
    | cons x xs ih => simp [List.mapM_cons, ih]
  obtain ⟨x, l, rfl⟩ := List.exists_cons_of_ne_nil hne
  unfold summarize
  rw [hm]
  refine ⟨_, rfl, ?_⟩
  have hpos : (0 : ℝ) < ((x :: l).length : ℝ) := by exact_mod_cast Nat.succ_pos _
  have hmean : ∀ ys : List ℝ, (0 : ℝ) < (ys.length : ℝ) → History.mean ys * ys.length = ys.sum := by
    intro ys hp; unfold History.mean; field_simp
  refine ⟨⟨History.foldl_min_mem l x, fun y hy => ?_⟩, ⟨History.foldl_max_mem l x, fun y hy => ?_⟩, hmean _ hpos, median_isMedian _ (List.cons_ne_nil _ _),
    Real.sqrt_nonneg _, ?_⟩
  · rcases List.mem_cons.1 hy with rfl | hy
    · exact (History.foldl_min_le l y).1
    · exact (History.foldl_min_le l x).2 y hy
  · rcases List.mem_cons.1 hy with rfl | hy
    · exact (History.foldl_max_ge l y).1
    · exact (History.foldl_max_ge l x).2 y hy
  · show History.std (x :: l) ^ 2 * _ = _
    unfold History.std
    rw [Real.sq_sqrt]
    · have hl : ((x :: l).map fun x_1 => (x_1 - History.mean (x :: l)) ^ 2).length = (x :: l).length := List.length_map ..
      rw [← hl]
      exact hmean _ (by rw [hl]; exact hpos)
    · unfold History.mean
      refine div_nonneg (List.sum_nonneg fun y hy => ?_) (Nat.cast_nonneg _)
      obtain ⟨z, -, rfl⟩ := List.mem_map.1 hy
      positivity

theorem nearest_some (pts : List Point) (h2 : 2 ≤ pts.length) :
    ∃ xs : List ℝ, nearest pts = xs.map some ∧ xs.length = pts.length ∧ ∀ i r, xs[i]? = some r → ToNearest pts i r := by
  have h : ∀ i : Fin pts.length, ∃ r, secondDist pts pts[i] = some r ∧ ToNearest pts i r :=
    fun i => secondDist_some pts i _ (List.getElem?_eq_getElem i.isLt) h2
  choose f hf using h
  refine ⟨List.ofFn f, ?_, by simp, fun i r hr => ?_⟩
  · unfold nearest
    apply List.ext_getElem
    · simp
    · intro i h1 h2
      simp only [List.getElem_map, List.getElem_ofFn]
      exact (hf ⟨i, by simpa using h1⟩).1
  · obtain ⟨hi, rfl⟩ := List.getElem?_eq_some_iff.mp hr
    rw [List.getElem_ofFn]
    exact (hf ⟨i, by simpa using hi⟩).2

theorem groupVolume_some (vol : List ℝ) (es : List ℕ) (hd : es.Nodup) (h : ∀ e ∈ es, e < vol.length) :
    groupVolume vol (some es) = .ok (∑ e ∈ es.toFinset, vol.getD e 0) := by
  unfold groupVolume
  simp only
  rw [if_pos (by simpa using h), List.sum_toFinset _ hd]

theorem total_volume (vol : List ℝ) : vol.sum = ∑ e ∈ Finset.range vol.length, vol.getD e 0 := by
  rw [Finset.sum_range, ← List.sum_ofFn]
  congr 1
  apply List.ext_getElem
  · simp
  · intro i h1 h2
    simp

theorem nearest_few (pts : List Point) (h : pts.length < 2) : summarize (nearest pts) = .error .valueError := by
  rcases pts with _ | ⟨x, _ | ⟨y, l⟩⟩
  · rfl
  · have : nearest [x] = [none] := by
      unfold nearest secondDist
      simp
    rw [this]
    rfl
  · simp at h

theorem summarize_error (ds : List (Option ℝ)) (e : Err) (h : summarize ds = .error e) : e = .valueError := by
  unfold summarize at h
  split at h
  · exact (Except.error.inj h).symm
  · exact (Except.error.inj h).symm
  · cases h

/-! ### C160 -/

/-- **C160.** On a mesh with at least two nodes and two elements, of a task whose Dirichlet and Neumann elements are given, the report is
right: the printed numbers are least, greatest and mean value, median and standard deviation of the distances of every node to the nearest
other node, and of every element centre to the nearest other one; the bars are the volumes of the mesh, of the elements at the Dirichlet and
at the Neumann boundary and of the design elements, none of them larger than the first. Missing: tasks without Neumann or Dirichlet elements
(`C160_missing_group`) and meshes of one element (`C160_one_element_raises`). -/
theorem C160_report_partial (p : List Point) (t : Conn) (vol : List ℝ) (T : Task) (hp : 2 ≤ p.length) (ht : 2 ≤ t.length)
    (hvol : vol.length = t.length) (hpos : ∀ v ∈ vol, 0 ≤ v) (hel : ∀ el ∈ t, el ≠ []) (D N : List ℕ) (hD : T.dirichletElements = some D)
    (hN : T.neumannElements = some N) (hnd : D.Nodup ∧ N.Nodup ∧ T.design.Nodup)
    (hin : (∀ e ∈ D, e < t.length) ∧ (∀ e ∈ N, e < t.length) ∧ ∀ e ∈ T.design, e < t.length)
    (cs : List Point) (hcs : cs.length = t.length)
    (hc : ∀ (e : ℕ) el c, t[e]? = some el → cs[e]? = some c → (el.length : ℝ) • c = (el.map fun v => p.getD v 0).sum) :
    ∃ rep xs ys, nodesAndElementsStats p t vol T = .ok rep ∧
      xs.length = p.length ∧ (∀ i r, xs[i]? = some r → ToNearest p i r) ∧ Describes rep.nodes xs ∧
      ys.length = t.length ∧ (∀ i r, ys[i]? = some r → ToNearest cs i r) ∧ Describes rep.elements ys ∧
      rep.bars = [("all", ∑ e ∈ Finset.range t.length, vol.getD e 0), ("dirichlet", ∑ e ∈ D.toFinset, vol.getD e 0),
        ("force", ∑ e ∈ N.toFinset, vol.getD e 0), ("design", ∑ e ∈ T.design.toFinset, vol.getD e 0)] ∧
      ∀ b ∈ rep.bars, 0 ≤ b.2 ∧ b.2 ≤ ∑ e ∈ Finset.range t.length, vol.getD e 0 := by
  have hcen : centres p t = cs := by
    unfold centres
    apply List.ext_getElem
    · rw [List.length_map, hcs]
    · intro i h1 h2
      rw [List.getElem_map]
      have hi : i < t.length := by simpa using h1
      have h3 := hc i t[i] cs[i] (List.getElem?_eq_getElem hi) (List.getElem?_eq_getElem h2)
      have h0 : ((t[i].length : ℕ) : ℝ) ≠ 0 := by
        have := hel _ (List.getElem_mem hi)
        exact_mod_cast fun h => this (List.length_eq_zero_iff.mp h)
      rw [← h3, smul_smul, inv_mul_cancel₀ h0, one_smul]
  obtain ⟨xs, x1, x2, x3⟩ := nearest_some p hp
  obtain ⟨ys, y1, y2, y3⟩ := nearest_some cs (by omega)
  obtain ⟨S, s1, s2⟩ := summarize_describes _ xs x1 (fun h => by rw [h] at x2; simp at x2; omega)
  obtain ⟨S', s3, s4⟩ := summarize_describes _ ys y1 (fun h => by rw [h] at y2; simp at y2; omega)
  have hsub : ∀ es : List ℕ, (∀ e ∈ es, e < t.length) →
      0 ≤ ∑ e ∈ es.toFinset, vol.getD e 0 ∧ ∑ e ∈ es.toFinset, vol.getD e 0 ≤ ∑ e ∈ Finset.range t.length, vol.getD e 0 := by
    intro es hes
    have h0 : ∀ e, 0 ≤ vol.getD e 0 := by
      intro e
      rcases Nat.lt_or_ge e vol.length with h | h
      · rw [List.getD_eq_getElem _ _ h]; exact hpos _ (List.getElem_mem h)
      · rw [List.getD_eq_default _ _ h]
    exact ⟨Finset.sum_nonneg fun e _ => h0 e,
      Finset.sum_le_sum_of_subset_of_nonneg (fun e he => Finset.mem_range.mpr (hes e (by simpa using he))) fun e _ _ => h0 e⟩
  refine ⟨⟨S, S', _⟩, xs, ys, ?_, x2, x3, s2, by omega, y3, s4, rfl, ?_⟩
  · unfold nodesAndElementsStats
    rw [s1, hcen, s3, hD, hN, groupVolume_some vol D hnd.1 (by rw [hvol]; exact hin.1), groupVolume_some vol N hnd.2.1 (by rw [hvol]; exact hin.2.1),
      groupVolume_some vol T.design hnd.2.2 (by rw [hvol]; exact hin.2.2), total_volume, hvol]
    rfl
  · intro b hb
    simp only [List.mem_cons, List.not_mem_nil, or_false] at hb
    rcases hb with rfl | rfl | rfl | rfl
    · have := hsub (List.range t.length) (by simp)
      rw [List.toFinset_range] at this
      exact this
    · exact hsub _ hin.1
    · exact hsub _ hin.2.1
    · exact hsub _ hin.2.2

/-- **C160.** Refuted for heat tasks: without Neumann facets the bar "force" is as high as the bar "all" although no element carries a
load, because indexing with `None` selects everything. -/
theorem C160_missing_group {b : Basis} {a : FacetArgs} (hn : a.neumannFacets = none) {T : Task} (h : fromFacets b a = .ok T)
    (p : List Point) (vol : List ℝ) (hp : 2 ≤ p.length) (ht : 2 ≤ b.t.length)
    (hin : (∀ D, T.dirichletElements = some D → ∀ e ∈ D, e < vol.length) ∧ ∀ e ∈ T.design, e < vol.length) :
    ∃ rep d g, nodesAndElementsStats p b.t vol T = .ok rep ∧
      rep.bars = [("all", vol.sum), ("dirichlet", d), ("force", vol.sum), ("design", g)] := by
  have hN : T.neumannElements = none := Verif.Run.heat_task_pins_everything hn h
  obtain ⟨xs, x1, x2, -⟩ := nearest_some p hp
  obtain ⟨ys, y1, y2, -⟩ := nearest_some (centres p b.t) (by unfold centres; rw [List.length_map]; exact ht)
  obtain ⟨S, s1, -⟩ := summarize_describes _ xs x1 (fun h => by rw [h] at x2; simp at x2; omega)
  obtain ⟨S', s3, -⟩ := summarize_describes _ ys y1 (fun h => by
    rw [h] at y2; unfold centres at y2; rw [List.length_map] at y2; simp at y2; omega)
  obtain ⟨d, hd⟩ : ∃ d, groupVolume vol T.dirichletElements = .ok d := by
    rcases hD : T.dirichletElements with _ | D
    · exact ⟨_, rfl⟩
    · exact ⟨_, if_pos (by simpa using hin.1 D hD)⟩
  obtain ⟨g, hg⟩ : ∃ g, groupVolume vol (some T.design) = .ok g := ⟨_, if_pos (by simpa using hin.2)⟩
  refine ⟨⟨S, S', [("all", vol.sum), ("dirichlet", d), ("force", vol.sum), ("design", g)]⟩, d, g, ?_, rfl⟩
  · unfold nodesAndElementsStats
    rw [s1, s3, hd, hN, hg]
    rfl

/-- **C160.** On a mesh of one element the call raises ValueError: there is no second element, the nearest one is reported at distance
`inf`, and the histogram of it fails. -/
theorem C160_one_element_raises (p : List Point) (t : Conn) (vol : List ℝ) (T : Task) (h : p.length < 2 ∨ t.length < 2) :
    nodesAndElementsStats p t vol T = .error .valueError := by
  unfold nodesAndElementsStats
  by_cases hp : p.length < 2
  · rw [nearest_few p hp]; rfl
  · have ht : (centres p t).length < 2 := by
      unfold centres
      rw [List.length_map]
      exact h.resolve_left hp
    rcases hs : summarize (nearest p) with e | S
    · rw [summarize_error _ _ hs]; rfl
    · rw [nearest_few _ ht]; rfl

/-! ### Concrete cases -/

/-- Two tetrahedra with a common face, clamped at one and loaded at the other. -/
example :=
  C160_report_partial [!₂[0, 0, 0], !₂[1, 0, 0], !₂[0, 1, 0], !₂[0, 0, 1], !₂[1, 1, 1]] [[0, 1, 2, 3], [1, 2, 3, 4]] [1 / 6, 1 / 3]
    { dirichletDofs := none, dirichletElements := some [0], neumannElements := some [1], robinElements := none, design := [0, 1], freeDofs := [],
      freeElements := [0, 1], all := [0, 1], fixed := [], dirichletNeumann := [0, 1] } (by simp) (by simp) rfl (by norm_num) (by simp) [0] [1] rfl rfl
    (by simp) (by simp) [!₂[1 / 4, 1 / 4, 1 / 4], !₂[1 / 2, 1 / 2, 1 / 2]] rfl (by
      intro e el c h1 h2
      rcases e with _ | _ | e
      · simp only [List.getElem?_cons_zero, Option.some.injEq] at h1 h2
        subst h1 h2
        ext i; fin_cases i <;> norm_num
      · simp only [List.getElem?_cons_succ, List.getElem?_cons_zero, Option.some.injEq] at h1 h2
        subst h1 h2
        ext i; fin_cases i <;> norm_num
      · simp at h1)

example :=
  C160_missing_group (b := Verif.Run.rodBasis) (a := Verif.Run.rodArgs) rfl Verif.Run.rodTask'_built [!₂[0, 0, 0], !₂[1, 0, 0], !₂[2, 0, 0]] [1, 1]
    (by simp) (by simp [Verif.Run.rodBasis]) (by simp [Verif.Run.rodTask'])

example (T : Task) : nodesAndElementsStats [!₂[0, 0, 0], !₂[1, 0, 0], !₂[0, 1, 0], !₂[0, 0, 1]] [[0, 1, 2, 3]] [1 / 6] T = .error .valueError :=
  C160_one_element_raises _ _ _ _ (Or.inr (by simp))

end
end Verif.Stats
