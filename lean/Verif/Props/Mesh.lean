import Verif.Lemmas.Mesh

/-! Theorems about mesh queries (C42). -/
namespace Verif.Mesh
open Spec

/-- A two-by-one strip of squares with a detached third element, used in the examples. -/
def strip : Conn := [[0, 1, 4, 3], [1, 2, 5, 4], [7, 8, 9, 10], [2, 6, 11, 5]]

/-- One call `get_elements_by_nodes(mesh, nodes)`: object identity of the mesh, its connectivity, nodes. -/
structure Query where
  id : ℕ
  t : Conn
  nodes : List ℕ

/-- The answers to a sequence of calls in one Python process, starting from a given cache. -/
def answers : Cache → List Query → List (List ℕ)
  | _, [] => []
  | c, q :: qs => let r := getElementsByNodes c q.id q.t q.nodes; r.2 :: answers r.1 qs

/-- **C42 (partial: meshes stay alive).** In every sequence of calls of `get_elements_by_nodes` in which one object
identity always denotes the same mesh, every answer lists, in increasing order and without repetition, exactly the
elements containing one of the given nodes. -/
theorem C42_elements_by_nodes_exact_partial (qs : List Query)
    (hid : ∀ q ∈ qs, ∀ q' ∈ qs, q.id = q'.id → q.t = q'.t) :
    List.Forall₂ (fun q a => Lists a (Touches q.t q.nodes)) qs (answers (fun _ => none) qs) := by
  have gen : ∀ (qs : List Query) (c : Cache), (∀ q ∈ qs, ∀ q' ∈ qs, q.id = q'.id → q.t = q'.t) →
      (∀ q ∈ qs, ∀ T, c q.id = some T → T = nodeTable q.t) →
      List.Forall₂ (fun q a => Lists a (Touches q.t q.nodes)) qs (answers c qs) := by
    intro qs
    induction qs with
    | nil => intro c _ _; exact .nil
    | cons q qs ih =>
      intro c hid hc
      rw [answers]
      refine .cons ?_ (ih _ (fun a ha b hb => hid a (by simp [ha]) b (by simp [hb])) ?_)
      · unfold getElementsByNodes
        rcases hq : c q.id with _ | T
        · exact collect_lists q.t q.nodes
        · rw [hc q (by simp) T hq]; exact collect_lists q.t q.nodes
      · intro a ha T
        unfold getElementsByNodes
        rcases hq : c q.id with _ | T'
        · simp only
          split_ifs with h
          · intro hT
            rw [hid a (by simp [ha]) q (by simp) h]
            simpa using hT.symm
          · exact hc a (by simp [ha]) T
        · exact hc a (by simp [ha]) T
  exact gen qs _ hid (by simp)

/-- Non-vacuity: two calls on one mesh and one on another. -/
example : answers (fun _ => none) [⟨1, strip, [5, 4, 5]⟩, ⟨2, [[0, 1, 2]], [2]⟩, ⟨1, strip, [0, 9]⟩]
    = [[0, 1, 3], [0], [0, 2]] := by decide

/-- **C42 (refuted when an object identity is reused).** The table is cached under `id(mesh)` and never dropped. Once a
mesh has been garbage collected a new mesh may get its identity; the query then answers for the old mesh. -/
theorem C42_stale_cache_wrong :
    ∃ qs : List Query, ∃ q a, qs.getLast? = some q ∧ (answers (fun _ => none) qs).getLast? = some a ∧
      ¬ Lists a (Touches q.t q.nodes) := by
  refine ⟨[⟨1, [[0, 1, 2], [1, 2, 3]], [0]⟩, ⟨1, [[4, 5, 6], [0, 5, 6]], [0]⟩], _, [0], rfl, by decide, ?_⟩
  rintro ⟨-, h⟩
  obtain ⟨n, hn, l, hl, hm⟩ := (h 0).1 (by simp)
  simp at hn hl
  subst hn; subst hl; simp at hm

/-- **C42 (adjacent elements).** For meshes whose elements have fewer than 256 nodes, `get_adjacent_elements` lists, in
increasing order and without repetition, exactly the elements that share a node with one of the given elements and are
not given themselves. -/
theorem C42_adjacent_elements_exact (t : Conn) (hsize : ∀ nodes ∈ t, nodes.length < 256) (idx : List ℕ)
    (h : ∀ i ∈ idx, i < t.length) :
    ∃ r, getAdjacentElements t idx = .ok r ∧ Lists r (fun j => j ∉ idx ∧ ∃ i ∈ idx, ShareNode t i j) :=
  adjacentFrom_lists h fun i j hi _ _ => slow_entry (t := t) hsize (j := j) hi

/-- **C42 (fast variant).** Without any bound on the element size the fast variant lists the same elements. -/
theorem C42_adjacent_elements_fast_exact (t : Conn) (idx : List ℕ) (h : ∀ i ∈ idx, i < t.length) :
    ∃ r, getAdjacentElementsFast t idx = .ok r ∧ Lists r (fun j => j ∉ idx ∧ ∃ i ∈ idx, ShareNode t i j) :=
  adjacentFrom_lists h fun i j hi hj hii => by
    rw [fast_entry hi]
    refine ⟨And.left, fun hs => ⟨hs, ?_⟩⟩
    rintro rfl; exact hj hii

theorem lists_unique {P : ℕ → Prop} {l l' : List ℕ} (h : Lists l P) (h' : Lists l' P) : l = l' :=
  List.Perm.eq_of_pairwise (fun _ _ _ _ hab hba => absurd (lt_trans hab hba) (lt_irrefl _)) h.1 h'.1
    ((List.perm_ext_iff_of_nodup (h.1.imp ne_of_lt) (h'.1.imp ne_of_lt)).2 fun e => (h.2 e).trans (h'.2 e).symm)

/-- **C42 (agreement).** Both variants return the same array; both reject an element number outside the mesh. -/
theorem C42_adjacent_variants_agree (t : Conn) (hsize : ∀ nodes ∈ t, nodes.length < 256) (idx : List ℕ) :
    getAdjacentElements t idx = getAdjacentElementsFast t idx := by
  by_cases h : ∀ i ∈ idx, i < t.length
  · obtain ⟨r, hr, hl⟩ := C42_adjacent_elements_exact t hsize idx h
    obtain ⟨r', hr', hl'⟩ := C42_adjacent_elements_fast_exact t idx h
    rw [hr, hr', lists_unique hl hl']
  · have hn : ¬ (idx.all fun x => decide (x < t.length)) = true := by simpa [List.all_eq_true] using h
    unfold getAdjacentElements getAdjacentElementsFast adjacentFrom
    rw [if_neg hn, if_neg hn]

/-- Non-vacuity. -/
example : (∀ nodes ∈ strip, nodes.length < 256) ∧ getAdjacentElements strip [0, 3] = .ok [1] ∧
    getAdjacentElementsFast strip [1] = .ok [0, 3] ∧ getAdjacentElements strip [4] = .error .indexError := by
  refine ⟨by decide, by rfl, by rfl, by rfl⟩

/-- **C42 (the bound on the element size is needed).** With 256 nodes per element the `uint8` counter of shared nodes
wraps around: two elements with the same 256 nodes are not reported as adjacent. -/
theorem C42_uint8_overflow :
    ∃ nodes : List ℕ, nodes.length = 256 ∧ nodes.Nodup ∧ getAdjacentElements [nodes, nodes] [0] = .ok [] ∧
      ShareNode [nodes, nodes] 0 1 := by
  obtain ⟨L, hL, hL', hm⟩ : ∃ L : List ℕ, L.length = 256 ∧ L.Nodup ∧ 0 ∈ L :=
    ⟨List.range 256, List.length_range, List.nodup_range, by simp⟩
  refine ⟨L, hL, hL', ?_, 0, ⟨_, rfl, hm⟩, ⟨_, rfl, hm⟩⟩
  have hc : ∀ j < 2, (slowPairs [L, L]).count (0, j) = 256 := by
    intro j hj
    rw [count_slowPairs (by simp)]
    have : [L, L].getD j [] = L := by
      rcases j with _ | _ | j
      · rfl
      · rfl
      · omega
    rw [this]
    show List.countP _ L = 256
    rw [List.countP_eq_length.2, hL]
    intro a ha
    simp only [decide_eq_true_eq]
    exact ⟨ha, by simpa using hj⟩
  have hrow : nonzeroRow 2 (slowPairs [L, L]) 0 = [] := by
    unfold nonzeroRow
    rw [List.filter_eq_nil_iff]
    intro j hj
    simp [entry, hc j (List.mem_range.1 hj)]
  unfold getAdjacentElements adjacentFrom
  simp only [List.length_cons, List.length_nil, Nat.zero_add, Nat.reduceAdd, List.foldl_cons, List.foldl_nil, hrow]
  rfl

end Verif.Mesh
