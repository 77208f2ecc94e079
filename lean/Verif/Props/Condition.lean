import Verif.Model.Condition
import Verif.Spec.Condition
import Verif.Props.TaskFacets

/-! C114: the file `condition.vtu` that shows the boundary conditions and the design domain. -/
namespace Verif.Condition
open Verif Verif.Mesh Verif.Task Verif.Condition.Spec

theorem setAt_ok {cs idx r : List ℕ} {c : ℕ} (h : setAt cs idx c = .ok r) :
    r.length = cs.length ∧ (∀ i ∈ idx, i < cs.length) ∧
      ∀ i, r[i]? = cs[i]?.map fun v => if i ∈ idx then c else v := by
  unfold setAt at h
  split_ifs at h with hall
  simp only [Except.ok.injEq] at h
  subst h
  refine ⟨by simp, by simpa using hall, fun i => ?_⟩
  rw [List.getElem?_mapIdx]

theorem setAt_succeeds {cs idx : List ℕ} {c : ℕ} (h : ∀ i ∈ idx, i < cs.length) : ∃ r, setAt cs idx c = .ok r := by
  unfold setAt
  rw [if_pos (by simpa using h)]
  exact ⟨_, rfl⟩

open Classical in
theorem paint_ok {cs r : List ℕ} {arg : Option Arrays} {c : ℕ} (h : paint cs arg c = .ok r) :
    r.length = cs.length ∧ ∀ i, r[i]? = cs[i]?.map fun v => if arg = none ∨ Given arg i then c else v := by
  rcases arg with _ | a
  · simp only [paint, Except.ok.injEq] at h
    subst h
    refine ⟨by simp, fun i => ?_⟩
    rw [List.getElem?_map]
    simp
  · simp only [paint] at h
    obtain ⟨l, hl, h⟩ := bind_ok h
    obtain ⟨h1, -, h2⟩ := setAt_ok h
    refine ⟨h1, fun i => ?_⟩
    rw [h2 i, stacked_ok hl]
    congr 1
    funext v
    have : i ∈ a.nodes ↔ (some a = none ∨ Given (some a) i) := by
      cases a <;> simp [Given, Arrays.nodes]
    by_cases hi : i ∈ a.nodes
    · rw [if_pos hi, if_pos (this.1 hi)]
    · rw [if_neg hi, if_neg fun h' => hi (this.2 h')]

theorem neumannAll_ok {arg r : Option Arrays} (h : neumannNodesAll arg = .ok r) :
    (arg = none ↔ r = none) ∧ ∀ n, Given arg n ↔ Given r n := by
  rcases arg with _ | a
  · simp only [neumannNodesAll, Except.ok.injEq] at h; subst h; simp
  · cases a with
    | arr l => simp only [neumannNodesAll, Except.ok.injEq] at h; subst h; simp
    | lst ls =>
      simp only [neumannNodesAll] at h
      obtain ⟨l, hl, h⟩ := bind_ok h
      simp only [pure, Except.pure, Except.ok.injEq] at h
      subst h
      have hl' : l = ls.flatten := by
        unfold concatenate at hl
        split_ifs at hl
        simpa using hl.symm
      subst hl'
      refine ⟨by simp, fun n => ?_⟩
      simp [Given, Mesh.mem_unique]

theorem export_ok {kind : MeshKind} {nN nE : ℕ} {a : Args} {T : Task} {C : Colours}
    (h : exportCondition kind nN nE a T = .ok C) :
    ∃ neumann c1 c2 e1 e2, neumannNodesAll a.neumannNodes = .ok neumann ∧ paint (zeros nN) neumann 1 = .ok c1 ∧
      paint c1 a.dirichletNodes 2 = .ok c2 ∧ paint c2 a.robinNodes 3 = .ok C.nodes ∧
      setAt (zeros nE) T.freeElements 1 = .ok e1 ∧ setAt e1 T.fixed 2 = .ok e2 ∧
      setAt e2 T.design 3 = .ok C.elements := by
  have : (do
    let neumann ← neumannNodesAll a.neumannNodes
    let c1 ← paint (zeros nN) neumann 1
    let c2 ← paint c1 a.dirichletNodes 2
    let c3 ← paint c2 a.robinNodes 3
    let e1 ← setAt (zeros nE) T.freeElements 1
    let e2 ← setAt e1 T.fixed 2
    let e3 ← setAt e2 T.design 3
    pure (⟨c3, e3⟩ : Colours) : Res Colours) = .ok C := by
    cases kind
    · exact h
    · exact h
    · simp [exportCondition] at h
  obtain ⟨n, h1, this⟩ := bind_ok this
  obtain ⟨c1, h2, this⟩ := bind_ok this
  obtain ⟨c2, h3, this⟩ := bind_ok this
  obtain ⟨c3, h4, this⟩ := bind_ok this
  obtain ⟨e1, h5, this⟩ := bind_ok this
  obtain ⟨e2, h6, this⟩ := bind_ok this
  obtain ⟨e3, h7, this⟩ := bind_ok this
  simp only [pure, Except.pure, Except.ok.injEq] at this
  subst this
  exact ⟨n, c1, c2, e1, e2, h1, h2, h3, h4, h5, h6, h7⟩

open Classical in
/-- What the node colours are, whatever is missing. -/
theorem node_colours {kind : MeshKind} {nN nE : ℕ} {a : Args} {T : Task} {C : Colours}
    (h : exportCondition kind nN nE a T = .ok C) :
    C.nodes.length = nN ∧ ∀ n < nN, C.nodes[n]? = some (nodeColour (fun n => a.neumannNodes = none ∨ Given a.neumannNodes n)
      (fun n => a.dirichletNodes = none ∨ Given a.dirichletNodes n)
      (fun n => a.robinNodes = none ∨ Given a.robinNodes n) n) := by
  obtain ⟨nm, c1, c2, e1, e2, h1, h2, h3, h4, -⟩ := export_ok h
  obtain ⟨hn1, hn2⟩ := neumannAll_ok h1
  obtain ⟨l1, g1⟩ := paint_ok h2
  obtain ⟨l2, g2⟩ := paint_ok h3
  obtain ⟨l3, g3⟩ := paint_ok h4
  refine ⟨by rw [l3, l2, l1]; simp [zeros], fun n hn => ?_⟩
  have hz : (zeros nN)[n]? = some 0 := by simp [zeros, hn]
  rw [g3, g2, g1, hz]
  simp only [Option.map_some, nodeColour, hn1, hn2]

/-- **C114 (node colours, partial: all three boundaries given).** If Neumann, Dirichlet and Robin nodes are all given, a
file that is written shows every node with its colour: 3 on the Robin boundary, else 2 on the Dirichlet boundary, else 1 on
the Neumann boundary, else 0. -/
theorem C114_node_colours_partial {kind : MeshKind} {nN nE : ℕ} {a : Args} {T : Task} {C : Colours}
    (h : exportCondition kind nN nE a T = .ok C) (hn : a.neumannNodes ≠ none) (hd : a.dirichletNodes ≠ none)
    (hr : a.robinNodes ≠ none) :
    C.nodes.length = nN ∧ ∀ n < nN, C.nodes[n]? =
      some (nodeColour (Given a.neumannNodes) (Given a.dirichletNodes) (Given a.robinNodes) n) := by
  have := node_colours h
  simpa only [hn, hd, hr, false_or] using this

theorem nodeArgs_ok {b : Basis} {a : FacetArgs} {args : Args} (h : nodeArgs b a = .ok args) :
    ∃ dn nn rn, optionalDirichlet b a.dirichletFacets = .ok dn ∧ mergedFacetNodes b a.neumannFacets = .ok nn ∧
      mergedFacetNodes b a.robinFacets = .ok rn ∧ args = {
        dirichletNodes := dn, dirichletDir := a.dirichletDir, dirichletValues := a.dirichletValues
        neumannNodes := nn, robinNodes := rn
        designRobin := if a.robinFacets.isNone then none else a.designRobin
        design := a.design } := by
  unfold nodeArgs at h
  obtain ⟨dn, h1, h⟩ := bind_ok h
  obtain ⟨nn, h2, h⟩ := bind_ok h
  obtain ⟨rn, h3, h⟩ := bind_ok h
  simp only [pure, Except.pure, Except.ok.injEq] at h
  exact ⟨dn, nn, rn, h1, h2, h3, h.symm⟩

theorem fromFacets_eq (b : Basis) (a : FacetArgs) : fromFacets b a = nodeArgs b a >>= fromNodes b := by
  unfold fromFacets nodeArgs
  rcases optionalDirichlet b a.dirichletFacets with e | dn
  · rfl
  rcases mergedFacetNodes b a.neumannFacets with e | nn
  · rfl
  rcases mergedFacetNodes b a.robinFacets with e | rn
  · rfl
  rfl

theorem onFacets_iff {b : Basis} {x : Arrays} {n : ℕ} :
    OnFacets b (some x) n ↔ ∃ i ∈ x.nodes, ∃ ns, b.facets[i]? = some ns ∧ n ∈ ns := by
  unfold OnFacets
  cases x <;> simp [Arrays.nodes]

theorem merged_given {b : Basis} {f nn : Option Arrays} (h : mergedFacetNodes b f = .ok nn) :
    (f = none ↔ nn = none) ∧ ∀ n, Given nn n ↔ OnFacets b f n := by
  rcases f with _ | x
  · simp only [mergedFacetNodes, Except.ok.injEq] at h
    subst h
    simp [Given, OnFacets]
  · simp only [mergedFacetNodes] at h
    obtain ⟨l, hl, h⟩ := bind_ok h
    obtain ⟨ns, hns, h⟩ := bind_ok h
    simp only [pure, Except.pure, Except.ok.injEq] at h
    subst h
    refine ⟨by simp, fun n => ?_⟩
    rw [onFacets_iff, ← concatenated_ok hl, ← facetNodes_ok hns]
    simp [Given]

theorem dirichlet_given {b : Basis} {f dn : Option Arrays} (h : optionalDirichlet b f = .ok dn) :
    (f = none ↔ dn = none) ∧ ∀ n, Given dn n ↔ OnFacets b f n := by
  rcases f with _ | x
  · simp only [optionalDirichlet, Except.ok.injEq] at h
    subst h
    simp [Given, OnFacets]
  · simp only [optionalDirichlet] at h
    cases x with
    | arr l =>
      simp only [dirichletFacetNodes] at h
      rcases hq : facetNodes b l with e | q
      · rw [hq] at h; simp [Except.map] at h
      · rw [hq] at h
        simp only [Except.map, Except.ok.injEq] at h
        subst h
        refine ⟨by simp, fun n => ?_⟩
        rw [onFacets_iff]
        simpa [Given, Arrays.nodes] using facetNodes_ok hq n
    | lst ls =>
      simp only [dirichletFacetNodes] at h
      rcases hq : List.mapM (facetNodes b) ls with e | q
      · rw [hq] at h; simp [Except.map] at h
      · rw [hq] at h
        simp only [Except.map, Except.ok.injEq] at h
        subst h
        refine ⟨by simp, fun n => ?_⟩
        have := forall₂_facets (mapM_ok_forall₂ hq) n
        rw [onFacets_iff]
        simp only [Arrays.nodes]
        rw [← this]
        simp [Given]

theorem facetCondition_ok {kind : MeshKind} {nN : ℕ} {b : Basis} {a : FacetArgs} {dd : Bool} {C : Colours}
    (h : facetCondition kind nN b a dd = .ok C) :
    ∃ args T, nodeArgs b a = .ok args ∧ fromNodes b args = .ok T ∧ fromFacets b a = .ok T ∧
      exportCondition kind nN b.t.length args (T.construct dd) = .ok C := by
  unfold facetCondition at h
  obtain ⟨args, h1, h⟩ := bind_ok h
  obtain ⟨T, h2, h⟩ := bind_ok h
  exact ⟨args, T, h1, h2, by rw [fromFacets_eq, h1]; exact h2, h⟩

theorem facet_colours {kind : MeshKind} {nN : ℕ} {b : Basis} {a : FacetArgs} {dd : Bool} {C : Colours}
    (h : facetCondition kind nN b a dd = .ok C) :
    C.nodes.length = nN ∧ ∀ n < nN, C.nodes[n]? = some (nodeColour
      (fun n => a.neumannFacets = none ∨ OnFacets b a.neumannFacets n)
      (fun n => a.dirichletFacets = none ∨ OnFacets b a.dirichletFacets n)
      (fun n => a.robinFacets = none ∨ OnFacets b a.robinFacets n) n) := by
  obtain ⟨args, T, h1, -, -, h4⟩ := facetCondition_ok h
  obtain ⟨dn, nn, rn, k1, k2, k3, rfl⟩ := nodeArgs_ok h1
  have hc := node_colours h4
  obtain ⟨d1, d2⟩ := dirichlet_given k1
  obtain ⟨n1, n2⟩ := merged_given k2
  obtain ⟨r1, r2⟩ := merged_given k3
  simpa only [← d1, d2, ← n1, n2, ← r1, r2] using hc

/-- **C114 (facets, partial: all three boundaries given).** The same for tasks built from facets: the node colours show
the nodes of the Robin, Dirichlet and Neumann facets. -/
theorem C114_facet_colours_partial {kind : MeshKind} {nN : ℕ} {b : Basis} {a : FacetArgs} {dd : Bool} {C : Colours}
    (h : facetCondition kind nN b a dd = .ok C) (hn : a.neumannFacets ≠ none) (hd : a.dirichletFacets ≠ none)
    (hr : a.robinFacets ≠ none) :
    C.nodes.length = nN ∧ ∀ n < nN, C.nodes[n]? = some (nodeColour (OnFacets b a.neumannFacets)
      (OnFacets b a.dirichletFacets) (OnFacets b a.robinFacets) n) := by
  have := facet_colours h
  simpa only [hn, hd, hr, false_or] using this

/-- **C114 (refuted: elasticity).** An elasticity task has no Robin facets, and `node_color[None] = 3` reaches every node.
In every file written for an elasticity task every node has colour 3: supports, loads and free nodes look the same. -/
theorem C114_elasticity_all_robin {kind : MeshKind} {nN : ℕ} {b : Basis} {a : FacetArgs} {dd : Bool} {C : Colours}
    (h : facetCondition kind nN b a dd = .ok C) (hr : a.robinFacets = none) (n : ℕ) (hn : n < nN) :
    C.nodes[n]? = some 3 := by
  rw [(facet_colours h).2 n hn]
  simp [nodeColour, hr]

/-- **C114 (refuted: heat).** A heat task has no Neumann facets, and `node_color[None] = 1` reaches every node. With
Dirichlet and Robin facets every node on neither of them has the colour of a Neumann node; no node has colour 0. -/
theorem C114_heat_free_nodes_look_loaded {kind : MeshKind} {nN : ℕ} {b : Basis} {a : FacetArgs} {dd : Bool} {C : Colours}
    (h : facetCondition kind nN b a dd = .ok C) (hn : a.neumannFacets = none) (hd : a.dirichletFacets ≠ none)
    (hr : a.robinFacets ≠ none) (n : ℕ) (hnn : n < nN) (hnd : ¬ OnFacets b a.dirichletFacets n)
    (hnr : ¬ OnFacets b a.robinFacets n) : C.nodes[n]? = some 1 := by
  rw [(facet_colours h).2 n hnn]
  simp [nodeColour, hr, hn, hd, hnd, hnr]

theorem element_colours {kind : MeshKind} {nN nE : ℕ} {a : Args} {T : Task} {C : Colours}
    (h : exportCondition kind nN nE a T = .ok C) :
    C.elements.length = nE ∧ ∀ e < nE, C.elements[e]? = some (if e ∈ T.design then 3 else if e ∈ T.fixed then 2 else
      if e ∈ T.freeElements then 1 else 0) := by
  obtain ⟨nm, c1, c2, e1, e2, -, -, -, -, h5, h6, h7⟩ := export_ok h
  obtain ⟨l1, -, g1⟩ := setAt_ok h5
  obtain ⟨l2, -, g2⟩ := setAt_ok h6
  obtain ⟨l3, -, g3⟩ := setAt_ok h7
  refine ⟨by rw [l3, l2, l1]; simp [zeros], fun e he => ?_⟩
  have hz : (zeros nE)[e]? = some 0 := by simp [zeros, he]
  rw [g3, g2, g1, hz]
  rfl

/-- **C114 (element colours, partial: supports designed or not in the design domain).** In a file written for a task with
`design_dirichlet=True`, and in every file for the elements that were not taken out of the design domain by the
optimizer, the element colour is 3 for a design element and 2 for an element outside the design domain. -/
theorem C114_element_colours_partial {kind : MeshKind} {nN : ℕ} {b : Basis} {a : FacetArgs} {dd : Bool} {C : Colours}
    (h : facetCondition kind nN b a dd = .ok C) : ∃ T, fromFacets b a = .ok T ∧ C.elements.length = b.t.length ∧
      ∀ e < b.t.length, (e ∈ (T.construct dd).design → C.elements[e]? = some 3) ∧
        (e ∉ T.design → C.elements[e]? = some 2) ∧
        (dd = true → C.elements[e]? = some (if e ∈ T.design then 3 else 2)) := by
  obtain ⟨args, T, -, h2, h3, h4⟩ := facetCondition_ok h
  obtain ⟨hl, hc⟩ := element_colours h4
  obtain ⟨p1, p2, -, -⟩ := C41_design_fixed_partition h2
  have hfix : (T.construct dd).fixed = T.fixed := by unfold Task.construct Task.excludeDirichlet; split_ifs <;> rfl
  have hsub : ∀ e, e ∈ (T.construct dd).design → e ∈ T.design := by
    unfold Task.construct Task.excludeDirichlet
    split_ifs
    · exact fun e he => he
    · exact fun e he => (mem_setdiff1d.1 he).1
  refine ⟨T, h3, hl, fun e he => ⟨fun hd => ?_, fun hd => ?_, fun hdd => ?_⟩⟩
  · rw [hc e he, if_pos hd]
  · rw [hc e he, if_neg fun hd' => hd (hsub e hd'), hfix, if_pos ((p2 e he).resolve_left hd)]
  · subst hdd
    rw [hc e he]
    have hT : T.construct true = T := by simp [Task.construct]
    rw [hT]
    by_cases hd : e ∈ T.design
    · rw [if_pos hd, if_pos hd]
    · rw [if_neg hd, if_neg hd, if_pos ((p2 e he).resolve_left hd)]

/-- **C114 (refuted: supports that are not designed).** With `design_dirichlet=False` the support elements are taken out of
the design domain, but not added to the fixed elements: in the file they have neither colour 3 nor colour 2. -/
theorem C114_support_elements_not_fixed {kind : MeshKind} {nN : ℕ} {b : Basis} {a : FacetArgs} {C : Colours} {T : Task}
    (h : facetCondition kind nN b a false = .ok C) (hT : fromFacets b a = .ok T) (e : ℕ) (he : e < b.t.length)
    (hd : e ∈ T.design) (hs : e ∈ T.dirichletElements.getD []) :
    C.elements[e]? = some 0 ∨ C.elements[e]? = some 1 := by
  obtain ⟨args, T', -, h2, h3, h4⟩ := facetCondition_ok h
  rw [hT, Except.ok.injEq] at h3
  subst h3
  obtain ⟨-, hc⟩ := element_colours h4
  obtain ⟨p1, -⟩ := C41_design_fixed_partition h2
  have h1 : e ∉ (T.construct false).design := by
    simp only [Task.construct, Bool.false_eq_true, if_false, Task.excludeDirichlet]
    exact fun hm => (mem_setdiff1d.1 hm).2 hs
  have h2 : e ∉ (T.construct false).fixed := by
    simp only [Task.construct, Bool.false_eq_true, if_false, Task.excludeDirichlet]
    exact fun hm => p1 e ⟨hd, hm⟩
  rw [hc e he, if_neg h1, if_neg h2]
  split_ifs
  · exact Or.inr rfl
  · exact Or.inl rfl

theorem paint_succeeds {cs : List ℕ} {arg : Option Arrays} {c : ℕ} (hs : ∀ a, arg = some a → ∃ l, a.stacked = .ok l)
    (h : ∀ n, Given arg n → n < cs.length) : ∃ r, paint cs arg c = .ok r := by
  rcases arg with _ | a
  · exact ⟨_, rfl⟩
  · obtain ⟨l, hl⟩ := hs a rfl
    obtain ⟨r, hr⟩ := setAt_succeeds (cs := cs) (idx := l) (c := c) fun i hi => h i (by
      rw [stacked_ok hl] at hi
      cases a <;> simpa [Given, Arrays.nodes] using hi)
    exact ⟨r, by simp only [paint, hl, bind, Except.bind, hr]⟩

/-- **C114 (always written).** For every task built from facets of a tetrahedral or hexahedral mesh, with design elements
of the mesh, the file is written: neither the colours of the nodes nor those of the elements can fail. -/
theorem C114_facet_file_written {kind : MeshKind} {nN : ℕ} {b : Basis} {a : FacetArgs} {dd : Bool} {T : Task}
    (hk : kind ≠ .other) (hT : fromFacets b a = .ok T) (hb : NodesBelow b nN) (hd : ∀ e ∈ a.design, e < b.t.length) :
    ∃ C, facetCondition kind nN b a dd = .ok C := by
  rw [fromFacets_eq] at hT
  obtain ⟨args, h1, h2⟩ := bind_ok hT
  obtain ⟨dn, nn, rn, k1, k2, k3, hargs⟩ := nodeArgs_ok h1
  have below : ∀ f n, OnFacets b f n → n < nN := by
    rintro f n ⟨x, -, i, -, ns, hns, hn⟩
    exact hb ns (List.mem_of_getElem? hns) n hn
  have stackOf : ∀ (f : Option Arrays) (m : Option Arrays), mergedFacetNodes b f = .ok m → ∀ x, m = some x →
      ∃ l, x = .arr l := by
    intro f m hm x hx
    subst hx
    rcases f with _ | y
    · simp [mergedFacetNodes] at hm
    · simp only [mergedFacetNodes] at hm
      obtain ⟨l, -, hm⟩ := bind_ok hm
      obtain ⟨ns, -, hm⟩ := bind_ok hm
      simp only [pure, Except.pure, Except.ok.injEq, Option.some.injEq] at hm
      exact ⟨ns, hm.symm⟩
  obtain ⟨d, nm, r, ex, fd, hdp, -, -, hex, -, -, -, hTeq⟩ := fromNodes_ok h2
  have hnall : neumannNodesAll args.neumannNodes = .ok args.neumannNodes := by
    rcases hq : args.neumannNodes with _ | x
    · rfl
    · rw [hargs] at hq
      obtain ⟨l, rfl⟩ := stackOf _ _ k2 x hq
      rfl
  have hdst : ∀ x, args.dirichletNodes = some x → ∃ l, x.stacked = .ok l := by
    intro x hx
    unfold dirichletPart at hdp
    rw [hx] at hdp
    obtain ⟨_, -, hdp⟩ := bind_ok hdp
    obtain ⟨_, -, hdp⟩ := bind_ok hdp
    obtain ⟨l, hl, -⟩ := bind_ok hdp
    exact ⟨l, hl⟩
  have hdir : ∀ n, Given args.dirichletNodes n → n < nN := by
    intro n hn
    rw [hargs] at hn
    exact below _ n (((dirichlet_given k1).2 n).1 hn)
  have hneu : ∀ n, Given args.neumannNodes n → n < nN := by
    intro n hn
    rw [hargs] at hn
    exact below _ n (((merged_given k2).2 n).1 hn)
  have hrob : ∀ n, Given args.robinNodes n → n < nN := by
    intro n hn
    rw [hargs] at hn
    exact below _ n (((merged_given k3).2 n).1 hn)
  have hneus : ∀ x, args.neumannNodes = some x → ∃ l, x.stacked = .ok l := by
    intro x hx
    rw [hargs] at hx
    obtain ⟨l, rfl⟩ := stackOf _ _ k2 x hx
    exact ⟨l, rfl⟩
  have hrobs : ∀ x, args.robinNodes = some x → ∃ l, x.stacked = .ok l := by
    intro x hx
    rw [hargs] at hx
    obtain ⟨l, rfl⟩ := stackOf _ _ k3 x hx
    exact ⟨l, rfl⟩
  obtain ⟨c1, p1⟩ := paint_succeeds (cs := zeros nN) (c := 1) hneus (by simpa [zeros] using hneu)
  have q1 : c1.length = nN := by rw [(paint_ok p1).1]; simp [zeros]
  obtain ⟨c2, p2⟩ := paint_succeeds (cs := c1) (c := 2) hdst (by rw [q1]; exact hdir)
  have q2 : c2.length = nN := by rw [(paint_ok p2).1, q1]
  obtain ⟨c3, p3⟩ := paint_succeeds (cs := c2) (c := 3) hrobs (by rw [q2]; exact hrob)
  have hdes : ∀ e ∈ args.design, e < b.t.length := by
    have : args.design = a.design := by rw [hargs]
    rw [this]; exact hd
  have hFlt : ∀ e ∈ T.freeElements, e < b.t.length := fun e he => by
    rw [hTeq] at he
    exact touches_lt (mem_elementsByNodes.1 he)
  have hXlt : ∀ e ∈ T.fixed, e < b.t.length := (C41_design_fixed_partition h2).2.2.1
  have hTlt : ∀ e ∈ T.design, e < b.t.length := fun e he => hdes e (((C41_design_exact h2).2 e).1 he).1
  have hDlt : ∀ e ∈ (T.construct dd).design, e < b.t.length := by
    intro e he
    unfold Task.construct Task.excludeDirichlet at he
    split_ifs at he
    · exact hTlt e he
    · exact hTlt e (mem_setdiff1d.1 he).1
  have hfree : (T.construct dd).freeElements = T.freeElements := by
    unfold Task.construct Task.excludeDirichlet; split_ifs <;> rfl
  have hfix : (T.construct dd).fixed = T.fixed := by unfold Task.construct Task.excludeDirichlet; split_ifs <;> rfl
  obtain ⟨e1, s1⟩ := setAt_succeeds (cs := zeros b.t.length) (c := 1) (by simpa [zeros] using hFlt)
  have w1 : e1.length = b.t.length := by rw [(setAt_ok s1).1]; simp [zeros]
  obtain ⟨e2, s2⟩ := setAt_succeeds (cs := e1) (c := 2) (by rw [w1]; exact hXlt)
  have w2 : e2.length = b.t.length := by rw [(setAt_ok s2).1, w1]
  obtain ⟨e3, s3⟩ := setAt_succeeds (cs := e2) (c := 3) (by rw [w2]; exact hDlt)
  refine ⟨⟨c3, e3⟩, ?_⟩
  unfold facetCondition
  rw [h1]
  simp only [bind, Except.bind]
  rw [h2]
  cases kind
  · simp only [exportCondition, hnall, bind, Except.bind, p1, p2, p3, hfree, hfix, s1, s2, s3]; rfl
  · simp only [exportCondition, hnall, bind, Except.bind, p1, p2, p3, hfree, hfix, s1, s2, s3]; rfl
  · exact absurd rfl hk

/-- A strip of three quadrilaterals with its two end facets and the facet above the middle; every node has one degree of
freedom. (The connectivity of a hexahedral mesh is longer, nothing here depends on the number of nodes.) -/
def stripBasis : Basis where
  t := [[0, 1, 5, 4], [1, 2, 6, 5], [2, 3, 7, 6]]
  facets := [[0, 4], [3, 7], [5, 6]]
  nDofs := 8
  dofsAll := id
  dofsDir := fun nodes _ => .ok nodes
  volumes := .ok ()

/-- An elasticity task: held on the left, loaded on the right. -/
def stripElastic : FacetArgs where
  dirichletFacets := some (.arr [0])
  dirichletDir := some (.one "all")
  dirichletValues := none
  neumannFacets := some (.arr [1])
  robinFacets := none
  designRobin := none
  design := [0, 1, 2]

/-- A heat task: temperature given on the left, exchange with the surroundings on the right. -/
def stripHeat : FacetArgs where
  dirichletFacets := some (.lst [[0]])
  dirichletDir := none
  dirichletValues := some .float
  neumannFacets := none
  robinFacets := some (.arr [1])
  designRobin := some true
  design := [0, 1, 2]

/-- All three kinds of boundary. -/
def stripAll : FacetArgs where
  dirichletFacets := some (.arr [0])
  dirichletDir := some (.one "all")
  dirichletValues := none
  neumannFacets := some (.arr [1])
  robinFacets := some (.arr [2])
  designRobin := some true
  design := [0, 1, 2]

/-- Non-vacuity: the three files, with and without designed supports. In the first the free node 1 and the support node 0
have colour 3, in the second the free node 1 has colour 1, the third is right; without designed supports the support
element 0 has colour 1. -/
example : facetCondition .hex 8 stripBasis stripElastic true = .ok ⟨[3, 3, 3, 3, 3, 3, 3, 3], [3, 3, 2]⟩ ∧
    facetCondition .hex 8 stripBasis stripHeat true = .ok ⟨[2, 1, 1, 3, 2, 1, 1, 3], [3, 3, 3]⟩ ∧
    facetCondition .hex 8 stripBasis stripAll true = .ok ⟨[2, 0, 0, 1, 2, 3, 3, 1], [3, 3, 2]⟩ ∧
    facetCondition .hex 8 stripBasis stripElastic false = .ok ⟨[3, 3, 3, 3, 3, 3, 3, 3], [1, 3, 2]⟩ ∧
    NodesBelow stripBasis 8 ∧ ∀ e ∈ stripElastic.design, e < stripBasis.t.length := by
  refine ⟨by rfl, by rfl, by rfl, by rfl, ?_, by decide⟩
  unfold NodesBelow
  decide

/-- **C114 (meshes of other kinds).** On a mesh of neither tetrahedra nor hexahedra no file is written: `ValueError`, whatever the task. -/
theorem C114_unsupported_mesh (nN nE : ℕ) (a : Args) (T : Task) : exportCondition .other nN nE a T = .error .valueError := rfl

/-- **C114 (refuted: the file as a picture of the conditions).** There is an elasticity task on which the file is written
and shows neither the supports nor the loads, although the three boundaries are disjoint. -/
theorem C114_condition_file_wrong : ∃ (b : Basis) (a : FacetArgs) (C : Colours),
    facetCondition .hex 8 b a true = .ok C ∧ NodesBelow b 8 ∧
      ∃ n < 8, C.nodes[n]? ≠ some (nodeColour (OnFacets b a.neumannFacets) (OnFacets b a.dirichletFacets)
        (OnFacets b a.robinFacets) n) := by
  refine ⟨stripBasis, stripElastic, _, rfl, by unfold NodesBelow; decide, 1, by decide, ?_⟩
  have h0 : ¬ OnFacets stripBasis stripElastic.robinFacets 1 := by rintro ⟨x, hx, -⟩; simp [stripElastic] at hx
  intro h
  have : nodeColour (OnFacets stripBasis stripElastic.neumannFacets) (OnFacets stripBasis stripElastic.dirichletFacets)
        (OnFacets stripBasis stripElastic.robinFacets) 1 ≠ 3 := by
    unfold nodeColour
    rw [if_neg h0]
    split_ifs <;> decide
  exact this (Option.some.inj (h.symm.trans rfl))

/-- **C114 (refuted: list of Robin node arrays).** Robin node arrays of different lengths are accepted when the task is
built from nodes, but the file cannot be written then, and with it no iteration of the optimizer starts. -/
theorem C114_ragged_robin_nodes_fail : ∃ (b : Basis) (a : Args) (T : Task), fromNodes b a = .ok T ∧
    exportCondition .hex 8 b.t.length a T = .error .valueError :=
  ⟨stripBasis, { dirichletNodes := some (.arr [0, 4]), dirichletDir := some (.one "all"), dirichletValues := none
                 neumannNodes := none, robinNodes := some (.lst [[3, 7], [5]]), designRobin := some true
                 design := [0, 1, 2] }, _, rfl, rfl⟩

end Verif.Condition
