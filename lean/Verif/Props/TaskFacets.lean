import Verif.Props.Task
import Verif.Props.Load

/-! C79: boundary conditions reach exactly the degrees of freedom and elements they are prescribed for. -/
namespace Verif.Task
open Verif.Mesh Verif.Mesh.Spec

/-- The degrees of freedom asked for: all of the nodes, or those of one direction. -/
def Wanted (b : Basis) (nodes : List ℕ) (dir : String) (dofs : List ℕ) : Prop :=
  (dir = "all" → dofs = b.dofsAll nodes) ∧ (dir ≠ "all" → b.dofsDir nodes dir = .ok dofs)

theorem wanted_of {b : Basis} {nodes : List ℕ} {dir : String} {dofs : List ℕ} (h : dofsFor b nodes dir = .ok dofs) :
    Wanted b nodes dir dofs := by
  unfold dofsFor at h
  split_ifs at h with hd
  · simp only [Except.ok.injEq] at h; exact ⟨fun _ => h.symm, fun hn => absurd hd hn⟩
  · exact ⟨fun h' => absurd h' hd, fun _ => h⟩

theorem mapM_ok_forall₂ {α β : Type} {g : α → Res β} : ∀ {l : List α} {r : List β}, l.mapM g = .ok r →
    List.Forall₂ (fun a b => g a = .ok b) l r
  | [], r, h => by simp [pure, Except.pure] at h; subst h; exact .nil
  | a :: l, r, h => by
    rw [List.mapM_cons] at h
    obtain ⟨x, hx, h⟩ := bind_ok h
    obtain ⟨xs, hxs, h⟩ := bind_ok h
    simp only [pure, Except.pure, Except.ok.injEq] at h
    subst h
    exact .cons hx (mapM_ok_forall₂ hxs)

/-- **C79 (supports).** In every task that could be built, the constrained degrees of freedom are: for one node array and a
direction, those of that direction (all for `"all"`); for a list of node arrays with a list of directions, region by region
those of its direction, the numbers of regions and directions being equal if no values are given; for a list of node arrays
without directions, all of every region, one value per region being required. -/
theorem C79_dirichlet_dofs {b : Basis} {a : Args} {T : Task} (h : fromNodes b a = .ok T) :
    (∀ l, a.dirichletNodes = some (.arr l) → ∃ s dofs, a.dirichletDir = some (.one s) ∧ T.dirichletDofs = some (.arr dofs) ∧
      Wanted b l s dofs) ∧
    (∀ ls ds, a.dirichletNodes = some (.lst ls) → a.dirichletDir = some (.many ds) →
      (a.dirichletValues = none → ls.length = ds.length) ∧
      ∃ dofs, T.dirichletDofs = some (.lst dofs) ∧ List.Forall₂ (fun x r => Wanted b x.1 x.2 r) (ls.zip ds) dofs) ∧
    (∀ ls, a.dirichletNodes = some (.lst ls) → a.dirichletDir = none →
      (∀ n, a.dirichletValues = some (.list n) → ls.length = n) ∧ a.dirichletValues ≠ none ∧
      T.dirichletDofs = some (.lst (ls.map b.dofsAll))) := by
  obtain ⟨d, n, r, ex, fd, hd, -, -, -, -, -, -, rfl⟩ := fromNodes_ok h
  unfold dirichletPart at hd
  refine ⟨?_, ?_, ?_⟩
  · intro l hl
    rw [hl] at hd
    obtain ⟨_, h1, hd⟩ := bind_ok hd
    obtain ⟨dofs, h2, hd⟩ := bind_ok hd
    obtain ⟨l', h3, hd⟩ := bind_ok hd
    simp only [pure, Except.pure, Except.ok.injEq] at hd
    subst hd
    unfold checkDirichlet at h1
    unfold dirichletDofs at h2
    rcases hdir : a.dirichletDir with _ | s | ss <;> rw [hdir] at h1 h2 <;> simp only at h1 h2
    · simp at h1
    · rcases hq : dofsFor b l s with e | q
      · rw [hq] at h2; simp [Except.map] at h2
      · rw [hq] at h2
        simp only [Except.map, Except.ok.injEq] at h2
        exact ⟨s, q, rfl, by rw [← h2], wanted_of hq⟩
    · simp at h1
  · intro ls ds hl hdir
    rw [hl] at hd
    obtain ⟨_, h1, hd⟩ := bind_ok hd
    obtain ⟨dofs, h2, hd⟩ := bind_ok hd
    obtain ⟨l', h3, hd⟩ := bind_ok hd
    simp only [pure, Except.pure, Except.ok.injEq] at hd
    subst hd
    rw [hdir] at h1 h2
    constructor
    · intro hv
      rw [hv] at h1
      simp only [checkDirichlet, bind, Except.bind, pure, Except.pure] at h1
      by_contra hne
      rw [if_neg hne] at h1
      simp at h1
    · simp only [dirichletDofs] at h2
      rcases hq : List.mapM (fun x : List ℕ × String => dofsFor b x.1 x.2) (ls.zip ds) with e | q
      · rw [hq] at h2; simp [Except.map] at h2
      · rw [hq] at h2
        simp only [Except.map, Except.ok.injEq] at h2
        refine ⟨q, by rw [← h2], (mapM_ok_forall₂ hq).imp fun x r hx => wanted_of hx⟩
  · intro ls hl hdir
    rw [hl] at hd
    obtain ⟨_, h1, hd⟩ := bind_ok hd
    obtain ⟨dofs, h2, hd⟩ := bind_ok hd
    obtain ⟨l', h3, hd⟩ := bind_ok hd
    simp only [pure, Except.pure, Except.ok.injEq] at hd
    subst hd
    rw [hdir] at h1 h2
    simp only [dirichletDofs, Except.ok.injEq] at h2
    refine ⟨?_, ?_, by rw [← h2]⟩
    · intro n hv
      rw [hv] at h1
      simp only [checkDirichlet, bind, Except.bind, pure, Except.pure] at h1
      by_contra hne
      rw [if_neg hne] at h1
      simp at h1
    · intro hv
      rw [hv] at h1
      simp [checkDirichlet, bind, Except.bind] at h1

/-- Element `e` touches a node of one of the facets of an optional argument (one array or a list of arrays). -/
def TouchesFacets (b : Basis) (arg : Option Arrays) (e : ℕ) : Prop :=
  ∃ a, arg = some a ∧ ∃ i ∈ a.nodes, ∃ nodes, b.facets[i]? = some nodes ∧ Touches b.t nodes e

theorem mem_unique {l : List ℕ} {x : ℕ} : x ∈ unique l ↔ x ∈ l := by
  unfold unique sorted
  rw [List.mem_insertionSort, List.mem_dedup]

theorem facetNodes_ok {b : Basis} {ids nodes : List ℕ} (h : facetNodes b ids = .ok nodes) (n : ℕ) :
    n ∈ nodes ↔ ∃ i ∈ ids, ∃ ns, b.facets[i]? = some ns ∧ n ∈ ns := by
  unfold facetNodes at h
  split_ifs at h with hall
  simp only [Except.ok.injEq] at h
  subst h
  rw [mem_unique]
  simp only [List.mem_flatMap]
  have hall' : ∀ i ∈ ids, i < b.facets.length := by simpa using hall
  constructor
  · rintro ⟨i, hi, hn⟩
    refine ⟨i, hi, b.facets[i]'(hall' i hi), List.getElem?_eq_getElem _, ?_⟩
    simpa [List.getD_eq_getElem?_getD, List.getElem?_eq_getElem (hall' i hi)] using hn
  · rintro ⟨i, hi, ns, hns, hn⟩
    exact ⟨i, hi, by simpa [List.getD_eq_getElem?_getD, hns] using hn⟩

theorem forall₂_facets {b : Basis} {idss nss : List (List ℕ)} (h : List.Forall₂ (fun x y => facetNodes b x = .ok y) idss nss) (n : ℕ) :
    n ∈ nss.flatten ↔ ∃ i ∈ idss.flatten, ∃ ns, b.facets[i]? = some ns ∧ n ∈ ns := by
  induction h with
  | nil => simp
  | @cons x y xs ys hxy _ ih =>
    simp only [List.flatten_cons, List.mem_append, facetNodes_ok hxy n, ih, or_and_right, exists_or]

theorem merged_touches {b : Basis} {f nn : Option Arrays} (h : mergedFacetNodes b f = .ok nn) (e : ℕ) :
    TouchesArg b nn e ↔ TouchesFacets b f e := by
  rcases f with _ | a
  · simp only [mergedFacetNodes, Except.ok.injEq] at h
    subst h
    simp [TouchesArg, TouchesFacets]
  · obtain ⟨l, h1, h⟩ := bind_ok h
    obtain ⟨ns, h2, h⟩ := bind_ok h
    simp only [pure, Except.pure, Except.ok.injEq] at h
    subst h
    have hl := concatenated_ok h1
    simp only [TouchesArg, TouchesFacets, Option.some.injEq, exists_eq_left', ← hl, Touches]
    constructor
    · rintro ⟨n, hn, hc⟩
      obtain ⟨i, hi, nds, hnds, hm⟩ := (facetNodes_ok h2 n).1 hn
      exact ⟨i, hi, nds, hnds, n, hm, hc⟩
    · rintro ⟨i, hi, nds, hnds, n, hm, hc⟩
      exact ⟨n, (facetNodes_ok h2 n).2 ⟨i, hi, nds, hnds, hm⟩, hc⟩

/-- **C79 (tasks from facets).** In every task built from facets the design elements are exactly the requested elements that
touch no node of a Neumann facet and, if `design_robin_boundary` is false, no node of a Robin facet; the load elements are
exactly those that touch a node of a Neumann facet, the Robin elements those that touch a node of a Robin facet. -/
theorem C79_from_facets_elements {b : Basis} {a : FacetArgs} {T : Task} (h : fromFacets b a = .ok T) :
    (∀ e, e ∈ T.design ↔ e ∈ a.design ∧ ¬ TouchesFacets b a.neumannFacets e ∧
      ¬ (a.designRobin = some false ∧ TouchesFacets b a.robinFacets e)) ∧
    (∀ e, e ∈ T.neumannElements.getD [] ↔ TouchesFacets b a.neumannFacets e) ∧
    (∀ e, e ∈ T.robinElements.getD [] ↔ TouchesFacets b a.robinFacets e) := by
  unfold fromFacets at h
  obtain ⟨dn, hdn, h⟩ := bind_ok h
  obtain ⟨nn, hnn, h⟩ := bind_ok h
  obtain ⟨rn, hrn, h⟩ := bind_ok h
  have hd := (C41_design_exact h).2
  obtain ⟨d, n, r, ex, fd, -, hn, hr, -, -, -, -, rfl⟩ := fromNodes_ok h
  refine ⟨fun e => ?_, fun e => ?_, fun e => ?_⟩
  · rw [hd e]
    simp only [merged_touches hnn, merged_touches hrn]
    rcases hrf : a.robinFacets with _ | rf
    · simp [TouchesFacets]
    · simp
  · simp only [touchesArg_iff hn, merged_touches hnn]
  · simp only [touchesArg_iff hr, merged_touches hrn]

/-- **C79 (supports from facets).** The Dirichlet elements of a task built from facets are exactly the elements that touch a
node of a Dirichlet facet. -/
theorem C79_from_facets_dirichlet {b : Basis} {a : FacetArgs} {T : Task} (h : fromFacets b a = .ok T) (e : ℕ) :
    e ∈ T.dirichletElements.getD [] ↔ TouchesFacets b a.dirichletFacets e := by
  unfold fromFacets at h
  obtain ⟨dn, hdn, h⟩ := bind_ok h
  obtain ⟨nn, hnn, h⟩ := bind_ok h
  obtain ⟨rn, hrn, h⟩ := bind_ok h
  obtain ⟨d, n, r, ex, fd, hd, -, -, -, -, -, -, rfl⟩ := fromNodes_ok h
  simp only
  rcases hf : a.dirichletFacets with _ | f
  · rw [hf] at hdn
    simp only [optionalDirichlet, Except.ok.injEq] at hdn
    rcases dirichletPart_ok hd with ⟨-, rfl⟩ | ⟨nodes, dofs, h1, -, -⟩
    · simp [TouchesFacets]
    · simp only at h1; rw [← hdn] at h1; simp at h1
  · rw [hf] at hdn
    simp only [optionalDirichlet] at hdn
    rcases hq : dirichletFacetNodes b f with er | q
    · rw [hq] at hdn; simp [Except.map] at hdn
    · rw [hq] at hdn
      simp only [Except.map, Except.ok.injEq] at hdn
      rcases dirichletPart_ok hd with ⟨h1, -⟩ | ⟨nodes, dofs, h1, -, rfl⟩
      · simp only at h1; rw [← hdn] at h1; simp at h1
      · simp only at h1
        rw [← hdn] at h1
        simp only [Option.some.injEq] at h1
        subst h1
        simp only [Option.getD_some, mem_elementsByNodes, TouchesFacets, Option.some.injEq, exists_eq_left', Touches]
        have key : ∀ n, n ∈ q.nodes ↔ ∃ i ∈ f.nodes, ∃ ns, b.facets[i]? = some ns ∧ n ∈ ns := by
          intro n
          cases f with
          | arr ids =>
            simp only [dirichletFacetNodes] at hq
            rcases hr : facetNodes b ids with er | ns
            · rw [hr] at hq; simp [Except.map] at hq
            · rw [hr] at hq
              simp only [Except.map, Except.ok.injEq] at hq
              subst hq
              exact facetNodes_ok hr n
          | lst idss =>
            simp only [dirichletFacetNodes] at hq
            rcases hr : List.mapM (facetNodes b) idss with er | nss
            · rw [hr] at hq; simp [Except.map] at hq
            · rw [hr] at hq
              simp only [Except.map, Except.ok.injEq] at hq
              subst hq
              have hF := mapM_ok_forall₂ hr
              exact forall₂_facets hF n
        constructor
        · rintro ⟨n, hn, hc⟩
          obtain ⟨i, hi, ns, hns, hm⟩ := (key n).1 hn
          exact ⟨i, hi, ns, hns, n, hm, hc⟩
        · rintro ⟨i, hi, ns, hns, n, hm, hc⟩
          exact ⟨n, (key n).2 ⟨i, hi, ns, hns, hm⟩, hc⟩

/-- Non-vacuity: the strip clamped at facet 0 and loaded at facet 3. -/
example : ∃ T, fromFacets quadStrip {
      dirichletFacets := some (.arr [0]), dirichletDir := some (.one "u^2"), dirichletValues := none
      neumannFacets := some (.lst [[3]]), robinFacets := none, designRobin := none, design := [0, 1, 2, 3] } = .ok T ∧
    T.design = [0, 1] ∧ T.neumannElements = some [2, 3] ∧ T.dirichletElements = some [0] :=
  ⟨_, rfl, by decide, by decide, by decide⟩

end Verif.Task

namespace Verif.Load

/-- **C51 (optimizer).** `unscale` undoes `scale` of the optimizer: coordinates, load vectors and volumes are restored (the
number of load cases reported is not, see `C51_single_load_count_wrong`). -/
theorem C51_optimizer_unscale_restores {n : ℕ} (hn : n ≠ 1) (s : Scaled n) (Lmax : ℝ) (hL : Lmax ≠ 0) :
    ∃ s1 s2, s.optimizerScale Lmax = .ok s1 ∧ s1.optimizerUnscale Lmax = .ok s2 ∧ s2.coords = s.coords ∧
      s2.forceList = s.forceList ∧ s2.volumes = s.volumes :=
  C51_scale_unscale_restores_partial hn s Lmax (10 ^ 5) hL (by norm_num)

end Verif.Load
