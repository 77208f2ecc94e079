import Verif.Model.Load
import Verif.Lemmas.Task
import Mathlib.Algebra.BigOperators.Field
import Mathlib.Tactic.FieldSimp
import Mathlib.Tactic.Ring
import Mathlib.Tactic.NormNum

/-! Theorems about loads, tags and scaling (C51, C63, C64). -/
namespace Verif.Load
open Verif.Task Verif.Snapshot Verif.Mesh

/-! ### C64: surface forces -/

/-- The finite element space reproduces constants component by component: `comp i` is the component of degree of freedom
`i`, and the unit tractions sum up to the area in their component and vanish in the others. -/
structure PartitionOfUnity {ι : Type} [Fintype ι] (F : Facets ι) (comp : ι → ℕ) : Prop where
  total : ∀ facets c, c < F.dim → ∑ i with comp i = c, F.unit facets c i = F.area facets
  other : ∀ facets c i, comp i ≠ c → F.unit facets c i = 0

/-- One load case is right: direction `u^(c+1)` with `c` a component, resultant force `val` in that component and none in the
others. -/
def RightForce {ι : Type} [Fintype ι] (F : Facets ι) (comp : ι → ℕ) (dir : Name) (val : ℝ) (f : ι → ℝ) : Prop :=
  ∃ c ds, dir = 'u' :: '^' :: ds ∧ ds ≠ [] ∧ ds.all Char.isDigit ∧ Nat.ofDigitChars 10 ds 0 = c + 1 ∧ c < F.dim ∧
    (∑ i with comp i = c, f i = val) ∧ ∀ i, comp i ≠ c → f i = 0

theorem dirToComp_ok {s : Name} {c : ℕ} (h : dirToComp s = .ok c) :
    ∃ ds, s = 'u' :: '^' :: ds ∧ ds ≠ [] ∧ ds.all Char.isDigit ∧ Nat.ofDigitChars 10 ds 0 = c + 1 := by
  unfold dirToComp at h
  split at h
  · rename_i ds
    split_ifs at h with h1
    simp only at h
    split_ifs at h with h2
    simp only [Except.ok.injEq] at h
    exact ⟨ds, rfl, h1.1, h1.2, by omega⟩
  · simp at h

/-- **C64.** Whenever `assemble_surface_forces` succeeds there is one load vector per region, in the order of the regions; for
regions of non-zero area the resultant of each is exactly the prescribed force in the prescribed direction. -/
theorem C64_resultant_is_prescribed_force {ι : Type} [Fintype ι] (F : Facets ι) (comp : ι → ℕ)
    (hF : PartitionOfUnity F comp) (facets : List (List ℕ)) (dirs : List Name) (vals : List ℝ) (fs : List (ι → ℝ))
    (h : assembleForces F facets dirs vals = .ok fs) (harea : ∀ f ∈ facets, F.area f ≠ 0) :
    fs.length = facets.length ∧
    ∀ (k : ℕ) f, fs[k]? = some f → ∃ dir val, dirs[k]? = some dir ∧ vals[k]? = some val ∧ RightForce F comp dir val f := by
  unfold assembleForces at h
  split_ifs at h with hl
  obtain ⟨hl1, hl2⟩ := hl
  induction facets generalizing dirs vals fs with
  | nil =>
    have : fs = [] := by
      unfold regionForces at h; simpa using h.symm
    subst this; simp
  | cons f facets ih =>
    rcases dirs with _ | ⟨d, ds⟩
    · simp at hl1
    rcases vals with _ | ⟨v, vs⟩
    · simp at hl2
    rw [regionForces] at h
    obtain ⟨x, hx, h⟩ := bind_ok h
    obtain ⟨xs, hxs, h⟩ := bind_ok h
    simp only [pure, Except.pure, Except.ok.injEq] at h
    subst h
    obtain ⟨r1, r2⟩ := ih ds vs xs (fun g hg => harea g (by simp [hg])) hxs (by simpa using hl1) (by simpa using hl2)
    refine ⟨by simp [r1], fun k g hg => ?_⟩
    rcases k with _ | k
    · simp only [List.getElem?_cons_zero, Option.some.injEq] at hg
      subst hg
      refine ⟨d, v, rfl, rfl, ?_⟩
      unfold regionForce at hx
      obtain ⟨c, hc, hx⟩ := bind_ok hx
      split_ifs at hx with hdim
      simp only [Except.ok.injEq] at hx
      subst hx
      obtain ⟨ds', h1, h2, h3, h4⟩ := dirToComp_ok hc
      refine ⟨c, ds', h1, h2, h3, h4, hdim, ?_, fun i hi => ?_⟩
      · rw [← Finset.mul_sum, hF.total f c hdim, div_mul_cancel₀ _ (harea f (by simp))]
      · simp only; rw [hF.other f c i hi, mul_zero]
    · simpa using r2 k g (by simpa using hg)

/-- **C64 (rejections).** A different number of regions, directions and values is rejected. -/
theorem C64_length_mismatch_rejected {ι : Type} (F : Facets ι) (facets : List (List ℕ)) (dirs : List Name) (vals : List ℝ)
    (h : ¬ (facets.length = dirs.length ∧ dirs.length = vals.length)) :
    assembleForces F facets dirs vals = .error .valueError := if_neg h

/-- A direction is `u^n` with a positive number `n` in decimal digits. -/
def IsDirection (s : Name) : Prop := ∃ ds, s = 'u' :: '^' :: ds ∧ ds ≠ [] ∧ ds.all Char.isDigit ∧ 0 < Nat.ofDigitChars 10 ds 0

theorem dirToComp_error {s : Name} (h : ¬ IsDirection s) : dirToComp s = .error .valueError := by
  unfold dirToComp
  split
  · rename_i ds
    split_ifs with h1
    · simp only
      split_ifs with h2
      · rfl
      · exact absurd ⟨ds, rfl, h1.1, h1.2, Nat.pos_of_ne_zero h2⟩ h
    · rfl
  · rfl

/-- **C64 (rejections).** A direction of any other form is rejected with a ValueError if the regions before it are fine, whatever
comes after it. -/
theorem C64_bad_direction_rejected {ι : Type} (F : Facets ι) (f0 : List (List ℕ)) (d0 : List Name) (v0 : List ℝ) (g0 : List (ι → ℝ))
    (h0 : assembleForces F f0 d0 v0 = .ok g0) (f : List ℕ) (dir : Name) (v : ℝ) (f1 : List (List ℕ)) (d1 : List Name) (v1 : List ℝ)
    (hl : f1.length = d1.length ∧ d1.length = v1.length) (hd : ¬ IsDirection dir) :
    assembleForces F (f0 ++ f :: f1) (d0 ++ dir :: d1) (v0 ++ v :: v1) = .error .valueError := by
  unfold assembleForces at h0 ⊢
  split_ifs at h0 with hl0
  rw [if_pos (by simp only [List.length_append, List.length_cons]; omega)]
  obtain ⟨hl1, hl2⟩ := hl0
  induction f0 generalizing d0 v0 g0 with
  | nil =>
    rcases d0 with _ | ⟨d, ds⟩
    · rcases v0 with _ | ⟨w, vs⟩
      · simp only [List.nil_append, regionForces, regionForce, dirToComp_error hd]
        rfl
      · simp at hl2
    · simp at hl1
  | cons a f0 ih =>
    rcases d0 with _ | ⟨d, ds⟩
    · simp at hl1
    rcases v0 with _ | ⟨w, vs⟩
    · simp at hl2
    rw [regionForces] at h0
    obtain ⟨x, hx, h0⟩ := bind_ok h0
    obtain ⟨xs, hxs, h0⟩ := bind_ok h0
    simp only [List.cons_append, regionForces]
    rw [hx, ih ds vs xs hxs (by simpa using hl1) (by simpa using hl2)]
    rfl

/-- Non-vacuity: directions that are rejected, and one that is not. -/
example : ¬ IsDirection ['u', '^', '0'] ∧ ¬ IsDirection ['x'] ∧ IsDirection ['u', '^', '2'] := by
  refine ⟨?_, ?_, ['2'], rfl, by simp, by decide, by decide⟩
  · rintro ⟨ds, h, -, -, h'⟩
    simp only [List.cons.injEq, true_and] at h
    subst h
    revert h'
    decide
  · rintro ⟨ds, h, -⟩
    simp at h

/-- Two nodes with three degrees of freedom each, sharing a facet of area `a`. -/
noncomputable def twoNodes : Facets (Fin 6) where
  dim := 3
  area := fun fs => 3 * fs.length
  unit := fun fs c i => if i.val % 3 = c then 3 * fs.length / 2 else 0

/-- Non-vacuity: the partition of unity, and two load cases. -/
example : PartitionOfUnity twoNodes (fun i => i.val % 3) ∧
    ∃ fs, assembleForces twoNodes [[0], [0, 1]] [['u', '^', '1'], ['u', '^', '3']] [10, -4] = .ok fs ∧
      fs.length = 2 := by
  refine ⟨⟨?_, ?_⟩, ?_⟩
  · intro facets c hc
    have h3 : c < 3 := hc
    simp only [Finset.sum_filter, Fin.sum_univ_six, twoNodes]
    rcases c with _ | _ | _ | c
    · simp
    · simp
    · simp
    · omega
  · intro facets c i h
    simp only [twoNodes]
    rw [if_neg h]
  · have h1 : dirToComp ['u', '^', '1'] = .ok 0 := by rfl
    have h2 : dirToComp ['u', '^', '3'] = .ok 2 := by rfl
    unfold assembleForces
    rw [if_pos ⟨rfl, rfl⟩]
    simp only [regionForces, regionForce, h1, h2, bind, Except.bind, pure, Except.pure]
    rw [if_pos (by simp [twoNodes]), if_pos (by simp [twoNodes])]
    exact ⟨_, rfl, rfl⟩

/-! ### C63: boundary tags -/

/-- `k` is the tag number `n` with the given prefix: the prefix followed by decimal digits. -/
def IsTag (pre k : Name) (n : ℕ) : Prop :=
  ∃ ds, k = pre ++ ds ∧ ds ≠ [] ∧ ds.all Char.isDigit ∧ Nat.ofDigitChars 10 ds 0 = n

theorem tagNumber_iff {pre k : Name} {n : ℕ} : tagNumber pre k = some n ↔ IsTag pre k n := by
  unfold tagNumber IsTag
  constructor
  · intro h
    split_ifs at h with hc
    obtain ⟨⟨ds, rfl⟩, h2, h3⟩ := hc
    simp only [List.drop_left', List.drop_left, Option.some.injEq] at h h2 h3
    exact ⟨ds, rfl, h2, h3, h⟩
  · rintro ⟨ds, rfl, h2, h3, rfl⟩
    rw [if_pos ⟨List.prefix_append _ _, by simpa using h2, by simpa using h3⟩]
    simp

/-- **C63.** If the numbers of the tags with a prefix are distinct, the regions of the numbered tags are taken in increasing
numeric order (`neumann_10` after `neumann_2`), each exactly once. -/
theorem C63_numbered_tags_in_numeric_order (pre : Name) (bs : List (Name × List ℕ))
    (hdist : bs.Pairwise fun x y => ∀ n, IsTag pre x.1 n → ¬ IsTag pre y.1 n) :
    ∃ num : List (ℕ × List ℕ), numbered pre bs = num.map Prod.snd ∧ num.Pairwise (fun x y => x.1 < y.1) ∧
      ∀ n ids, (n, ids) ∈ num ↔ ∃ k, (k, ids) ∈ bs ∧ IsTag pre k n := by
  set l := bs.filterMap fun b => (tagNumber pre b.1).map fun n => (n, b.2) with hl
  have hperm := List.perm_insertionSort (fun x y : ℕ × List ℕ => x.1 ≤ y.1) l
  refine ⟨l.insertionSort fun x y => x.1 ≤ y.1, rfl, ?_, ?_⟩
  · have h1 : (l.insertionSort fun x y : ℕ × List ℕ => x.1 ≤ y.1).Pairwise fun x y => x.1 ≤ y.1 :=
      List.pairwise_insertionSort _ _
    have h2 : l.Pairwise fun x y => x.1 ≠ y.1 := by
      rw [hl, List.pairwise_filterMap]
      refine hdist.imp fun {a b} h x hx y hy => ?_
      simp only [Option.map_eq_some_iff] at hx hy
      obtain ⟨n, hn, rfl⟩ := hx
      obtain ⟨m, hm, rfl⟩ := hy
      rintro rfl
      exact h n (tagNumber_iff.1 hn) (tagNumber_iff.1 hm)
    have h3 : (l.insertionSort fun x y : ℕ × List ℕ => x.1 ≤ y.1).Pairwise fun x y => x.1 ≠ y.1 :=
      (hperm.symm.pairwise_iff fun h => h.symm).1 h2
    exact (List.pairwise_and_iff.2 ⟨h1, h3⟩).imp fun h => lt_of_le_of_ne h.1 h.2
  · intro n ids
    rw [hperm.mem_iff, hl, List.mem_filterMap]
    simp only [Option.map_eq_some_iff, Prod.mk.injEq]
    constructor
    · rintro ⟨⟨k, ids'⟩, hb, m, hm, rfl, rfl⟩
      exact ⟨k, hb, tagNumber_iff.1 hm⟩
    · rintro ⟨k, hb, hk⟩
      exact ⟨(k, ids), hb, n, tagNumber_iff.2 hk, rfl, rfl⟩

/-- Non-vacuity: numeric, not alphabetic, order; other tags are ignored. -/
example : let bs : List (Name × List ℕ) := [("neumann_10".toList, [1]), ("neumann_2".toList, [2, 3]), ("robin".toList, [4]),
      ("neumann_x".toList, [5])]
    numbered (neumannName ++ ['_']) bs = [[2, 3], [1]] ∧ elasticNeumann bs = some (.lst [[2, 3], [1]]) := by
  exact ⟨by rfl, by rfl⟩

/-- No tag `dirichlet_N` is recognised by the elasticity constructor. -/
theorem elastic_ignores (k : Name) (n : ℕ) (h : IsTag (dirichletName ++ ['_']) k n) : tagNumber elasticPrefix k = none := by
  rcases hk : tagNumber elasticPrefix k with _ | m
  · rfl
  · exfalso
    obtain ⟨ds, rfl, -⟩ := h
    obtain ⟨ds', h', -⟩ := tagNumber_iff.1 hk
    simp [elasticPrefix, dirichletName] at h'

/-- **C63 (refuted for elasticity).** The elasticity constructor looks for `dirichlete_N`. If the Dirichlet boundary is tagged
by `dirichlet_N` only, building an elasticity task from tags always fails, for every mesh and all other tags. -/
theorem C63_elastic_numbered_dirichlet_fails (b : Basis) (bs : List (Name × List ℕ)) (dir : Dir) (design : List ℕ)
    (h : ∀ x ∈ bs, dirichletName <+: x.1 → ∃ n, IsTag (dirichletName ++ ['_']) x.1 n) :
    elasticFromTags b bs dir design = .error .indexError := by
  have hn : numbered elasticPrefix bs = [] := by
    unfold numbered
    have : (bs.filterMap fun b => (tagNumber elasticPrefix b.1).map fun n => (n, b.2)) = [] := by
      rw [List.filterMap_eq_nil_iff]
      intro x hx
      rcases hk : tagNumber elasticPrefix x.1 with _ | m
      · rfl
      · exfalso
        obtain ⟨ds, hds, -⟩ := tagNumber_iff.1 hk
        obtain ⟨n, hn⟩ := h x hx ⟨['e', '_'] ++ ds, by rw [hds]; rfl⟩
        rw [elastic_ignores _ n hn] at hk; simp at hk
    rw [this]; rfl
  have hf : (bs.find? fun b => b.1 = dirichletName) = none := by
    rw [List.find?_eq_none]
    intro x hx hx'
    simp only [decide_eq_true_eq] at hx'
    obtain ⟨n, ds, hds, -⟩ := h x hx (by rw [hx'])
    rw [hx'] at hds
    simp [dirichletName] at hds
  unfold elasticFromTags elasticDirichlet
  rw [hn, hf]
  rfl

/-- **C63 (refuted for heat).** A heat task with a single boundary tagged `dirichlet` (no numbered one) is always rejected with
`AssertionError` if its facets exist. -/
theorem C63_heat_single_dirichlet_fails (b : Basis) (bs : List (Name × List ℕ)) (vals : Val) (dr : Option Bool)
    (design ids : List ℕ) (hn : ∀ x ∈ bs, ∀ n, ¬ IsTag (dirichletName ++ ['_']) x.1 n)
    (hd : (bs.find? fun b => b.1 = dirichletName) = some (dirichletName, ids)) (hids : ∀ i ∈ ids, i < b.facets.length)
    (hrn : ∀ x ∈ bs, ∀ n, ¬ IsTag "robin_".toList x.1 n) (hr1 : ∀ x ∈ bs, x.1 ≠ "robin".toList) :
    heatFromTags b bs vals dr design = .error .assertionError := by
  have hr : heatTag robinName bs = none := by
    have hnum : numbered (robinName ++ ['_']) bs = [] := by
      unfold numbered
      have : (bs.filterMap fun b => (tagNumber (robinName ++ ['_']) b.1).map fun n => (n, b.2)) = [] := by
        rw [List.filterMap_eq_nil_iff]
        intro x hx
        rcases hk : tagNumber (robinName ++ ['_']) x.1 with _ | m
        · rfl
        · exact absurd (tagNumber_iff.1 hk) (hrn x hx m)
      rw [this]; rfl
    have hf : (bs.find? fun b => b.1 = robinName) = none := by
      rw [List.find?_eq_none]
      intro x hx hx'
      simp only [decide_eq_true_eq] at hx'
      exact hr1 x hx hx'
    unfold heatTag
    rw [hnum, hf]; rfl
  have hnum : numbered (dirichletName ++ ['_']) bs = [] := by
    unfold numbered
    have : (bs.filterMap fun b => (tagNumber (dirichletName ++ ['_']) b.1).map fun n => (n, b.2)) = [] := by
      rw [List.filterMap_eq_nil_iff]
      intro x hx
      rcases hk : tagNumber (dirichletName ++ ['_']) x.1 with _ | m
      · rfl
      · exact absurd (tagNumber_iff.1 hk) (hn x hx m)
    rw [this]; rfl
  have ht : heatTag dirichletName bs = some (.arr ids) := by
    unfold heatTag
    rw [hnum, hd]; rfl
  have hall : (ids.all fun x => decide (x < b.facets.length)) = true := by simpa [List.all_eq_true] using hids
  simp only [heatFromTags, ht, hr, fromFacets, optionalDirichlet, dirichletFacetNodes, facetNodes, mergedFacetNodes, bind,
    Except.bind, Except.map]
  rw [if_pos hall]
  rfl

/-- **C63.** A heat task built from numbered tags gets the Dirichlet regions of the tags `dirichlet_N` and the Robin regions of the tags
`robin_N`, each in increasing numeric order, and nothing else. -/
theorem C63_heat_numbered_tags (b : Basis) (bs : List (Name × List ℕ)) (vals : Val) (dr : Option Bool) (design : List ℕ)
    (hd : bs.Pairwise fun x y => ∀ n, IsTag "dirichlet_".toList x.1 n → ¬ IsTag "dirichlet_".toList y.1 n)
    (hr : bs.Pairwise fun x y => ∀ n, IsTag "robin_".toList x.1 n → ¬ IsTag "robin_".toList y.1 n)
    (hex : ∃ x ∈ bs, ∃ n, IsTag "dirichlet_".toList x.1 n) (hno : ∀ x ∈ bs, x.1 ≠ "robin".toList) :
    ∃ ds rs : List (ℕ × List ℕ),
      ds.Pairwise (fun x y => x.1 < y.1) ∧ (∀ n ids, (n, ids) ∈ ds ↔ ∃ k, (k, ids) ∈ bs ∧ IsTag "dirichlet_".toList k n) ∧
      rs.Pairwise (fun x y => x.1 < y.1) ∧ (∀ n ids, (n, ids) ∈ rs ↔ ∃ k, (k, ids) ∈ bs ∧ IsTag "robin_".toList k n) ∧
      heatFromTags b bs vals dr design = fromFacets b {
        dirichletFacets := some (.lst (ds.map Prod.snd)), dirichletDir := none, dirichletValues := some vals
        neumannFacets := none, robinFacets := if rs = [] then none else some (.lst (rs.map Prod.snd))
        designRobin := dr, design := design } := by
  obtain ⟨ds, hd1, hd2, hd3⟩ := C63_numbered_tags_in_numeric_order _ bs hd
  obtain ⟨rs, hr1, hr2, hr3⟩ := C63_numbered_tags_in_numeric_order _ bs hr
  refine ⟨ds, rs, hd2, hd3, hr2, hr3, ?_⟩
  have hdne : ds ≠ [] := by
    obtain ⟨⟨k, ids⟩, hx, n, hn⟩ := hex
    have := (hd3 n ids).2 ⟨k, hx, hn⟩
    intro h
    rw [h] at this
    cases this
  have e1 : heatTag dirichletName bs = some (.lst (ds.map Prod.snd)) := by
    have hd1' : numbered (dirichletName ++ ['_']) bs = ds.map Prod.snd := hd1
    unfold heatTag
    rw [hd1', if_pos (by simpa using hdne)]
  have e2 : heatTag robinName bs = if rs = [] then none else some (.lst (rs.map Prod.snd)) := by
    have hr1' : numbered (robinName ++ ['_']) bs = rs.map Prod.snd := hr1
    have hf : (bs.find? fun b => b.1 = robinName) = none := by
      rw [List.find?_eq_none]
      intro x hx hx'
      simp only [decide_eq_true_eq] at hx'
      exact hno x hx hx'
    unfold heatTag
    rw [hr1', hf]
    by_cases h : rs = []
    · rw [if_neg (by simpa using h), if_pos h]; rfl
    · rw [if_pos (by simpa using h), if_neg h]
  unfold heatFromTags
  rw [e1, e2]

/-- **C63.** An elasticity task built from tags is supported at the region tagged `dirichlet` (or, if there are any, at the regions of the
tags `dirichlete_N` in increasing numeric order) and loaded at the regions of the tags `neumann_N`, in increasing numeric order:
it is the task built from these facets. -/
theorem C63_elastic_tags (b : Basis) (bs : List (Name × List ℕ)) (dir : Dir) (design : List ℕ)
    (hkeys : (bs.map Prod.fst).Nodup)
    (hd : bs.Pairwise fun x y => ∀ n, IsTag "dirichlete_".toList x.1 n → ¬ IsTag "dirichlete_".toList y.1 n)
    (hn : bs.Pairwise fun x y => ∀ n, IsTag "neumann_".toList x.1 n → ¬ IsTag "neumann_".toList y.1 n)
    (hex : ∃ x ∈ bs, ∃ n, IsTag "neumann_".toList x.1 n) :
    ∃ ds ns : List (ℕ × List ℕ),
      ds.Pairwise (fun x y => x.1 < y.1) ∧ (∀ n ids, (n, ids) ∈ ds ↔ ∃ k, (k, ids) ∈ bs ∧ IsTag "dirichlete_".toList k n) ∧
      ns.Pairwise (fun x y => x.1 < y.1) ∧ (∀ n ids, (n, ids) ∈ ns ↔ ∃ k, (k, ids) ∈ bs ∧ IsTag "neumann_".toList k n) ∧
      (ds ≠ [] → elasticFromTags b bs dir design = fromFacets b {
        dirichletFacets := some (.lst (ds.map Prod.snd)), dirichletDir := some dir, dirichletValues := none
        neumannFacets := some (.lst (ns.map Prod.snd)), robinFacets := none, designRobin := none, design := design }) ∧
      (∀ ids, ds = [] → ("dirichlet".toList, ids) ∈ bs → elasticFromTags b bs dir design = fromFacets b {
        dirichletFacets := some (.arr ids), dirichletDir := some dir, dirichletValues := none
        neumannFacets := some (.lst (ns.map Prod.snd)), robinFacets := none, designRobin := none, design := design }) := by
  obtain ⟨ds, hd1, hd2, hd3⟩ := C63_numbered_tags_in_numeric_order _ bs hd
  obtain ⟨ns, hn1, hn2, hn3⟩ := C63_numbered_tags_in_numeric_order _ bs hn
  have hne : ns ≠ [] := by
    obtain ⟨⟨k, ids⟩, hx, n, h⟩ := hex
    have := (hn3 n ids).2 ⟨k, hx, h⟩
    intro h'
    rw [h'] at this
    cases this
  have hd1' : numbered elasticPrefix bs = ds.map Prod.snd := hd1
  have hn1' : numbered (neumannName ++ ['_']) bs = ns.map Prod.snd := hn1
  have e2 : elasticNeumann bs = some (.lst (ns.map Prod.snd)) := by
    unfold elasticNeumann
    rw [hn1', if_pos (by simpa using hne)]
  refine ⟨ds, ns, hd2, hd3, hn2, hn3, fun h => ?_, fun ids h hi => ?_⟩
  · have e1 : elasticDirichlet bs = some (.lst (ds.map Prod.snd)) := by
      unfold elasticDirichlet
      rw [hd1', if_pos (by simpa using h)]
    unfold elasticFromTags
    rw [e1, e2]
  · have hf : (bs.find? fun b => b.1 = dirichletName) = some (dirichletName, ids) := by
      clear hd hn hex hd1 hn1 hd3 hn3 hd1' hn1' e2
      induction bs with
      | nil => cases hi
      | cons x l ih =>
        rw [List.map_cons, List.nodup_cons] at hkeys
        rcases List.mem_cons.1 hi with rfl | hi'
        · rw [List.find?_cons_of_pos (by exact decide_eq_true rfl)]; rfl
        · rw [List.find?_cons_of_neg, ih hkeys.2 hi']
          simp only [decide_eq_true_eq]
          intro e
          exact hkeys.1 (e ▸ List.mem_map_of_mem hi')
    have e1 : elasticDirichlet bs = some (.arr ids) := by
      unfold elasticDirichlet
      rw [hd1', h, if_neg (by simp), hf]; rfl
    unfold elasticFromTags
    rw [e1, e2]

/-- A strip of two squares with tagged ends. -/
def tagBasis : Basis where
  t := [[0, 1, 4, 3], [1, 2, 5, 4]]
  facets := [[0, 3], [2, 5], [1, 2]]
  nDofs := 6
  dofsAll := id
  dofsDir := fun _ _ => .error .keyError
  volumes := .ok ()

/-- Non-vacuity: with `dirichlet` the elasticity task is built, with `dirichlet_0` it is not; with `dirichlet_0` the heat task is
built, with `dirichlet` it is not. -/
example : (∃ T, elasticFromTags tagBasis [("dirichlet".toList, [0]), ("neumann_0".toList, [1])] (.one "all") [0, 1] = .ok T ∧
      T.design = [0]) ∧
    elasticFromTags tagBasis [("dirichlet_0".toList, [0]), ("neumann_0".toList, [1])] (.many ["all"]) [0, 1]
      = .error .indexError ∧
    (∃ T, heatFromTags tagBasis [("dirichlet_0".toList, [0])] .float none [0, 1] = .ok T ∧ T.design = [0, 1]) ∧
    heatFromTags tagBasis [("dirichlet".toList, [0])] .float none [0, 1] = .error .assertionError :=
  ⟨⟨_, rfl, by decide⟩, rfl, ⟨_, rfl, by decide⟩, rfl⟩

/-- Tags whose numbers are computed to be different. -/
theorem distinct_tags {pre : Name} {bs : List (Name × List ℕ)}
    (h : bs.Pairwise fun x y => tagNumber pre x.1 = none ∨ tagNumber pre x.1 ≠ tagNumber pre y.1) :
    bs.Pairwise fun x y => ∀ n, IsTag pre x.1 n → ¬ IsTag pre y.1 n := by
  refine h.imp fun {x y} h n hx hy => ?_
  rw [← tagNumber_iff] at hx hy
  rcases h with h | h
  · rw [h] at hx; cases hx
  · exact h (hx.trans hy.symm)

/-- Non-vacuity: two loads and one support, in any order of the tags. -/
example : let bs : List (Name × List ℕ) := [("neumann_10".toList, [1]), ("dirichlet".toList, [0]), ("neumann_2".toList, [1])]
    (bs.map Prod.fst).Nodup ∧
    (bs.Pairwise fun x y => ∀ n, IsTag "dirichlete_".toList x.1 n → ¬ IsTag "dirichlete_".toList y.1 n) ∧
    (bs.Pairwise fun x y => ∀ n, IsTag "neumann_".toList x.1 n → ¬ IsTag "neumann_".toList y.1 n) ∧
    (∃ x ∈ bs, ∃ n, IsTag "neumann_".toList x.1 n) ∧
    ∃ T, elasticFromTags tagBasis bs (.one "all") [0, 1] = .ok T ∧ T.design = [0] := by
  intro bs
  refine ⟨by decide, distinct_tags (by decide), distinct_tags (by decide),
    ⟨("neumann_10".toList, [1]), by decide, 10, tagNumber_iff.1 (by decide)⟩, ⟨_, rfl, by decide⟩⟩

/-! ### C51: scaling -/

/-- **C51 (partial: values).** Scaling by `(1/L, 1/F)` and then by `(L, F)`, with non-zero factors, restores the coordinates and the
load vectors the solver uses. -/
theorem C51_scale_unscale_restores_partial {n : ℕ} (hn : n ≠ 1) (s : Scaled n) (L F : ℝ) (hL : L ≠ 0) (hF : F ≠ 0) :
    ∃ s1 s2, s.scale (1 / L) (1 / F) = .ok s1 ∧ s1.scale L F = .ok s2 ∧ s2.coords = s.coords ∧
      s2.forceList = s.forceList ∧ s2.volumes = s.volumes := by
  have hc : (fun i j => s.coords i j * (1 / L) * L) = s.coords := by
    funext i j; field_simp
  have hv : ∀ v : Fin n → ℝ, (fun i => v i * (1 / F) * F) = v := by
    intro v; funext i; field_simp
  rcases s with ⟨p, ls | v, vol⟩
  · rcases ls with _ | ⟨a, _ | ⟨b, ls⟩⟩
    · exact ⟨_, _, rfl, rfl, hc, rfl, rfl⟩
    · refine ⟨_, _, rfl, if_neg hn, hc, ?_, rfl⟩
      simp only [Scaled.forceList, hv]
    · refine ⟨_, _, rfl, rfl, hc, ?_, rfl⟩
      simp only [Scaled.forceList, List.map_cons, List.map_map, hv]
      congr 2
      conv_rhs => rw [← List.map_id ls]
      apply List.map_congr_left
      intro v _
      exact hv v
  · refine ⟨_, _, if_neg hn, if_neg hn, hc, ?_, rfl⟩
    simp only [Scaled.forceList, hv]

/-- **C51.** With two or more load cases, scaling keeps the number of load cases and multiplies every load by the factor. -/
theorem C51_multi_load_scaled_linearly {n : ℕ} (p : ℕ → Fin 3 → ℝ) (ls : List (Fin n → ℝ)) (vol : List ℝ)
    (h : 2 ≤ ls.length) (L F : ℝ) :
    ∃ s1, Scaled.scale ⟨p, .list ls, vol⟩ L F = .ok s1 ∧ s1.nTasks = ls.length ∧
      s1.forceList = ls.map (fun v i => v i * F) ∧ ∀ i j, s1.coords i j = p i j * L := by
  rcases ls with _ | ⟨a, _ | ⟨b, ls⟩⟩
  · simp at h
  · simp at h
  · exact ⟨_, rfl, by simp [Scaled.nTasks], rfl, fun _ _ => rfl⟩

/-- **C51 (refuted for one load case).** After scaling a task with one load the number of load cases reported is the number of
degrees of freedom. -/
theorem C51_single_load_count_wrong {n : ℕ} (p : ℕ → Fin 3 → ℝ) (v : Fin n → ℝ) (vol : List ℝ) (L F : ℝ) :
    (⟨p, .list [v], vol⟩ : Scaled n).nTasks = 1 ∧
    ∃ s1, Scaled.scale ⟨p, .list [v], vol⟩ L F = .ok s1 ∧ s1.nTasks = n ∧ s1.forceList.length = 1 :=
  ⟨rfl, _, rfl, rfl, rfl⟩

/-- **C51 (consequence).** The optimizer averages sensitivities over the reported number of load cases, but only the first has a
solution. With `scaling=True` and one load the sensitivity is therefore divided by the number of degrees of freedom. -/
theorem C51_scaled_sensitivity_diluted {n : ℕ} (hn : 0 < n) (p : ℕ → Fin 3 → ℝ) (v : Fin n → ℝ) (vol : List ℝ) (Lmax : ℝ)
    (sens : ℕ → ℝ) (hs : ∀ j, 1 ≤ j → sens j = 0) :
    averaged (⟨p, .list [v], vol⟩ : Scaled n).nTasks sens = sens 0 ∧
    ∃ s1, Scaled.optimizerScale ⟨p, .list [v], vol⟩ Lmax = .ok s1 ∧ averaged s1.nTasks sens = sens 0 / n := by
  constructor
  · show (∑ j : Fin 1, sens j) / ((1 : ℕ) : ℝ) = sens 0
    rw [Fin.sum_univ_one]
    simp
  · refine ⟨_, rfl, ?_⟩
    unfold averaged
    congr 1
    show ∑ j : Fin n, sens j = sens 0
    rw [Finset.sum_eq_single (⟨0, hn⟩ : Fin n)]
    · intro j _ hj
      exact hs _ (Nat.one_le_iff_ne_zero.2 fun h => hj (Fin.ext h))
    · simp

/-- Non-vacuity: a load vector of 300 degrees of freedom. -/
example : ∃ s1, Scaled.optimizerScale (⟨fun _ _ => 2, .list [fun _ => 10 ^ 5], [1]⟩ : Scaled 300) 4 = .ok s1 ∧
    s1.nTasks = 300 ∧ s1.forceList = [fun _ => 1] ∧ s1.coords 0 0 = 1 / 2 := by
  refine ⟨_, rfl, rfl, ?_, ?_⟩
  · simp [Scaled.forceList]
  · norm_num

end Verif.Load
