import Verif.Props.Helmholtz
import Mathlib.Data.Finset.Card
import Mathlib.Tactic.FinCases
import Mathlib.Data.List.Perm.Basic
import Mathlib.Data.List.Perm.Subperm
import Mathlib.Data.Finset.Sort
import Mathlib.Tactic.Push

/-! Property theorems C57 (d)-(g): which faces the element adjacency uses. -/
namespace Verif.Props
open Verif

/-- The vertices of an element selected by a predicate on the local vertex number. -/
def verticesWhere {k : ℕ} (t : Fin k → ℕ) (sel : Fin k → Bool) : List ℕ := ((List.finRange k).filter sel).map t

/-- Corner coordinates of the reference cube in the usual (VTK) vertex order: bottom square counter-clockwise, then the
top square. -/
def vtkCorner : Fin 8 → Fin 3 → Bool :=
  ![![false, false, false], ![true, false, false], ![true, true, false], ![false, true, false],
    ![false, false, true], ![true, false, true], ![true, true, true], ![false, true, true]]

/-- Corner coordinates of the reference cube in the vertex order of scikit-fem's `MeshHex` (`RefHex.p`). -/
def skfemCorner : Fin 8 → Fin 3 → Bool :=
  ![![true, true, true], ![true, true, false], ![true, false, true], ![false, true, true],
    ![true, false, false], ![false, true, false], ![false, false, true], ![false, false, false]]

theorem mem_keys {L : List (List ℕ)} {f : List ℕ} :
    f ∈ L.map Adjacency.key ↔ f.Pairwise (· ≤ ·) ∧ ∃ l ∈ L, f.Perm l := by
  simp only [List.mem_map]
  constructor
  · rintro ⟨l, hl, rfl⟩
    exact ⟨List.pairwise_insertionSort _ _, l, hl, List.perm_insertionSort _ _⟩
  · rintro ⟨hs, l, hl, hp⟩
    refine ⟨l, hl, ?_⟩
    have : Adjacency.key f = f := hs.insertionSort_eq
    rw [← this]
    exact (C57_face_key_order_free _ _).mpr hp.symm

/-- **C57 (d)** The faces of a tetrahedron, as used for the adjacency, are exactly its four vertex triples (each vertex
omitted once), in increasing node order. -/
theorem C57_tet_faces (t : Fin 4 → ℕ) (f : List ℕ) :
    f ∈ Adjacency.tetFaces t ↔
      f.Pairwise (· ≤ ·) ∧ ∃ omitted : Fin 4, f.Perm (verticesWhere t fun k => k ≠ omitted) := by
  have h : Adjacency.tetFaces t = List.map Adjacency.key
      [[t 0, t 1, t 2], [t 0, t 1, t 3], [t 0, t 2, t 3], [t 1, t 2, t 3]] := rfl
  rw [h, mem_keys]
  apply and_congr_right
  intro _
  have e : ∀ o : Fin 4, verticesWhere t (fun k => k ≠ o) =
      ![[t 1, t 2, t 3], [t 0, t 2, t 3], [t 0, t 1, t 3], [t 0, t 1, t 2]] o := by
    intro o; fin_cases o <;> rfl
  simp only [e, ]
  simp [Fin.exists_fin_succ]
  tauto

/-- The local vertex quadruples of `hexFaces`. -/
def hexTable : List (List (Fin 8)) :=
  [[0, 1, 2, 3], [4, 5, 6, 7], [0, 1, 5, 4], [2, 3, 7, 6], [0, 3, 7, 4], [1, 2, 6, 5]]

theorem hexFaces_eq (t : Fin 8 → ℕ) :
    Adjacency.hexFaces t = List.map Adjacency.key (List.map (List.map t) hexTable) := rfl

/-- **C57 (e)** The faces of a hexahedron whose vertices are numbered in the VTK order are exactly the six faces of the
cube: for every axis and side, the four vertices on that side. -/
theorem C57_hex_faces (t : Fin 8 → ℕ) (f : List ℕ) :
    f ∈ Adjacency.hexFaces t ↔
      f.Pairwise (· ≤ ·) ∧ ∃ (axis : Fin 3) (side : Bool), f.Perm (verticesWhere t fun k => vtkCorner k axis = side) := by
  rw [hexFaces_eq, mem_keys]
  apply and_congr_right
  intro _
  have h1 : ∀ m ∈ hexTable, ∃ (a : Fin 3) (s : Bool),
      m.Perm ((List.finRange 8).filter fun k => vtkCorner k a = s) := by decide
  have h2 : ∀ (a : Fin 3) (s : Bool), ∃ m ∈ hexTable,
      m.Perm ((List.finRange 8).filter fun k => vtkCorner k a = s) := by decide
  constructor
  · rintro ⟨l, hl, hp⟩
    obtain ⟨m, hm, rfl⟩ := List.mem_map.mp hl
    obtain ⟨a, s, h⟩ := h1 m hm
    exact ⟨a, s, hp.trans (h.map t)⟩
  · rintro ⟨a, s, hp⟩
    obtain ⟨m, hm, h⟩ := h2 a s
    exact ⟨_, List.mem_map.mpr ⟨m, hm, rfl⟩, hp.trans (h.map t).symm⟩

/-- **C57 (f)** On a conforming tetrahedral mesh (every vertex triple lies in at most two elements) the neighbours of an
element are exactly the other elements with at least three vertices in common with it. -/
theorem C57_tet_neighbours {n : ℕ} (t : Fin n → Fin 4 → ℕ) (hinj : ∀ i, Function.Injective (t i))
    (hconf : ∀ (S : Finset ℕ) (i j l : Fin n), S.card = 3 → S ⊆ Finset.univ.image (t i) →
      S ⊆ Finset.univ.image (t j) → S ⊆ Finset.univ.image (t l) → i = j ∨ i = l ∨ j = l) (i j : Fin n) :
    j ∈ Adjacency.adjacency (fun i => Adjacency.tetFaces (t i)) i ↔
      i ≠ j ∧ 3 ≤ (Finset.univ.image (t i) ∩ Finset.univ.image (t j)).card := by
  have face : ∀ i f, f ∈ Adjacency.tetFaces (t i) ↔
      f.Pairwise (· ≤ ·) ∧ f.Nodup ∧ f.length = 3 ∧ f.toFinset ⊆ Finset.univ.image (t i) := by
    intro i f
    rw [C57_tet_faces]
    apply and_congr_right
    intro _
    constructor
    · rintro ⟨o, hp⟩
      refine ⟨?_, ?_, ?_⟩
      · rw [hp.nodup_iff]
        exact ((List.nodup_finRange 4).filter _).map (hinj i)
      · rw [hp.length_eq]
        unfold verticesWhere
        rw [List.length_map]
        clear hp
        revert o
        decide
      · intro x hx
        rw [List.mem_toFinset, hp.mem_iff] at hx
        obtain ⟨k, -, rfl⟩ := List.mem_map.mp hx
        exact Finset.mem_image_of_mem _ (Finset.mem_univ k)
    · rintro ⟨hn, hl, hsub⟩
      have hc : (f.toFinset).card = 3 := by rw [List.toFinset_card_of_nodup hn, hl]
      have hc4 : (Finset.univ.image (t i)).card = 4 := by
        rw [Finset.card_image_of_injective _ (hinj i), Finset.card_univ, Fintype.card_fin]
      obtain ⟨x, hx, hxf⟩ : ∃ x ∈ Finset.univ.image (t i), x ∉ f.toFinset := by
        by_contra hcon
        push Not at hcon
        have := Finset.card_le_card hcon
        omega
      obtain ⟨o, -, rfl⟩ := Finset.mem_image.mp hx
      refine ⟨o, ?_⟩
      have hn' : (verticesWhere (t i) fun k => k ≠ o).Nodup :=
        ((List.nodup_finRange 4).filter _).map (hinj i)
      have hl' : (verticesWhere (t i) fun k => k ≠ o).length = 3 := by
        unfold verticesWhere
        rw [List.length_map]
        clear hx hxf hn'
        revert o
        decide
      have hs : f ⊆ verticesWhere (t i) fun k => k ≠ o := by
        intro y hy
        have hy' := hsub (List.mem_toFinset.mpr hy)
        obtain ⟨k, -, rfl⟩ := Finset.mem_image.mp hy'
        refine List.mem_map.mpr ⟨k, List.mem_filter.mpr ⟨List.mem_finRange k, ?_⟩, rfl⟩
        simp only [ne_eq, decide_eq_true_eq]
        rintro rfl
        exact hxf (List.mem_toFinset.mpr hy)
      exact (List.subperm_of_subset hn hs).perm_of_length_le (by rw [hl, hl'])
  have fin : ∀ (S : Finset ℕ), S.card = 3 → ∃ f : List ℕ, f.Pairwise (· ≤ ·) ∧ f.Nodup ∧ f.length = 3 ∧ f.toFinset = S := by
    intro S hS
    exact ⟨S.sort (· ≤ ·), Finset.pairwise_sort _ _, Finset.sort_nodup _ _, by rw [Finset.length_sort, hS],
      Finset.sort_toFinset _ _⟩
  rw [C57_adjacency_exact]
  · apply and_congr_right
    intro _
    constructor
    · rintro ⟨f, h1, h2⟩
      have h1 := (face i f).mp h1
      have h2 := (face j f).mp h2
      rw [← h1.2.2.1, ← List.toFinset_card_of_nodup h1.2.1]
      exact Finset.card_le_card (Finset.subset_inter h1.2.2.2 h2.2.2.2)
    · intro h
      obtain ⟨S, hS, hc⟩ := Finset.exists_subset_card_eq h
      obtain ⟨f, h1, h2, h3, h4⟩ := fin S hc
      refine ⟨f, (face i f).mpr ⟨h1, h2, h3, ?_⟩, (face j f).mpr ⟨h1, h2, h3, ?_⟩⟩
      · rw [h4]; exact hS.trans Finset.inter_subset_left
      · rw [h4]; exact hS.trans Finset.inter_subset_right
  · intro i
    have h : Adjacency.tetFaces (t i) = List.map Adjacency.key (List.map (List.map (t i))
        [[0, 1, 2], [0, 1, 3], [0, 2, 3], [1, 2, 3]]) := rfl
    rw [h, List.map_map]
    refine List.Nodup.map_on ?_ (by decide)
    intro x hx y hy hxy
    have hp := (C57_face_key_order_free _ _).mp hxy
    rw [List.map_perm_map_iff (hinj i)] at hp
    have key : ∀ x ∈ [[0, 1, 2], [0, 1, 3], [0, 2, 3], [1, 2, (3 : Fin 4)]],
        ∀ y ∈ [[0, 1, 2], [0, 1, 3], [0, 2, 3], [1, 2, (3 : Fin 4)]], x.Perm y → x = y := by decide
    exact key x hx y hy hp
  · intro f i j l h1 h2 h3
    have h1 := (face i f).mp h1
    have h2 := (face j f).mp h2
    have h3 := (face l f).mp h3
    exact hconf f.toFinset i j l (by rw [List.toFinset_card_of_nodup h1.2.1, h1.2.2.1]) h1.2.2.2 h2.2.2.2 h3.2.2.2

/-- **C57 (g, refuted for scikit-fem hexahedra)** In the vertex order of scikit-fem's `MeshHex` the face table is wrong:
none of the six vertex quadruples used for the adjacency is a face of the hexahedron. -/
theorem C57_hex_faces_skfem_wrong (t : Fin 8 → ℕ) (hinj : Function.Injective t) (f : List ℕ)
    (hf : f ∈ Adjacency.hexFaces t) (axis : Fin 3) (side : Bool) :
    ¬ f.Perm (verticesWhere t fun k => skfemCorner k axis = side) := by
  rw [hexFaces_eq, mem_keys] at hf
  obtain ⟨-, l, hl, hp⟩ := hf
  obtain ⟨m, hm, rfl⟩ := List.mem_map.mp hl
  intro hc
  have h2 := hp.symm.trans hc
  unfold verticesWhere at h2
  rw [List.map_perm_map_iff hinj] at h2
  have key : ∀ (a : Fin 3) (s : Bool), ∀ m ∈ hexTable,
      ¬ m.Perm ((List.finRange 8).filter fun k => skfemCorner k a = s) := by decide
  exact key axis side m hm h2

/-- Two unit cubes side by side (nodes numbered `x + 3 y + 6 z`), vertices in scikit-fem's order: they share a face, but
the element filter's adjacency makes neither a neighbour of the other — whichever of the orders `MeshHex` and
`fix_hexahedron_orientation` (which swaps vertices 1 and 3) is used. -/
theorem C57_hex_neighbours_skfem_lost :
    let corner (x y z : ℕ) : ℕ := x + 3 * y + 6 * z
    let cube (x : ℕ) : Fin 8 → ℕ := fun k => corner (x + if skfemCorner k 0 then 1 else 0)
      (if skfemCorner k 1 then 1 else 0) (if skfemCorner k 2 then 1 else 0)
    let swap (t : Fin 8 → ℕ) : Fin 8 → ℕ := ![t 0, t 3, t 2, t 1, t 4, t 5, t 6, t 7]
    (Finset.univ.image (cube 0) ∩ Finset.univ.image (cube 1)).card = 4 ∧
    Adjacency.adjacency ![Adjacency.hexFaces (cube 0), Adjacency.hexFaces (cube 1)] 0 = [] ∧
    Adjacency.adjacency ![Adjacency.hexFaces (swap (cube 0)), Adjacency.hexFaces (swap (cube 1))] 0 = [] := by
  decide

/-- A concrete conforming mesh meeting the hypotheses of C57 (f): two tetrahedra sharing a triangle. -/
example : let t : Fin 2 → Fin 4 → ℕ := ![![0, 1, 2, 3], ![3, 2, 1, 4]]
    (∀ i, Function.Injective (t i)) ∧ 3 ≤ (Finset.univ.image (t 0) ∩ Finset.univ.image (t 1)).card ∧
    (∀ (S : Finset ℕ) (i j l : Fin 2), S.card = 3 → S ⊆ Finset.univ.image (t i) →
      S ⊆ Finset.univ.image (t j) → S ⊆ Finset.univ.image (t l) → i = j ∨ i = l ∨ j = l) := by
  refine ⟨by decide, by decide, ?_⟩
  intro S i j l _ _ _ _
  exact (by decide : ∀ i j l : Fin 2, i = j ∨ i = l ∨ j = l) i j l

end Verif.Props
