import Verif.Model.ToyMsh
import Verif.Spec.Mesh
import Mathlib.Tactic.SplitIfs
import Mathlib.Tactic.NormNum

/-! C143: the predefined problems on a mesh file. -/
namespace Verif.ToyMsh
open Verif.Geometry
open Verif.Mesh.Spec (Lists)

/-- The box with opposite corners `lo` and `hi`, boundary included. -/
def InBox (lo hi v : Vec) : Prop := ∀ k, lo k ≤ v k ∧ v k ≤ hi k

/-- A mesh file with tetrahedra or hexahedra and at least two points. -/
def Usable (M : Msh) : Prop := ("tetra" ∈ M.cellTypes ∨ "hexahedron" ∈ M.cellTypes) ∧ 2 ≤ M.points.length

/-- `d` is the distance between the first point and the nearest of the others. -/
def FirstSpacing (points : List Vec) (d : ℝ) : Prop :=
  (∃ j, 0 < j ∧ j < points.length ∧ d = Real.sqrt (∑ k, (points.getD j 0 k - points.getD 0 0 k) ^ 2)) ∧
    ∀ j, 0 < j → j < points.length → d ≤ Real.sqrt (∑ k, (points.getD j 0 k - points.getD 0 0 k) ^ 2)

theorem satisfying_pairs (xs : List Vec) (a b c d e f : ℝ) :
    ∃ l, satisfying xs (.pair a b) (.pair c d) (.pair e f) = .ok l ∧
      Lists l fun i => i < xs.length ∧ InBox ![a, c, e] ![b, d, f] (xs.getD i 0) := by
  refine ⟨_, rfl, List.pairwise_lt_range.filter _, fun i => ?_⟩
  rw [List.mem_filter, List.mem_range]
  refine and_congr_right fun _ => ?_
  refine (show _ ↔ (_ ∧ _ ∧ _) from by simp only [decide_eq_true_iff]; exact Iff.rfl).trans ?_
  unfold InBox
  constructor
  · rintro ⟨h0, h1, h2⟩ k
    fin_cases k
    · exact h0
    · exact h1
    · exact h2
  · exact fun h => ⟨h 0, h 1, h 2⟩

theorem spacing_ok {points : List Vec} (h : 2 ≤ points.length) :
    ∃ d, FirstSpacing points d ∧ spacing points = .ok (d * (8 / 10)) := by
  rcases points with _ | ⟨a, _ | ⟨b, rest⟩⟩
  · simp at h
  · simp at h
  · have hne : ((b :: rest).map fun v : Vec => Real.sqrt ((v 0 - a 0) ^ 2 + (v 1 - a 1) ^ 2 + (v 2 - a 2) ^ 2)) ≠ [] := by simp
    obtain ⟨d, hd⟩ : ∃ d, ((b :: rest).map fun v : Vec =>
        Real.sqrt ((v 0 - a 0) ^ 2 + (v 1 - a 1) ^ 2 + (v 2 - a 2) ^ 2)).min? = some d :=
      Option.isSome_iff_exists.mp (by simp)
    have hd' := hd
    rw [List.min?_eq_some_iff] at hd
    refine ⟨d, ⟨?_, ?_⟩, by simp only [spacing]; rw [hd']⟩
    · obtain ⟨v, hv, rfl⟩ := List.mem_map.mp hd.1
      obtain ⟨i, hi, rfl⟩ := List.getElem_of_mem hv
      refine ⟨i + 1, by omega, by simpa using hi, ?_⟩
      rw [Fin.sum_univ_three]
      simp only [List.getD_eq_getElem?_getD, List.getElem?_cons_succ, List.getElem?_cons_zero, List.getElem?_eq_getElem hi, Option.getD_some]
    · intro j hj hjl
      obtain ⟨i, rfl⟩ : ∃ i, j = i + 1 := ⟨j - 1, by omega⟩
      have hi : i < (b :: rest).length := by simpa using hjl
      rw [Fin.sum_univ_three]
      simp only [List.getD_eq_getElem?_getD, List.getElem?_cons_succ, List.getElem?_cons_zero, List.getElem?_eq_getElem hi, Option.getD_some]
      exact hd.2 _ (List.mem_map.mpr ⟨_, List.getElem_mem hi, rfl⟩)

theorem load_ok {M : Msh} (h : "tetra" ∈ M.cellTypes ∨ "hexahedron" ∈ M.cellTypes) : ∃ c, Loader.loadMeshAuto M.cellTypes = .ok c := by
  unfold Loader.loadMeshAuto
  split_ifs with h1 h2
  · exact ⟨_, rfl⟩
  · exact ⟨_, rfl⟩
  · exact absurd h (by simp [h1, h2])

/-- **C143 (a), what holds.** On every usable mesh file the problems "down" and "down_box" are set up: the support is the facets whose
midpoint is in the slab `0 ≤ x ≤ 0.05` of the box, the downward force of 800 acts on the facets whose midpoint is in the patch at the far lower edge
that is as wide as 0.8 times the spacing at the first point, and the design elements are those with their centre in the box. Missing: the
other two names, see `C143_pull_always_raises`. -/
theorem C143_down_problems_partial (M : Msh) (hM : Usable M) (name : String) (y : ℝ) (box : Bool)
    (hname : (name = "down" ∧ y = 16 / 100 ∧ box = false) ∨ (name = "down_box" ∧ y = 3 ∧ box = true)) :
    ∃ d c, FirstSpacing M.points d ∧ toyMsh name M = .ok c ∧
      Lists c.support (fun i => i < M.facets.length ∧ InBox ![0, 0, 0] ![5 / 100, y, 2] (M.facets.getD i 0)) ∧
      Lists c.loaded (fun i => i < M.facets.length ∧
        InBox ![4 - d * (8 / 10), if box then 0 else y / 2 - d * (8 / 10), 0]
          ![4 + 5 / 100, if box then y else y / 2 + d * (8 / 10), d * (8 / 10)] (M.facets.getD i 0)) ∧
      c.direction = "u^3" ∧ c.value = -800 ∧
      Lists c.design (fun i => i < M.elements.length ∧ InBox ![0, 0, 0] ![4, y, 2] (M.elements.getD i 0)) := by
  obtain ⟨hc, hp⟩ := hM
  obtain ⟨cls, hcls⟩ := load_ok hc
  obtain ⟨d, hd, hs⟩ := spacing_ok hp
  rcases hname with ⟨rfl, rfl, rfl⟩ | ⟨rfl, rfl, rfl⟩
  · obtain ⟨l1, e1, h1⟩ := satisfying_pairs M.facets 0 (5 / 100) 0 (16 / 100) 0 2
    obtain ⟨l2, e2, h2⟩ := satisfying_pairs M.facets (4 - d * (8 / 10)) (4 + 5 / 100) (16 / 100 / 2 - d * (8 / 10))
      (16 / 100 / 2 + d * (8 / 10)) 0 (d * (8 / 10))
    obtain ⟨l3, e3, h3⟩ := satisfying_pairs M.elements 0 4 0 (16 / 100) 0 2
    refine ⟨d, ⟨l1, l2, "u^3", -800, l3⟩, hd, ?_, h1, by simpa using h2, rfl, rfl, h3⟩
    unfold toyMsh
    simp only [hcls, hs, lengths, if_true, e1, patch, e2, e3]
  · obtain ⟨l1, e1, h1⟩ := satisfying_pairs M.facets 0 (5 / 100) 0 3 0 2
    obtain ⟨l2, e2, h2⟩ := satisfying_pairs M.facets (4 - d * (8 / 10)) (4 + 5 / 100) 0 3 0 (d * (8 / 10))
    obtain ⟨l3, e3, h3⟩ := satisfying_pairs M.elements 0 4 0 3 0 2
    refine ⟨d, ⟨l1, l2, "u^3", -800, l3⟩, hd, ?_, h1, by simpa using h2, rfl, rfl, h3⟩
    unfold toyMsh
    simp only [hcls, hs, lengths, if_neg (show ¬ ("down_box" = "down") by decide), if_true, e1, patch, e2, e3]

/-- **C143 (b), negation.** The problems "pull" and "pull_2" cannot be set up on any mesh: the range in x is a pair inside a tuple, so testing
the facets raises a ValueError, or an IndexError if there are one or two facets. -/
theorem C143_pull_always_raises (M : Msh) (name : String) (hname : name = "pull" ∨ name = "pull_2") :
    (∃ e, toyMsh name M = .error e) ∧
      (Usable M → toyMsh name M = .error (if M.facets.length = 1 ∨ M.facets.length = 2 then .indexError else .valueError)) := by
  have key : Usable M → toyMsh name M = .error (if M.facets.length = 1 ∨ M.facets.length = 2 then .indexError else .valueError) := by
    rintro ⟨hc, hp⟩
    obtain ⟨cls, hcls⟩ := load_ok hc
    obtain ⟨d, hd, hs⟩ := spacing_ok hp
    rcases hname with rfl | rfl
    · obtain ⟨l1, e1, h1⟩ := satisfying_pairs M.facets 0 (5 / 100) 0 3 0 (1 / 2)
      unfold toyMsh
      simp only [hcls, hs, lengths, if_neg (show ¬ ("pull" = "down") by decide), if_neg (show ¬ ("pull" = "down_box") by decide), if_true,
        e1, patch, satisfying, axis]
      split_ifs <;> rfl
    · obtain ⟨l1, e1, h1⟩ := satisfying_pairs M.facets 0 (5 / 100) 0 2 0 (1 / 2)
      unfold toyMsh
      simp only [hcls, hs, lengths, if_neg (show ¬ ("pull_2" = "down") by decide), if_neg (show ¬ ("pull_2" = "down_box") by decide),
        if_neg (show ¬ ("pull_2" = "pull") by decide), if_true, e1, patch, satisfying, axis]
      split_ifs <;> rfl
  refine ⟨?_, key⟩
  by_cases hM : Usable M
  · exact ⟨_, key hM⟩
  · unfold toyMsh
    cases hl : Loader.loadMeshAuto M.cellTypes with
    | error e => exact ⟨_, rfl⟩
    | ok c =>
      have hc : "tetra" ∈ M.cellTypes ∨ "hexahedron" ∈ M.cellTypes := by
        unfold Loader.loadMeshAuto at hl
        split_ifs at hl with h1 h2
        · exact Or.inl h1
        · exact Or.inr h2
      have hp : M.points.length < 2 := by
        by_contra h
        exact hM ⟨hc, by omega⟩
      simp only
      rcases hpt : M.points with _ | ⟨a, _ | ⟨b, rest⟩⟩
      · exact ⟨_, rfl⟩
      · exact ⟨_, rfl⟩
      · rw [hpt] at hp; simp at hp

/-- **C143 (c).** Any other name is an error on every mesh; on a usable one an UnboundLocalError. -/
theorem C143_unknown_name_raises (M : Msh) (name : String) (hname : name ∉ ["down", "down_box", "pull", "pull_2"]) :
    (∃ e, toyMsh name M = .error e) ∧ (Usable M → toyMsh name M = .error .unboundLocal) := by
  simp only [List.mem_cons, List.not_mem_nil, or_false, not_or] at hname
  obtain ⟨h1, h2, h3, h4⟩ := hname
  have hl : lengths name = none := by simp [lengths, h1, h2, h3, h4]
  constructor
  · unfold toyMsh
    cases Loader.loadMeshAuto M.cellTypes with
    | error e => exact ⟨_, rfl⟩
    | ok c =>
      cases spacing M.points with
      | error e => exact ⟨_, rfl⟩
      | ok eps => simp only [hl]; exact ⟨_, rfl⟩
  · rintro ⟨hc, hp⟩
    obtain ⟨cls, hcls⟩ := load_ok hc
    obtain ⟨d, -, hs⟩ := spacing_ok hp
    unfold toyMsh
    simp only [hcls, hs, hl]

/-- The hypotheses are met by a mesh with two points at distance 1, a facet on the support and a facet at the far lower edge: on "down_box" the
first is clamped and the second loaded, and "pull" is an IndexError. -/
example : let M : Msh := ⟨["tetra"], [0, ![1, 0, 0]], [![0, 1, 1], ![4, 1, 0]], [![2, 1, 1]]⟩
    Usable M ∧ (∃ c, toyMsh "down_box" M = .ok c ∧ 0 ∈ c.support ∧ 1 ∉ c.support ∧ 1 ∈ c.loaded ∧ 0 ∈ c.design) ∧
      toyMsh "pull" M = .error .indexError := by
  intro M
  have hU : Usable M := ⟨Or.inl (by simp [M]), by simp [M]⟩
  refine ⟨hU, ?_, by simpa [M] using (C143_pull_always_raises M "pull" (Or.inl rfl)).2 hU⟩
  obtain ⟨d, c, ⟨⟨j, hj, hj2, hd⟩, -⟩, hc, hs, hl, -, -, hde⟩ := C143_down_problems_partial M hU "down_box" 3 true (Or.inr ⟨rfl, rfl, rfl⟩)
  have hd0 : 0 ≤ d := hd ▸ Real.sqrt_nonneg _
  refine ⟨c, hc, (hs.2 0).mpr ⟨by simp [M], ?_⟩, fun h => ?_, (hl.2 1).mpr ⟨by simp [M], ?_⟩, (hde.2 0).mpr ⟨by simp [M], ?_⟩⟩
  · intro k; fin_cases k <;> simp [M] <;> norm_num
  · have := (((hs.2 1).mp h).2 0).2
    simp [M] at this
    norm_num at this
  · intro k; fin_cases k <;> simp [M] <;> first | positivity | (constructor <;> linarith) | norm_num | linarith
  · intro k; fin_cases k <;> simp [M] <;> norm_num

end Verif.ToyMsh
