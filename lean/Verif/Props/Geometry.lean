import Verif.Model.Geometry
import Mathlib.MeasureTheory.Measure.Lebesgue.EqHaar
import Mathlib.LinearAlgebra.Matrix.Determinant.Basic
import Mathlib.LinearAlgebra.Determinant
import Mathlib.Tactic.LinearCombination

/-! Theorems about element geometry (C43, C44). -/
namespace Verif.Geometry
open MeasureTheory

/-! ### Specification -/

/-- Lebesgue volume of the parallelepiped with corner `o` and edges `a`, `b`, `c`. -/
noncomputable def boxVolume (a b c : Vec) : ℝ := (volume (parallelepiped ![a, b, c])).toReal

/-- The eight corners of that parallelepiped, in the order drawn in composer.py:214–220. -/
def boxCorners (o a b c : Vec) : Fin 8 → Vec :=
  ![o, o + a, o + a + b, o + b, o + c, o + a + c, o + a + b + c, o + b + c]

/-- The same corners in the order of the reference hexahedron of scikit-fem (`skfem.refdom.RefHex`). -/
def skfemCorners (o a b c : Vec) : Fin 8 → Vec :=
  ![o + a + b + c, o + a + b, o + a + c, o + b + c, o + a, o + b, o + c, o]

theorem triple_eq_det (a b c : Vec) : triple a b c = Matrix.det (Matrix.of ![a, b, c]) := by
  simp [triple, Matrix.det_fin_three]; ring

theorem boxVolume_eq (a b c : Vec) : boxVolume a b c = |triple a b c| := by
  unfold boxVolume
  have h : (volume : Measure Vec) = (Pi.basisFun ℝ (Fin 3)).addHaar := by
    rw [← addHaarMeasure_eq_volume_pi, Module.Basis.addHaar, Module.Basis.parallelepiped_basisFun]
  rw [h, Measure.addHaar_parallelepiped, ENNReal.toReal_ofReal (abs_nonneg _), triple_eq_det]
  congr 1
  rw [Module.Basis.det_apply, ← Matrix.det_transpose]
  congr 1

/-! ### C43 -/

/-- **C43.** For every mesh: after `fix_tetrahedron_orientation` every tetrahedron has non-negative signed volume, its
nodes are those of the original element (reordered), the size of its volume is unchanged, and elements that were
positively oriented are untouched. -/
theorem C43_tets_positive_same_vertices (p : ℕ → Vec) (ts : List (Fin 4 → ℕ)) :
    List.Forall₂ (fun t t' => 0 ≤ tetVol p t' ∧ (∃ σ : Equiv.Perm (Fin 4), t' = t ∘ σ) ∧
      tetVol p t' = |tetVol p t| ∧ (0 ≤ tetVol p t → t' = t)) ts (fixTets p ts) := by
  unfold fixTets
  rw [List.forall₂_map_right_iff, List.forall₂_same]
  intro t _
  have hs : tetVol p ![t 0, t 2, t 1, t 3] = -tetVol p t := by
    simp only [tetVol, signedVol, triple, Matrix.cons_val, Pi.sub_apply]; ring
  unfold fixTet
  split_ifs with h
  · refine ⟨by linarith, ⟨Equiv.swap 1 2, ?_⟩, by rw [hs, abs_of_neg h], fun h' => absurd h' (by linarith)⟩
    funext i
    fin_cases i <;> rfl
  · push Not at h
    exact ⟨h, ⟨1, rfl⟩, (abs_of_nonneg h).symm, fun _ => rfl⟩

/-- **C43 (idempotent).** -/
theorem C43_second_application_changes_nothing (p : ℕ → Vec) (ts : List (Fin 4 → ℕ)) :
    fixTets p (fixTets p ts) = fixTets p ts := by
  unfold fixTets
  rw [List.map_map]
  apply List.map_congr_left
  intro t _
  have h := C43_tets_positive_same_vertices p [t]
  simp only [fixTets, List.map_cons, List.map_nil, List.forall₂_cons] at h
  exact if_neg (not_lt.2 h.1.1)

/-- **C43 (the repaired mesh is accepted).** The volume computation never rejects a repaired mesh and returns the
absolute volumes of the original elements. -/
theorem C43_repaired_mesh_volumes (p : ℕ → Vec) (ts : List (Fin 4 → ℕ)) :
    volumesTet p (fixTets p ts) = .ok (ts.map fun t => |tetVol p t|) := by
  have h := C43_tets_positive_same_vertices p ts
  revert h
  generalize fixTets p ts = ts'
  intro h
  induction h with
  | nil => rfl
  | cons h _ ih =>
    rw [volumesTet, if_neg, ih]
    · simp [h.2.2.1]
    · have := h.1
      push Not
      refine le_trans ?_ this
      norm_num

/-- Unit simplex coordinates for the examples. -/
def unitP : ℕ → Vec
  | 1 => ![1, 0, 0]
  | 2 => ![0, 1, 0]
  | 3 => ![0, 0, 1]
  | _ => ![0, 0, 0]

/-- Non-vacuity: one element is negatively oriented and is rejected before the repair. -/
example : tetVol unitP ![0, 2, 1, 3] = -(1 / 6) ∧ volumesTet unitP [![0, 2, 1, 3]] = .error .valueError ∧
    fixTets unitP [![0, 2, 1, 3], ![0, 1, 2, 3]] = [![0, 1, 2, 3], ![0, 1, 2, 3]] := by
  have h1 : tetVol unitP ![0, 2, 1, 3] = -(1 / 6) := by
    simp [tetVol, signedVol, triple, unitP]; norm_num
  have h2 : tetVol unitP ![0, 1, 2, 3] = 1 / 6 := by
    simp [tetVol, signedVol, triple, unitP]
  refine ⟨h1, ?_, ?_⟩
  · rw [volumesTet, if_pos (by rw [h1]; norm_num)]
  · simp only [fixTets, List.map_cons, List.map_nil, fixTet, h1, h2]
    rw [if_pos (by norm_num), if_neg (by norm_num)]
    rfl

/-! ### C44 -/

/-- All six tetrahedra of the decomposition, for a parallelepiped. -/
theorem volumeHex_box (o a b c : Vec) : volumeHex (boxCorners o a b c) = 7 / 6 * |triple a b c| := by
  have e1 : absTet (boxCorners o a b c 0) (boxCorners o a b c 1) (boxCorners o a b c 3) (boxCorners o a b c 4) =
      |triple a b c| / 6 := by
    simp only [absTet, boxCorners, triple, Matrix.cons_val, Pi.sub_apply, Pi.add_apply]
    congr 2; ring
  have e2 : absTet (boxCorners o a b c 1) (boxCorners o a b c 2) (boxCorners o a b c 3) (boxCorners o a b c 6) =
      |triple a b c| / 6 := by
    simp only [absTet, boxCorners, triple, Matrix.cons_val, Pi.sub_apply, Pi.add_apply]
    congr 2; ring
  have e3 : absTet (boxCorners o a b c 1) (boxCorners o a b c 5) (boxCorners o a b c 6) (boxCorners o a b c 4) =
      |triple a b c| / 6 := by
    simp only [absTet, boxCorners, triple, Matrix.cons_val, Pi.sub_apply, Pi.add_apply]
    congr 2; ring
  have e4 : absTet (boxCorners o a b c 3) (boxCorners o a b c 6) (boxCorners o a b c 7) (boxCorners o a b c 4) =
      |triple a b c| / 6 := by
    simp only [absTet, boxCorners, triple, Matrix.cons_val, Pi.sub_apply, Pi.add_apply]
    congr 2; ring
  have e5 : absTet (boxCorners o a b c 1) (boxCorners o a b c 3) (boxCorners o a b c 6) (boxCorners o a b c 4) =
      |2 * triple a b c| / 6 := by
    simp only [absTet, boxCorners, triple, Matrix.cons_val, Pi.sub_apply, Pi.add_apply]
    rw [← abs_neg]
    congr 2; ring
  have e6 : absTet (boxCorners o a b c 1) (boxCorners o a b c 6) (boxCorners o a b c 5) (boxCorners o a b c 4) =
      |triple a b c| / 6 := by
    simp only [absTet, boxCorners, triple, Matrix.cons_val, Pi.sub_apply, Pi.add_apply]
    rw [← abs_neg]
    congr 2; ring
  rw [volumeHex, e1, e2, e3, e4, e5, e6, abs_mul, abs_of_pos (by norm_num : (0 : ℝ) < 2)]
  ring

theorem volumeHex_skfem (o a b c : Vec) : volumeHex (skfemCorners o a b c) = 5 / 6 * |triple a b c| := by
  have key : ∀ x : ℝ, (x = triple a b c ∨ x = -triple a b c) → |x| / 6 = |triple a b c| / 6 := by
    rintro x (rfl | rfl)
    · rfl
    · rw [abs_neg]
  have e : ∀ (i j k l : Fin 8) (x : ℝ), triple (skfemCorners o a b c j - skfemCorners o a b c i)
      (skfemCorners o a b c k - skfemCorners o a b c i) (skfemCorners o a b c l - skfemCorners o a b c i) = x →
      (x = triple a b c ∨ x = -triple a b c) →
      absTet (skfemCorners o a b c i) (skfemCorners o a b c j) (skfemCorners o a b c k) (skfemCorners o a b c l) =
        |triple a b c| / 6 := by
    intro i j k l x hx hx'
    rw [absTet, hx, key x hx']
  have e1 := e 0 1 3 4 (-triple a b c) (by
    simp only [skfemCorners, triple, Matrix.cons_val, Pi.sub_apply, Pi.add_apply]; ring) (by simp)
  have e2 := e 1 2 3 6 (triple a b c) (by
    simp only [skfemCorners, triple, Matrix.cons_val, Pi.sub_apply, Pi.add_apply]; ring) (by simp)
  have e3 := e 1 5 6 4 (-triple a b c) (by
    simp only [skfemCorners, triple, Matrix.cons_val, Pi.sub_apply, Pi.add_apply]; ring) (by simp)
  have e4 := e 3 6 7 4 (triple a b c) (by
    simp only [skfemCorners, triple, Matrix.cons_val, Pi.sub_apply, Pi.add_apply]; ring) (by simp)
  have e6 := e 1 6 5 4 (triple a b c) (by
    simp only [skfemCorners, triple, Matrix.cons_val, Pi.sub_apply, Pi.add_apply]; ring) (by simp)
  have e5 : absTet (skfemCorners o a b c 1) (skfemCorners o a b c 3) (skfemCorners o a b c 6)
      (skfemCorners o a b c 4) = 0 := by
    simp only [absTet, skfemCorners, triple, Matrix.cons_val, Pi.sub_apply, Pi.add_apply]
    rw [div_eq_zero_iff, abs_eq_zero]; left; ring
  rw [volumeHex, e1, e2, e3, e4, e5, e6]
  ring

/-- **C44 (refuted).** The hexahedron volume is not the geometric volume: of the six tetrahedra summed, the third and the
sixth are the same. For the corner order drawn in the source every non-degenerate parallelepiped gets 7/6 of its
volume; for the corner order of scikit-fem meshes it gets 5/6. -/
theorem C44_hex_volume_wrong (o a b c : Vec) (h : boxVolume a b c ≠ 0) :
    volumeHex (boxCorners o a b c) = 7 / 6 * boxVolume a b c ∧
    volumeHex (skfemCorners o a b c) = 5 / 6 * boxVolume a b c ∧
    volumeHex (boxCorners o a b c) ≠ boxVolume a b c ∧ volumeHex (skfemCorners o a b c) ≠ boxVolume a b c := by
  rw [boxVolume_eq] at h ⊢
  refine ⟨volumeHex_box o a b c, volumeHex_skfem o a b c, ?_, ?_⟩
  · rw [volumeHex_box]; intro h'; apply h; linarith
  · rw [volumeHex_skfem]; intro h'; apply h; linarith

/-- Non-vacuity: the unit cube. -/
example : boxVolume ![1, 0, 0] ![0, 1, 0] ![0, 0, 1] = 1 := by
  rw [boxVolume_eq]; simp [triple]

/-- **C44 (partial: volume fractions).** On a mesh of parallelepipeds, all numbered in the same one of the two orders, the
wrong factor cancels: every volume-weighted average of densities equals the one with geometric volumes. -/
theorem C44_volume_fractions_exact_partial {ι : Type} (s : Finset ι) (o a b c : ι → Vec) (rho : ι → ℝ)
    (corners : Vec → Vec → Vec → Vec → Fin 8 → Vec) (hc : corners = boxCorners ∨ corners = skfemCorners) :
    (∑ i ∈ s, volumeHex (corners (o i) (a i) (b i) (c i)) * rho i) /
        ∑ i ∈ s, volumeHex (corners (o i) (a i) (b i) (c i)) =
      (∑ i ∈ s, boxVolume (a i) (b i) (c i) * rho i) / ∑ i ∈ s, boxVolume (a i) (b i) (c i) := by
  obtain ⟨k, hk, hv⟩ : ∃ k : ℝ, k ≠ 0 ∧ ∀ o a b c, volumeHex (corners o a b c) = k * boxVolume a b c := by
    rcases hc with rfl | rfl
    · exact ⟨7 / 6, by norm_num, fun o a b c => by rw [boxVolume_eq, volumeHex_box]⟩
    · exact ⟨5 / 6, by norm_num, fun o a b c => by rw [boxVolume_eq, volumeHex_skfem]⟩
  simp only [hv, mul_assoc, ← Finset.mul_sum]
  rw [mul_div_mul_left _ _ hk]

/-! ### C61 -/

/-- The corners of a hexahedron in the drawn order with, for each, the ends of the edges in the first, second and third
direction, each edge directed as at node 0. -/
def hexEdges : List ((Fin 8 × Fin 8) × (Fin 8 × Fin 8) × (Fin 8 × Fin 8)) :=
  [((0, 1), (0, 3), (0, 4)), ((0, 1), (1, 2), (1, 5)), ((3, 2), (1, 2), (2, 6)), ((3, 2), (0, 3), (3, 7)),
   ((4, 5), (4, 7), (0, 4)), ((4, 5), (5, 6), (1, 5)), ((7, 6), (5, 6), (2, 6)), ((7, 6), (4, 7), (3, 7))]

/-- A hexahedron is right-handed: the Jacobian determinant of its trilinear map is not negative at any corner. -/
def RightHanded (p : ℕ → Vec) (t : Fin 8 → ℕ) : Prop :=
  ∀ c ∈ hexEdges, 0 ≤ triple (p (t c.1.2) - p (t c.1.1)) (p (t c.2.1.2) - p (t c.2.1.1))
    (p (t c.2.2.2) - p (t c.2.2.1))

/-- **C61 (partial: node 0 only).** After `fix_hexahedron_orientation` the determinant at node 0 is not negative, the
nodes are those of the original element, a second application changes nothing, and a right-handed element is
untouched. -/
theorem C61_hex_first_corner_partial (p : ℕ → Vec) (t : Fin 8 → ℕ) :
    0 ≤ hexJac p (fixHex p t) ∧ (∃ σ : Equiv.Perm (Fin 8), fixHex p t = t ∘ σ) ∧
      fixHex p (fixHex p t) = fixHex p t ∧ (RightHanded p t → fixHex p t = t) := by
  have hs : hexJac p ![t 0, t 3, t 2, t 1, t 4, t 5, t 6, t 7] = -hexJac p t := by
    simp only [hexJac, triple, Matrix.cons_val, Pi.sub_apply]; ring
  have h0 : 0 ≤ hexJac p (fixHex p t) := by
    unfold fixHex
    split_ifs with h
    · rw [hs]; linarith
    · push Not at h; exact h
  refine ⟨h0, ?_, ?_, fun h => if_neg ?_⟩
  · unfold fixHex
    split_ifs with h
    · refine ⟨Equiv.swap 1 3, ?_⟩
      funext i
      fin_cases i <;> rfl
    · exact ⟨1, rfl⟩
  · exact if_neg (not_lt.2 h0)
  · have := h ((0, 1), (0, 3), (0, 4)) (by simp [hexEdges])
    exact not_lt.2 this

/-- Coordinates of a mirrored unit cube. -/
def mirrored : ℕ → Vec
  | 1 => ![0, 1, 0]
  | 2 => ![1, 1, 0]
  | 3 => ![1, 0, 0]
  | 4 => ![0, 0, 1]
  | 5 => ![0, 1, 1]
  | 6 => ![1, 1, 1]
  | 7 => ![1, 0, 1]
  | _ => ![0, 0, 0]

/-- **C61 (refuted).** Only nodes 1 and 3 are swapped, not 5 and 7: a mirrored cube, left-handed at every corner, is
still left-handed at node 4 afterwards. -/
theorem C61_hex_repair_incomplete :
    let t : Fin 8 → ℕ := ![0, 1, 2, 3, 4, 5, 6, 7]
    hexJac mirrored t < 0 ∧ ¬ RightHanded mirrored (fixHex mirrored t) := by
  intro t
  have h : hexJac mirrored t = -1 := by simp [t, hexJac, triple, mirrored]
  refine ⟨by rw [h]; norm_num, fun hr => ?_⟩
  have := hr ((4, 5), (4, 7), (0, 4)) (by simp [hexEdges])
  unfold fixHex at this
  rw [if_pos (by rw [h]; norm_num)] at this
  simp [t, triple, mirrored] at this
  norm_num at this

/-- Non-vacuity of the last clause of the partial theorem: the drawn unit cube is right-handed. -/
example : RightHanded mirrored ![0, 3, 2, 1, 4, 7, 6, 5] := by
  intro c hc
  simp only [hexEdges, List.mem_cons, List.not_mem_nil, or_false] at hc
  rcases hc with rfl | rfl | rfl | rfl | rfl | rfl | rfl | rfl <;> simp [triple, mirrored]

end Verif.Geometry
