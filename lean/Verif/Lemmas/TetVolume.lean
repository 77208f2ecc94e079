import Verif.Model.Geometry
import Mathlib.MeasureTheory.Measure.Lebesgue.VolumeOfBalls
import Mathlib.MeasureTheory.Measure.Lebesgue.EqHaar
import Mathlib.Analysis.Convex.StdSimplex
import Mathlib.LinearAlgebra.Matrix.ToLin
import Mathlib.LinearAlgebra.Matrix.Determinant.Basic
import Mathlib.Tactic.LinearCombination

/-! The Lebesgue volume of a tetrahedron. -/
namespace Verif.Geometry
open MeasureTheory

/-- Change the sign of coordinate `i`. -/
def flip (i : Fin 3) (x : Vec) : Vec := fun j => if j = i then -x j else x j

theorem flip_preserving (i : Fin 3) : MeasurePreserving (flip i) := by
  have := volume_preserving_pi (ι := Fin 3) (α' := fun _ => ℝ) (β' := fun _ => ℝ)
    (f := fun j => if j = i then (fun y : ℝ => -y) else (fun y : ℝ => y)) (by
      intro j
      by_cases h : j = i
      · simp only [h, if_true]; exact Measure.measurePreserving_neg _
      · simp only [h, if_false]; exact MeasurePreserving.id _)
  convert this using 1
  funext x j
  unfold flip
  split_ifs <;> rfl

theorem half_volume (i : Fin 3) (T : Set Vec) (hT : MeasurableSet T) (hf : flip i ⁻¹' T = T) :
    volume T = 2 * volume (T ∩ {x | 0 ≤ x i}) := by
  have hp : MeasurableSet {x : Vec | 0 ≤ x i} := measurableSet_le measurable_const (measurable_pi_apply i)
  have hn : MeasurableSet {x : Vec | x i ≤ 0} := measurableSet_le (measurable_pi_apply i) measurable_const
  have h1 : volume (T ∩ {x | x i ≤ 0}) = volume (T ∩ {x | 0 ≤ x i}) := by
    rw [← (flip_preserving i).measure_preimage (hT.inter hp).nullMeasurableSet, Set.preimage_inter, hf]
    congr 2
    ext x; simp [flip]
  have h2 : volume ((T ∩ {x | 0 ≤ x i}) ∩ (T ∩ {x | x i ≤ 0})) = 0 := by
    refine measure_mono_null (t := {x : Vec | x i = 0}) ?_ ?_
    · rintro x ⟨⟨_, h⟩, _, h'⟩; exact le_antisymm h' h
    · exact Measure.pi_hyperplane (fun _ => volume) i 0
  have h3 := measure_union_add_inter (μ := volume) (T ∩ {x | 0 ≤ x i}) (hT.inter hn)
  rw [h2, add_zero, h1, ← two_mul] at h3
  rw [← h3]
  congr 1
  ext x
  simp only [Set.mem_union, Set.mem_inter_iff, Set.mem_ofPred_eq]
  constructor
  · intro h
    rcases le_total 0 (x i) with h' | h'
    · exact Or.inl ⟨h, h'⟩
    · exact Or.inr ⟨h, h'⟩
  · rintro (h | h) <;> exact h.1

/-- The corner simplex. -/
def corner : Set Vec := {x | (∀ i, 0 ≤ x i) ∧ ∑ i, x i ≤ 1}

theorem volume_octahedron : volume {x : Vec | ∑ i, |x i| ≤ 1} = ENNReal.ofReal (8 / 6) := by
  have h := volume_sum_rpow_le (Fin 3) (p := 1) le_rfl 1
  simp only [Real.rpow_one, div_one, ENNReal.ofReal_one, one_pow, one_mul, Fintype.card_fin] at h
  rw [h]
  congr 1
  have h2 : Real.Gamma (1 + 1) = 1 := by
    have := Real.Gamma_nat_eq_factorial 1; norm_num at this; norm_num
  have h3 : Real.Gamma ((3 : ℕ) + 1) = 6 := by
    rw [Real.Gamma_nat_eq_factorial]; norm_num [Nat.factorial]
  rw [h2, h3]; norm_num

theorem volume_corner : volume corner = ENNReal.ofReal (1 / 6) := by
  have hm : MeasurableSet {x : Vec | ∑ i, |x i| ≤ 1} := by
    apply measurableSet_le
    · exact Finset.measurable_sum _ fun i _ => (show Measurable fun x : Vec => |x i| from continuous_abs.measurable.comp (measurable_pi_apply i))
    · exact measurable_const
  have hp : ∀ i : Fin 3, MeasurableSet {x : Vec | 0 ≤ x i} := fun i =>
    measurableSet_le measurable_const (measurable_pi_apply i)
  have hfl : ∀ i, flip i ⁻¹' {x : Vec | ∑ i, |x i| ≤ 1} = {x : Vec | ∑ i, |x i| ≤ 1} := by
    intro i; ext x
    simp only [Set.mem_preimage, Set.mem_ofPred_eq, flip]
    have : ∀ j, |if j = i then -x j else x j| = |x j| := by intro j; split_ifs <;> simp
    simp [this]
  have hfp : ∀ i j : Fin 3, i ≠ j → flip i ⁻¹' {x : Vec | 0 ≤ x j} = {x : Vec | 0 ≤ x j} := by
    intro i j h; ext x
    simp [flip, Ne.symm h]
  have e0 := half_volume 0 _ hm (hfl 0)
  have e1 := half_volume 1 _ (hm.inter (hp 0)) (by rw [Set.preimage_inter, hfl, hfp 1 0 (by decide)])
  have e2 := half_volume 2 _ ((hm.inter (hp 0)).inter (hp 1)) (by
    rw [Set.preimage_inter, Set.preimage_inter, hfl, hfp 2 0 (by decide), hfp 2 1 (by decide)])
  have e3 : (({x : Vec | ∑ i, |x i| ≤ 1} ∩ {x | 0 ≤ x 0}) ∩ {x | 0 ≤ x 1}) ∩ {x | 0 ≤ x 2} = corner := by
    ext x
    simp only [Set.mem_inter_iff, Set.mem_ofPred_eq, corner, Fin.forall_fin_succ, Fin.sum_univ_three]
    constructor
    · rintro ⟨⟨⟨h, h0⟩, h1⟩, h2⟩
      rw [abs_of_nonneg h0, abs_of_nonneg h1, abs_of_nonneg h2] at h
      exact ⟨⟨h0, h1, h2, fun i => i.elim0⟩, h⟩
    · rintro ⟨⟨h0, h1, h2, -⟩, h⟩
      refine ⟨⟨⟨?_, h0⟩, h1⟩, h2⟩
      rw [abs_of_nonneg h0, abs_of_nonneg (show 0 ≤ x 1 from h1), abs_of_nonneg (show 0 ≤ x 2 from h2)]
      exact h
  rw [e3] at e2
  rw [e2] at e1
  rw [e1, volume_octahedron] at e0
  have hfin : volume corner ≠ ⊤ := by
    intro ht; rw [ht] at e0; simp [ENNReal.mul_top] at e0
  have := congrArg ENNReal.toReal e0
  simp only [ENNReal.toReal_mul, ENNReal.toReal_ofNat] at this
  rw [ENNReal.toReal_ofReal (by norm_num)] at this
  rw [← ENNReal.ofReal_toReal hfin]
  congr 1
  linarith

/-- The corner simplex is the convex hull of the origin and the three unit vectors. -/
theorem mem_hull {p : Fin 4 → Vec} {x : Vec} : x ∈ convexHull ℝ (Set.range p) ↔
    ∃ w : Fin 4 → ℝ, (∀ i, 0 ≤ w i) ∧ ∑ i, w i = 1 ∧ ∑ i, w i • p i = x := by
  constructor
  · intro h
    have h1 : convexHull ℝ (Set.range p) ⊆ (fun w : Fin 4 → ℝ => ∑ i, w i • p i) '' stdSimplex ℝ (Fin 4) := by
      apply convexHull_min
      · rintro _ ⟨i, rfl⟩
        refine ⟨Pi.single i 1, ⟨fun j => ?_, ?_⟩, ?_⟩
        · by_cases hj : j = i
          · subst hj; simp
          · simp [Pi.single_eq_of_ne hj]
        · simp
        · simp [Pi.single_apply]
      · exact (convex_stdSimplex ℝ (Fin 4)).is_linear_image ⟨fun a b => by
          simp [add_smul, Finset.sum_add_distrib], fun c a => by simp [Finset.smul_sum, mul_smul]⟩
    obtain ⟨w, hw, rfl⟩ := h1 h
    exact ⟨w, hw.1, hw.2, rfl⟩
  · rintro ⟨w, h0, h1, rfl⟩
    rw [← Finset.univ.centerMass_eq_of_sum_1 _ h1]
    exact Finset.univ.centerMass_mem_convexHull (fun i _ => h0 i) (h1.symm ▸ zero_lt_one) fun i _ => Set.mem_range_self i

theorem hull_eq (p : Fin 4 → Vec) : convexHull ℝ (Set.range p) =
    (fun x => x + p 0) '' (Matrix.toLin' (Matrix.of ![p 1 - p 0, p 2 - p 0, p 3 - p 0]).transpose '' corner) := by
  ext x
  rw [mem_hull]
  simp only [Set.mem_image, exists_exists_and_eq_and]
  have hmul : ∀ y : Vec, Matrix.toLin' (Matrix.of ![p 1 - p 0, p 2 - p 0, p 3 - p 0]).transpose y =
      y 0 • (p 1 - p 0) + y 1 • (p 2 - p 0) + y 2 • (p 3 - p 0) := by
    intro y
    funext j
    simp [Matrix.toLin'_apply, Matrix.mulVec, dotProduct, Fin.sum_univ_three]
    ring
  constructor
  · rintro ⟨w, h0, h1, rfl⟩
    refine ⟨![w 1, w 2, w 3], ⟨?_, ?_⟩, ?_⟩
    · intro i; fin_cases i <;> simp [h0]
    · simp only [Fin.sum_univ_three, Matrix.cons_val]
      rw [Fin.sum_univ_four] at h1
      linarith [h0 0]
    · rw [hmul]
      rw [Fin.sum_univ_four] at h1
      funext j
      simp only [Fin.sum_univ_four, Pi.add_apply, Pi.smul_apply, Pi.sub_apply, smul_eq_mul, Matrix.cons_val]
      linear_combination (-p 0 j) * h1
  · rintro ⟨y, ⟨h0, h1⟩, rfl⟩
    rw [Fin.sum_univ_three] at h1
    refine ⟨![1 - y 0 - y 1 - y 2, y 0, y 1, y 2], ?_, ?_, ?_⟩
    · intro i; fin_cases i
      · simp; linarith
      · exact h0 0
      · exact h0 1
      · exact h0 2
    · simp [Fin.sum_univ_four]; ring
    · rw [hmul]
      funext j
      simp only [Fin.sum_univ_four, Pi.add_apply, Pi.smul_apply, Pi.sub_apply, smul_eq_mul, Matrix.cons_val]
      ring

theorem volume_hull (p : Fin 4 → Vec) :
    (volume (convexHull ℝ (Set.range p))).toReal = |signedVol (p 0) (p 1) (p 2) (p 3)| := by
  rw [hull_eq, Set.image_add_right, measure_preimage_add_right, Measure.addHaar_image_linearMap, volume_corner,
    LinearMap.det_toLin', Matrix.det_transpose, ENNReal.toReal_mul, ENNReal.toReal_ofReal (abs_nonneg _),
    ENNReal.toReal_ofReal (by norm_num)]
  have : Matrix.det (Matrix.of ![p 1 - p 0, p 2 - p 0, p 3 - p 0]) = triple (p 1 - p 0) (p 2 - p 0) (p 3 - p 0) := by
    simp [triple, Matrix.det_fin_three]; ring
  rw [this, signedVol, abs_div, abs_of_pos (by norm_num : (0 : ℝ) < 6)]
  ring

end Verif.Geometry
