import Verif.Model.Stress
import Verif.Spec.Stress
import Mathlib.Tactic.FinCases
import Mathlib.Tactic.Linarith
import Mathlib.Tactic.LinearCombination
import Mathlib.Tactic.Ring
import Mathlib.Tactic.FieldSimp
import Mathlib.Tactic.NormNum

/-!
C90 (von Mises stress) and C91 (element stresses).
-/
namespace Verif.Stress

open Matrix Material Elastic StressSpec

variable {ι E Q : Type} [Fintype ι] [Fintype Q] {d : ℕ}

theorem dev_sq (s : Matrix (Fin 3) (Fin 3) ℝ) (hs : s.IsSymm) :
    3 / 2 * ∑ i, ∑ j, deviator s i j ^ 2 = (1 / 2) * ((s 0 0 - s 1 1) ^ 2 + (s 1 1 - s 2 2) ^ 2 + (s 2 2 - s 0 0) ^ 2 +
      6 * (s 0 1 ^ 2 + s 1 2 ^ 2 + s 2 0 ^ 2)) := by
  have h10 : s 1 0 = s 0 1 := hs.apply 0 1
  have h21 : s 2 1 = s 1 2 := hs.apply 1 2
  have h20 : s 0 2 = s 2 0 := hs.apply 2 0
  simp [Fin.sum_univ_three, deviator, Matrix.trace, h10, h21, h20]
  ring

/-- C90: for every symmetric stress tensor the result is the von Mises equivalent stress. -/
theorem C90_is_equivalent_stress (s : Matrix (Fin 3) (Fin 3) ℝ) (hs : s.IsSymm) : vonMises s = equivalent s := by
  rw [vonMises, equivalent, dev_sq s hs]

/-- `s':s'` through traces. -/
theorem dev_trace (s : Matrix (Fin 3) (Fin 3) ℝ) (hs : s.IsSymm) :
    ∑ i, ∑ j, deviator s i j ^ 2 = (s * s).trace - s.trace ^ 2 / 3 := by
  have h10 : s 1 0 = s 0 1 := hs.apply 0 1
  have h21 : s 2 1 = s 1 2 := hs.apply 1 2
  have h20 : s 0 2 = s 2 0 := hs.apply 2 0
  simp [Fin.sum_univ_three, deviator, Matrix.trace, Matrix.mul_apply, h10, h21, h20]
  ring

/-- C90: the result does not depend on the coordinate system: it is the same for the tensor in any rotated (or reflected) frame. -/
theorem C90_frame_invariant (s R : Matrix (Fin 3) (Fin 3) ℝ) (hs : s.IsSymm) (hR : Rᵀ * R = 1) :
    vonMises (R * s * Rᵀ) = vonMises s := by
  have h1 : (R * s * Rᵀ).trace = s.trace := by
    rw [Matrix.trace_mul_comm, ← Matrix.mul_assoc, hR, Matrix.one_mul]
  have h2 : ((R * s * Rᵀ) * (R * s * Rᵀ)).trace = (s * s).trace := by
    have : (R * s * Rᵀ) * (R * s * Rᵀ) = R * (s * s) * Rᵀ := by
      calc (R * s * Rᵀ) * (R * s * Rᵀ) = R * s * (Rᵀ * R) * s * Rᵀ := by simp only [Matrix.mul_assoc]
        _ = R * (s * s) * Rᵀ := by rw [hR, Matrix.mul_one]; simp only [Matrix.mul_assoc]
    rw [this, Matrix.trace_mul_comm, ← Matrix.mul_assoc, hR, Matrix.one_mul]
  have hs' : (R * s * Rᵀ).IsSymm := by
    unfold Matrix.IsSymm
    rw [Matrix.transpose_mul, Matrix.transpose_mul, Matrix.transpose_transpose, hs.eq, Matrix.mul_assoc]
  rw [C90_is_equivalent_stress _ hs, C90_is_equivalent_stress _ hs', equivalent, equivalent, dev_trace _ hs, dev_trace _ hs', h1, h2]

/-- C90: never negative; zero exactly for a pure pressure. -/
theorem C90_zero_iff_pressure (s : Matrix (Fin 3) (Fin 3) ℝ) (hs : s.IsSymm) :
    0 ≤ vonMises s ∧ (vonMises s = 0 ↔ ∃ c : ℝ, s = c • (1 : Matrix (Fin 3) (Fin 3) ℝ)) := by
  refine ⟨Real.sqrt_nonneg _, ?_⟩
  constructor
  · intro h
    have h10 : s 1 0 = s 0 1 := hs.apply 0 1
    have h21 : s 2 1 = s 1 2 := hs.apply 1 2
    have h20 : s 0 2 = s 2 0 := hs.apply 2 0
    unfold vonMises at h
    rw [Real.sqrt_eq_zero (by positivity)] at h
    have a1 : s 0 0 - s 1 1 = 0 := by
      nlinarith [sq_nonneg (s 0 0 - s 1 1), sq_nonneg (s 1 1 - s 2 2), sq_nonneg (s 2 2 - s 0 0), sq_nonneg (s 0 1), sq_nonneg (s 1 2), sq_nonneg (s 2 0)]
    have a2 : s 1 1 - s 2 2 = 0 := by
      nlinarith [sq_nonneg (s 0 0 - s 1 1), sq_nonneg (s 1 1 - s 2 2), sq_nonneg (s 2 2 - s 0 0), sq_nonneg (s 0 1), sq_nonneg (s 1 2), sq_nonneg (s 2 0)]
    have a3 : s 0 1 = 0 := by
      nlinarith [sq_nonneg (s 0 0 - s 1 1), sq_nonneg (s 1 1 - s 2 2), sq_nonneg (s 2 2 - s 0 0), sq_nonneg (s 0 1), sq_nonneg (s 1 2), sq_nonneg (s 2 0)]
    have a4 : s 1 2 = 0 := by
      nlinarith [sq_nonneg (s 0 0 - s 1 1), sq_nonneg (s 1 1 - s 2 2), sq_nonneg (s 2 2 - s 0 0), sq_nonneg (s 0 1), sq_nonneg (s 1 2), sq_nonneg (s 2 0)]
    have a5 : s 2 0 = 0 := by
      nlinarith [sq_nonneg (s 0 0 - s 1 1), sq_nonneg (s 1 1 - s 2 2), sq_nonneg (s 2 2 - s 0 0), sq_nonneg (s 0 1), sq_nonneg (s 1 2), sq_nonneg (s 2 0)]
    refine ⟨s 0 0, ?_⟩
    ext i j
    fin_cases i <;> fin_cases j <;> simp [a3, a4, a5, h10, h21, h20] <;> linarith
  · rintro ⟨c, rfl⟩
    simp [vonMises]

/-- C90: an added pressure does not change the result. -/
theorem C90_pressure_insensitive (s : Matrix (Fin 3) (Fin 3) ℝ) (c : ℝ) :
    vonMises (s + c • (1 : Matrix (Fin 3) (Fin 3) ℝ)) = vonMises s := by
  simp [vonMises]

/-- C90: scaling the stress scales the result. -/
theorem C90_homogeneous (s : Matrix (Fin 3) (Fin 3) ℝ) (a : ℝ) : vonMises (a • s) = |a| * vonMises s := by
  unfold vonMises
  rw [← Real.sqrt_sq_eq_abs, ← Real.sqrt_mul (sq_nonneg a)]
  congr 1
  simp only [Matrix.smul_apply, smul_eq_mul]
  ring

/-- C90: uniaxial tension or compression `σ` along an axis gives `|σ|`, pure shear `τ` gives `√3 |τ|`. -/
theorem C90_uniaxial_and_shear (t : ℝ) :
    vonMises !![t, 0, 0; 0, 0, 0; 0, 0, 0] = |t| ∧ vonMises !![0, 0, 0; 0, t, 0; 0, 0, 0] = |t| ∧
    vonMises !![0, 0, 0; 0, 0, 0; 0, 0, t] = |t| ∧
    vonMises !![0, t, 0; t, 0, 0; 0, 0, 0] = Real.sqrt 3 * |t| ∧ vonMises !![0, 0, 0; 0, 0, t; 0, t, 0] = Real.sqrt 3 * |t| ∧
    vonMises !![0, 0, t; 0, 0, 0; t, 0, 0] = Real.sqrt 3 * |t| := by
  have hs : ∀ x : ℝ, x = t ^ 2 → Real.sqrt x = |t| := by rintro _ rfl; exact Real.sqrt_sq_eq_abs t
  have hq : ∀ x : ℝ, x = 3 * t ^ 2 → Real.sqrt x = Real.sqrt 3 * |t| := by
    rintro _ rfl; rw [Real.sqrt_mul (by norm_num), Real.sqrt_sq_eq_abs]
  refine ⟨hs _ ?_, hs _ ?_, hs _ ?_, hq _ ?_, hq _ ?_, hq _ ?_⟩ <;> simp <;> ring

/-- The hypotheses of C90 with a general symmetric tensor and a rotation about the third axis. -/
example : (!![1, 2, 3; 2, 4, 5; 3, 5, 6] : Matrix (Fin 3) (Fin 3) ℝ).IsSymm ∧
    (!![0, -1, 0; 1, 0, 0; 0, 0, 1] : Matrix (Fin 3) (Fin 3) ℝ)ᵀ * !![0, -1, 0; 1, 0, 0; 0, 0, 1] = 1 := by
  constructor
  · unfold Matrix.IsSymm; ext i j; fin_cases i <;> fin_cases j <;> rfl
  · ext i j; fin_cases i <;> fin_cases j <;> simp [Matrix.mul_apply, Fin.sum_univ_three]

theorem sym_eq_strain (g : Matrix (Fin d) (Fin d) ℝ) : sym g = strain g := by
  ext i j; simp [sym, strain]; ring

/-- The integrand is Hooke's law. -/
theorem C91_integrand_is_hooke (Em nu : ℝ) (h1 : 1 + nu ≠ 0) (h2 : 1 - 2 * nu ≠ 0) (g : Matrix (Fin d) (Fin d) ℝ) :
    stressAt Em nu g = hooke Em nu (strain g) := by
  rw [stressAt, hooke, sym_eq_strain]
  ext i j
  simp only [Matrix.add_apply, Matrix.smul_apply, smul_eq_mul, eye, lamMu]
  field_simp

/-- What is returned for an element: the integral of the stress over the element, a symmetric tensor. -/
theorem C91_integrated_stress_partial (B : FE ι E Q d) (Em : E → ℝ) (nu : ℝ) (h1 : 1 + nu ≠ 0) (h2 : 1 - 2 * nu ≠ 0) (u : ι → ℝ) (e : E) :
    stressTensor B Em nu u e = ∑ q, B.dx e q • hooke (Em e) nu (strain (∑ i, u i • B.grad i e q)) ∧
    (stressTensor B Em nu u e).IsSymm := by
  refine ⟨by simp only [stressTensor, C91_integrand_is_hooke _ _ h1 h2, gradOf], ?_⟩
  unfold Matrix.IsSymm
  ext i j
  simp only [stressTensor, stressAt, sym, eye, Matrix.transpose_apply, Matrix.sum_apply, Matrix.smul_apply, Matrix.add_apply, smul_eq_mul]
  refine Finset.sum_congr rfl fun q _ => ?_
  congr 2
  · ring
  · rw [Matrix.one_apply, Matrix.one_apply]; simp only [eq_comm]

/-- On an element with constant stress the result is the stress times the volume of the element; it is the stress itself exactly when the
element has volume 1 or the stress vanishes. The equivalent stress computed from it is off by the same factor. -/
theorem C91_right_iff_unit_volume (B : FE ι E Q d) (Em : E → ℝ) (nu : ℝ) (u : ι → ℝ) (e : E) (S : Matrix (Fin d) (Fin d) ℝ)
    (hS : ∀ q, stressAt (Em e) nu (gradOf B u e q) = S) :
    stressTensor B Em nu u e = (∑ q, B.dx e q) • S ∧
    (stressTensor B Em nu u e = S ↔ ∑ q, B.dx e q = 1 ∨ S = 0) := by
  have h : stressTensor B Em nu u e = (∑ q, B.dx e q) • S := by
    simp only [stressTensor, hS, Finset.sum_smul]
  refine ⟨h, ?_⟩
  rw [h]
  constructor
  · intro hh
    by_cases hz : S = 0
    · exact Or.inr hz
    · left
      have : (∑ q, B.dx e q - 1) • S = 0 := by rw [sub_smul, one_smul, hh, sub_self]
      rcases smul_eq_zero.1 this with h' | h'
      · linarith
      · exact absurd h' hz
  · rintro (h' | h')
    · rw [h', one_smul]
    · rw [h', smul_zero]

/-- The equivalent stress of the returned tensor is the volume of the element times the equivalent stress. -/
theorem C91_equivalent_stress_scaled (B : FE ι E Q 3) (Em : E → ℝ) (nu : ℝ) (u : ι → ℝ) (e : E) (S : Matrix (Fin 3) (Fin 3) ℝ)
    (hS : ∀ q, stressAt (Em e) nu (gradOf B u e q) = S) (hdx : ∀ q, 0 ≤ B.dx e q) :
    vonMises (stressTensor B Em nu u e) = (∑ q, B.dx e q) * vonMises S := by
  rw [(C91_right_iff_unit_volume B Em nu u e S hS).1, C90_homogeneous, abs_of_nonneg (Finset.sum_nonneg fun q _ => hdx q)]

/-- A basis with one degree of freedom: the stretch along the first axis of an element of volume `v`. -/
def stretch (v : ℝ) : FE (Fin 1) (Fin 1) (Fin 1) 3 where
  grad := fun _ _ _ => !![1, 0, 0; 0, 0, 0; 0, 0, 0]
  dx := fun _ _ => v

/-- C91 is false: halving an element without changing its state of stress halves what is reported. The stress is 1 in both elements; for the
element of volume `1/6` (a unit tetrahedron) `1/6` is reported, and the equivalent stress is wrong by the same factor. -/
theorem C91_reports_volume_times_stress :
    (∀ v, stressAt 1 0 (gradOf (stretch v) (fun _ => 1) 0 0) = !![1, 0, 0; 0, 0, 0; 0, 0, 0]) ∧
    ∀ v, 0 ≤ v → stressTensor (stretch v) (fun _ => 1) 0 (fun _ => 1) 0 = !![v, 0, 0; 0, 0, 0; 0, 0, 0] ∧
      vonMises (stressTensor (stretch v) (fun _ => 1) 0 (fun _ => 1) 0) = v := by
  have h : ∀ v, stressAt 1 0 (gradOf (stretch v) (fun _ => 1) 0 0) = !![1, 0, 0; 0, 0, 0; 0, 0, 0] := by
    intro v
    ext i j
    fin_cases i <;> fin_cases j <;> simp [stressAt, gradOf, stretch, sym, eye, lamMu] <;> norm_num
  refine ⟨h, fun v hv => ?_⟩
  have hS : ∀ q : Fin 1, stressAt ((fun _ : Fin 1 => (1 : ℝ)) 0) 0 (gradOf (stretch v) (fun _ => 1) 0 q) = !![1, 0, 0; 0, 0, 0; 0, 0, 0] := by
    intro q; rw [Subsingleton.elim q 0]; exact h v
  have e1 := (C91_right_iff_unit_volume (stretch v) (fun _ => 1) 0 (fun _ => 1) 0 _ hS).1
  have e2 := C91_equivalent_stress_scaled (stretch v) (fun _ => 1) 0 (fun _ => 1) 0 _ hS fun _ => hv
  have hsum : ∑ q, (stretch v).dx 0 q = v := by simp [stretch]
  rw [hsum] at e1 e2
  constructor
  · rw [e1]; ext i j; fin_cases i <;> fin_cases j <;> simp
  · rw [e2, (C90_uniaxial_and_shear 1).1, abs_one, mul_one]

end Verif.Stress
