import Verif.Model.Helmholtz
import Verif.Lemmas.Adjacency
import Verif.Spec.Filter
import Mathlib.Algebra.BigOperators.Field
import Mathlib.Algebra.Order.BigOperators.Group.Finset
import Mathlib.LinearAlgebra.FiniteDimensional.Basic
import Mathlib.Data.Finset.Max
import Mathlib.Tactic.Linarith
import Mathlib.Tactic.Positivity
import Mathlib.Tactic.FieldSimp
import Mathlib.Tactic.LinearCombination

/-! Helper lemmas about the Helmholtz filters. -/
namespace Verif.Helmholtz
open Classical

variable {n : ℕ}

/-- The number of faces shared by `i` and `j`. -/
noncomputable def mult (M : Mesh n) (i j : Fin n) : ℝ := ((M.adj i).count j : ℝ)

/-- The total coupling of `i` and `j`. -/
noncomputable def coup (M : Mesh n) (r : ℝ) (i j : Fin n) : ℝ := mult M i j * (r ^ 2 * weight M r i j)

theorem list_sum_count (l : List (Fin n)) (f : Fin n → ℝ) : (l.map f).sum = ∑ j, (l.count j : ℝ) * f j := by
  induction l with
  | nil => simp
  | cons a l ih =>
    rw [List.map_cons, List.sum_cons, ih]
    have : ∀ j, ((a :: l).count j : ℝ) * f j = (if a = j then f j else 0) + (l.count j : ℝ) * f j := by
      intro j
      rw [List.count_cons]
      by_cases h : a = j
      · subst h; simp; ring
      · simp [h]
    simp only [this, Finset.sum_add_distrib]
    simp

theorem laplacian_eq (M : Mesh n) (r : ℝ) (x : Fin n → ℝ) (i : Fin n) :
    laplacian M r x i = ∑ j, coup M r i j * (x i - x j) := by
  unfold laplacian
  rw [list_sum_count, list_sum_count, Finset.sum_mul, ← Finset.sum_add_distrib]
  apply Finset.sum_congr rfl
  intro j _
  unfold coup mult
  ring

theorem weight_nonneg (M : Mesh n) (r : ℝ) (i j : Fin n) : 0 ≤ weight M r i j := by
  unfold weight; split_ifs
  · exact le_rfl
  · exact (Real.exp_pos _).le

theorem weight_symm (M : Mesh n) (r : ℝ) (i j : Fin n) : weight M r i j = weight M r j i := by
  unfold weight; rw [dist_comm]

theorem coup_nonneg (M : Mesh n) (r : ℝ) (i j : Fin n) : 0 ≤ coup M r i j := by
  unfold coup mult
  have := weight_nonneg M r i j
  positivity

/-- Adjacency is symmetric, as the face-based construction guarantees. -/
def SymmAdj (M : Mesh n) : Prop := ∀ i j, (M.adj i).count j = (M.adj j).count i

theorem coup_symm {M : Mesh n} (h : SymmAdj M) (r : ℝ) (i j : Fin n) : coup M r i j = coup M r j i := by
  unfold coup mult; rw [h i j, weight_symm]

theorem symmAdj_ofFaces (c : Fin n → EuclideanSpace ℝ (Fin 3)) (faces : Fin n → List (List ℕ)) (v : Fin n → ℝ) :
    SymmAdj (Mesh.ofFaces c faces v) := fun i j => Adjacency.adjacency_count faces i j

theorem laplacian_sum_zero {M : Mesh n} (h : SymmAdj M) (r : ℝ) (x : Fin n → ℝ) : ∑ i, laplacian M r x i = 0 := by
  simp only [laplacian_eq]
  have h1 : ∑ i, ∑ j, coup M r i j * (x i - x j) = ∑ j, ∑ i, coup M r i j * (x i - x j) := Finset.sum_comm
  have h2 : ∑ j, ∑ i, coup M r i j * (x i - x j) = -∑ i, ∑ j, coup M r i j * (x i - x j) := by
    rw [← Finset.sum_neg_distrib]
    apply Finset.sum_congr rfl
    intro i _
    rw [← Finset.sum_neg_distrib]
    apply Finset.sum_congr rfl
    intro j _
    rw [coup_symm h]; ring
  linarith

/-- Symmetry of the Laplacian as a bilinear form. -/
theorem laplacian_symm {M : Mesh n} (h : SymmAdj M) (r : ℝ) (x y : Fin n → ℝ) :
    ∑ i, laplacian M r x i * y i = ∑ i, x i * laplacian M r y i := by
  simp only [laplacian_eq, Finset.sum_mul, Finset.mul_sum]
  have e1 : ∑ i, ∑ j, coup M r i j * (x i - x j) * y i = ∑ i, ∑ j, coup M r i j * x i * y i -
      ∑ i, ∑ j, coup M r i j * x j * y i := by
    rw [← Finset.sum_sub_distrib]; apply Finset.sum_congr rfl; intro i _
    rw [← Finset.sum_sub_distrib]; apply Finset.sum_congr rfl; intro j _; ring
  have e2 : ∑ i, ∑ j, x i * (coup M r i j * (y i - y j)) = ∑ i, ∑ j, coup M r i j * x i * y i -
      ∑ i, ∑ j, coup M r i j * x i * y j := by
    rw [← Finset.sum_sub_distrib]; apply Finset.sum_congr rfl; intro i _
    rw [← Finset.sum_sub_distrib]; apply Finset.sum_congr rfl; intro j _; ring
  rw [e1, e2]
  congr 1
  rw [Finset.sum_comm]
  apply Finset.sum_congr rfl; intro i _
  apply Finset.sum_congr rfl; intro j _
  rw [coup_symm h]

theorem vnorm_pos {M : Mesh n} (hv : ∀ i, 0 < M.vol i) (i : Fin n) : 0 < vnorm M i := by
  unfold vnorm
  have hn : 0 < n := Fin.pos i
  have hs : 0 < ∑ k, M.vol k := Finset.sum_pos (fun k _ => hv k) ⟨i, Finset.mem_univ _⟩
  have := hv i
  positivity

/-- Comparison principle for exact solutions. -/
theorem max_principle {M : Mesh n} (hv : ∀ i, 0 < M.vol i) (r : ℝ) {x rho : Fin n → ℝ} (h : opA M r x = opV M rho)
    {hi : ℝ} (hrho : ∀ i, rho i ≤ hi) : ∀ i, x i ≤ hi := by
  intro i0
  obtain ⟨i, -, himax⟩ := Finset.exists_max_image Finset.univ x ⟨i0, Finset.mem_univ _⟩
  have hlap : 0 ≤ laplacian M r x i := by
    rw [laplacian_eq]
    exact Finset.sum_nonneg fun j hj => mul_nonneg (coup_nonneg M r i j) (by linarith [himax j hj])
  have heq := congrFun h i
  unfold opA opV at heq
  have hvi := vnorm_pos hv i
  have h1 : vnorm M i * x i ≤ vnorm M i * hi := by
    have := mul_le_mul_of_nonneg_left (hrho i) hvi.le
    have := mul_nonneg (sq_nonneg r) hlap
    linarith
  exact (himax i0 (Finset.mem_univ _)).trans (le_of_mul_le_mul_left h1 hvi)

theorem opA_lin (M : Mesh n) (r : ℝ) (x y : Fin n → ℝ) (a b : ℝ) (i : Fin n) :
    opA M r (fun e => a * x e + b * y e) i = a * opA M r x i + b * opA M r y i := by
  unfold opA
  rw [laplacian_eq, laplacian_eq, laplacian_eq]
  have : ∑ j, coup M r i j * (a * x i + b * y i - (a * x j + b * y j)) =
      a * ∑ j, coup M r i j * (x i - x j) + b * ∑ j, coup M r i j * (y i - y j) := by
    rw [Finset.mul_sum, Finset.mul_sum, ← Finset.sum_add_distrib]
    apply Finset.sum_congr rfl; intro j _; ring
  rw [this]; ring

/-- The system matrix is injective. -/
theorem opA_injective {M : Mesh n} (hv : ∀ i, 0 < M.vol i) (r : ℝ) : Function.Injective (opA M r) := by
  intro x y hxy
  have h : ∀ x y : Fin n → ℝ, opA M r x = opA M r y → ∀ i, x i ≤ y i := by
    intro x y hxy i
    have h0 : opA M r (fun e => 1 * x e + (-1) * y e) = opV M (fun _ => 0) := by
      funext i
      rw [opA_lin, hxy]; unfold opV; ring
    have := max_principle hv r h0 (hi := 0) (fun _ => le_rfl) i
    linarith
  funext i
  exact le_antisymm (h x y hxy i) (h y x hxy.symm i)

/-- The system matrix as a linear map. -/
noncomputable def opALin (M : Mesh n) (r : ℝ) : (Fin n → ℝ) →ₗ[ℝ] (Fin n → ℝ) where
  toFun := opA M r
  map_add' x y := by
    funext i
    have := opA_lin M r x y 1 1 i
    simp only [one_mul] at this
    exact this
  map_smul' a x := by
    funext i
    have := opA_lin M r x x a 0 i
    simp only [zero_mul, add_zero] at this
    exact this

theorem opA_surjective {M : Mesh n} (hv : ∀ i, 0 < M.vol i) (r : ℝ) : Function.Surjective (opA M r) := by
  have : Function.Injective (opALin M r) := opA_injective hv r
  exact LinearMap.surjective_of_injective this

end Verif.Helmholtz
