import Verif.Spec.FilterElement
import Verif.Lemmas.Helmholtz
import Mathlib.Tactic.Linarith
import Mathlib.Tactic.Ring
import Mathlib.Tactic.Tauto
import Mathlib.Tactic.SplitIfs
import Mathlib.Algebra.Order.BigOperators.Ring.Finset
import Mathlib.Algebra.Order.Chebyshev

/-! Helper lemmas about the element filter object and the conjugate gradient iteration. -/
namespace Verif.FilterElement
open Verif.Helmholtz Verif.Spec.FilterElement
open Classical

variable {n : ℕ}

/-- What holds of the object between calls. -/
structure Good (mesh : Mesh n) (r : ℝ) (o : String) (s : Filter n) : Prop where
  mesh_eq : s.mesh = mesh
  radius_eq : s.radius = r
  A_eq : s.A = opA mesh r
  V_eq : s.V = opV mesh
  option_eq : s.option = o
  known : Known o
  lu_eq : o = "spsolve" → s.lu = some (opA mesh r)
  M_eq : o = "cg_jacobi" → s.M = some fun x i => 1 / (diagonal (opA mesh r) i + 1 / 10 ^ 8) * x i
  amg_eq : o = "cg_pyamg" → s.amg = some (opA mesh r)

/-- What holds in addition as long as the settings are left alone. -/
structure Plain (s : Filter n) : Prop where
  rtol_eq : s.rtol = 1 / 10 ^ 5
  maxiter_eq : s.option = "cg_jacobi" → s.maxiter = n / 4

theorem known_iff (o : String) : o ∈ ["cg_jacobi", "cg_pyamg", "spsolve"] ↔ Known o := by
  unfold Known; simp only [List.mem_cons, List.not_mem_nil, or_false]; tauto

theorem good_build (mesh : Mesh n) (r : ℝ) (o : String) (s : Filter n) (h1 : s.mesh = mesh) (h2 : s.radius = r)
    (h3 : s.A = opA mesh r) (h4 : s.V = opV mesh) (h5 : s.option = o) (hk : Known o) : Good mesh r o (build s) := by
  subst h5
  unfold build
  rcases hk with h | h | h <;> simp only [h] <;> simp [createSolver, createAmgsolver, createLinearOperator] <;>
    constructor <;> simp [h1, h2, h3, h4, h, Known]

theorem plain_build (s : Filter n) (h : s.rtol = 1 / 10 ^ 5) : Plain (build s) := by
  unfold build
  split_ifs with h1 h2 h3
  · exact ⟨h, fun e => by simp [createAmgsolver, h1] at e⟩
  · exact ⟨rfl, fun _ => rfl⟩
  · exact ⟨h, fun e => by simp [createSolver, h3] at e⟩
  · exact ⟨h, fun e => absurd e h2⟩

theorem good_step {mesh : Mesh n} {r : ℝ} {o : String} {s : Filter n} (h : Good mesh r o s) (c : Call) :
    Good mesh (lastRadius r [c]) (lastOption o [c]) (step s c) := by
  cases c with
  | updateRadius r' =>
    have hk := (known_iff o).2 h.known
    simp only [step, updateRadius, preprocess, h.option_eq, hk, if_true, lastRadius, lastOption]
    exact good_build _ _ _ _ h.mesh_eq rfl (by simp [h.mesh_eq]) (by simp [h.mesh_eq]) rfl h.known
  | preprocess o' =>
    cases o' with
    | none =>
      simp only [step, preprocess, lastRadius, lastOption]
      exact good_build _ _ _ _ h.mesh_eq h.radius_eq h.A_eq h.V_eq h.option_eq h.known
    | some o' =>
      simp only [step, preprocess, lastRadius, lastOption, known_iff]
      by_cases hk : Known o'
      · simp only [hk, if_true]
        exact good_build _ _ _ _ h.mesh_eq h.radius_eq h.A_eq h.V_eq rfl hk
      · simp only [hk, if_false]
        exact h
  | setRtol t => exact ⟨h.mesh_eq, h.radius_eq, h.A_eq, h.V_eq, h.option_eq, h.known, h.lu_eq, h.M_eq, h.amg_eq⟩
  | setMaxiter t => exact ⟨h.mesh_eq, h.radius_eq, h.A_eq, h.V_eq, h.option_eq, h.known, h.lu_eq, h.M_eq, h.amg_eq⟩

theorem lastRadius_cons (r : ℝ) (c : Call) (h : List Call) : lastRadius r (c :: h) = lastRadius (lastRadius r [c]) h := by
  cases c <;> rfl

theorem lastOption_cons (o : String) (c : Call) (h : List Call) :
    lastOption o (c :: h) = lastOption (lastOption o [c]) h := by
  rcases c with _ | (_ | o') | _ | _ <;> rfl

theorem good_run {mesh : Mesh n} {r : ℝ} {o : String} {s : Filter n} (h : Good mesh r o s) (l : List Call) :
    Good mesh (lastRadius r l) (lastOption o l) (run s l) := by
  induction l generalizing r o s with
  | nil => exact h
  | cons c l ih =>
    rw [lastRadius_cons, lastOption_cons]
    exact ih (good_step h c)

theorem plain_step {s : Filter n} (h : Plain s) (c : Call) (hc : NoSettings [c]) : Plain (step s c) := by
  cases c with
  | updateRadius r =>
    simp only [step, updateRadius, preprocess]
    split_ifs
    · exact plain_build _ h.rtol_eq
    · exact ⟨h.rtol_eq, h.maxiter_eq⟩
  | preprocess o =>
    cases o with
    | none => exact plain_build _ h.rtol_eq
    | some o =>
      simp only [step, preprocess]
      split_ifs
      · exact plain_build _ h.rtol_eq
      · exact h
  | setRtol t => exact absurd rfl ((hc _ (List.mem_singleton_self _)).1 t)
  | setMaxiter t => exact absurd rfl ((hc _ (List.mem_singleton_self _)).2 t)

theorem plain_run {s : Filter n} (h : Plain s) (l : List Call) (hl : NoSettings l) : Plain (run s l) := by
  induction l generalizing s with
  | nil => exact h
  | cons c l ih =>
    exact ih (plain_step h c fun d hd => hl d (by simp at hd; simp [hd])) fun d hd => hl d (by simp [hd])

theorem fromDefaults_ok (mesh : Mesh n) (r : ℝ) (o : String) (hk : Known o) :
    ∃ s, fromDefaults mesh r o = .ok s ∧ Good mesh r o s ∧ Plain s := by
  have e : ∀ s : Filter n, s.mesh = mesh → s.radius = r → s.A = opA mesh r → s.V = opV mesh → s.option = o →
      s.rtol = 1 / 10 ^ 5 → Good mesh r o (build s) ∧ Plain (build s) := fun s h1 h2 h3 h4 h5 h6 =>
    ⟨good_build mesh r o s h1 h2 h3 h4 h5 hk, plain_build s h6⟩
  unfold fromDefaults
  simp only [preprocess, known_iff, hk, if_true]
  exact ⟨_, rfl, e _ rfl rfl rfl rfl rfl rfl⟩

theorem fromDefaults_bad (mesh : Mesh n) (r : ℝ) (o : String) (hk : ¬ Known o) :
    fromDefaults mesh r o = .error .valueError := by
  unfold fromDefaults; simp only [preprocess, known_iff, hk, if_false]

/-! ### Conjugate gradients -/

theorem norm2_nonneg (x : Vec n) : 0 ≤ norm2 x := Real.sqrt_nonneg _

theorem norm2_eq_zero {x : Vec n} : norm2 x = 0 ↔ x = fun _ => 0 := by
  unfold norm2
  rw [Real.sqrt_eq_zero (Finset.sum_nonneg fun i _ => sq_nonneg _), Finset.sum_eq_zero_iff_of_nonneg fun i _ => sq_nonneg _]
  simp only [Finset.mem_univ, forall_true_left, pow_eq_zero_iff, ne_eq, OfNat.ofNat_ne_zero, not_false_eq_true]
  exact funext_iff.symm

theorem norm2_sq (x : Vec n) : norm2 x ^ 2 = ∑ i, x i ^ 2 :=
  Real.sq_sqrt (Finset.sum_nonneg fun i _ => sq_nonneg _)

/-- The variable `r` of the loop is the residual of the variable `x`. -/
theorem residual_step {A : Op n} (hA : Spec.IsLinear A) (M : Op n) {b : Vec n} (first : Bool) {s : CG n}
    (h : ∀ i, s.r i = b i - A s.x i) (i : Fin n) : (cgStep A M first s).r i = b i - A (cgStep A M first s).x i := by
  simp only [cgStep]
  generalize (if first = true then M s.r else fun i => dot s.r (M s.r) / s.rho * s.p i + M s.r i) = p
  generalize dot s.r (M s.r) / dot p (A p) = α
  have := congrFun (hA s.x p 1 α) i
  simp only [one_mul] at this
  rw [h i, this]; ring

theorem cgLoop_residual {A : Op n} (hA : Spec.IsLinear A) (M : Op n) {b : Vec n} {tol : ℝ} {maxiter : ℕ} (hm : 0 < maxiter)
    (k : ℕ) (first : Bool) (s : CG n) (h : ∀ i, s.r i = b i - A s.x i) (h0 : (cgLoop A M tol maxiter k first s).2 = 0) :
    norm2 (fun i => b i - A (cgLoop A M tol maxiter k first s).1 i) < tol := by
  induction k generalizing first s with
  | zero => simp only [cgLoop] at h0; omega
  | succ k ih =>
    simp only [cgLoop] at h0 ⊢
    split_ifs at h0 ⊢ with hlt
    · have : (fun i => b i - A s.x i) = s.r := by funext i; exact (h i).symm
      rw [this]; exact hlt
    · exact ih false _ (residual_step hA M first h) h0

/-- The Laplacian is positive semidefinite. -/
theorem laplacian_nonneg {M : Mesh n} (h : SymmAdj M) (r : ℝ) (x : Fin n → ℝ) : 0 ≤ ∑ i, laplacian M r x i * x i := by
  have e : 2 * ∑ i, laplacian M r x i * x i = ∑ i, ∑ j, coup M r i j * (x i - x j) ^ 2 := by
    have h1 : ∑ i, laplacian M r x i * x i = ∑ i, ∑ j, coup M r i j * (x i - x j) * x i := by
      simp only [laplacian_eq, Finset.sum_mul]
    have h2 : ∑ i, laplacian M r x i * x i = ∑ i, ∑ j, coup M r i j * (x j - x i) * x j := by
      rw [h1, Finset.sum_comm]
      apply Finset.sum_congr rfl; intro i _
      apply Finset.sum_congr rfl; intro j _
      rw [coup_symm h]
    rw [two_mul]
    nth_rw 1 [h1]
    rw [h2, ← Finset.sum_add_distrib]
    apply Finset.sum_congr rfl; intro i _
    rw [← Finset.sum_add_distrib]
    apply Finset.sum_congr rfl; intro j _
    ring
  have : 0 ≤ ∑ i, ∑ j, coup M r i j * (x i - x j) ^ 2 :=
    Finset.sum_nonneg fun i _ => Finset.sum_nonneg fun j _ => mul_nonneg (coup_nonneg M r i j) (sq_nonneg _)
  linarith

/-- The residual bounds the error: `A` is at least as large as the smallest normalised volume. -/
theorem error_le_residual {M : Mesh n} (h : SymmAdj M) (r : ℝ) {v : ℝ} (hvol : ∀ i, v ≤ vnorm M i)
    (e : Vec n) : v * norm2 e ≤ norm2 (opA M r e) := by
  have h1 : v * norm2 e ^ 2 ≤ ∑ i, opA M r e i * e i := by
    rw [norm2_sq, Finset.mul_sum]
    have : ∑ i, opA M r e i * e i = ∑ i, vnorm M i * e i ^ 2 + r ^ 2 * ∑ i, laplacian M r e i * e i := by
      rw [Finset.mul_sum, ← Finset.sum_add_distrib]
      apply Finset.sum_congr rfl; intro i _
      unfold opA; ring
    rw [this]
    have h2 := mul_nonneg (sq_nonneg r) (laplacian_nonneg h r e)
    have h3 : ∑ i, v * e i ^ 2 ≤ ∑ i, vnorm M i * e i ^ 2 :=
      Finset.sum_le_sum fun i _ => mul_le_mul_of_nonneg_right (hvol i) (sq_nonneg _)
    linarith
  have h2 : ∑ i, opA M r e i * e i ≤ norm2 (opA M r e) * norm2 e := by
    have := Finset.sum_mul_sq_le_sq_mul_sq Finset.univ (opA M r e) e
    rw [← norm2_sq, ← norm2_sq, ← mul_pow] at this
    exact abs_le_of_sq_le_sq' this (mul_nonneg (norm2_nonneg _) (norm2_nonneg _)) |>.2
  rcases (norm2_nonneg e).eq_or_lt with h0 | h0
  · rw [← h0, mul_zero]; exact norm2_nonneg _
  · have h3 : v * norm2 e * norm2 e ≤ norm2 (opA M r e) * norm2 e := by nlinarith [h1, h2]
    exact le_of_mul_le_mul_right h3 h0

theorem opA_isLinear (M : Mesh n) (r : ℝ) : Spec.IsLinear (opA M r) := by
  intro x y a b; funext i; exact opA_lin M r x y a b i

end Verif.FilterElement
