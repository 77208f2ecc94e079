import Verif.Model.HeatValues
import Verif.Lemmas.Heat
import Verif.Lemmas.Heated
import Verif.Props.HeatedRun

/-! C161: the element values of heat analyses, for one field and for several. The specification uses the integrals of `Verif.Spec.Heat`. -/
namespace Verif.Heat
open Verif.FEBasis Matrix

variable {ι Q : Type} [Fintype ι] [Fintype Q] {E : Type} {d m n : ℕ}

set_option linter.unusedSectionVars false

noncomputable section

/-! ### Lemmas -/

theorem column_ok (X : ι → Fin n → ℝ) (i : Fin n) : column X i = .ok fun v => X v i := by unfold column; rw [dif_pos i.isLt]

theorem foldl_columns (f : Fin m → E → ℝ) (l : List (Fin m)) (A : E → Fin m → ℝ) :
    l.foldlM (m := Res) (fun A i => do pure (setColumn A i (← (.ok (f i) : Res (E → ℝ))))) A =
      .ok fun e j => if j ∈ l then f j e else A e j := by
  induction l generalizing A with
  | nil => simp; rfl
  | cons i l ih =>
    rw [List.foldlM_cons]
    change l.foldlM _ (setColumn A i (f i)) = _
    rw [ih]
    congr 1
    funext e j
    by_cases h : j ∈ l
    · simp [h]
    · by_cases h2 : j = i
      · subst h2; simp [h, setColumn]
      · simp [h, h2, setColumn]

theorem fillColumns_ok (f : Fin m → E → ℝ) : fillColumns (fun i => .ok (f i)) = .ok fun e j => f j e := by
  unfold fillColumns
  rw [foldl_columns]
  simp

theorem foldl_error (f : Fin m → Res (E → ℝ)) (l : List (Fin m)) (A : E → Fin m → ℝ) (k : Fin m) (hk : k ∈ l)
    (hf : ∀ i, (∃ c, f i = .ok c) ∨ f i = .error .indexError) (he : f k = .error .indexError) :
    l.foldlM (m := Res) (fun A i => do pure (setColumn A i (← f i))) A = .error .indexError := by
  induction l generalizing A with
  | nil => simp at hk
  | cons i l ih =>
    rw [List.foldlM_cons]
    rcases hf i with ⟨c, hc⟩ | hc
    · rw [hc]
      change l.foldlM _ (setColumn A i c) = _
      refine ih _ ((List.mem_cons.mp hk).resolve_left ?_)
      rintro rfl
      rw [he] at hc; cases hc
    · rw [hc]; rfl

/-! ### The claims -/

/-- **C161.** The averaged temperature of every element and load case is the integral over the element of the temperature of that load case
relative to the ambient one. Summed over the elements it is `∫ T` minus the ambient temperature times the volume; another ambient temperature
shifts it by the same amount whatever the temperatures are. (Basis functions that sum to one, as in every Lagrange element.) -/
theorem C161_averaged_temperature [Fintype E] (B : FE ι E Q d) (h1 : ∀ e q, ∑ i, B.val i e q = 1) (Tall : ι → Fin m → ℝ) (Tenv : ℝ) :
    ∃ A, avgTempMulti B Tall Tenv = .ok A ∧
      (∀ e j, A e j = ∑ q, (Spec.Heat.field B (fun i => Tall i j) e q - Tenv) * B.dx e q) ∧
      (∀ e j, A e j = avgTemp B (fun i => Tall i j) Tenv e) ∧
      (∀ j, ∑ e, A e j = (∑ e, ∑ q, Spec.Heat.field B (fun i => Tall i j) e q * B.dx e q) - Tenv * ∑ e, ∑ q, B.dx e q) ∧
      ∀ Tenv' A', avgTempMulti B Tall Tenv' = .ok A' → ∀ e j, A' e j = A e j + (Tenv - Tenv') * ∑ q, B.dx e q := by
  have hok : ∀ t, avgTempMulti B Tall t = .ok fun e j => avgTemp B (fun i => Tall i j) t e := by
    intro t
    unfold avgTempMulti
    rw [← fillColumns_ok]
    congr 1
    funext i
    rw [column_ok]; rfl
  have hval : ∀ t e j, avgTemp B (fun i => Tall i j) t e = ∑ q, (Spec.Heat.field B (fun i => Tall i j) e q - t) * B.dx e q := by
    intro t e j
    unfold avgTemp
    refine Finset.sum_congr rfl fun q _ => ?_
    have : valAt B (fun _ => t) e q = t := by unfold valAt; rw [← Finset.mul_sum, h1, mul_one]
    rw [this]; rfl
  refine ⟨_, hok Tenv, hval Tenv, fun _ _ => rfl, fun j => ?_, fun t A' hA' e j => ?_⟩
  · simp only [hval, sub_mul, Finset.sum_sub_distrib, Finset.mul_sum]
  · rw [hok t] at hA'
    cases hA'
    simp only [hval]
    rw [Finset.mul_sum, ← Finset.sum_add_distrib]
    exact Finset.sum_congr rfl fun q _ => by ring

/-- **C161.** On simplices with linear elements (tetrahedra for `d = 3`) and a rule exact for linear functions, this is the volume of the
element times the mean of the temperatures at its corners relative to the ambient one. -/
theorem C161_averaged_on_simplices {N : Type} [Fintype N] (M : Mesh N E (Fin (d + 1)) d) (X : Q → Fin d → ℝ) (w : Q → ℝ)
    (hX : ∀ l, ∑ q, w q * X q l = (∑ q, w q) / (d + 1)) (T : N → ℝ) (Tenv : ℝ) (e : E) (q₀ : Q) :
    avgTemp (scalarBasis M (p1 d w) (p1Val X)) T Tenv e =
      (|(jac M (p1 d w) e q₀).det| * ∑ q, w q) * ((∑ c, T (M.t e c)) / (d + 1) - Tenv) := by
  classical
  have hd : ((d : ℝ) + 1) ≠ 0 := by positivity
  have hJ : ∀ q, jac M (p1 d w) e q = jac M (p1 d w) e q₀ := fun q => rfl
  have hval : ∀ x q, valAt (scalarBasis M (p1 d w) (p1Val X)) x e q = ∑ c, x (M.t e c) * p1Val X q c := by
    intro x q
    rw [← value_scalar M (p1Val X q) x e]
    exact Finset.sum_congr rfl fun n _ => by congr! 1
  have hc : ∀ c, ∑ q, w q * p1Val X q c = (∑ q, w q) / (d + 1) := by
    intro c
    refine Fin.cases ?_ (fun l => ?_) c
    · simp only [p1Val, Fin.cases_zero, mul_sub, mul_one, Finset.sum_sub_distrib, Finset.mul_sum]
      rw [Finset.sum_comm]
      simp only [hX, Finset.sum_const, Finset.card_univ, Fintype.card_fin, nsmul_eq_mul]
      field_simp
      ring
    · simpa [p1Val] using hX l
  have hT : ∀ q, (valAt (scalarBasis M (p1 d w) (p1Val X)) T e q - valAt (scalarBasis M (p1 d w) (p1Val X)) (fun _ => Tenv) e q) =
      (∑ c, T (M.t e c) * p1Val X q c) - Tenv := by
    intro q
    rw [hval, hval, ← Finset.mul_sum, p1Val_sum, mul_one]
  unfold avgTemp
  simp only [hT]
  have hdx : ∀ q, (scalarBasis M (p1 d w) (p1Val X)).dx e q = |(jac M (p1 d w) e q₀).det| * w q := fun q => rfl
  simp only [hdx]
  have h2 : ∑ q, ((∑ c, T (M.t e c) * p1Val X q c) - Tenv) * (|(jac M (p1 d w) e q₀).det| * w q) =
      |(jac M (p1 d w) e q₀).det| * ((∑ c, T (M.t e c) * ∑ q, w q * p1Val X q c) - Tenv * ∑ q, w q) := by
    rw [mul_sub, Finset.mul_sum, Finset.mul_sum, Finset.mul_sum]
    simp only [Finset.mul_sum]
    rw [Finset.sum_comm, ← Finset.sum_sub_distrib]
    refine Finset.sum_congr rfl fun q _ => ?_
    rw [sub_mul, Finset.sum_mul]
    congr 1
    · exact Finset.sum_congr rfl fun c _ => by ring
    · ring
  rw [h2]
  simp only [hc]
  rw [← Finset.sum_mul]
  field_simp

/-- **C161.** The energies are, for every element and load case, half the integral of the conductivity of the element times the squared
gradient of the temperature: the same as for that load case alone, never negative for conductivities and weights that are not, and twice their
sum is the quadratic form of the conduction matrix. -/
theorem C161_energies [Fintype E] (B : FE ι E Q d) (law : ℝ → ℝ → ℝ → ℝ → ℝ) (k0 kmin p : ℝ) (rho : E → ℝ) (Tall : ι → Fin m → ℝ) :
    ∃ A, energyMulti B law k0 kmin p rho Tall = .ok A ∧
      (∀ e j, A e j = 1 / 2 * law (rho e) k0 kmin p * ∑ q, (∑ a, Spec.Heat.slope B (fun i => Tall i j) e q a ^ 2) * B.dx e q) ∧
      (∀ e j, A e j = energy B (fun e => law (rho e) k0 kmin p) (fun i => Tall i j) e) ∧
      (∀ e, 0 ≤ law (rho e) k0 kmin p → (∀ q, 0 ≤ B.dx e q) → ∀ j, 0 ≤ A e j) ∧
      ∀ j, 2 * ∑ e, A e j = (fun i => Tall i j) ⬝ᵥ conduction B (fun e => law (rho e) k0 kmin p) *ᵥ fun i => Tall i j := by
  have hok : energyMulti B law k0 kmin p rho Tall = .ok fun e j => energy B (fun e => law (rho e) k0 kmin p) (fun i => Tall i j) e := by
    unfold energyMulti
    rw [← fillColumns_ok]
    congr 1
    funext i
    rw [column_ok]; rfl
  have hval : ∀ e j, energy B (fun e => law (rho e) k0 kmin p) (fun i => Tall i j) e =
      1 / 2 * law (rho e) k0 kmin p * ∑ q, (∑ a, Spec.Heat.slope B (fun i => Tall i j) e q a ^ 2) * B.dx e q := by
    intro e j
    unfold energy
    rw [Finset.mul_sum]
    refine Finset.sum_congr rfl fun q _ => ?_
    have : dot (gradAt B (fun i => Tall i j) e q) (gradAt B (fun i => Tall i j) e q) = ∑ a, Spec.Heat.slope B (fun i => Tall i j) e q a ^ 2 :=
      Finset.sum_congr rfl fun a _ => (sq _).symm
    rw [this]; ring
  refine ⟨_, hok, hval, fun _ _ => rfl, fun e hl hdx j => ?_, fun j => ?_⟩
  · rw [hval]
    exact mul_nonneg (mul_nonneg (by norm_num) hl)
      (Finset.sum_nonneg fun q _ => mul_nonneg (Finset.sum_nonneg fun a _ => sq_nonneg _) (hdx q))
  · have hq : (fun i => Tall i j) ⬝ᵥ conduction B (fun e => law (rho e) k0 kmin p) *ᵥ (fun i => Tall i j) =
        ∑ i, Tall i j * ∑ j', conduction B (fun e => law (rho e) k0 kmin p) i j' * Tall j' j := rfl
    rw [hq]
    simp only [conduction_apply]
    simp only [Finset.mul_sum]
    rw [Finset.sum_comm]
    refine Finset.sum_congr rfl fun e _ => ?_
    rw [Finset.sum_comm]
    unfold energy
    rw [Finset.mul_sum]
    refine Finset.sum_congr rfl fun q _ => ?_
    have : ∑ i, Tall i j * dot (gradAt B (fun i => Tall i j) e q) (B.grad i e q) =
        dot (gradAt B (fun i => Tall i j) e q) (gradAt B (fun i => Tall i j) e q) := by
      unfold dot
      simp only [Finset.mul_sum]
      rw [Finset.sum_comm]
      refine Finset.sum_congr rfl fun a _ => ?_
      conv_rhs => rw [gradAt, Finset.sum_mul]
      rw [gradAt]
      exact Finset.sum_congr rfl fun i _ => by ring
    rw [← this, Finset.mul_sum, Finset.sum_mul, Finset.mul_sum]
    exact Finset.sum_congr rfl fun i _ => by ring

/-- **C161.** The gradient densities of the heat-exchange and averaged-temperature objectives are, for every element and load case, the
integral of the product of the gradients of temperature and adjoint field of that load case. Adjoint fields beyond the number of load cases are
ignored; too few of them raise IndexError. -/
theorem C161_gradient_densities (B : FE ι E Q d) (Tall : ι → Fin m → ℝ) (lamAll : ι → Fin n → ℝ) :
    (∀ h : m ≤ n, ∃ A, gradDensityMulti B Tall lamAll = .ok A ∧ ∀ e j, A e j = ∑ q, (∑ a,
      Spec.Heat.slope B (fun i => Tall i j) e q a * Spec.Heat.slope B (fun i => lamAll i (j.castLE h)) e q a) * B.dx e q) ∧
    (n < m → gradDensityMulti B Tall lamAll = .error .indexError) := by
  constructor
  · intro h
    refine ⟨fun e j => gradDensity B (fun i => Tall i j) (fun i => lamAll i (j.castLE h)) e, ?_, fun e j => rfl⟩
    unfold gradDensityMulti
    rw [← fillColumns_ok]
    congr 1
    funext i
    rw [column_ok, show column lamAll i = .ok fun v => lamAll v (i.castLE h) from column_ok lamAll (i.castLE h)]
    rfl
  · intro h
    unfold gradDensityMulti fillColumns
    refine foldl_error _ _ _ ⟨n, h⟩ (List.mem_finRange _) (fun i => ?_) ?_
    · rw [column_ok]
      by_cases hi : (i : ℕ) < n
      · exact .inl ⟨gradDensity B (fun v => Tall v i) (fun v => lamAll v ⟨i, hi⟩), by unfold column; rw [dif_pos hi]; rfl⟩
      · exact .inr (by unfold column; rw [dif_neg hi]; rfl)
    · rw [column_ok]
      unfold column
      rw [dif_neg (lt_irrefl n)]
      rfl

/-! ### Concrete cases -/

/-- The unit tetrahedron with the one-point rule, corner temperatures 10, 20, 30, 40, surroundings at 5: a sixth of `25 - 5`. -/
example : avgTemp (scalarBasis (⟨![![0, 0, 0], ![1, 0, 0], ![0, 1, 0], ![0, 0, 1]], fun _ c => c⟩ : Mesh (Fin 4) Unit (Fin 4) 3)
    (p1 3 fun _ : Unit => 1 / 6) (p1Val fun _ _ => 1 / 4)) ![10, 20, 30, 40] 5 () = 10 / 3 := by
  rw [C161_averaged_on_simplices _ _ _ (by intro l; simp; norm_num) _ _ _ ()]
  have : jac (⟨![![0, 0, 0], ![1, 0, 0], ![0, 1, 0], ![0, 0, 1]], fun _ c => c⟩ : Mesh (Fin 4) Unit (Fin 4) 3) (p1 3 fun _ : Unit => 1 / 6) () () = 1 := by
    ext i j
    fin_cases i <;> fin_cases j <;> simp [jac, p1, Fin.sum_univ_succ]
  rw [this]
  simp [Fin.sum_univ_succ]
  norm_num

/-- Two load cases on the rods: the hypotheses hold. -/
example := C161_averaged_temperature rods (by rw [Supported.rods_eq]; exact scalar_one (p1Val_sum _)) (m := 2) (fun i j => if j = 0 then (i : ℝ) else 2) 5

/-- One adjoint field for two load cases. -/
example : gradDensityMulti rods (m := 2) (n := 1) (fun i _ => i) (fun i _ => i) = .error .indexError :=
  (C161_gradient_densities rods _ _).2 (by norm_num)

end
end Verif.Heat
