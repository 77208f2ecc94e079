import Verif.Spec.Heated
import Verif.Lemmas.Supported
import Verif.Props.Heat

/-! Temperatures without slope are constant on every piece of a mesh. -/
namespace Verif.FEBasis
open Matrix Verif.Heat Verif.Spec.Supported

variable {N E C Q : Type} {d : ℕ} [Fintype C]

theorem slope_scalar [Fintype N] (M : Mesh N E C d) (R : Ref C Q d) (phi : Q → C → ℝ) (u : N → ℝ) (e : E) (q : Q) (a : Fin d) :
    Spec.Heat.slope (scalarBasis M R phi) u e q a = ∑ l, (∑ c, u (M.t e c) * R.dphi q c l) * (jac M R e q)⁻¹ l a := by
  classical
  simp only [Spec.Heat.slope, scalarBasis, Finset.mul_sum, mul_ite, mul_zero]
  rw [Finset.sum_comm]
  have h1 : ∀ c, (∑ n : N, if M.t e c = n then u n * shapeGrad M R e q c a else 0) = u (M.t e c) * shapeGrad M R e q c a := by
    intro c; simp
  calc _ = ∑ c, u (M.t e c) * shapeGrad M R e q c a := Finset.sum_congr rfl fun c _ => by rw [← h1 c]
    _ = _ := by
      simp only [shapeGrad, Finset.mul_sum, Finset.sum_mul]
      rw [Finset.sum_comm]
      exact Finset.sum_congr rfl fun l _ => Finset.sum_congr rfl fun c _ => by ring

theorem value_scalar [Fintype N] (M : Mesh N E C d) (phi : C → ℝ) (u : N → ℝ) (e : E) [DecidableEq N] :
    ∑ n, u n * (∑ c, if M.t e c = n then phi c else 0) = ∑ c, u (M.t e c) * phi c := by
  simp only [Finset.mul_sum, mul_ite, mul_zero]
  rw [Finset.sum_comm]
  exact Finset.sum_congr rfl fun c _ => by simp

theorem refSlope_zero [Fintype N] {M : Mesh N E C d} {R : Ref C Q d} {phi : Q → C → ℝ} {u : N → ℝ} {e : E} {q : Q} (hdet : (jac M R e q).det ≠ 0)
    (h : ∀ a, Spec.Heat.slope (scalarBasis M R phi) u e q a = 0) (l : Fin d) : ∑ c, u (M.t e c) * R.dphi q c l = 0 := by
  have hz : (fun l => ∑ c, u (M.t e c) * R.dphi q c l) ᵥ* (jac M R e q)⁻¹ = 0 := by
    funext a
    have := h a
    rw [slope_scalar] at this
    exact this
  have h2 : ((fun l => ∑ c, u (M.t e c) * R.dphi q c l) ᵥ* (jac M R e q)⁻¹) ᵥ* jac M R e q = 0 := by rw [hz, Matrix.zero_vecMul]
  rw [Matrix.vecMul_vecMul, Matrix.nonsing_inv_mul _ (Ne.isUnit hdet), Matrix.vecMul_one] at h2
  exact congrFun h2 l

/-- An element whose quadrature points see every variation of the temperature. -/
def Sees (R : Ref C Q d) : Prop := ∀ v : C → ℝ, (∀ q l, ∑ c, v c * R.dphi q c l = 0) → ∀ c c', v c = v c'

theorem sees_p1 [Nonempty Q] (w : Q → ℝ) : Sees (p1 d w) := by
  intro v h
  obtain ⟨q⟩ := ‹Nonempty Q›
  have h0 : ∀ c, v c = v 0 := by
    intro c
    refine Fin.cases rfl (fun l => ?_) c
    have := h q l
    simp [p1, Fin.sum_univ_succ] at this
    linarith
  intro c c'
  rw [h0 c, h0 c']

theorem sees_q1 (X : Q → Fin 3 → ℝ) (w : Q → ℝ) (hX : Grid X) : Sees (q1 X w) := by
  intro v h
  obtain ⟨s, hs, hq⟩ := hX
  have n0 : ∀ b c : Bool, (v 3 - v 0) + (v 6 - v 3 - v 2 + v 0) * s b + (v 5 - v 3 - v 1 + v 0) * s c +
      (v 7 - v 6 - v 5 - v 4 + v 3 + v 2 + v 1 - v 0) * (s b * s c) = 0 := by
    intro b c
    obtain ⟨q, e⟩ := hq true b c
    have hh := h q 0
    rw [(hex_grads X w v q).1, e] at hh
    simpa using hh
  have n1 : ∀ b c : Bool, (v 2 - v 0) + (v 6 - v 3 - v 2 + v 0) * s b + (v 4 - v 2 - v 1 + v 0) * s c +
      (v 7 - v 6 - v 5 - v 4 + v 3 + v 2 + v 1 - v 0) * (s b * s c) = 0 := by
    intro b c
    obtain ⟨q, e⟩ := hq b true c
    have hh := h q 1
    rw [(hex_grads X w v q).2.1, e] at hh
    simpa using hh
  have n2 : ∀ b c : Bool, (v 1 - v 0) + (v 5 - v 3 - v 1 + v 0) * s b + (v 4 - v 2 - v 1 + v 0) * s c +
      (v 7 - v 6 - v 5 - v 4 + v 3 + v 2 + v 1 - v 0) * (s b * s c) = 0 := by
    intro b c
    obtain ⟨q, e⟩ := hq b c true
    have hh := h q 2
    rw [(hex_grads X w v q).2.2, e] at hh
    simpa using hh
  obtain ⟨x1, x2, x3, x4⟩ := bilinear_zero hs (n0 true true) (n0 true false) (n0 false true) (n0 false false)
  obtain ⟨y1, y2, y3, y4⟩ := bilinear_zero hs (n1 true true) (n1 true false) (n1 false true) (n1 false false)
  obtain ⟨z1, z2, z3, z4⟩ := bilinear_zero hs (n2 true true) (n2 true false) (n2 false true) (n2 false false)
  have h0 : ∀ c, v c = v 0 := by
    intro c
    fin_cases c <;> simp <;> linarith
  intro c c'
  rw [h0 c, h0 c']

/-- Without slope, neighbouring nodes have the same temperature. -/
theorem same_of_linked [Fintype N] {M : Mesh N E C d} {R : Ref C Q d} {phi : Q → C → ℝ} (hR : Sees R) (hM : NonDegenerate M R) {u : N → ℝ}
    (h : ∀ e q a, Spec.Heat.slope (scalarBasis M R phi) u e q a = 0) {n m : N} (hl : Relation.ReflTransGen (Neighbours M) n m) : u n = u m := by
  induction hl with
  | refl => rfl
  | tail _ hj ih =>
    obtain ⟨e, ⟨c, rfl⟩, c', rfl⟩ := hj
    rw [ih]
    exact hR (fun c => u (M.t e c)) (fun q l => refSlope_zero (hM e q) (h e q) l) c c'

theorem connected_of_anchored [Fintype N] {M : Mesh N E C d} {R : Ref C Q d} {phi : Q → C → ℝ} (hR : Sees R) (hM : NonDegenerate M R)
    {D : Finset N} (hD : Anchored M D) (u : N → ℝ) (h0 : ∀ i ∈ D, u i = 0)
    (h : ∀ e q a, Spec.Heat.slope (scalarBasis M R phi) u e q a = 0) : u = 0 := by
  funext n
  obtain ⟨m, hm, hl⟩ := hD n
  rw [same_of_linked hR hM h hl, h0 m hm]; rfl

/-- Neighbours are neighbours both ways. -/
theorem linked_symm {M : Mesh N E C d} {n m : N} (h : Relation.ReflTransGen (Neighbours M) n m) : Relation.ReflTransGen (Neighbours M) m n := by
  induction h with
  | refl => exact .refl
  | tail _ hj ih =>
    obtain ⟨e, hc, hc'⟩ := hj
    exact .head ⟨e, hc', hc⟩ ih

/-- A temperature that is 1 on a piece and 0 elsewhere has no slope. -/
theorem slope_piece [Fintype N] (M : Mesh N E C d) {R : Ref C Q d} (hR : Unity R) (phi : Q → C → ℝ) (n : N) (e : E) (q : Q) (a : Fin d) [DecidablePred fun m => Relation.ReflTransGen (Neighbours M) n m] :
    Spec.Heat.slope (scalarBasis M R phi) (fun m => if Relation.ReflTransGen (Neighbours M) n m then 1 else 0) e q a = 0 := by
  rw [slope_scalar]
  refine Finset.sum_eq_zero fun l _ => mul_eq_zero_of_left ?_ _
  by_cases hc : ∃ c, Relation.ReflTransGen (Neighbours M) n (M.t e c)
  · obtain ⟨c0, h0⟩ := hc
    have : ∀ c, Relation.ReflTransGen (Neighbours M) n (M.t e c) := fun c => h0.tail ⟨e, ⟨c0, rfl⟩, c, rfl⟩
    simp only [this, if_true, one_mul]
    exact hR q l
  · push Not at hc
    simp [hc]

/-! ### Values of the shape functions -/

theorem p1Val_sum (X : Q → Fin d → ℝ) (q : Q) : ∑ c, p1Val X q c = 1 := by
  simp [p1Val, Fin.sum_univ_succ]

theorem q1Val_sum (X : Q → Fin 3 → ℝ) (q : Q) : ∑ c, q1Val X q c = 1 := by
  simp [q1Val, hexCorner, Fin.sum_univ_eight, Fin.prod_univ_three]; ring

theorem p1Val_nonneg {X : Q → Fin d → ℝ} {q : Q} (h : ∀ l, 0 ≤ X q l) (h1 : ∑ l, X q l ≤ 1) (c : Fin (d + 1)) : 0 ≤ p1Val X q c := by
  refine Fin.cases ?_ (fun l => ?_) c
  · simp only [p1Val, Fin.cases_zero]; linarith
  · simpa [p1Val] using h l

theorem q1Val_nonneg {X : Q → Fin 3 → ℝ} {q : Q} (h : ∀ l, 0 ≤ X q l ∧ X q l ≤ 1) (c : Fin 8) : 0 ≤ q1Val X q c := by
  have a : ∀ k, 0 ≤ hexCorner c k ∧ hexCorner c k ≤ 1 := by
    intro k
    fin_cases c <;> fin_cases k <;> simp [hexCorner]
  exact Finset.prod_nonneg fun k _ => add_nonneg (mul_nonneg (a k).1 (h k).1) (mul_nonneg (by linarith [(a k).2]) (by linarith [(h k).2]))

theorem scalar_nonneg {M : Mesh N E C d} {R : Ref C Q d} {phi : Q → C → ℝ} (h : ∀ q c, 0 ≤ phi q c) (n : N) (e : E) (q : Q) :
    0 ≤ (scalarBasis M R phi).val n e q :=
  Finset.sum_nonneg fun c _ => by split_ifs <;> simp [h q c]

theorem scalar_one [Fintype N] {M : Mesh N E C d} {R : Ref C Q d} {phi : Q → C → ℝ} (h : ∀ q, ∑ c, phi q c = 1) (e : E) (q : Q) :
    ∑ n, (scalarBasis M R phi).val n e q = 1 := by
  classical
  have := value_scalar M (phi q) (fun _ => 1) e
  simp only [one_mul, h] at this
  rw [← this]
  exact Finset.sum_congr rfl fun n _ => Finset.sum_congr rfl fun c _ => by congr

theorem scalar_grad_sum [Fintype N] {M : Mesh N E C d} {R : Ref C Q d} (hR : Unity R) (phi : Q → C → ℝ) (e : E) (q : Q) (a : Fin d) :
    ∑ n, (scalarBasis M R phi).grad n e q a = 0 := by
  have := slope_scalar M R phi (fun _ => 1) e q a
  simp only [Spec.Heat.slope, one_mul] at this
  rw [this]
  exact Finset.sum_eq_zero fun l _ => by rw [hR q l, zero_mul]

end Verif.FEBasis
