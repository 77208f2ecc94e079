import Verif.Spec.Supported
import Verif.Props.Entry
import Mathlib.LinearAlgebra.AffineSpace.FiniteDimensional
import Mathlib.Tactic.LinearCombination
import Mathlib.Tactic.FinCases

/-! Elements that cannot strain move rigidly; joined elements move with the same rigid motion. -/
namespace Verif.FEBasis
open Matrix Verif.Elastic Verif.Spec.Supported

variable {N E C Q : Type} {d : ℕ} [Fintype C]

/-- The derivative of a nodal field with respect to the reference coordinates. -/
def refGrad (M : Mesh N E C d) (R : Ref C Q d) (u : N × Fin d → ℝ) (e : E) (q : Q) : Matrix (Fin d) (Fin d) ℝ :=
  Matrix.of fun i l => ∑ c, u (M.t e c, i) * R.dphi q c l

theorem jac_refGrad (M : Mesh N E C d) (R : Ref C Q d) (e : E) (q : Q) : jac M R e q = refGrad M R (fun x => M.p x.1 x.2) e q := rfl

theorem gradOf_basis [Fintype N] (M : Mesh N E C d) (R : Ref C Q d) (u : N × Fin d → ℝ) (e : E) (q : Q) :
    gradOf (basis M R) u e q = refGrad M R u e q * (jac M R e q)⁻¹ := by
  classical
  ext i j
  simp only [gradOf, basis, Matrix.sum_apply, Matrix.smul_apply, Matrix.of_apply, smul_eq_mul, refGrad, Matrix.mul_apply]
  rw [Fintype.sum_prod_type]
  have h1 : ∀ n : N, (∑ k : Fin d, u (n, k) * if i = k then ∑ c, (if M.t e c = n then shapeGrad M R e q c j else 0) else 0) =
      ∑ c, (if M.t e c = n then u (n, i) * shapeGrad M R e q c j else 0) := by
    intro n
    simp only [mul_ite, mul_zero, Finset.sum_ite_eq, Finset.mem_univ, if_true, Finset.mul_sum]
  calc _ = ∑ n : N, ∑ c, (if M.t e c = n then u (n, i) * shapeGrad M R e q c j else 0) := Finset.sum_congr rfl fun n _ => by
        rw [← h1 n]
    _ = ∑ c, u (M.t e c, i) * shapeGrad M R e q c j := by
        rw [Finset.sum_comm]
        exact Finset.sum_congr rfl fun c _ => by simp
    _ = _ := by
        simp only [shapeGrad, Finset.mul_sum, Finset.sum_mul]
        rw [Finset.sum_comm]
        exact Finset.sum_congr rfl fun l _ => Finset.sum_congr rfl fun c _ => by ring

theorem sym_eq_zero_iff (g : Matrix (Fin d) (Fin d) ℝ) : sym g = 0 ↔ ∀ i j, g j i = -g i j := by
  constructor
  · intro h i j
    have := congrFun (congrFun h i) j
    simp only [sym, Matrix.smul_apply, Matrix.add_apply, Matrix.transpose_apply, smul_eq_mul, Matrix.zero_apply] at this
    linarith
  · intro h
    ext i j
    simp only [sym, Matrix.smul_apply, Matrix.add_apply, Matrix.transpose_apply, smul_eq_mul, Matrix.zero_apply]
    rw [h i j]; ring

/-- An element whose quadrature points see every deformation: without strain there, the corners move rigidly. -/
def Stiff [Fintype N] (M : Mesh N E C d) (R : Ref C Q d) (e : E) : Prop :=
  ∀ u : N × Fin d → ℝ, (∀ q, sym (gradOf (basis M R) u e q) = 0) →
    ∃ W : Matrix (Fin d) (Fin d) ℝ, (∀ i j, W j i = -W i j) ∧
      ∀ c c' i, u (M.t e c, i) - u (M.t e c', i) = ∑ j, W i j * (M.p (M.t e c) j - M.p (M.t e c') j)

/-- The shape functions add up to 1. -/
def Unity (R : Ref C Q d) : Prop := ∀ q l, ∑ c, R.dphi q c l = 0

/-- Rigid motions are without strain. -/
theorem strain_of_rigid [Fintype N] {M : Mesh N E C d} {R : Ref C Q d} (hR : Unity R) {u : N × Fin d → ℝ} (hu : RigidMotion M.p u) (e : E) (q : Q)
    (hdet : (jac M R e q).det ≠ 0) : sym (gradOf (basis M R) u e q) = 0 := by
  obtain ⟨b, W, hW, hu⟩ := hu
  have h1 : refGrad M R u e q = W * jac M R e q := by
    ext i l
    simp only [refGrad, jac, Matrix.of_apply, Matrix.mul_apply]
    have : ∀ c, u (M.t e c, i) * R.dphi q c l = b i * R.dphi q c l + ∑ j, W i j * (M.p (M.t e c) j * R.dphi q c l) := by
      intro c; rw [hu, add_mul, Finset.sum_mul]; congr 1; exact Finset.sum_congr rfl fun j _ => by ring
    simp only [this, Finset.sum_add_distrib, ← Finset.mul_sum, hR q l, mul_zero, zero_add]
    rw [Finset.sum_comm]
    exact Finset.sum_congr rfl fun j _ => by rw [Finset.mul_sum]
  rw [gradOf_basis, h1, Matrix.mul_assoc, Matrix.mul_nonsing_inv _ (Ne.isUnit hdet), Matrix.mul_one, sym_eq_zero_iff]
  exact hW

/-- A skew matrix that vanishes on the directions of `d` points on no smaller plane is zero. -/
theorem skew_zero {W : Matrix (Fin d) (Fin d) ℝ} (hW : ∀ i j, W j i = -W i j) {x : Fin d → Fin d → ℝ} (hx : AffineIndependent ℝ x)
    (h : ∀ k k' i, ∑ j, W i j * (x k j - x k' j) = 0) : W = 0 := by
  rcases d with _ | d
  · ext i; exact i.elim0
  have hfin : Module.finrank ℝ (vectorSpan ℝ (Set.range x)) = d := hx.finrank_vectorSpan (by simp)
  set S := vectorSpan ℝ (Set.range x) with hS
  have hker : S ≤ LinearMap.ker (Matrix.mulVecLin W) := by
    rw [hS, vectorSpan_def, Submodule.span_le]
    rintro _ ⟨_, ⟨k, rfl⟩, _, ⟨k', rfl⟩, rfl⟩
    simp only [SetLike.mem_coe, LinearMap.mem_ker, Matrix.mulVecLin_apply]
    funext i
    simpa [Matrix.mulVec, dotProduct] using h k k' i
  have hne : S ≠ ⊤ := by
    intro ht
    rw [ht, finrank_top, Module.finrank_fin_fun] at hfin
    omega
  obtain ⟨v, -, hv⟩ := SetLike.exists_of_lt (lt_top_iff_ne_top.mpr hne)
  have htop : S ⊔ Submodule.span ℝ {v} = ⊤ := by
    apply Submodule.eq_top_of_finrank_eq
    rw [Module.finrank_fin_fun]
    have hlt : S < S ⊔ Submodule.span ℝ {v} := by
      refine lt_of_le_of_ne le_sup_left fun he => hv ?_
      rw [he]; exact Submodule.mem_sup_right (Submodule.mem_span_singleton_self v)
    have := Submodule.finrank_lt_finrank_of_lt hlt
    have h2 := Submodule.finrank_le (S ⊔ Submodule.span ℝ {v})
    rw [Module.finrank_fin_fun] at h2
    omega
  have hskew : ∀ a b : Fin (d + 1) → ℝ, a ⬝ᵥ W *ᵥ b = -(b ⬝ᵥ W *ᵥ a) := by
    intro a b
    simp only [dotProduct, Matrix.mulVec, Finset.mul_sum]
    rw [Finset.sum_comm, ← Finset.sum_neg_distrib]
    refine Finset.sum_congr rfl fun j _ => ?_
    rw [← Finset.sum_neg_distrib]
    exact Finset.sum_congr rfl fun i _ => by rw [hW i j]; ring
  have hzero : ∀ s ∈ S, W *ᵥ s = 0 := fun s hs => by simpa using hker hs
  have hWv : W *ᵥ v = 0 := by
    have hall : ∀ y : Fin (d + 1) → ℝ, y ⬝ᵥ W *ᵥ v = 0 := by
      intro y
      obtain ⟨s, hs, z, hz, rfl⟩ := Submodule.mem_sup.1 (htop ▸ Submodule.mem_top (x := y))
      obtain ⟨r, rfl⟩ := Submodule.mem_span_singleton.1 hz
      rw [add_dotProduct, smul_dotProduct, hskew s v, hzero s hs]
      have := hskew v v
      simp only [dotProduct_zero, neg_zero, zero_add, smul_eq_mul]
      rw [show v ⬝ᵥ W *ᵥ v = 0 by linarith, mul_zero]
    funext i
    have := hall (Pi.single i 1)
    rwa [single_one_dotProduct] at this
  have hallW : ∀ y : Fin (d + 1) → ℝ, W *ᵥ y = 0 := by
    intro y
    obtain ⟨s, hs, z, hz, rfl⟩ := Submodule.mem_sup.1 (htop ▸ Submodule.mem_top (x := y))
    obtain ⟨r, rfl⟩ := Submodule.mem_span_singleton.1 hz
    rw [Matrix.mulVec_add, Matrix.mulVec_smul, hzero s hs, hWv]; simp
  ext i j
  have := congrFun (hallW (Pi.single j 1)) i
  rwa [Matrix.mulVec_single_one] at this

/-- In a mesh that is one piece and whose elements are stiff, a displacement without strain is a rigid motion. -/
theorem rigid_of_strain [Fintype N] {M : Mesh N E C d} {R : Ref C Q d} (hs : ∀ e, Stiff M R e) (hM : OnePiece M) (u : N × Fin d → ℝ)
    (hu : ∀ e q, sym (gradOf (basis M R) u e q) = 0) : RigidMotion M.p u := by
  choose W hW hc using fun e => hs e u (hu e)
  rcases isEmpty_or_nonempty E with hE | ⟨⟨e0⟩⟩
  · exact ⟨0, 0, by simp, fun n => (hE.false (hM.2 n).choose).elim⟩
  have hjoin : ∀ e e', Joined M e e' → W e = W e' := by
    rintro e e' ⟨n, hn, hi⟩
    have hsub : W e - W e' = 0 := by
      refine skew_zero (x := fun k => M.p (n k)) (fun i j => ?_) hi fun k k' i => ?_
      · simp only [Matrix.sub_apply, hW e i j, hW e' i j]; ring
      · obtain ⟨⟨c1, h1⟩, c2, h2⟩ := hn k
        obtain ⟨⟨c3, h3⟩, c4, h4⟩ := hn k'
        have a1 := hc e c1 c3 i
        have a2 := hc e' c2 c4 i
        rw [h1, h3] at a1
        rw [h2, h4] at a2
        simp only [Matrix.sub_apply, sub_mul, Finset.sum_sub_distrib, ← a1, ← a2, sub_self]
    exact sub_eq_zero.1 hsub
  obtain ⟨⟨c0⟩⟩ | hC : Nonempty C ∨ IsEmpty C := (isEmpty_or_nonempty C).symm
  swap
  · exact ⟨0, 0, by simp, fun n => (hC.false (hM.2 n).choose_spec.choose).elim⟩
  have hall : ∀ e, W e = W e0 ∧ ∀ c i, u (M.t e c, i) - ∑ j, W e0 i j * M.p (M.t e c) j = u (M.t e0 c0, i) - ∑ j, W e0 i j * M.p (M.t e0 c0) j := by
    intro e
    have hchain := hM.1 e0 e
    induction hchain with
    | refl =>
      refine ⟨rfl, fun c i => ?_⟩
      have := hc e0 c c0 i
      simp only [mul_sub, Finset.sum_sub_distrib] at this
      linarith
    | tail _ hj ih =>
      rename_i e1 e2 _
      obtain ⟨ih1, ih2⟩ := ih
      have hW2 : W e2 = W e0 := (hjoin _ _ hj).symm.trans ih1
      refine ⟨hW2, fun c i => ?_⟩
      obtain ⟨n, hn, -⟩ := hj
      obtain ⟨⟨c1, h1⟩, c2, h2⟩ := hn i
      have a1 := hc e2 c c2 i
      have a2 := ih2 c1 i
      rw [h1, ← h2] at a2
      rw [hW2] at a1
      simp only [mul_sub, Finset.sum_sub_distrib] at a1
      linarith
  refine ⟨fun i => u (M.t e0 c0, i) - ∑ j, W e0 i j * M.p (M.t e0 c0) j, W e0, hW e0, fun n i => ?_⟩
  obtain ⟨e, c, rfl⟩ := hM.2 n
  have := (hall e).2 c i
  linarith

/-! ### Simplices -/

theorem unity_p1 (w : Q → ℝ) : Unity (p1 d w) := by
  intro q l
  simp [p1, Fin.sum_univ_succ]

theorem refGrad_p1 (M : Mesh N E (Fin (d + 1)) d) (w : Q → ℝ) (u : N × Fin d → ℝ) (e : E) (q : Q) (i l : Fin d) :
    refGrad M (p1 d w) u e q i l = u (M.t e l.succ, i) - u (M.t e 0, i) := by
  simp [refGrad, p1, Fin.sum_univ_succ]
  ring

theorem det_p1 (M : Mesh N E (Fin (d + 1)) d) (hM : NotFlat M) (w : Q → ℝ) (e : E) (q : Q) : (jac M (p1 d w) e q).det ≠ 0 := by
  have h := (affineIndependent_iff_linearIndependent_vsub ℝ _ 0).1 (hM e)
  have h2 : LinearIndependent ℝ fun l : Fin d => M.p (M.t e l.succ) - M.p (M.t e 0) :=
    h.comp (fun l : Fin d => (⟨l.succ, Fin.succ_ne_zero l⟩ : {x : Fin (d + 1) // x ≠ 0})) fun a b hab => by simpa using hab
  have h3 : LinearIndependent ℝ (jac M (p1 d w) e q)ᵀ.row := by
    convert h2 using 1
    funext l i
    simp [Matrix.row, Matrix.transpose_apply, jac_refGrad, refGrad_p1]
  rw [← Matrix.det_transpose]
  exact ((Matrix.isUnit_iff_isUnit_det _).1 (Matrix.linearIndependent_rows_iff_isUnit.1 h3)).ne_zero

theorem stiff_p1 [Fintype N] [Nonempty Q] (M : Mesh N E (Fin (d + 1)) d) (hM : NotFlat M) (w : Q → ℝ) (e : E) : Stiff M (p1 d w) e := by
  intro u hu
  obtain ⟨q⟩ := ‹Nonempty Q›
  have h := hu q
  rw [gradOf_basis, sym_eq_zero_iff] at h
  refine ⟨_, h, ?_⟩
  set G := refGrad M (p1 d w) u e q * (jac M (p1 d w) e q)⁻¹ with hG
  have hJ : G * jac M (p1 d w) e q = refGrad M (p1 d w) u e q := by
    rw [hG, Matrix.mul_assoc, Matrix.nonsing_inv_mul _ (Ne.isUnit (det_p1 M hM w e q)), Matrix.mul_one]
  have h0 : ∀ (c : Fin (d + 1)) (i : Fin d), u (M.t e c, i) - u (M.t e 0, i) = ∑ j, G i j * (M.p (M.t e c) j - M.p (M.t e 0) j) := by
    intro c i
    refine Fin.cases ?_ (fun l => ?_) c
    · simp
    · have := congrFun (congrFun hJ i) l
      rw [refGrad_p1, Matrix.mul_apply] at this
      rw [← this]
      exact Finset.sum_congr rfl fun j _ => by rw [jac_refGrad, refGrad_p1]
  intro c c' i
  have a := h0 c i
  have b := h0 c' i
  rw [show u (M.t e c, i) - u (M.t e c', i) = (u (M.t e c, i) - u (M.t e 0, i)) - (u (M.t e c', i) - u (M.t e 0, i)) by ring, a, b,
    ← Finset.sum_sub_distrib]
  exact Finset.sum_congr rfl fun j _ => by ring

/-! ### Hexahedra -/

theorem unity_q1 (X : Q → Fin 3 → ℝ) (w : Q → ℝ) : Unity (q1 X w) := by
  intro q l
  fin_cases l <;> simp [q1, hexCorner, Fin.sum_univ_eight, Fin.prod_univ_three] <;> ring

/-- A function `a + b y + c z + d y z` that vanishes at the four points of a grid is zero. -/
theorem bilinear_zero {a b c d s t : ℝ} (hst : s ≠ t) (h1 : a + b * s + c * s + d * (s * s) = 0) (h2 : a + b * s + c * t + d * (s * t) = 0)
    (h3 : a + b * t + c * s + d * (t * s) = 0) (h4 : a + b * t + c * t + d * (t * t) = 0) : a = 0 ∧ b = 0 ∧ c = 0 ∧ d = 0 := by
  have hne : s - t ≠ 0 := sub_ne_zero.mpr hst
  have e1 : c + d * s = 0 := by
    apply mul_left_cancel₀ hne; linear_combination h1 - h2
  have e2 : c + d * t = 0 := by
    apply mul_left_cancel₀ hne; linear_combination h3 - h4
  have e3 : d = 0 := by
    apply mul_left_cancel₀ hne; linear_combination e1 - e2
  subst e3
  have e4 : c = 0 := by linarith
  subst e4
  have e5 : b = 0 := by
    apply mul_left_cancel₀ hne; linear_combination h1 - h3
  subst e5
  exact ⟨by linarith, rfl, rfl, rfl⟩

/-- A quadrature rule that contains the eight points of a grid of two points in each direction. -/
def Grid (X : Q → Fin 3 → ℝ) : Prop := ∃ s : Bool → ℝ, s true ≠ s false ∧ ∀ a b c, ∃ q, X q = ![s a, s b, s c]

theorem hex_grads (X : Q → Fin 3 → ℝ) (w : Q → ℝ) (v : Fin 8 → ℝ) (q : Q) :
    (∑ c, v c * (q1 X w).dphi q c 0 = (v 3 - v 0) + (v 6 - v 3 - v 2 + v 0) * X q 1 + (v 5 - v 3 - v 1 + v 0) * X q 2 +
      (v 7 - v 6 - v 5 - v 4 + v 3 + v 2 + v 1 - v 0) * (X q 1 * X q 2)) ∧
    (∑ c, v c * (q1 X w).dphi q c 1 = (v 2 - v 0) + (v 6 - v 3 - v 2 + v 0) * X q 0 + (v 4 - v 2 - v 1 + v 0) * X q 2 +
      (v 7 - v 6 - v 5 - v 4 + v 3 + v 2 + v 1 - v 0) * (X q 0 * X q 2)) ∧
    (∑ c, v c * (q1 X w).dphi q c 2 = (v 1 - v 0) + (v 5 - v 3 - v 1 + v 0) * X q 0 + (v 4 - v 2 - v 1 + v 0) * X q 1 +
      (v 7 - v 6 - v 5 - v 4 + v 3 + v 2 + v 1 - v 0) * (X q 0 * X q 1)) := by
  refine ⟨?_, ?_, ?_⟩ <;> simp [q1, hexCorner, Fin.sum_univ_eight, Fin.prod_univ_three] <;> ring

/-- On the unit cube: a trilinear field without strain at the eight grid points moves the corners rigidly. -/
theorem cube_rigid (X : Q → Fin 3 → ℝ) (w : Q → ℝ) (hX : Grid X) (v : Fin 8 → Fin 3 → ℝ)
    (h : ∀ q i l, ∑ c, v c i * (q1 X w).dphi q c l + ∑ c, v c l * (q1 X w).dphi q c i = 0) :
    ∃ S : Matrix (Fin 3) (Fin 3) ℝ, (∀ i j, S j i = -S i j) ∧ ∀ c i, v c i = v 0 i + ∑ k, S i k * hexCorner c k := by
  obtain ⟨s, hs, hq⟩ := hX
  have H : ∀ a b c : Bool, ∀ i l, ∃ q, X q = ![s a, s b, s c] ∧
      ∑ c, v c i * (q1 X w).dphi q c l + ∑ c, v c l * (q1 X w).dphi q c i = 0 := fun a b c i l => by
    obtain ⟨q, e⟩ := hq a b c
    exact ⟨q, e, h q i l⟩
  have G : ∀ (u : Fin 8 → ℝ) q, _ := hex_grads X w
  -- normal strains
  have n0 : ∀ b c : Bool, (v 3 0 - v 0 0) + (v 6 0 - v 3 0 - v 2 0 + v 0 0) * s b + (v 5 0 - v 3 0 - v 1 0 + v 0 0) * s c +
      (v 7 0 - v 6 0 - v 5 0 - v 4 0 + v 3 0 + v 2 0 + v 1 0 - v 0 0) * (s b * s c) = 0 := by
    intro b c
    obtain ⟨q, e, hh⟩ := H true b c 0 0
    rw [(G (fun c => v c 0) q).1, e] at hh
    simp at hh
    linarith
  have n1 : ∀ b c : Bool, (v 2 1 - v 0 1) + (v 6 1 - v 3 1 - v 2 1 + v 0 1) * s b + (v 4 1 - v 2 1 - v 1 1 + v 0 1) * s c +
      (v 7 1 - v 6 1 - v 5 1 - v 4 1 + v 3 1 + v 2 1 + v 1 1 - v 0 1) * (s b * s c) = 0 := by
    intro b c
    obtain ⟨q, e, hh⟩ := H b true c 1 1
    rw [(G (fun c => v c 1) q).2.1, e] at hh
    simp at hh
    linarith
  have n2 : ∀ b c : Bool, (v 1 2 - v 0 2) + (v 5 2 - v 3 2 - v 1 2 + v 0 2) * s b + (v 4 2 - v 2 2 - v 1 2 + v 0 2) * s c +
      (v 7 2 - v 6 2 - v 5 2 - v 4 2 + v 3 2 + v 2 2 + v 1 2 - v 0 2) * (s b * s c) = 0 := by
    intro b c
    obtain ⟨q, e, hh⟩ := H b c true 2 2
    rw [(G (fun c => v c 2) q).2.2, e] at hh
    simp at hh
    linarith
  obtain ⟨x1, x2, x3, x4⟩ := bilinear_zero hs (n0 true true) (n0 true false) (n0 false true) (n0 false false)
  obtain ⟨y1, y2, y3, y4⟩ := bilinear_zero hs (n1 true true) (n1 true false) (n1 false true) (n1 false false)
  obtain ⟨z1, z2, z3, z4⟩ := bilinear_zero hs (n2 true true) (n2 true false) (n2 false true) (n2 false false)
  -- shear strains
  have m01 : ∀ c : Bool, (v 2 0 - v 0 0 + (v 3 1 - v 0 1)) + ((v 4 0 - v 2 0 - v 1 0 + v 0 0) + (v 5 1 - v 3 1 - v 1 1 + v 0 1)) * s c = 0 := by
    intro c
    obtain ⟨q, e, hh⟩ := H true true c 0 1
    rw [(G (fun c => v c 0) q).2.1, (G (fun c => v c 1) q).1, e] at hh
    simp only [x2, x4, y2, y4] at hh
    simp at hh
    linarith
  have m02 : ∀ c : Bool, (v 1 0 - v 0 0 + (v 3 2 - v 0 2)) + ((v 4 0 - v 2 0 - v 1 0 + v 0 0) + (v 6 2 - v 3 2 - v 2 2 + v 0 2)) * s c = 0 := by
    intro c
    obtain ⟨q, e, hh⟩ := H true c true 0 2
    rw [(G (fun c => v c 0) q).2.2, (G (fun c => v c 2) q).1, e] at hh
    simp only [x3, x4, z2, z4] at hh
    simp at hh
    linarith
  have m12 : ∀ c : Bool, (v 1 1 - v 0 1 + (v 2 2 - v 0 2)) + ((v 5 1 - v 3 1 - v 1 1 + v 0 1) + (v 6 2 - v 3 2 - v 2 2 + v 0 2)) * s c = 0 := by
    intro c
    obtain ⟨q, e, hh⟩ := H c true true 1 2
    rw [(G (fun c => v c 1) q).2.2, (G (fun c => v c 2) q).2.1, e] at hh
    simp only [y3, y4, z3, z4] at hh
    simp at hh
    linarith
  have lin : ∀ {a b : ℝ}, (∀ c : Bool, a + b * s c = 0) → a = 0 ∧ b = 0 := by
    intro a b hab
    have hb : b = 0 := by
      apply mul_left_cancel₀ (sub_ne_zero.mpr hs)
      linear_combination hab true - hab false
    subst hb
    exact ⟨by linarith [hab true], rfl⟩
  obtain ⟨s1, s2⟩ := lin m01
  obtain ⟨s3, s4⟩ := lin m02
  obtain ⟨s5, s6⟩ := lin m12
  refine ⟨!![0, v 2 0 - v 0 0, v 1 0 - v 0 0; v 3 1 - v 0 1, 0, v 1 1 - v 0 1; v 3 2 - v 0 2, v 2 2 - v 0 2, 0], ?_, ?_⟩
  · intro i j
    fin_cases i <;> fin_cases j <;> simp <;> linarith
  · intro c i
    fin_cases c <;> fin_cases i <;> simp [Fin.sum_univ_three, hexCorner] <;> linarith

/-- The edges of a box as columns. -/
def edges (a b c : Fin 3 → ℝ) : Matrix (Fin 3) (Fin 3) ℝ := (Matrix.of ![a, b, c])ᵀ

theorem edges_det {a b c : Fin 3 → ℝ} (h : LinearIndependent ℝ ![a, b, c]) : (edges a b c).det ≠ 0 := by
  unfold edges
  rw [Matrix.det_transpose]
  have h3 : LinearIndependent ℝ (Matrix.of ![a, b, c]).row := h
  exact ((Matrix.isUnit_iff_isUnit_det _).1 (Matrix.linearIndependent_rows_iff_isUnit.1 h3)).ne_zero

theorem box_corner {x : Fin 8 → Fin 3 → ℝ} {o a b c : Fin 3 → ℝ}
    (h : x = ![o, o + c, o + b, o + a, o + b + c, o + a + c, o + a + b, o + a + b + c]) (k : Fin 8) (i : Fin 3) :
    x k i = o i + ∑ l, edges a b c i l * hexCorner k l := by
  subst h
  fin_cases k <;> simp [edges, hexCorner, Fin.sum_univ_three, Matrix.transpose_apply] <;> ring

theorem jac_box {M : Mesh N E (Fin 8) 3} {e : E} {o a b c : Fin 3 → ℝ}
    (h : (fun k => M.p (M.t e k)) = ![o, o + c, o + b, o + a, o + b + c, o + a + c, o + a + b, o + a + b + c]) (X : Q → Fin 3 → ℝ) (w : Q → ℝ) (q : Q) :
    jac M (q1 X w) e q = edges a b c := by
  ext i l
  have hv : ∀ k, M.p (M.t e k) i = o i + ∑ l, edges a b c i l * hexCorner k l := fun k => box_corner h k i
  obtain ⟨g0, g1, g2⟩ := hex_grads X w (fun k => M.p (M.t e k) i) q
  simp only [jac, Matrix.of_apply]
  fin_cases l
  · refine g0.trans ?_
    simp only [hv]; simp [hexCorner, Fin.sum_univ_three]; exact Or.inl (by ring)
  · refine g1.trans ?_
    simp only [hv]; simp [hexCorner, Fin.sum_univ_three]; exact Or.inl (by ring)
  · refine g2.trans ?_
    simp only [hv]; simp [hexCorner, Fin.sum_univ_three]; exact Or.inl (by ring)

theorem det_q1 (M : Mesh N E (Fin 8) 3) (hM : Boxes M) (X : Q → Fin 3 → ℝ) (w : Q → ℝ) (e : E) (q : Q) : (jac M (q1 X w) e q).det ≠ 0 := by
  obtain ⟨o, a, b, c, hi, hp⟩ := hM e
  rw [jac_box hp]; exact edges_det hi

theorem stiff_q1 [Fintype N] (M : Mesh N E (Fin 8) 3) (hM : Boxes M) (X : Q → Fin 3 → ℝ) (w : Q → ℝ) (hX : Grid X) (e : E) : Stiff M (q1 X w) e := by
  intro u hu
  obtain ⟨o, a, b, c, hi, hp⟩ := hM e
  have hA := edges_det hi
  set A := edges a b c with hAdef
  have hcor : ∀ k i, M.p (M.t e k) i = o i + ∑ l, A i l * hexCorner k l := fun k i => box_corner hp k i
  have hJ : ∀ q, jac M (q1 X w) e q = A := fun q => jac_box hp X w q
  set v : Fin 8 → Fin 3 → ℝ := fun k i => ∑ j, A j i * u (M.t e k, j) with hv
  have hgrad : ∀ q i l, ∑ k, v k i * (q1 X w).dphi q k l = (Aᵀ * refGrad M (q1 X w) u e q) i l := by
    intro q i l
    simp only [hv, Matrix.mul_apply, refGrad, Matrix.of_apply, Matrix.transpose_apply, Finset.sum_mul, Finset.mul_sum]
    rw [Finset.sum_comm]
    exact Finset.sum_congr rfl fun j _ => Finset.sum_congr rfl fun k _ => by ring
  have hcube := cube_rigid X w hX v (fun q i l => by
    have h := hu q
    rw [gradOf_basis, hJ, sym_eq_zero_iff] at h
    set G := refGrad M (q1 X w) u e q * A⁻¹ with hG
    have hGA : refGrad M (q1 X w) u e q = G * A := by
      rw [hG, Matrix.mul_assoc, Matrix.nonsing_inv_mul _ (Ne.isUnit hA), Matrix.mul_one]
    have hT : Gᵀ = -G := by ext i j; simp [Matrix.transpose_apply, h i j]
    rw [hgrad, hgrad, hGA]
    have hsk : (Aᵀ * (G * A))ᵀ = -(Aᵀ * (G * A)) := by
      rw [Matrix.transpose_mul, Matrix.transpose_mul, Matrix.transpose_transpose, hT]
      simp [Matrix.mul_assoc]
    have := congrFun (congrFun hsk i) l
    simp only [Matrix.transpose_apply, Matrix.neg_apply] at this
    rw [this]; ring)
  obtain ⟨S, hS, hc⟩ := hcube
  have hST : Sᵀ = -S := by ext i j; simp [Matrix.transpose_apply, hS i j]
  set W := (A⁻¹)ᵀ * S * A⁻¹ with hW
  have hWT : Wᵀ = -W := by
    rw [hW, Matrix.transpose_mul, Matrix.transpose_mul, Matrix.transpose_transpose, hST]
    simp [Matrix.mul_assoc]
  refine ⟨W, fun i j => by have := congrFun (congrFun hWT i) j; simpa [Matrix.transpose_apply] using this, ?_⟩
  have hback : ∀ k, (fun i => u (M.t e k, i)) = (A⁻¹)ᵀ *ᵥ v k := by
    intro k
    have : v k = Aᵀ *ᵥ fun i => u (M.t e k, i) := by
      funext i; simp [hv, Matrix.mulVec, dotProduct, Matrix.transpose_apply]
    rw [this, Matrix.mulVec_mulVec, ← Matrix.transpose_mul, Matrix.mul_nonsing_inv _ (Ne.isUnit hA)]
    simp
  have hvk : ∀ k, v k = v 0 + S *ᵥ hexCorner k := by
    intro k; funext i; rw [hc k i]; rfl
  have hpk : ∀ k, M.p (M.t e k) = o + A *ᵥ hexCorner k := by
    intro k; funext i; rw [hcor k i]; rfl
  have huk : ∀ k k', (fun i => u (M.t e k, i)) - (fun i => u (M.t e k', i)) = W *ᵥ (M.p (M.t e k) - M.p (M.t e k')) := by
    intro k k'
    rw [hback k, hback k', hvk k, hvk k', hpk k, hpk k', ← Matrix.mulVec_sub, add_sub_add_left_eq_sub, add_sub_add_left_eq_sub,
      ← Matrix.mulVec_sub, ← Matrix.mulVec_sub, hW, Matrix.mulVec_mulVec, Matrix.mulVec_mulVec, Matrix.mul_assoc, Matrix.mul_assoc,
      Matrix.nonsing_inv_mul _ (Ne.isUnit hA), Matrix.mul_one]
  intro k k' i
  have := congrFun (huk k k') i
  simpa [Matrix.mulVec, dotProduct] using this

theorem grid_gauss2 : Grid (fun (q : Fin 3 → Fin 2) k => gauss2 (q k)) := by
  refine ⟨fun b => if b then gauss2 1 else gauss2 0, ?_, fun a b c => ⟨![if a then 1 else 0, if b then 1 else 0, if c then 1 else 0], ?_⟩⟩
  · simp [gauss2]
    have : (0 : ℝ) < Real.sqrt 3 := by positivity
    intro h; linarith
  · funext k
    fin_cases k
    · rcases a <;> simp
    · rcases b <;> simp
    · rcases c <;> simp

/-! ### Supports -/

/-- In a stiff mesh in one piece, zero strain and rigid motion are the same. -/
theorem strain_iff_rigid [Fintype N] {M : Mesh N E C d} {R : Ref C Q d} (hs : ∀ e, Stiff M R e) (hR : Unity R) (hM : OnePiece M)
    (hdet : ∀ e q, (jac M R e q).det ≠ 0) (u : N × Fin d → ℝ) :
    (∀ e q, sym (gradOf (basis M R) u e q) = 0) ↔ RigidMotion M.p u :=
  ⟨rigid_of_strain hs hM u, fun h e q => strain_of_rigid hR h e q (hdet e q)⟩

open Verif.Spec.Entry Verif.Entry in
/-- Held without motion, in terms of strains. -/
theorem held_iff [Fintype N] [Fintype E] [Fintype Q] (B : FE (N × Fin d) E Q d) (hd : d ≤ 3) (hdx : ∀ e q, 0 < B.dx e q) (nu : ℝ) (h0 : -1 < nu)
    (h1 : nu < 1 / 2) (Em : E → ℝ) (hpos : ∀ e, 0 < Em e) (D : Finset (N × Fin d)) :
    Held B Em nu D ↔ ∀ u, (∀ i ∈ D, u i = 0) → (∀ e q, sym (gradOf B u e q) = 0) → u = 0 := by
  constructor
  · intro h u hu hz
    refine h u ⟨hu, fun w _ => ?_⟩
    simp only [Pi.zero_apply, zero_mul, Finset.sum_const_zero]
    refine Finset.sum_eq_zero fun e _ => Finset.sum_eq_zero fun q _ => ?_
    rw [← strain_sym B u, hz e q]
    simp [hookeWork]
  · intro h u hu
    obtain ⟨-, h2⟩ := unique_solution_of_pos B hd hdx nu h0 h1 Em hpos D h
    refine h u hu.1 fun e q => ?_
    have hw := hu.2 u hu.1
    simp only [Pi.zero_apply, zero_mul, Finset.sum_const_zero] at hw
    have hnn : ∀ e q, 0 ≤ hookeWork (Em e) nu (strain B u e q) (strain B u e q) * B.dx e q := fun e q => by
      rw [← strain_sym, ← hooke_form, stiffForm_scale]
      exact mul_nonneg (mul_nonneg (hpos e).le (stiffForm_nonneg hd h0 h1 _)) (hdx e q).le
    have a := (Finset.sum_eq_zero_iff_of_nonneg fun e _ => Finset.sum_nonneg fun q _ => hnn e q).mp hw e (Finset.mem_univ e)
    have b := (Finset.sum_eq_zero_iff_of_nonneg fun q _ => hnn e q).mp a q (Finset.mem_univ q)
    rw [← strain_sym, ← hooke_form, stiffForm_scale] at b
    have c : stiffForm 1 nu (gradOf B u e q) (gradOf B u e q) = 0 := by
      rcases mul_eq_zero.mp b with h | h
      · rcases mul_eq_zero.mp h with h | h
        · exact absurd h (hpos e).ne'
        · exact h
      · exact absurd h (hdx e q).ne'
    exact sym_zero_of_form hd h0 h1 c

end Verif.FEBasis
