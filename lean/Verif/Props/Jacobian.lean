import Verif.Model.Jacobian
import Verif.Props.FilterElement
import Mathlib.Analysis.Calculus.Deriv.Mul
import Mathlib.Analysis.Calculus.Deriv.Add

/-! Property theorems C148: the Jacobian of the element Helmholtz filter. -/
namespace Verif.Props
open Verif
open Verif.Helmholtz (Mesh opA opV vnorm opA_injective)
open Verif.FilterElement Verif.Spec.FilterElement Verif.Jacobian
open Verif.Spec (IsLinear dotP)
open Classical

variable {n : ℕ}

theorem matM_eq (mesh : Mesh n) : matM mesh = opV mesh := by
  funext x i
  simp [matM, Matrix.mulVec_diagonal, opV]

theorem matA_eq (mesh : Mesh n) (r : ℝ) : matA mesh r = opA mesh r := by
  funext x i
  simp [matA, matM_eq, opV, opA]

theorem gradVec_eq (E : Ext n) (mesh : Mesh n) (r : ℝ) :
    filterGradVec E mesh r = Helmholtz.forward mesh (E.lu (opA mesh r)) := by
  funext v
  simp only [filterGradVec, matA_eq, matM_eq, Helmholtz.forward]

theorem linear_sum {F : Vec n → Vec n} (hF : IsLinear F) (s : Finset (Fin n)) (v : Vec n) :
    F (fun k => ∑ j ∈ s, v j * (1 : Matrix (Fin n) (Fin n) ℝ) k j) =
      fun i => ∑ j ∈ s, v j * F (fun k => (1 : Matrix (Fin n) (Fin n) ℝ) k j) i := by
  induction s using Finset.induction_on with
  | empty =>
    have := hF (fun _ => 0) (fun _ => 0) 0 0
    simpa using this
  | insert a s ha ih =>
    have := hF (fun k => (1 : Matrix (Fin n) (Fin n) ℝ) k a) (fun k => ∑ j ∈ s, v j * (1 : Matrix (Fin n) (Fin n) ℝ) k j) (v a) 1
    simp only [Finset.sum_insert ha, one_mul, ih] at this ⊢
    exact this

theorem gradVec_mulVec (E : Ext n) (mesh : Mesh n) (hv : ∀ i, 0 < mesh.vol i) (r : ℝ)
    (hE : ∀ b, opA mesh r (E.lu (opA mesh r) b) = b) (v : Vec n) :
    filterGradVec E mesh r v = (filterJacobianMatrix E mesh r).mulVec v := by
  have hlin := (C29_helmholtz_monotone_linear mesh hv r (E.lu (opA mesh r)) hE).2
  have h := linear_sum hlin Finset.univ v
  have hid : (fun k => ∑ j, v j * (1 : Matrix (Fin n) (Fin n) ℝ) k j) = v := by
    funext k
    simp [Matrix.one_apply]
  rw [hid] at h
  funext i
  rw [gradVec_eq, h]
  simp only [Matrix.mulVec, dotProduct, filterJacobianMatrix, Matrix.of_apply, gradVec_eq]
  exact Finset.sum_congr rfl fun j _ => mul_comm _ _

/-- **C148 (a)** The Jacobian is the derivative of the filter. For every mesh with positive volumes, every element filter that was made
with any option and used in any way before, and works with the direct solver now, and every radius it was given last: at every
density field `x`, moving the density of element `j` changes the filtered density of element `i` at the rate in row `i`, column `j` of
`filter_jacobian_matrix()`; and `filter_grad_vec(v)` is the rate of change of the whole filtered field in direction `v`. -/
theorem C148_derivative (mesh : Mesh n) (hv : ∀ i, 0 < mesh.vol i) (r : ℝ) (o : String) (s : Filter n)
    (hs : fromDefaults mesh r o = .ok s) (h : List Call) (ho : lastOption o h = "spsolve") (E : Ext n)
    (hE : ∀ b, opA mesh (lastRadius r h) (E.lu (opA mesh (lastRadius r h)) b) = b) :
    ∃ F : Vec n → Vec n, (∀ x, forward E (run s h) x = .ok (some (F x))) ∧
      (∀ x i j, HasDerivAt (fun t => F (Function.update x j t) i) (filterJacobianMatrix E mesh (lastRadius r h) i j) (x j)) ∧
      (∀ (x v : Vec n) i, HasDerivAt (fun t => F (fun k => x k + t * v k) i) (filterGradVec E mesh (lastRadius r h) v i) 0) ∧
      ∀ v, filterGradVec E mesh (lastRadius r h) v = (filterJacobianMatrix E mesh (lastRadius r h)).mulVec v := by
  obtain ⟨R, hR⟩ : ∃ R, R = lastRadius r h := ⟨_, rfl⟩
  rw [← hR] at hE ⊢
  have hmul := gradVec_mulVec E mesh hv R hE
  refine ⟨filterGradVec E mesh R, fun x => ?_, fun x i j => ?_, fun x v i => ?_, hmul⟩
  · obtain ⟨y, hy, -, hy2, -⟩ := C122_direct_exact mesh hv r o s hs h ho E (hR ▸ hE) x
    rw [hy]
    have : opA mesh R (filterGradVec E mesh R x) = opV mesh x := by rw [gradVec_eq]; exact hE _
    rw [← hR] at hy2
    rw [opA_injective hv R (this.trans hy2.symm)]
  · have e : (fun t => filterGradVec E mesh R (Function.update x j t) i) = fun t =>
        filterJacobianMatrix E mesh R i j * t + ∑ k ∈ Finset.univ.erase j, filterJacobianMatrix E mesh R i k * x k := by
      funext t
      rw [hmul]
      simp only [Matrix.mulVec, dotProduct]
      rw [← Finset.add_sum_erase _ _ (Finset.mem_univ j)]
      congr 1
      · simp
      · exact Finset.sum_congr rfl fun k hk => by rw [Function.update_of_ne (Finset.ne_of_mem_erase hk)]
    rw [e]
    have := ((hasDerivAt_id (x j)).const_mul (filterJacobianMatrix E mesh R i j)).add_const
      (∑ k ∈ Finset.univ.erase j, filterJacobianMatrix E mesh R i k * x k)
    simpa using this
  · have e : (fun t : ℝ => filterGradVec E mesh R (fun k => x k + t * v k) i) = fun t =>
        filterGradVec E mesh R v i * t + filterGradVec E mesh R x i := by
      funext t
      have := (C29_helmholtz_monotone_linear mesh hv R (E.lu (opA mesh R)) hE).2 x v 1 t
      rw [← gradVec_eq] at this
      simp only [one_mul] at this
      rw [this]
      ring
    rw [e]
    have := ((hasDerivAt_id (0 : ℝ)).const_mul (filterGradVec E mesh R v i)).add_const (filterGradVec E mesh R x i)
    simpa using this

/-- **C148 (b)** The Jacobian of a filter on a mesh of positive volumes: no density ever decreases a filtered density, the influences on
one element add up to one, and (adjacency from shared faces) element `j` gives away exactly its own volume and elements influence each
other in proportion to their volumes. -/
theorem C148_averages (c : Fin n → EuclideanSpace ℝ (Fin 3)) (faces : Fin n → List (List ℕ)) (vol : Fin n → ℝ)
    (hv : ∀ i, 0 < vol i) (r : ℝ) (E : Ext n)
    (hE : ∀ b, opA (Mesh.ofFaces c faces vol) r (E.lu (opA (Mesh.ofFaces c faces vol) r) b) = b) :
    (∀ i j, 0 ≤ filterJacobianMatrix E (Mesh.ofFaces c faces vol) r i j) ∧
    (∀ i, ∑ j, filterJacobianMatrix E (Mesh.ofFaces c faces vol) r i j = 1) ∧
    (∀ j, ∑ i, vol i * filterJacobianMatrix E (Mesh.ofFaces c faces vol) r i j = vol j) ∧
    ∀ i j, vol i * filterJacobianMatrix E (Mesh.ofFaces c faces vol) r i j =
      vol j * filterJacobianMatrix E (Mesh.ofFaces c faces vol) r j i := by
  obtain ⟨M, hM⟩ : ∃ M, M = Mesh.ofFaces c faces vol := ⟨_, rfl⟩
  have hvM : ∀ i, 0 < M.vol i := by rw [hM]; exact hv
  have hcol : ∀ i j, filterJacobianMatrix E M r i j =
      Helmholtz.forward M (E.lu (opA M r)) (fun k => (1 : Matrix (Fin n) (Fin n) ℝ) k j) i := by
    intro i j
    simp [filterJacobianMatrix, gradVec_eq]
  rw [← hM] at hE ⊢
  have hmp := C29_helmholtz_maximum_principle M hvM r (E.lu (opA M r)) hE
  refine ⟨fun i j => ?_, fun i => ?_, fun j => ?_, fun i j => ?_⟩
  · rw [hcol]
    exact (hmp.1 _ 0 1 (fun e _ => by rw [Matrix.one_apply]; split_ifs <;> norm_num) i (Finset.mem_univ i)).1
  · have h1 := congrFun (gradVec_mulVec E M hvM r hE fun _ => 1) i
    rw [gradVec_eq] at h1
    have h2 := hmp.2 1 i (Finset.mem_univ i)
    rw [h2] at h1
    rw [h1]
    simp [Matrix.mulVec, dotProduct]
  · simp only [hcol]
    have := C29_helmholtz_volume c faces vol hv r (E.lu (opA M r)) (by rw [← hM]; exact hE)
      (fun k => (1 : Matrix (Fin n) (Fin n) ℝ) k j)
    rw [← hM] at this
    rw [this]
    simp [Matrix.one_apply]
  · simp only [hcol]
    have := C31_weighted_adjoint_partial c faces vol hv r (E.lu (opA M r)) (by rw [← hM]; exact hE)
      (fun k => (1 : Matrix (Fin n) (Fin n) ℝ) k j) (fun k => (1 : Matrix (Fin n) (Fin n) ℝ) k i)
    rw [← hM] at this
    simpa [Matrix.one_apply] using this

/-- **C148 (c)** What `gradient` of the filter object applies to sensitivities is the Jacobian itself; the chain rule needs its transpose. The
two agree for every vector of sensitivities exactly if any two elements that share a face (and whose centres are `1e-12` apart) have the same
volume. -/
theorem C148_chain_rule (c : Fin n → EuclideanSpace ℝ (Fin 3)) (faces : Fin n → List (List ℕ)) (vol : Fin n → ℝ)
    (hv : ∀ i, 0 < vol i) (r : ℝ) (o : String) (s : Filter n)
    (hs : fromDefaults (Mesh.ofFaces c faces vol) r o = .ok s) (h : List Call) (ho : lastOption o h = "spsolve")
    (hr : lastRadius r h ≠ 0) (E : Ext n)
    (hE : ∀ b, opA (Mesh.ofFaces c faces vol) (lastRadius r h) (E.lu (opA (Mesh.ofFaces c faces vol) (lastRadius r h)) b) = b) :
    (∀ g, gradient E (run s h) g = .ok ((filterJacobianMatrix E (Mesh.ofFaces c faces vol) (lastRadius r h)).mulVec g)) ∧
    ((∀ g, gradient E (run s h) g = .ok ((filterJacobianMatrix E (Mesh.ofFaces c faces vol) (lastRadius r h)).transpose.mulVec g)) ↔
      ∀ i j, j ∈ Adjacency.adjacency faces i → 1 / 10 ^ 12 ≤ dist (c i) (c j) → vol i = vol j) := by
  obtain ⟨M, hM⟩ : ∃ M, M = Mesh.ofFaces c faces vol := ⟨_, rfl⟩
  obtain ⟨R, hR⟩ : ∃ R, R = lastRadius r h := ⟨_, rfl⟩
  have hvM : ∀ i, 0 < M.vol i := by rw [hM]; exact hv
  have hE' := hE
  rw [← hM, ← hR] at hE
  have hgrad : ∀ g, gradient E (run s h) g = .ok ((filterJacobianMatrix E M R).mulVec g) := by
    intro g
    obtain ⟨y, -, hy, hy2, -⟩ := C122_direct_exact (Mesh.ofFaces c faces vol) hv r o s hs h ho E hE' g
    rw [hy, ← gradVec_mulVec E M hvM R hE]
    have : opA M R (filterGradVec E M R g) = opV M g := by rw [gradVec_eq]; exact hE _
    rw [← hR, ← hM] at hy2
    rw [opA_injective hvM R (this.trans hy2.symm)]
  have hadj := C31_gradient_adjoint_iff_equal_volumes c faces vol hv (lastRadius r h) hr
    (E.lu (opA (Mesh.ofFaces c faces vol) (lastRadius r h))) hE'
  rw [← hM, ← hR] at hadj ⊢
  refine ⟨hgrad, Iff.trans ?_ hadj⟩
  have hfw : ∀ v, Helmholtz.forward M (E.lu (opA M R)) v = (filterJacobianMatrix E M R).mulVec v := by
    intro v
    rw [← gradVec_mulVec E M hvM R hE, gradVec_eq]
  have hgr : ∀ v, Helmholtz.gradient M (E.lu (opA M R)) v = (filterJacobianMatrix E M R).mulVec v := hfw
  generalize filterJacobianMatrix E M R = J at *
  have hdot : ∀ x y : Vec n, dotP x y = dotProduct x y := fun x y => rfl
  constructor
  · intro H x y
    have h1 := H x
    rw [hgrad] at h1
    injection h1 with h1
    rw [hgr, hfw, h1, hdot, hdot, Matrix.mulVec_transpose, Matrix.dotProduct_mulVec]
  · intro H g
    rw [hgrad]
    congr 1
    funext i
    have := H g (fun k => (1 : Matrix (Fin n) (Fin n) ℝ) k i)
    rw [hgr, hfw, hdot, hdot, Matrix.dotProduct_mulVec, ← Matrix.mulVec_transpose] at this
    simpa [dotProduct, Matrix.one_apply] using this

/- The glued pairs with a solver that exists: the filter was made for radius 1 and then given radius 2 and the direct solver. Its Jacobian
sends constants to themselves, and since all volumes are equal `gradient` follows the chain rule. -/
example : ∃ (E : Ext 8) (s : Filter 8), fromDefaults pairs 1 defaultOption = .ok s ∧
    (∀ i, ∑ j, filterJacobianMatrix E pairs 2 i j = 1) ∧
    ∀ g, gradient E (run s [.updateRadius 2, .preprocess (some "spsolve")]) g =
      .ok ((filterJacobianMatrix E pairs 2).transpose.mulVec g) := by
  obtain ⟨s, hs, -⟩ := fromDefaults_ok pairs 1 defaultOption (by simp [Known, defaultOption])
  have hsurj := Helmholtz.opA_surjective (M := pairs) (fun i => by simp [pairs, Mesh.ofFaces]) 2
  obtain ⟨E, hE⟩ : ∃ E : Ext 8, ∀ b, opA pairs 2 (E.lu (opA pairs 2) b) = b :=
    ⟨⟨fun _ b => (hsurj b).choose, fun _ _ b => b⟩, fun b => (hsurj b).choose_spec⟩
  refine ⟨E, s, hs, ?_, ?_⟩
  · exact (C148_averages _ _ _ (fun i => by norm_num) 2 E hE).2.1
  · exact ((C148_chain_rule _ _ _ (fun i => by norm_num) 1 _ s hs [.updateRadius 2, .preprocess (some "spsolve")]
      (by simp [lastOption, Known]) (by simp [lastRadius]) E hE).2).2 fun _ _ _ _ => rfl

end Verif.Props
