import Mathlib.Analysis.Complex.ExponentialBounds
import Verif.Model.Pipeline
import Verif.Model.Spacial
import Verif.Props.Elastic
import Verif.Props.Projection
import Verif.Props.Spacial
import Verif.Props.Helmholtz

/-!
The sensitivity handed to the update is the gradient of the recorded objective (C72); its sign (C74).
-/
namespace Verif.Pipeline

open Projection Material Elastic Spec

variable {ι E Q : Type} [Fintype ι] [Fintype E] [Fintype Q] {d m : ℕ}

noncomputable section

/-- Specification: `g` is the gradient at `x`, in the directions supported in `S`, of a quantity `J t` observed along straight lines:
moving the densities from `x` with velocity `v` changes the quantity at the rate `∑ g e * v e`. `J v t` is the quantity at `x + t v`. -/
def IsGradient (S : Finset E) (J : (E → ℝ) → ℝ → ℝ) (g : E → ℝ) : Prop :=
  ∀ v : E → ℝ, (∀ e, e ∉ S → v e = 0) → HasDerivAt (J v) (∑ e, g e * v e) 0

open Classical in
/-- Chain rule for any affine filter whose `grad` is the transpose of its linear part on the design elements. -/
theorem sensitivity_is_gradient (B : FE ι E Q d) (nu E0 Emin p beta eta : ℝ) (D : Finset ι) (f : Fin m → ι → ℝ)
    (fwd grad : (E → ℝ) → (E → ℝ)) (S : Finset E) (L : (E → ℝ) → (E → ℝ))
    (hfwd : ∀ x v (t : ℝ), (∀ e, e ∉ S → v e = 0) → fwd (fun e => x e + t * v e) = fun e => fwd x e + t * L v e)
    (hadj : ∀ g v, (∀ e, e ∉ S → v e = 0) → dotP (grad g) v = dotP g (L v))
    (rho : E → ℝ)
    (hlow : ∀ e, 1 / 10 ^ 6 ≤ projected fwd beta eta rho e)
    (hmod : ∀ e, 1 / 10 ^ 12 ≤ simp (projected fwd beta eta rho e) E0 Emin p)
    (hdet : (enforceK (stiffness B (simpField E0 Emin p (projected fwd beta eta rho)) nu) D).det ≠ 0)
    (u : (E → ℝ) → Fin m → ι → ℝ)
    (hu : ∀ x k, (enforceK (stiffness B (simpField E0 Emin p (projected fwd beta eta x)) nu) D).det ≠ 0 →
      Solves (stiffness B (simpField E0 Emin p (projected fwd beta eta x)) nu) D (f k) (u x k)) :
    IsGradient S (fun v t => meanCompliance D f (u fun e => rho e + t * v e))
      (sensitivity fwd grad dCSimp E0 Emin p beta eta
        (fun k => elemEnergy B (simpField E0 Emin p (projected fwd beta eta rho)) nu (u rho k)) false rho) := by
  intro v hv
  set X : ℝ → E → ℝ := fun t e => rho e + t * v e with hX
  set P : ℝ → E → ℝ := fun t => projected fwd beta eta (X t) with hP
  have hX0 : X 0 = rho := by funext e; simp [hX]
  have hP0 : P 0 = projected fwd beta eta rho := by simp only [hP, hX0]
  have hPd : ∀ e, HasDerivAt (fun t => P t e) (heavisideDerivInplace (fwd rho e) beta eta * L v e) 0 := by
    intro e
    have h1 : (fun t => P t e) = fun t => heaviside (fwd rho e + t * L v e) beta eta := by
      funext t
      simp only [hP, projected, hX, hfwd rho v t hv]
      exact (Props.C23_inplace_agree _ _ _).1
    rw [h1, (Props.C23_inplace_agree _ _ _).2]
    have h2 : HasDerivAt (fun t : ℝ => fwd rho e + t * L v e) (L v e) 0 := by
      have := ((hasDerivAt_id (0 : ℝ)).mul_const (L v e)).const_add (fwd rho e)
      simpa using this
    have h3 := Props.C23_derivative_correct (fwd rho e + 0 * L v e) beta eta
    have h4 := HasDerivAt.comp (h₂ := fun r => heaviside r beta eta) 0 h3 h2
    simpa [Function.comp_def] using h4
  have hcont : ContinuousAt (fun t => (enforceK (stiffness B (simpField E0 Emin p (P t)) nu) D).det) 0 := by
    have hEc : ∀ e, ContinuousAt (fun t => simpField E0 Emin p (P t) e) 0 := by
      intro e
      have h1 := Props.C25_simp_derivative (P 0 e) E0 Emin p (by rw [hP0]; exact hlow e)
      exact (HasDerivAt.comp (h₂ := fun r => simp r E0 Emin p) 0 h1 (hPd e)).continuousAt
    exact (continuous_id.matrix_det.continuousAt).comp (enforceK_continuousAt B nu D (fun t => simpField E0 Emin p (P t)) 0 hEc)
  have hdet0 : (enforceK (stiffness B (simpField E0 Emin p (P 0)) nu) D).det ≠ 0 := by rw [hP0]; exact hdet
  have hev : ∀ᶠ t in nhds (0 : ℝ), (enforceK (stiffness B (simpField E0 Emin p (P t)) nu) D).det ≠ 0 :=
    hcont.eventually_ne hdet0
  have hone : ∀ k, HasDerivAt (fun t => complianceMulti D (f k) (u (X t) k))
      (∑ e, dCSimp (P 0 e) (elemEnergy B (simpField E0 Emin p (P 0)) nu (u (X 0) k) e) E0 Emin p *
        (heavisideDerivInplace (fwd rho e) beta eta * L v e)) 0 := by
    intro k
    have h := C71_sensitivity_is_gradient B nu E0 Emin p D (f k) P _ 0 hPd (fun e => by rw [hP0]; exact hlow e)
      (fun e => by rw [hP0]; exact hmod e) (fun t => u (X t) k) (by filter_upwards [hev] with t ht; exact hu (X t) k ht) hdet0
    simpa only [compliance_single_eq_multi] using h
  have hsum := (HasDerivAt.fun_sum (u := Finset.univ) (fun k (_ : k ∈ Finset.univ) => hone k)).div_const (m : ℝ)
  have hgoal : HasDerivAt (fun t => meanCompliance D f (u (X t)))
      ((∑ k, ∑ e, dCSimp (P 0 e) (elemEnergy B (simpField E0 Emin p (P 0)) nu (u (X 0) k) e) E0 Emin p *
        (heavisideDerivInplace (fwd rho e) beta eta * L v e)) / m) 0 := hsum
  refine hgoal.congr_deriv ?_
  rw [hX0, hP0]
  unfold sensitivity pullback
  simp only [Bool.false_eq_true, if_false]
  set G : Fin m → E → ℝ := fun k => grad fun e => dCSimp (projected fwd beta eta rho e)
    (elemEnergy B (simpField E0 Emin p (projected fwd beta eta rho)) nu (u rho k) e) E0 Emin p *
      heavisideDerivInplace (fwd rho e) beta eta with hG
  have h5 : ∀ k, ∑ e, dCSimp (projected fwd beta eta rho e)
      (elemEnergy B (simpField E0 Emin p (projected fwd beta eta rho)) nu (u rho k) e) E0 Emin p *
        (heavisideDerivInplace (fwd rho e) beta eta * L v e) = ∑ e, G k e * v e := by
    intro k
    have := hadj (fun e => dCSimp (projected fwd beta eta rho e)
      (elemEnergy B (simpField E0 Emin p (projected fwd beta eta rho)) nu (u rho k) e) E0 Emin p *
        heavisideDerivInplace (fwd rho e) beta eta) v hv
    unfold dotP at this
    rw [hG]
    simp only
    rw [this]
    exact Finset.sum_congr rfl fun e _ => by ring
  simp only [h5]
  rw [Finset.sum_comm, Finset.sum_div]
  apply Finset.sum_congr rfl
  intro e _
  rw [← Finset.sum_mul]; ring

/-- `fwd` and `grad` are what `forward` and then `gradient` of the spatial filter `F` compute. -/
def IsSpacial {D3 : ℕ} (F : Spacial.Filter E D3) (fwd grad : (E → ℝ) → (E → ℝ)) : Prop :=
  ∀ x, ∃ F', Spacial.forward F x = .ok (fwd x, F') ∧ ∀ v, Spacial.gradient F' v = .ok (grad v)

open Classical in
/-- **C72, partial.** With the spatial filter and the SIMP law, the sensitivity field computed in an iteration is the gradient of the
recorded objective (the mean compliance over the load cases) with respect to the design densities, through filter, projection and
analysis: for every mesh, filter radius, projection parameters, loads and densities whose projected values are at least `1e-6` and
whose system is uniquely solvable. `u x k` is the exact displacement of load case `k` for the design `x`. Missing: the default
Helmholtz filter (refuted below), RAMP (refuted by C26), and `sensitivity_filter=True`, which deliberately replaces the gradient. -/
theorem C72_sensitivity_is_gradient_partial {D3 : ℕ} (B : FE ι E Q d) (nu E0 Emin p beta eta : ℝ) (D : Finset ι)
    (f : Fin m → ι → ℝ) (F : Spacial.Filter E D3) (hr : 0 < F.radius) (fwd grad : (E → ℝ) → (E → ℝ)) (hF : IsSpacial F fwd grad)
    (rho : E → ℝ)
    (hlow : ∀ e, 1 / 10 ^ 6 ≤ projected fwd beta eta rho e)
    (hmod : ∀ e, 1 / 10 ^ 12 ≤ simp (projected fwd beta eta rho e) E0 Emin p)
    (hdet : (enforceK (stiffness B (simpField E0 Emin p (projected fwd beta eta rho)) nu) D).det ≠ 0)
    (u : (E → ℝ) → Fin m → ι → ℝ)
    (hu : ∀ x k, (enforceK (stiffness B (simpField E0 Emin p (projected fwd beta eta x)) nu) D).det ≠ 0 →
      Solves (stiffness B (simpField E0 Emin p (projected fwd beta eta x)) nu) D (f k) (u x k)) :
    IsGradient (F.mask.getD Finset.univ) (fun v t => meanCompliance D f (u fun e => rho e + t * v e))
      (sensitivity fwd grad dCSimp E0 Emin p beta eta
        (fun k => elemEnergy B (simpField E0 Emin p (projected fwd beta eta rho)) nu (u rho k)) false rho) := by
  have hne : (Props.filterDesign F).Nonempty := by
    obtain ⟨F', h, -⟩ := hF 0
    by_contra hem
    unfold Spacial.forward Spacial.buildFilterMatrix at h
    have hS : F.mask.getD Finset.univ = ∅ := Finset.not_nonempty_iff_eq_empty.mp hem
    simp [hS] at h
  obtain ⟨A, hA, -, -, hlin, -, -⟩ := Props.C27_spacial_average F hr hne
  have hfA : ∀ x, fwd x = A x := by
    intro x
    obtain ⟨F', h, -⟩ := hF x
    obtain ⟨F'', h'⟩ := hA x
    rw [h] at h'
    simp only [Except.ok.injEq, Prod.mk.injEq] at h'
    exact h'.1
  refine sensitivity_is_gradient B nu E0 Emin p beta eta D f fwd grad _ A ?_ ?_ rho hlow hmod hdet u hu
  · intro x v t _
    rw [hfA, hfA]
    have := hlin x v 1 t
    simpa using this
  · intro g v hv
    obtain ⟨F', h, hg⟩ := hF 0
    obtain ⟨F'', h', -⟩ := hF (fun e => (0 : E → ℝ) e + v e)
    have := Props.C28_gradient_is_adjoint F hr 0 v g _ _ _ F' F'' h h' (hg g) hv
    rw [this]
    congr 1
    funext e
    rw [hfA, hfA]
    have h1 := congrFun (hlin 0 v 1 1) e
    simp only [Pi.zero_apply, zero_add, mul_zero, one_mul] at h1 ⊢
    have h2 := congrFun (hlin 0 0 0 0) e
    simp only [zero_mul, add_zero] at h2
    have h3 : A (0 : E → ℝ) e = 0 := h2
    rw [h3]; ring

/-! ### The hypotheses are met by a concrete problem -/

/-- Every spatial filter with a positive radius and a design element is a pair of maps. -/
theorem isSpacial_exists {D3 : ℕ} (F : Spacial.Filter E D3) (hr : 0 < F.radius) (hS : (Props.filterDesign F).Nonempty) :
    ∃ fwd grad, IsSpacial F fwd grad := by
  classical
  refine ⟨fun x i => if i ∈ Props.filterDesign F then ∑ j ∈ Props.filterDesign F,
      Spacial.matrix F.centers (Spacial.kernel .gaussian F.radius none) (Spacial.support .gaussian F.radius none) none
        (Props.filterDesign F) i j * x j else x i,
    fun v j => if j ∈ Props.filterDesign F then ∑ i ∈ Props.filterDesign F,
      Spacial.matrix F.centers (Spacial.kernel .gaussian F.radius none) (Spacial.support .gaussian F.radius none) none
        (Props.filterDesign F) i j * v i else 0, fun x => ?_⟩
  have := Props.forward_eq F hr hS x
  exact ⟨_, by convert this, fun v => by unfold Spacial.gradient; simp only; congr⟩

/-- One element, one spatial filter. -/
def oneFilter : Spacial.Filter (Fin 1) 3 := { centers := fun _ => 0, mask := none, radius := 1 }

theorem one_forward {fwd grad : (Fin 1 → ℝ) → (Fin 1 → ℝ)} (h : IsSpacial oneFilter fwd grad) (c : ℝ) : fwd (fun _ => c) 0 = c := by
  have hne : (Props.filterDesign oneFilter).Nonempty := ⟨0, by simp [Props.filterDesign, oneFilter]⟩
  obtain ⟨A, hA, -, hc, -⟩ := Props.C27_spacial_average oneFilter (by norm_num [oneFilter]) hne
  obtain ⟨F', h1, -⟩ := h fun _ => c
  obtain ⟨F'', h2⟩ := hA fun _ => c
  rw [h1] at h2
  simp only [Except.ok.injEq, Prod.mk.injEq] at h2
  rw [h2.1]
  exact hc c 0 (by simp [Props.filterDesign, oneFilter])

theorem half_projected : (1 / 10 ^ 6 : ℝ) ≤ heavisideInplace 0.5 2 0.5 ∧ heavisideInplace 0.5 2 0.5 ≤ 1 := by
  rw [(Props.C23_inplace_agree _ _ _).1]
  refine ⟨?_, ((Props.C22_heaviside_range_and_monotone 2 0.5 (by norm_num)).1 0.5 (by norm_num) (by norm_num)).2⟩
  have ht : (1 / 3 : ℝ) ≤ Real.tanh 1 := by
    rw [Real.tanh_eq_sinh_div_cosh, le_div_iff₀ (Real.cosh_pos 1)]
    have h1 : (1 : ℝ) ≤ Real.sinh 1 := Real.self_le_sinh_iff.mpr (by norm_num)
    have h2 : Real.cosh 1 ≤ 3 := by
      have := Real.exp_one_lt_d9
      have h3 := Real.cosh_add_sinh 1
      linarith
    linarith
  unfold heaviside eps12
  norm_num
  rw [le_div_iff₀ (by linarith)]
  linarith

open Classical in
/-- The problem of C72 for a bar held at one end, pulled at the other, design density 0.5: all its hypotheses hold. -/
example : ∃ (fwd grad : (Fin 1 → ℝ) → (Fin 1 → ℝ)) (u : (Fin 1 → ℝ) → Fin 1 → Fin 2 → ℝ),
    IsSpacial oneFilter fwd grad ∧ 0 < oneFilter.radius ∧
    (∀ e, 1 / 10 ^ 6 ≤ projected fwd 2 0.5 (fun _ => 0.5) e) ∧
    (∀ e, 1 / 10 ^ 12 ≤ simp (projected fwd 2 0.5 (fun _ => 0.5) e) 210 0.21 3) ∧
    (enforceK (stiffness bar (simpField 210 0.21 3 (projected fwd 2 0.5 fun _ => 0.5)) 0.3) {0}).det ≠ 0 ∧
    ∀ x k, (enforceK (stiffness bar (simpField 210 0.21 3 (projected fwd 2 0.5 x)) 0.3) {0}).det ≠ 0 →
      Solves (stiffness bar (simpField 210 0.21 3 (projected fwd 2 0.5 x)) 0.3) {0} (fun _ => 1) (u x k) := by
  obtain ⟨fwd, grad, h⟩ := isSpacial_exists oneFilter (by norm_num [oneFilter])
    ⟨0, by simp [Props.filterDesign, oneFilter]⟩
  have hp : ∀ e, projected fwd 2 0.5 (fun _ => 0.5) e = heavisideInplace 0.5 2 0.5 := by
    intro e
    have : e = 0 := Subsingleton.elim _ _
    subst this
    unfold projected; rw [one_forward h]
  have hlow : ∀ e, 1 / 10 ^ 6 ≤ projected fwd 2 0.5 (fun _ => 0.5) e := fun e => by rw [hp]; exact half_projected.1
  refine ⟨fwd, grad, fun x _ => (enforceK (stiffness bar (simpField 210 0.21 3 (projected fwd 2 0.5 x)) 0.3) {0})⁻¹.mulVec
    (enforceF (fun _ => 1) {0}), h, by norm_num [oneFilter], hlow, fun e => ?_, ?_, fun x k hx => ?_⟩
  · unfold simp
    have : 0 ≤ projected fwd 2 0.5 (fun _ => 0.5) e := le_trans (by norm_num) (hlow e)
    have := Real.rpow_nonneg this 3
    nlinarith
  · convert (C73_unique_solution bar (by norm_num) (fun _ _ => by norm_num [bar]) 0.3 (by norm_num) (by norm_num) 210 0.21 3
      (by norm_num) (by norm_num) _ (fun e => le_trans (by norm_num) (hlow e)) {0} bar_rigid).1
  · show Matrix.mulVec _ _ = _
    rw [Matrix.mulVec_mulVec, Matrix.mul_nonsing_inv _ (Ne.isUnit hx), Matrix.one_mulVec]

/-! ### The default filter -/

/-- Two tetrahedra with a common face. -/
def twoT : Fin 2 → Fin 4 → Fin 5 := ![![0, 1, 2, 3], ![1, 2, 3, 4]]

theorem twoT_mem : ∀ (e : Fin 2) (n : Fin 5), (∃ i, twoT e i = n) ↔ ¬ (e = 0 ∧ n = 4 ∨ e = 1 ∧ n = 0) := by
  decide

/-- The nodal PDE solve for unit masses, a complete graph as stiffness, radius 1 and no fixed nodes. -/
def fiveSolve (y : Fin 5 → ℝ) : Fin 5 → ℝ := fun n => (y n + ∑ l, y l) / 6

/-- **C72 (refuted for the default filter).** The `gradient` of the nodal Helmholtz filter is not the derivative of its `forward`, not
even on non-positive fields such as compliance sensitivities: two tetrahedra with volumes 1 and 3, radius 1, symmetric mass and stiffness
matrices, exact solves. Hence with the default filter the sensitivities of a run are not the gradient of its objective. -/
theorem C72_default_filter_not_gradient :
    ∃ (Mm K : Fin 5 → Fin 5 → ℝ), (∀ a b, Mm a b = Mm b a) ∧ (∀ a b, K a b = K b a) ∧ (∀ a, ∑ b, K a b = 0) ∧
      (∀ y fv, Helmholtz.SolvesNodal Mm K 1 fv ∅ y (fiveSolve y)) ∧
      ∃ g v : Fin 2 → ℝ, (∀ e, g e ≤ 0) ∧ ∀ x : Fin 2 → ℝ,
        dotP (Helmholtz.nodalGradient twoT ![1, 3] none fiveSolve g) v ≠
          dotP g fun e => Helmholtz.nodalForward twoT ![1, 3] none fiveSolve (fun e => x e + v e) e -
            Helmholtz.nodalForward twoT ![1, 3] none fiveSolve x e := by
  classical
  have hE2N : ∀ (fv : ℝ) (z : Fin 2 → ℝ), Helmholtz.elementToNode twoT ![1, 3] none true fv z =
      ![z 0, (z 0 + 3 * z 1) / 4, (z 0 + 3 * z 1) / 4, (z 0 + 3 * z 1) / 4, z 1] := by
    intro fv z
    funext n
    unfold Helmholtz.elementToNode
    simp only [Option.getD_none, Finset.mem_univ, if_true, Fin.sum_univ_two, twoT_mem]
    have h04 : (0 : Fin 5) ≠ 4 := by decide
    have h14 : (1 : Fin 5) ≠ 4 := by decide
    have h24 : (2 : Fin 5) ≠ 4 := by decide
    have h34 : (3 : Fin 5) ≠ 4 := by decide
    have h40 : (4 : Fin 5) ≠ 0 := by decide
    have h10 : (1 : Fin 5) ≠ 0 := by decide
    have h20 : (2 : Fin 5) ≠ 0 := by decide
    have h30 : (3 : Fin 5) ≠ 0 := by decide
    have hn : n = 0 ∨ n = 1 ∨ n = 2 ∨ n = 3 ∨ n = 4 := by revert n; decide
    rcases hn with rfl | rfl | rfl | rfl | rfl <;> simp [*] <;> norm_num
  have hN2E : ∀ x : Fin 5 → ℝ, ∀ e, Helmholtz.nodeToElement twoT x e = (x (twoT e 0) + x (twoT e 1) + x (twoT e 2) + x (twoT e 3)) / 4 := by
    intro x e
    unfold Helmholtz.nodeToElement
    rw [Fin.sum_univ_four]; norm_num
  refine ⟨fun a b => if a = b then 1 else 0, fun a b => if a = b then 4 else -1, ?_, ?_, ?_, ?_, ![-1, 0], ![0, 1], ?_, ?_⟩
  · intro a b; simp only [eq_comm]
  · intro a b; simp only [eq_comm]
  · intro a; fin_cases a <;> simp [Fin.sum_univ_five] <;> norm_num
  · intro y fv
    refine ⟨fun a _ => ?_, fun a ha => absurd ha (by simp)⟩
    fin_cases a <;> simp [Fin.sum_univ_five, fiveSolve] <;> ring
  · intro e; fin_cases e <;> simp
  · intro x
    unfold dotP Helmholtz.nodalGradient Helmholtz.nodalForward
    simp only [Fin.sum_univ_two, hN2E, hE2N, fiveSolve, Fin.sum_univ_five]
    simp [twoT]
    intro h
    rw [min_eq_left (by norm_num)] at h
    linarith

/-! ### C74: sign of the sensitivities -/

/-- **C74.** With the SIMP law, a positive projection sharpness and non-negative energies, the sensitivity of every element is at most
zero for any filter whose `forward` and `gradient` keep non-positive fields non-positive. -/
theorem C74_sensitivity_nonpos (fwd grad : (E → ℝ) → (E → ℝ)) (hg : ∀ v, (∀ e, v e ≤ 0) → ∀ e, grad v e ≤ 0)
    (hf : ∀ v, (∀ e, v e ≤ 0) → ∀ e, fwd v e ≤ 0) (E0 Emin p beta eta : ℝ) (hE : Emin ≤ E0) (hp : 0 ≤ p) (hb : 0 < beta)
    (energy : Fin m → E → ℝ) (hen : ∀ k e, 0 ≤ energy k e) (sf : Bool) (rho : E → ℝ) (e : E) :
    sensitivity fwd grad dCSimp E0 Emin p beta eta energy sf rho e ≤ 0 := by
  have hone : ∀ k e, grad (fun e => dCSimp (projected fwd beta eta rho e) (energy k e) E0 Emin p *
      heavisideDerivInplace (fwd rho e) beta eta) e ≤ 0 := by
    intro k
    apply hg
    intro e
    apply mul_nonpos_of_nonpos_of_nonneg
    · exact Props.C25_simp_sensitivity_nonpos _ _ _ _ _ hE hp (hen k e)
    · rw [(Props.C23_inplace_agree _ _ _).2]; exact (Props.C23_derivative_pos _ _ _ hb).le
  have hfull : ∀ e, (∑ k, grad (fun e => dCSimp (projected fwd beta eta rho e) (energy k e) E0 Emin p *
      heavisideDerivInplace (fwd rho e) beta eta) e) / m ≤ 0 := fun e =>
    div_nonpos_of_nonpos_of_nonneg (Finset.sum_nonpos fun k _ => hone k e) (Nat.cast_nonneg _)
  unfold sensitivity pullback
  simp only
  split_ifs
  · exact hf _ hfull e
  · exact hfull e

/-- **C74 (spatial filter).** The spatial filter is such a filter. -/
theorem C74_spacial {D3 : ℕ} (F : Spacial.Filter E D3) (hr : 0 < F.radius) (hS : (Props.filterDesign F).Nonempty)
    (fwd grad : (E → ℝ) → (E → ℝ)) (hF : IsSpacial F fwd grad) (E0 Emin p beta eta : ℝ) (hE : Emin ≤ E0) (hp : 0 ≤ p)
    (hb : 0 < beta) (energy : Fin m → E → ℝ) (hen : ∀ k e, 0 ≤ energy k e) (sf : Bool) (rho : E → ℝ) (e : E) :
    sensitivity fwd grad dCSimp E0 Emin p beta eta energy sf rho e ≤ 0 := by
  classical
  obtain ⟨A, hA, hrange, -, -, -, hout⟩ := Props.C27_spacial_average F hr hS
  have hfA : ∀ x, fwd x = A x := by
    intro x
    obtain ⟨F', h, -⟩ := hF x
    obtain ⟨F'', h'⟩ := hA x
    rw [h] at h'
    simp only [Except.ok.injEq, Prod.mk.injEq] at h'
    exact h'.1
  apply C74_sensitivity_nonpos fwd grad _ _ E0 Emin p beta eta hE hp hb energy hen
  · intro v hv
    obtain ⟨F', h, hg⟩ := hF 0
    exact (Props.C28_gradient_sign_and_total F hr 0 v _ _ F' hS h (hg v)).2.1 fun e _ => hv e
  · intro v hv e
    rw [hfA]
    by_cases he : e ∈ Props.filterDesign F
    · have hlo : ∀ e, -∑ e', |v e'| ≤ v e := fun e => by
        have := Finset.single_le_sum (f := fun e' => |v e'|) (fun e' _ => abs_nonneg (v e')) (Finset.mem_univ e)
        linarith [neg_abs_le (v e)]
      exact (hrange v _ 0 (fun e _ => ⟨hlo e, hv e⟩) e he).2
    · rw [hout v e he]; exact hv e

/-- **C74 (default filter).** With the nodal Helmholtz filter the sensitivities are non-positive for every sensitivity law, because its
`gradient` cuts positive values off; without `sensitivity_filter`. -/
theorem C74_nodal_partial {N : Type} [Fintype N] {k : ℕ} (t : E → Fin k → N) (vol : E → ℝ) (design : Option (Finset E))
    (fwd : (E → ℝ) → (E → ℝ)) (solveG : (N → ℝ) → (N → ℝ)) (dC : ℝ → ℝ → ℝ → ℝ → ℝ → ℝ) (E0 Emin p beta eta : ℝ)
    (energy : Fin m → E → ℝ) (rho : E → ℝ) (e : E) :
    sensitivity fwd (Helmholtz.nodalGradient t vol design solveG) dC E0 Emin p beta eta energy false rho e ≤ 0 := by
  unfold sensitivity pullback
  simp only [Bool.false_eq_true, if_false]
  exact div_nonpos_of_nonpos_of_nonneg (Finset.sum_nonpos fun k _ => Props.C32_nodal_gradient_nonpos _ _ _ _ _ _) (Nat.cast_nonneg _)

open Classical in
/-- The nodal PDE solve of `forward` for the second tetrahedron not a design element: nodes 1–4 are held at 1; unit masses, complete graph
as stiffness, radius 1. -/
def heldSolve (y : Fin 5 → ℝ) : Fin 5 → ℝ := fun n => if n = 0 then (y 0 + 4) / 5 else 1

/-- **C74 (refuted with `sensitivity_filter` and the default filter).** If there are non-design elements, filtering the sensitivities once
more with `forward` mixes in the value 1 prescribed for *densities* at their nodes: a sensitivity field equal to -1 on the design element
becomes +0.9 there. -/
theorem C74_sensitivity_filter_wrong_sign :
    ∃ (Mm K : Fin 5 → Fin 5 → ℝ), (∀ a b, Mm a b = Mm b a) ∧ (∀ a b, K a b = K b a) ∧ (∀ a, ∑ b, K a b = 0) ∧
      (∀ y, Helmholtz.SolvesNodal Mm K 1 1 {1, 2, 3, 4} y (heldSolve y)) ∧
      Helmholtz.nodalForward twoT ![1, 1] (some {0}) heldSolve ![-1, 0] 0 = 9 / 10 := by
  classical
  refine ⟨fun a b => if a = b then 1 else 0, fun a b => if a = b then 4 else -1, ?_, ?_, ?_, ?_, ?_⟩
  · intro a b; simp only [eq_comm]
  · intro a b; simp only [eq_comm]
  · intro a; fin_cases a <;> simp [Fin.sum_univ_five] <;> norm_num
  · intro y
    refine ⟨fun a ha => ?_, fun a ha => ?_⟩
    · have : a = 0 := by fin_cases a <;> simp_all
      subst this
      simp [Fin.sum_univ_five, heldSolve]; ring
    · have : a ≠ 0 := by rintro rfl; simp at ha
      simp [heldSolve, this]
  · have h0 : Helmholtz.elementToNode twoT ![1, 1] (some {0}) true 1 ![-1, 0] 0 = -1 := by
      unfold Helmholtz.elementToNode
      simp [Fin.sum_univ_two, twoT_mem]
    unfold Helmholtz.nodalForward Helmholtz.nodeToElement
    have h1 : twoT 0 0 = 0 := rfl
    have h2 : twoT 0 1 ≠ 0 := by decide
    have h3 : twoT 0 2 ≠ 0 := by decide
    have h4 : twoT 0 3 ≠ 0 := by decide
    simp only [Fin.sum_univ_four, heldSolve, h1, if_true, if_neg h2, if_neg h3, if_neg h4, h0]
    norm_num

end
end Verif.Pipeline
