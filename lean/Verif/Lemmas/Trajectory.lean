import Verif.Spec.Trajectory
import Verif.Lemmas.Elastic
import Verif.Props.Spacial
import Verif.Props.Projection
import Verif.Props.OC
import Verif.Props.Helmholtz
import Verif.Props.Pipeline
import Mathlib.LinearAlgebra.Matrix.ToLinearEquiv

/-! The parts of the model of a run agree with the formulas of `Verif.Spec.Trajectory`. -/
namespace Verif.Run
open Verif Verif.Sched Verif.Spec

noncomputable section
open Classical

variable {ι E Q : Type} [Fintype ι] [Fintype E] [Fintype Q] {d m : ℕ}

/-! ### Filter -/

theorem matrix_share {R : Common E d} {r : ℝ} (hr : 0 < r) {i : E} (hi : i ∈ R.design) (j : E) :
    Spacial.matrix R.centers (Spacial.kernel .gaussian r none) (Spacial.support .gaussian r none) none R.design i j =
      share R r i j := by
  have hw : ∀ k, Spacial.weight R.centers (Spacial.kernel .gaussian r none) (Spacial.support .gaussian r none) none i k =
      bell R r i k := by
    intro k
    unfold Spacial.weight bell
    rw [Props.gaussian_support]
    split_ifs
    · simp only [Spacial.kernel, Option.getD_none]
      congr 1
      have : dist (R.centers k) (R.centers i) / (r / 3) = 3 * dist (R.centers k) (R.centers i) / r := by
        field_simp
      rw [this]; ring
    · rfl
  unfold Spacial.matrix share
  simp only [hw]
  have hpos : 0 < ∑ k ∈ R.design, bell R r i k := by
    refine Finset.sum_pos' (fun k _ => ?_) ⟨i, hi, ?_⟩
    · unfold bell; split_ifs
      · exact (Real.exp_pos _).le
      · exact le_rfl
    · unfold bell
      rw [if_pos (by rw [dist_self]; exact hr.le)]
      exact Real.exp_pos _
  rw [if_neg hpos.ne']
  ring

theorem share_nonneg (R : Common E d) (r : ℝ) (i j : E) : 0 ≤ share R r i j := by
  have hb : ∀ i k, 0 ≤ bell R r i k := by
    intro i k; unfold bell; split_ifs
    · exact (Real.exp_pos _).le
    · exact le_rfl
  exact div_nonneg (hb _ _) (Finset.sum_nonneg fun k _ => hb _ _)

theorem share_sum {R : Common E d} {r : ℝ} (hr : 0 < r) {i : E} (hi : i ∈ R.design) : ∑ j ∈ R.design, share R r i j = 1 := by
  unfold share
  rw [← Finset.sum_div]
  refine div_self (ne_of_gt (Finset.sum_pos' (fun k _ => ?_) ⟨i, hi, ?_⟩))
  · unfold bell; split_ifs
    · exact (Real.exp_pos _).le
    · exact le_rfl
  · unfold bell
    rw [if_pos (by rw [dist_self]; exact hr.le)]
    exact Real.exp_pos _

/-- A filter object that belongs to the run. -/
def Fits (R : Common E d) : Filt E d → Prop
  | .spacial F => R.nodal = none ∧ F.centers = R.centers ∧ F.mask = some R.design
  | .nodal _ => ∃ N, R.nodal = some N

theorem Fits.updateRadius {R : Common E d} {F : Filt E d} (h : Fits R F) (r : ℝ) : Fits R (F.updateRadius r) := by
  cases F with
  | spacial F => exact h
  | nodal r' => exact h

theorem updateRadius_radius (F : Filt E d) (r : ℝ) : (F.updateRadius r).radius = r := by cases F <;> rfl

theorem fits_filter0 (R : Common E d) : Fits R (filter0 R) := by
  unfold filter0
  cases h : R.nodal with
  | none => exact ⟨h, rfl, rfl⟩
  | some N => exact ⟨N, h⟩

/-- The system of the nodal filter is nonsingular. -/
theorem nodalMatrix_det {N : Nodal E} {r : ℝ} (h : ∀ x : Fin N.nodes → ℝ, x ≠ 0 →
    0 < ∑ i, ∑ j, x i * (N.mass i j + r ^ 2 * N.stiff i j) * x j) (D : Finset (Fin N.nodes)) : (nodalMatrix N r D).det ≠ 0 := by
  intro h0
  obtain ⟨x, hx, hA⟩ := Matrix.exists_mulVec_eq_zero_iff.mpr h0
  have hD : ∀ i ∈ D, x i = 0 := by
    intro i hi
    have := congrFun hA i
    simpa [Matrix.mulVec, dotProduct, nodalMatrix, hi] using this
  have hc := h x hx
  refine hc.ne' (Finset.sum_eq_zero fun i _ => ?_)
  by_cases hi : i ∈ D
  · simp [hD i hi]
  · have := congrFun hA i
    simp only [Matrix.mulVec, dotProduct, nodalMatrix, hi, if_false, Matrix.of_apply, Pi.zero_apply] at this
    calc ∑ j, x i * (N.mass i j + r ^ 2 * N.stiff i j) * x j = x i * ∑ j, (N.mass i j + r ^ 2 * N.stiff i j) * x j := by
          rw [Finset.mul_sum]; exact Finset.sum_congr rfl fun j _ => by ring
      _ = 0 := by rw [this, mul_zero]

/-- `relaxed` is the solution of the weak form. -/
theorem relaxed_solves {N : Nodal E} (r : ℝ) (D : Finset (Fin N.nodes)) (hdet : (nodalMatrix N r D).det ≠ 0)
    (value : ℝ) (y : Fin N.nodes → ℝ) : Helmholtz.SolvesNodal N.mass N.stiff r value D y (relaxed N r D value y) := by
  have h1 : (nodalMatrix N r D).mulVec (relaxed N r D value y) = fun i => if i ∈ D then value else ∑ j, N.mass i j * y j := by
    unfold relaxed
    rw [Matrix.mulVec_mulVec, Matrix.mul_nonsing_inv _ (Ne.isUnit hdet), Matrix.one_mulVec]
  refine ⟨fun i hi => ?_, fun i hi => ?_⟩
  · have := congrFun h1 i
    simpa only [Matrix.mulVec, dotProduct, nodalMatrix, hi, if_false, Matrix.of_apply] using this
  · have := congrFun h1 i
    simpa [Matrix.mulVec, dotProduct, nodalMatrix, hi] using this

theorem helmholtz_eq {R : Common E d} {N : Nodal E} (h : NodalOk R N) {r : ℝ} (hr : 0 < r) (D : Finset (Fin N.nodes)) (value : ℝ) :
    N.helmholtz r D value = relaxed N r D value := by
  funext y
  unfold Nodal.helmholtz relaxed
  rw [h.solves r D _ value (nodalMatrix_det (h.coercive r hr) D)]

theorem nodeMean_eq {R : Common E d} {N : Nodal E} (h : NodalOk R N) (hv : ∀ e, 0 < R.volume e) (value : ℝ) (x : E → ℝ) :
    Helmholtz.elementToNode N.t R.volume (some R.design) true value x = nodeMean R N value x := by
  funext n
  unfold Helmholtz.elementToNode nodeMean
  simp only [if_true, Option.getD_some]
  have e1 : (∑ e, if ∃ i, N.t e i = n then R.volume e else 0) =
      ∑ e ∈ Finset.univ.filter fun e => ∃ i, N.t e i = n, R.volume e := (Finset.sum_filter ..).symm
  have e2 : (∑ e, if ∃ i, N.t e i = n then R.volume e * (if e ∈ R.design then x e else value) else 0) =
      ∑ e ∈ Finset.univ.filter fun e => ∃ i, N.t e i = n, R.volume e * if e ∈ R.design then x e else value := (Finset.sum_filter ..).symm
  rw [e1, e2, if_neg]
  obtain ⟨e, i, hi⟩ := h.covered n
  refine ne_of_gt (Finset.sum_pos (fun e _ => hv e) ⟨e, ?_⟩)
  simp only [Finset.mem_filter, Finset.mem_univ, true_and]
  exact ⟨i, hi⟩

/-- The filter of a run with radius `r` computes `blur`, its `gradient` computes `blurT`. -/
theorem filter_blur {R : Common E d} (h : Basics R) {F : Filt E d} (hF : Fits R F) (hr : 0 < F.radius) :
    ∃ F1 : Filt E d, Fits R F1 ∧ F1.radius = F.radius ∧
      (∀ x, F.forward R x = .ok (blur R F.radius x, F1)) ∧ ∀ g, F1.gradient R g = .ok (blurT R F.radius g) := by
  cases F with
  | nodal r =>
    obtain ⟨N, hN⟩ := hF
    have hok := h.nodal N hN
    have hr' : 0 < r := hr
    refine ⟨.nodal r, ⟨N, hN⟩, rfl, fun x => ?_, fun g => ?_⟩
    · simp only [Filt.forward, hN, Filt.radius]
      congr 2
      funext i
      unfold blur
      simp only [hN]
      unfold Helmholtz.nodalForward
      rw [nodeMean_eq hok h.volume, helmholtz_eq hok hr']
      rfl
    · simp only [Filt.gradient, hN, Filt.radius]
      congr 1
      funext i
      unfold blurT
      simp only [hN]
      unfold Helmholtz.nodalGradient
      rw [nodeMean_eq hok h.volume, helmholtz_eq hok hr']
      rfl
  | spacial F =>
    obtain ⟨hN, hc, hm⟩ := hF
    have hr' : 0 < F.radius := hr
    have hfd : Props.filterDesign F = R.design := by unfold Props.filterDesign; rw [hm]; rfl
    refine ⟨.spacial { F with W := some (Spacial.matrix F.centers (Spacial.kernel .gaussian F.radius none)
      (Spacial.support .gaussian F.radius none) none (Props.filterDesign F)) }, ⟨hN, hc, hm⟩, rfl, fun x => ?_, fun g => ?_⟩
    · simp only [Filt.forward]
      rw [Props.forward_eq F hr' (by rw [hfd]; exact h.design)]
      simp only
      congr 2
      funext i
      rw [hfd, hc]
      unfold blur
      simp only [hN]
      split_ifs with hi
      · exact Finset.sum_congr rfl fun j _ => by rw [matrix_share hr' hi]; rfl
      · rfl
    · simp only [Filt.gradient]
      unfold Spacial.gradient
      simp only [hm, Option.getD_some, hfd, hc]
      congr 1
      funext j
      unfold blurT
      simp only [hN]
      split_ifs
      · exact Finset.sum_congr rfl fun i hi => by rw [matrix_share hr' hi]; rfl
      · rfl

/-- Filtered densities are densities. -/
theorem blur_range {R : Common E d} (h : Basics R) {k : ℕ} {r : ℝ} (hr : 0 < r) (hs : Scheduled R R.cRadius k (some r))
    {x : E → ℝ} (hx : ∀ e, 0 ≤ x e ∧ x e ≤ 1) (e : E) : 0 ≤ blur R r x e ∧ blur R r x e ≤ 1 := by
  unfold blur
  cases hN : R.nodal with
  | none =>
    simp only
    split_ifs with he
    · refine ⟨Finset.sum_nonneg fun j _ => mul_nonneg (share_nonneg ..) (hx j).1, ?_⟩
      rw [← share_sum (r := r) hr he]
      refine Finset.sum_le_sum fun j _ => ?_
      have := mul_le_mul_of_nonneg_left (hx j).2 (share_nonneg R r e j)
      linarith
    · exact hx e
  | some N =>
    simp only
    have hok := h.nodal N hN
    refine Props.C32_node_to_element_range N.t hok.corners _ e 0 1 fun i => hok.maximum k r hs _ (fun n => ?_) _
    rw [← nodeMean_eq hok h.volume]
    exact Props.C32_element_to_node_range N.t R.volume h.volume _ true 1 x n (hok.covered n) 0 1 (fun e _ _ => hx e)
      fun e _ _ => ⟨by norm_num, le_rfl⟩

/-- The sensitivities are not positive, if those with respect to the projected densities are not, or with the default filter. -/
theorem pullback_nonpos {n : ℕ} {R : Common E d} (h : Basics R) {v : Vals} (hb : 0 < v.beta) (cols : Fin n → E → ℝ)
    (hc : (∀ k e, cols k e ≤ 0) ∨ R.nodal ≠ none) (rho : E → ℝ) (e : E) :
    Pipeline.pullback (blur R v.radius) (blurT R v.radius) v.beta R.betaEta cols R.sensFilter rho e ≤ 0 := by
  unfold Pipeline.pullback
  cases hN : R.nodal with
  | none =>
    have hc := hc.resolve_right (by simp [hN])
    have hT : ∀ w : E → ℝ, (∀ e, w e ≤ 0) → ∀ e, blurT R v.radius w e ≤ 0 := by
      intro w hw e
      unfold blurT
      simp only [hN]
      split_ifs
      · exact Finset.sum_nonpos fun i _ => mul_nonpos_of_nonneg_of_nonpos (share_nonneg ..) (hw i)
      · exact le_rfl
    have hB : ∀ w : E → ℝ, (∀ e, w e ≤ 0) → ∀ e, blur R v.radius w e ≤ 0 := by
      intro w hw e
      unfold blur
      simp only [hN]
      split_ifs
      · exact Finset.sum_nonpos fun i _ => mul_nonpos_of_nonneg_of_nonpos (share_nonneg ..) (hw i)
      · exact hw e
    have hm : ∀ e, (∑ k, blurT R v.radius (fun e => cols k e * Projection.heavisideDerivInplace (blur R v.radius rho e) v.beta R.betaEta) e) / (n : ℝ) ≤ 0 := by
      intro e
      refine div_nonpos_of_nonpos_of_nonneg (Finset.sum_nonpos fun k _ => hT _ (fun e => ?_) e) (Nat.cast_nonneg _)
      refine mul_nonpos_of_nonpos_of_nonneg (hc k e) ?_
      rw [(Props.C23_inplace_agree _ _ _).2]
      exact (Props.C23_derivative_pos _ _ _ hb).le
    simp only
    split_ifs
    · exact hB _ hm e
    · exact hm e
  | some N =>
    rw [(h.nodal N hN).noSensFilter]
    simp only [Bool.false_eq_true, if_false]
    refine div_nonpos_of_nonpos_of_nonneg (Finset.sum_nonpos fun k _ => ?_) (Nat.cast_nonneg _)
    unfold blurT
    simp only [hN]
    exact min_le_right _ _

/-! ### Threshold -/

theorem threshold_eq (b h x : ℝ) : Projection.heavisideInplace x b h = threshold b h x := by
  unfold Projection.heavisideInplace threshold Projection.eps12
  simp only
  rw [mul_comm (x - h) b]

theorem thresholdSlope_eq (b h x : ℝ) : Projection.heavisideDerivInplace x b h = thresholdSlope b h x := by
  unfold Projection.heavisideDerivInplace thresholdSlope Projection.eps12
  simp only
  rw [mul_comm (x - h) b, div_eq_mul_inv b, mul_comm (Real.cosh _ ^ 2)⁻¹ b]

/-! ### Elasticity -/

theorem strain_eq (R : Setup ι E Q d m) (u : ι → ℝ) (e : E) (q : Q) :
    Elastic.sym (Elastic.gradOf R.fe u e q) = strain R u e q := by
  ext a b
  simp only [Elastic.sym, Elastic.gradOf, strain, Matrix.smul_apply, Matrix.add_apply, Matrix.transpose_apply,
    Matrix.sum_apply, Matrix.of_apply, smul_eq_mul]
  ring

theorem stressWork_eq (R : Setup ι E Q d m) (Em : ℝ) (g h : Matrix (Fin d) (Fin d) ℝ) :
    Elastic.stiffForm Em R.nu g h = stressWork R Em (Elastic.sym g) (Elastic.sym h) := by
  unfold Elastic.stiffForm stressWork Material.lamMu Elastic.ddot
  simp only
  by_cases h0 : 1 + R.nu = 0
  · simp [h0]
  · congr 2
    field_simp

theorem innerWork_eq (R : Setup ι E Q d m) (Em : E → ℝ) (u w : ι → ℝ) (e : E) :
    Em e * Elastic.unitForm R.fe R.nu u w e = innerWork R Em u w e := by
  unfold Elastic.unitForm innerWork
  rw [Finset.mul_sum]
  refine Finset.sum_congr rfl fun q _ => ?_
  rw [← strain_eq, ← strain_eq, ← stressWork_eq, Elastic.stiffForm_scale (Em e)]
  ring

theorem energy_eq (R : Setup ι E Q d m) (Em : E → ℝ) (u : ι → ℝ) (e : E) :
    Elastic.elemEnergy R.fe Em R.nu u e = innerWork R Em u u e / 2 := by
  rw [Elastic.elemEnergy_eq, innerWork_eq]; ring

theorem displaced_of_solves {R : Setup ι E Q d m} {Em : E → ℝ} {f u : ι → ℝ}
    (h : Elastic.Solves (Elastic.stiffness R.fe Em R.nu) R.dirichlet f u) : Displaced R Em f u := by
  rw [Elastic.solves_iff] at h
  refine ⟨h.1, fun w hw => ?_⟩
  have := Elastic.stiffness_form R.fe Em R.nu u w
  simp only [innerWork_eq] at this
  rw [← this]
  refine Finset.sum_congr rfl fun i _ => ?_
  by_cases hi : i ∈ R.dirichlet
  · rw [hw i hi]; ring
  · rw [h.2 i hi]; ring

theorem young_eq (R : Setup ι E Q d m) (p x : ℝ) : Material.simp x R.E0 (R.E0 * R.eMinCoeff) p = young R p x := rfl

theorem slope_eq (R : Setup ι E Q d m) (p x U : ℝ) : Material.dCSimp x U R.E0 (R.E0 * R.eMinCoeff) p = slope R p x U := rfl

/-! ### OC update -/

/-- The design entry of the candidate. -/
theorem candidate_grown {R : Common E d} {v : Vals} {rs l : ℝ} {rho g : E → ℝ}
    {c : OC.Cfg E} (hc : c.rhoMin = R.rhoMin ∧ c.rhoMax = R.rhoMax ∧ c.rateMin = R.rateMin ∧ c.rateMax = R.rateMax)
    {a : OC.StepArgs E} (ha : a.moveLimit = v.moveLimit ∧ a.eta = v.eta)
    (hrs : 0 < rs) (hl : 0 ≤ l) {e : E} (he : e ∈ R.design) (hg : g e ≤ 0) :
    OC.candidate (OC.mkParams c a rs rho rho g) l e = some (grown R v rho (fun e => g e / rs) l e) := by
  obtain ⟨c1, c2, c3, c4⟩ := hc
  obtain ⟨a1, a2⟩ := ha
  have hpos : 0 < l + 1 / 10 ^ 12 := by positivity
  have hb : 0 ≤ -(g e / rs) / (l + 1 / 10 ^ 12) :=
    div_nonneg (neg_nonneg.mpr (div_nonpos_of_nonpos_of_nonneg hg hrs.le)) hpos.le
  have hb0 : -(g e / rs) / (l + 1 / 10 ^ 12) = 0 ↔ g e / rs = 0 := by
    rw [div_eq_zero_iff, neg_eq_zero]
    exact ⟨fun h => h.resolve_right hpos.ne', Or.inl⟩
  have hs : OC.scaling (OC.mkParams c a rs rho rho g) l e = some (rate R v.eta (g e / rs) l) := by
    unfold OC.scaling rate
    simp only [OC.mkParams, c3, c4, a2]
    rw [if_neg hpos.ne', if_neg (fun h => absurd h.1 (not_lt.mpr hb))]
    simp only [hb0]
    split_ifs <;> rfl
  unfold OC.candidate grown
  rw [hs, if_pos he]
  simp only [Option.map_some, OC.mkParams, OC.clip, c1, c2, a1]

/-- The volume error of the candidate. -/
theorem volError_excess {R : Common E d} {F : Filt E d} {k : ℕ} {v : Vals} {rs l : ℝ} {rho g : E → ℝ}
    (hF : fwdOf R F = blur R v.radius) (hrs : 0 < rs) (hl : 0 ≤ l) (hg : ∀ e ∈ R.design, g e ≤ 0) :
    OC.volError (OC.mkParams (ocCfg R F) (stepArgs R k v) rs rho rho g) l =
      some (excess R v (grown R v rho (fun e => g e / rs) l)) := by
  have hcand : ∀ e ∈ R.design, OC.candidate (OC.mkParams (ocCfg R F) (stepArgs R k v) rs rho rho g) l e =
      some (grown R v rho (fun e => g e / rs) l e) := fun e he =>
    candidate_grown (v := v) ⟨rfl, rfl, rfl, rfl⟩ ⟨rfl, rfl⟩ hrs hl he (hg e he)
  have hfull : OC.fullCandidate (OC.mkParams (ocCfg R F) (stepArgs R k v) rs rho rho g) l = grown R v rho (fun e => g e / rs) l := by
    funext e
    unfold OC.fullCandidate
    by_cases he : e ∈ R.design
    · have he' : e ∈ (OC.mkParams (ocCfg R F) (stepArgs R k v) rs rho rho g).design := he
      rw [if_pos he', hcand e he]; rfl
    · have he' : e ∉ (OC.mkParams (ocCfg R F) (stepArgs R k v) rs rho rho g).design := he
      rw [if_neg he']
      unfold grown
      rw [if_neg he]; rfl
  unfold OC.volError
  rw [if_neg, hfull]
  · simp only [OC.mkParams, ocCfg, stepArgs, hF, threshold_eq]
    rfl
  · rintro ⟨e, he, hn⟩
    rw [hcand e he] at hn
    simp at hn

/-- The brackets stay inside the configured one. -/
theorem bracket_nested {R : Common E d} (hb : R.lambdaLower ≤ R.lambdaUpper) (F : ℝ → ℝ) :
    ∀ n, R.lambdaLower ≤ (bracket R F n).1 ∧ (bracket R F n).1 ≤ (bracket R F n).2 ∧ (bracket R F n).2 ≤ R.lambdaUpper
  | 0 => ⟨le_rfl, hb, le_rfl⟩
  | n + 1 => by
    obtain ⟨h1, h2, h3⟩ := bracket_nested hb F n
    unfold bracket
    split_ifs
    · exact ⟨by simp only; linarith, by simp only; linarith, h3⟩
    · exact ⟨h1, by simp only; linarith, by simp only; linarith⟩

theorem middle_mem {R : Common E d} (hb : R.lambdaLower ≤ R.lambdaUpper) (F : ℝ → ℝ) (n : ℕ) :
    R.lambdaLower ≤ middle R F n ∧ middle R F n ≤ R.lambdaUpper := by
  obtain ⟨h1, h2, h3⟩ := bracket_nested hb F n
  unfold middle
  constructor <;> linarith

/-- The loop of the model from its `i`th pass. -/
theorem bisect_bisected {R : Common E d} {P : OC.Params E} {F : ℝ → ℝ} (hb : 0 ≤ R.lambdaLower ∧ R.lambdaLower ≤ R.lambdaUpper)
    (ht : P.volTol = 1 / 10 ^ 4) (ht' : P.tolerance = 1 / 10 ^ 5) (hF : ∀ l, 0 ≤ l → OC.volError P l = some (F l)) :
    ∀ k i, i + k = 1000 → (∀ j < i, ¬ Enough R F j) →
      Bisected R F (OC.bisect P k i (bracket R F i).1 (bracket R F i).2).lmid := by
  intro k
  induction k with
  | zero =>
    intro i hi hj
    have hm : (0.5 : ℝ) * ((bracket R F i).1 + (bracket R F i).2) = middle R F i := by unfold middle; ring
    have : (OC.bisect P 0 i (bracket R F i).1 (bracket R F i).2).lmid = middle R F i := by
      unfold OC.bisect
      simp only
      split_ifs <;> exact hm
    exact ⟨i, Or.inr (Or.inl (by omega)), hj, this⟩
  | succ k ih =>
    intro i hi hj
    have hm : (0.5 : ℝ) * ((bracket R F i).1 + (bracket R F i).2) = middle R F i := by unfold middle; ring
    have h0 : 0 ≤ middle R F i := hb.1.trans (middle_mem hb.2 F i).1
    unfold OC.bisect
    simp only [hm, hF _ h0, Option.some.injEq, exists_eq_left', ht, ht', gt_iff_lt]
    split_ifs with h1 h2 h3
    · exact ⟨i, Or.inl h1, hj, hm⟩
    · exact ⟨i, Or.inr (Or.inr h2), hj, hm⟩
    all_goals
      have hne : ¬ Enough R F i := by
        rintro (h | h | h)
        · exact h1 h
        · omega
        · exact h2 h
      have := ih (i + 1) (by omega) (fun j hji => by
        rcases Nat.lt_succ_iff_lt_or_eq.mp hji with h | rfl
        · exact hj j h
        · exact hne)
    · have e : bracket R F (i + 1) = (middle R F i, (bracket R F i).2) := by
        conv_lhs => unfold bracket
        exact if_pos h3
      rw [e] at this
      exact this
    · have e : bracket R F (i + 1) = ((bracket R F i).1, middle R F i) := by
        conv_lhs => unfold bracket
        exact if_neg h3
      rw [e] at this
      exact this

/-- What `rho_update` leaves behind, for non-positive sensitivities `g`. -/
theorem update_spec {R : Common E d} {F : Filt E d} {k : ℕ} {v : Vals} {rs0 : ℝ} {rho g : E → ℝ}
    {out : OC.UpdateOut E} (hF : fwdOf R F = blur R v.radius) (hb : 0 ≤ R.lambdaLower ∧ R.lambdaLower ≤ R.lambdaUpper)
    (hfl : 0 < R.scaleFloor) (hrs : 0 ≤ rs0) (hg : ∀ e ∈ R.design, g e ≤ 0)
    (h : OC.rhoUpdate (ocCfg R F) (stepArgs R k v) rs0 rho rho g = .ok out) :
    ∃ s, (v.percentile = none → IsGreatest ((fun e => |g e|) '' R.design) s) ∧
      (∀ q, v.percentile = some q → s = R.pct q fun e => |g e|) ∧
      out.runningScale = (if k ≤ 1 then max s R.scaleFloor else 0.6 * rs0 + 0.4 * max s R.scaleFloor) ∧
      Bisected R (fun l => excess R v (grown R v rho (fun e => g e / out.runningScale) l)) out.lmid ∧
      (∀ e ∈ R.design, out.rho e = some (grown R v rho (fun e => g e / out.runningScale) out.lmid e)) ∧
      out.volError = some (excess R v (grown R v rho (fun e => g e / out.runningScale) out.lmid)) ∧
      let inside := {e | e ∈ R.design ∧ R.rhoMin + 1 / 10 ^ 6 < grown R v rho (fun e => g e / out.runningScale) out.lmid e ∧
        grown R v rho (fun e => g e / out.runningScale) out.lmid e < R.rhoMax - 1 / 10 ^ 6}
      (inside = ∅ → out.kkt = 0) ∧
      (inside.Nonempty → IsGreatest ((fun e => |g e +
        out.lmid * out.runningScale * (R.volume e / ∑ e' ∈ R.design, R.volume e')|) '' inside) out.kkt) := by
  have hfl' : 0 < (ocCfg R F).scaleFloor := hfl
  obtain ⟨hpos, hrho, hlm, hve, -⟩ := Props.oc_scale_pos h hfl' hrs
  -- the scale
  have hscale : ∃ s, (v.percentile = none → IsGreatest ((fun e => |g e|) '' R.design) s) ∧
      (∀ q, v.percentile = some q → s = R.pct q fun e => |g e|) ∧
      OC.sensScale (ocCfg R F) (stepArgs R k v) g = .ok (max s R.scaleFloor) := by
    unfold OC.rhoUpdate at h
    cases hq : v.percentile with
    | some q =>
      refine ⟨R.pct q fun e => |g e|, by simp, by simp, ?_⟩
      unfold OC.sensScale stepArgs
      simp only [hq, Option.map_some]
      rfl
    | none =>
      have hst : (stepArgs R k v).percentile = none := by simp [stepArgs, hq]
      have hne : R.design.Nonempty := by
        by_contra hn
        have hn' : ¬ (ocCfg R F).design.Nonempty := hn
        unfold OC.sensScale at h
        rw [hst] at h
        simp only [dif_neg hn'] at h
        exact absurd h (by simp [bind, Except.bind])
      refine ⟨R.design.sup' hne fun e => |g e|, fun _ => ⟨?_, ?_⟩, by simp, ?_⟩
      · obtain ⟨e, he, hs⟩ := Finset.exists_mem_eq_sup' hne fun e => |g e|
        exact ⟨e, he, hs.symm⟩
      · rintro _ ⟨e, he, rfl⟩
        exact Finset.le_sup' (fun e => |g e|) he
      · unfold OC.sensScale
        rw [hst]
        have hne' : (ocCfg R F).design.Nonempty := hne
        simp only [dif_pos hne']
        rfl
  obtain ⟨s, hs1, hs2, hs3⟩ := hscale
  have hk : out.kkt = OC.kktResidual (ocCfg R F) g out.lmid out.runningScale out.rho ∧
      out.runningScale = OC.newRunningScale k rs0 (max s R.scaleFloor) := by
    unfold OC.rhoUpdate at h
    rw [hs3] at h
    simp only [bind, Except.bind, pure, Except.pure, Except.ok.injEq] at h
    rw [← h]
    exact ⟨rfl, rfl⟩
  obtain ⟨hkkt, hrsc⟩ := hk
  obtain ⟨rs, hrsd⟩ : ∃ rs, rs = out.runningScale := ⟨_, rfl⟩
  obtain ⟨P, hP⟩ : ∃ P, P = OC.mkParams (ocCfg R F) (stepArgs R k v) rs rho rho g := ⟨_, rfl⟩
  rw [← hrsd] at hpos hrho hlm hve hkkt hrsc ⊢
  rw [← hP] at hrho hlm hve
  have hvol : ∀ l, 0 ≤ l → OC.volError P l = some (excess R v (grown R v rho (fun e => g e / rs) l)) := fun l hl => by
    rw [hP]; exact volError_excess hF hpos hl hg
  obtain ⟨o1, o2, o3⟩ := OC.bisect_out P 1000 0 R.lambdaLower R.lambdaUpper
  obtain ⟨n1, n2, n3⟩ := OC.bisect_nested P 1000 0 R.lambdaLower R.lambdaUpper hb.2
  have hlm' : out.lmid = (OC.bisect P 1000 0 R.lambdaLower R.lambdaUpper).lmid := hlm
  have hl0 : 0 ≤ out.lmid := by rw [hlm', o1]; linarith [hb.1]
  have hrho' : ∀ e ∈ R.design, out.rho e = some (grown R v rho (fun e => g e / rs) out.lmid e) := by
    intro e he
    rw [hrho]
    show (OC.bisect P 1000 0 R.lambdaLower R.lambdaUpper).rho e = _
    rw [o3, ← hlm', hP]
    exact candidate_grown (v := v) ⟨rfl, rfl, rfl, rfl⟩ ⟨rfl, rfl⟩ hpos hl0 he (hg e he)
  have hve' : out.volError = some (excess R v (grown R v rho (fun e => g e / rs) out.lmid)) := by
    rw [hve]
    show (OC.bisect P 1000 0 R.lambdaLower R.lambdaUpper).volError = _
    rw [o2, ← hlm', hvol _ hl0]
  refine ⟨s, hs1, hs2, ?_, ?_, hrho', hve', ?_, ?_⟩
  · rw [hrsc]
    unfold OC.newRunningScale
    by_cases hk1 : k ≤ 1
    · rw [if_pos hk1, if_neg (by omega)]
    · rw [if_neg hk1, if_pos (by omega)]; norm_num
  · rw [hlm']
    exact bisect_bisected hb (by rw [hP]; rfl) (by rw [hP]; rfl) hvol 1000 0 rfl (by simp)
  · intro hin
    rw [hkkt]
    unfold OC.kktResidual
    simp only
    rw [dif_neg]
    rintro ⟨e, he⟩
    rw [Finset.mem_filter] at he
    obtain ⟨he, r, hr, h1, h2⟩ := he
    have he' : e ∈ R.design := he
    rw [hrho' e he'] at hr
    simp only [Option.some.injEq] at hr
    subst hr
    have : e ∈ (∅ : Set E) := hin ▸ ⟨he', h1, h2⟩
    exact this
  · rintro ⟨e0, he0, hl, hh⟩
    have hmem : ∀ e, e ∈ (ocCfg R F).design.filter (fun e => ∃ r, out.rho e = some r ∧ r > (ocCfg R F).rhoMin + 1 / 10 ^ 6 ∧
        r < (ocCfg R F).rhoMax - 1 / 10 ^ 6) ↔ e ∈ R.design ∧ R.rhoMin + 1 / 10 ^ 6 <
          grown R v rho (fun e => g e / rs) out.lmid e ∧ grown R v rho (fun e => g e / rs) out.lmid e < R.rhoMax - 1 / 10 ^ 6 := by
      intro e
      rw [Finset.mem_filter]
      constructor
      · rintro ⟨he, r, hr, h1, h2⟩
        have he' : e ∈ R.design := he
        rw [hrho' e he'] at hr
        simp only [Option.some.injEq] at hr
        subst hr
        exact ⟨he', h1, h2⟩
      · rintro ⟨he, h1, h2⟩
        exact ⟨he, _, hrho' e he, h1, h2⟩
    rw [hkkt]
    unfold OC.kktResidual
    simp only
    have hne : ((ocCfg R F).design.filter (fun e => ∃ r, out.rho e = some r ∧ r > (ocCfg R F).rhoMin + 1 / 10 ^ 6 ∧
        r < (ocCfg R F).rhoMax - 1 / 10 ^ 6)).Nonempty := ⟨e0, (hmem e0).2 ⟨he0, hl, hh⟩⟩
    rw [dif_pos hne]
    constructor
    · obtain ⟨e, he, hs⟩ := Finset.exists_mem_eq_sup' hne fun e => |g e + out.lmid * rs * (ocCfg R F).dV e|
      exact ⟨e, (hmem e).1 he, hs.symm⟩
    · rintro _ ⟨e, he, rfl⟩
      exact Finset.le_sup' (fun e => |g e + out.lmid * rs * (ocCfg R F).dV e|) ((hmem e).2 he)

end
end Verif.Run
