import Verif.Lemmas.Heat
import Verif.Lemmas.Material
import Mathlib.Analysis.Calculus.Deriv.Pow
import Mathlib.Analysis.SpecialFunctions.Pow.Deriv
import Mathlib.Analysis.SpecialFunctions.Sqrt
import Mathlib.Algebra.BigOperators.Field

/-! Derivative of the thermal compliance along a curve of systems. -/
namespace Verif.Heat

open Matrix Material Elastic

set_option linter.unusedSectionVars false

variable {ι Q : Type} [Fintype ι] [Fintype Q] {d nE k : ℕ}

noncomputable section

/-! ### Abstract systems -/

open Classical in
theorem hsolution_continuousAt (A : ℝ → Matrix ι ι ℝ) (b : ℝ → ι → ℝ) (D : Finset ι) (v t : ℝ)
    (hA : ∀ i j, ContinuousAt (fun s => A s i j) t) (hb : ∀ i, ContinuousAt (fun s => b s i) t)
    (hdet : (enforceK (A t) D).det ≠ 0) (u : ℝ → ι → ℝ) (hu : ∀ᶠ s in nhds t, HSolves (A s) D (b s) v (u s)) : ContinuousAt u t := by
  set M : ℝ → Matrix ι ι ℝ := fun s => enforceK (A s) D with hM
  have hMc : ContinuousAt M t := by
    refine continuousAt_pi.mpr fun i => continuousAt_pi.mpr fun j => ?_
    by_cases hi : i ∈ D
    · simp only [hM, enforceK, if_pos hi]; exact continuousAt_const
    · simp only [hM, enforceK, if_neg hi]; exact hA i j
  have hRc : ContinuousAt (fun s => enforceRhs (b s) D v) t := by
    refine continuousAt_pi.mpr fun i => ?_
    by_cases hi : i ∈ D
    · simp only [enforceRhs, if_pos hi]; exact continuousAt_const
    · simp only [enforceRhs, if_neg hi]; exact hb i
  have hdc : ContinuousAt (fun s => (M s).det) t := (continuous_id.matrix_det.continuousAt).comp hMc
  have hadj : ContinuousAt (fun s => (M s).adjugate) t := (continuous_id.matrix_adjugate.continuousAt).comp hMc
  have hne : ∀ᶠ s in nhds t, (M s).det ≠ 0 := hdc.eventually_ne hdet
  have hform : ContinuousAt (fun s => ((M s).det)⁻¹ • ((M s).adjugate *ᵥ enforceRhs (b s) D v)) t := by
    refine (hdc.inv₀ hdet).smul ?_
    refine continuousAt_pi.mpr fun i => ?_
    simp only [Matrix.mulVec, dotProduct]
    refine tendsto_finsetSum _ fun j _ => ?_
    exact ((continuousAt_pi.mp (continuousAt_pi.mp hadj i) j).tendsto).mul (continuousAt_pi.mp hRc j).tendsto
  refine hform.congr ?_
  filter_upwards [hu, hne] with s hs hn
  have : M s *ᵥ u s = enforceRhs (b s) D v := hs
  rw [← this, Matrix.mulVec_mulVec, Matrix.adjugate_mul, Matrix.smul_mulVec, Matrix.one_mulVec, smul_smul, inv_mul_cancel₀ hn, one_smul]

theorem sum_sym {K : Matrix ι ι ℝ} (hK : ∀ i j, K i j = K j i) (u w : ι → ℝ) :
    ∑ i, u i * ∑ j, K i j * w j = ∑ i, w i * ∑ j, K i j * u j := by
  simp only [Finset.mul_sum]
  rw [Finset.sum_comm]
  refine Finset.sum_congr rfl fun j _ => Finset.sum_congr rfl fun i _ => ?_
  rw [hK i j]; ring

/-- Testing the equations of a system with homogeneous Dirichlet values. -/
theorem test_eq {K : Matrix ι ι ℝ} {D : Finset ι} {b u w : ι → ℝ} (h : HSolves K D b 0 u) (hw : ∀ i ∈ D, w i = 0) :
    ∑ i, w i * ∑ j, K i j * u j = ∑ i, b i * w i := by
  rw [hsolves_iff] at h
  refine Finset.sum_congr rfl fun i _ => ?_
  by_cases hi : i ∈ D
  · rw [hw i hi]; ring
  · rw [h.2 i hi]; ring

open Classical in
theorem compliance_deriv (A : ℝ → Matrix ι ι ℝ) (b : ℝ → ι → ℝ) (A' : Matrix ι ι ℝ) (b' : ι → ℝ) (D : Finset ι) (t : ℝ)
    (hsym : ∀ s i j, A s i j = A s j i) (hA : ∀ i j, HasDerivAt (fun s => A s i j) (A' i j) t)
    (hb : ∀ i, HasDerivAt (fun s => b s i) (b' i) t) (hdet : (enforceK (A t) D).det ≠ 0) (u : ℝ → ι → ℝ)
    (hu : ∀ᶠ s in nhds t, HSolves (A s) D (b s) 0 (u s)) :
    HasDerivAt (fun s => compliance (A s) (u s)) (2 * ∑ i, b' i * u t i - ∑ i, u t i * ∑ j, A' i j * u t j) t := by
  have hc := hsolution_continuousAt A b D 0 t (fun i j => (hA i j).continuousAt) (fun i => (hb i).continuousAt) hdet u hu
  have ht : HSolves (A t) D (b t) 0 (u t) := hu.self_of_nhds
  have hci : ∀ i, ContinuousAt (fun s => u s i) t := fun i => continuousAt_pi.mp hc i
  have h1 : HasDerivAt (fun s => compliance (A t) (u t) + (∑ i, (b s i - b t i) * (u s i + u t i) -
      ∑ i, ∑ j, (A s i j - A t i j) * (u t i * u s j)))
      (2 * ∑ i, b' i * u t i - ∑ i, u t i * ∑ j, A' i j * u t j) t := by
    refine HasDerivAt.const_add _ ?_
    have e1 : HasDerivAt (fun s => ∑ i, (b s i - b t i) * (u s i + u t i)) (∑ i, b' i * (u t i + u t i)) t :=
      HasDerivAt.fun_sum fun i _ => hasDerivAt_mul_cont (hb i) ((hci i).add continuousAt_const)
    have e2 : HasDerivAt (fun s => ∑ i, ∑ j, (A s i j - A t i j) * (u t i * u s j)) (∑ i, ∑ j, A' i j * (u t i * u t j)) t :=
      HasDerivAt.fun_sum fun i _ => HasDerivAt.fun_sum fun j _ => hasDerivAt_mul_cont (hA i j) (continuousAt_const.mul (hci j))
    refine (e1.sub e2).congr_deriv ?_
    congr 1
    · rw [Finset.mul_sum]; exact Finset.sum_congr rfl fun i _ => by ring
    · refine Finset.sum_congr rfl fun i _ => ?_
      rw [Finset.mul_sum]; exact Finset.sum_congr rfl fun j _ => by ring
  refine h1.congr_of_eventuallyEq ?_
  filter_upwards [hu] with s hs
  have z : ∀ i ∈ D, u t i = 0 := (hsolves_iff.mp ht).1
  have zs : ∀ i ∈ D, u s i = 0 := (hsolves_iff.mp hs).1
  have q1 := test_eq hs zs
  have q2 := test_eq ht z
  have q3 := test_eq hs z
  have q4 := test_eq ht zs
  rw [sum_sym (hsym t)] at q4
  have q5 : ∑ i, ∑ j, (A s i j - A t i j) * (u t i * u s j) =
      ∑ i, u t i * ∑ j, A s i j * u s j - ∑ i, u t i * ∑ j, A t i j * u s j := by
    rw [← Finset.sum_sub_distrib]
    refine Finset.sum_congr rfl fun i _ => ?_
    rw [Finset.mul_sum, Finset.mul_sum, ← Finset.sum_sub_distrib]
    exact Finset.sum_congr rfl fun j _ => by ring
  have q6 : ∑ i, (b s i - b t i) * (u s i + u t i) =
      ∑ i, b s i * u s i + ∑ i, b s i * u t i - ∑ i, b t i * u s i - ∑ i, b t i * u t i := by
    rw [← Finset.sum_add_distrib, ← Finset.sum_sub_distrib, ← Finset.sum_sub_distrib]
    exact Finset.sum_congr rfl fun i _ => by ring
  unfold compliance
  rw [q5, q6, q1, q2, q3, q4]; ring

/-! ### Weighted forms -/

/-- The bilinear form with weight `w`. -/
def weightForm (B : FE ι (Fin nE) Q d) (w : Fin nE → Q → ℝ) : Matrix ι ι ℝ :=
  fun i j => ∑ e, ∑ q, w e q * B.val j e q * B.val i e q * B.dx e q

theorem virtualForm_weight (B : FE ι (Fin nE) Q d) (h p : ℝ) (qe : ℕ) (rn : ι → ℝ) :
    virtualForm B h p qe rn = weightForm B fun e q => hEff h p qe (valAt B rn e q) * interface B rn e q := rfl

theorem quad_weight (B : FE ι (Fin nE) Q d) (w : Fin nE → Q → ℝ) (T : ι → ℝ) :
    ∑ i, T i * ∑ j, weightForm B w i j * T j = ∑ e, ∑ q, w e q * valAt B T e q ^ 2 * B.dx e q := by
  have h1 : ∀ i, ∑ j, weightForm B w i j * T j = ∑ e, ∑ q, w e q * valAt B T e q * B.val i e q * B.dx e q := by
    intro i
    unfold weightForm
    simp only [Finset.sum_mul]
    rw [Finset.sum_comm]
    refine Finset.sum_congr rfl fun e _ => ?_
    rw [Finset.sum_comm]
    refine Finset.sum_congr rfl fun q _ => ?_
    conv_rhs => rw [show valAt B T e q = ∑ j, T j * B.val j e q from rfl, Finset.mul_sum, Finset.sum_mul, Finset.sum_mul]
    exact Finset.sum_congr rfl fun j _ => by ring
  simp only [h1, Finset.mul_sum]
  rw [Finset.sum_comm]
  refine Finset.sum_congr rfl fun e _ => ?_
  rw [Finset.sum_comm]
  refine Finset.sum_congr rfl fun q _ => ?_
  have : valAt B T e q ^ 2 = ∑ i, T i * B.val i e q * valAt B T e q := by rw [← Finset.sum_mul, sq]; rfl
  rw [this, Finset.mul_sum, Finset.sum_mul]
  exact Finset.sum_congr rfl fun i _ => by ring

/-! ### The weight of the virtual Robin term -/

/-- The rate of the weight `h_eff |∇ρ|`. -/
def weightRate (h p : ℝ) (qe : ℕ) (r r' : ℝ) (g g' : Fin d → ℝ) : ℝ :=
  let m := Real.sqrt (∑ a, g a ^ 2)
  h * (dA p qe r * m * r' + r ^ p * (1 - r) ^ (qe : ℝ) * dot (fun a => g a / max m (1 / 10 ^ 12)) g')

theorem weight_deriv_regular (h p : ℝ) (qe : ℕ) (r : ℝ → ℝ) (r' : ℝ) (g : ℝ → Fin d → ℝ) (g' : Fin d → ℝ) (t : ℝ)
    (hr : HasDerivAt r r' t) (hg : ∀ a, HasDerivAt (fun s => g s a) (g' a) t) (h0 : 0 < r t) (h1 : r t < 1)
    (hm : 1 / 10 ^ 12 ≤ Real.sqrt (∑ a, g t a ^ 2)) :
    HasDerivAt (fun s => hEff h p qe (r s) * Real.sqrt (∑ a, g s a ^ 2)) (weightRate h p qe (r t) r' (g t) g') t := by
  have hmpos : 0 < Real.sqrt (∑ a, g t a ^ 2) := lt_of_lt_of_le (by positivity) hm
  have hS : HasDerivAt (fun s => ∑ a, g s a ^ 2) (∑ a, 2 * g t a * g' a) t := by
    refine HasDerivAt.fun_sum fun a _ => ?_
    have := (hg a).fun_pow 2
    simpa using this
  have hSne : ∑ a, g t a ^ 2 ≠ 0 := (Real.sqrt_pos.mp hmpos).ne'
  have hsq := hS.sqrt hSne
  have hp1 : HasDerivAt (fun s => r s ^ p) (r' * p * r t ^ (p - 1)) t := hr.rpow_const (.inl h0.ne')
  have hp2 : HasDerivAt (fun s => (1 - r s) ^ qe) (qe * (1 - r t) ^ (qe - 1) * (-r')) t := by
    have := (hr.const_sub 1).fun_pow qe
    simpa using this
  have hE : HasDerivAt (fun s => hEff h p qe (r s))
      (h * (r' * p * r t ^ (p - 1)) * (1 - r t) ^ qe + h * r t ^ p * (qe * (1 - r t) ^ (qe - 1) * (-r'))) t := by
    unfold hEff
    exact (hp1.const_mul h).mul hp2
  refine (hE.mul hsq).congr_deriv ?_
  unfold weightRate dA hEff dot
  simp only
  have h1' : 0 < 1 - r t := by linarith
  have hqe : (qe : ℝ) * (1 - r t) ^ ((qe : ℝ) - 1) = qe * (1 - r t) ^ (qe - 1) := by
    cases qe with
    | zero => simp
    | succ n => push_cast; rw [add_sub_cancel_right, Real.rpow_natCast]
  rw [Real.rpow_natCast, max_eq_left hm]
  have hdot : ∑ a, g t a / Real.sqrt (∑ a, g t a ^ 2) * g' a = (∑ a, 2 * g t a * g' a) / (2 * Real.sqrt (∑ a, g t a ^ 2)) := by
    rw [Finset.sum_div]
    refine Finset.sum_congr rfl fun a _ => ?_
    rw [mul_assoc, mul_div_mul_left _ _ two_ne_zero]; ring
  rw [hdot]
  have hexp : (qe : ℝ) * r t ^ p * (1 - r t) ^ ((qe : ℝ) - 1) = r t ^ p * (qe * (1 - r t) ^ (qe - 1)) := by rw [← hqe]; ring
  rw [hexp]
  ring

theorem weight_deriv_flat (h p : ℝ) (hp : 0 < p) (qe : ℕ) (hqe : 0 < qe) (r : ℝ → ℝ) (r' : ℝ) (g : ℝ → Fin d → ℝ) (g' : Fin d → ℝ)
    (t : ℝ) (hr : HasDerivAt r r' t) (hg : ∀ a, HasDerivAt (fun s => g s a) (g' a) t) (h01 : r t = 0 ∨ r t = 1) (hflat : g t = 0) :
    HasDerivAt (fun s => hEff h p qe (r s) * Real.sqrt (∑ a, g s a ^ 2)) (weightRate h p qe (r t) r' (g t) g') t := by
  have hzero : weightRate h p qe (r t) r' (g t) g' = 0 := by
    unfold weightRate dot; simp [hflat]
  rw [hzero]
  have hE0 : hEff h p qe (r t) = 0 := by
    unfold hEff
    rcases h01 with h0 | h1
    · rw [h0, Real.zero_rpow hp.ne']; ring
    · rw [h1]; simp [hqe.ne']
  have hEc : ContinuousAt (fun s => hEff h p qe (r s)) t := by
    unfold hEff
    refine ContinuousAt.mul (ContinuousAt.mul continuousAt_const ?_) ?_
    · exact hr.continuousAt.rpow_const (.inr hp.le)
    · exact (continuousAt_const.sub hr.continuousAt).pow qe
  have hm0 : Real.sqrt (∑ a, g t a ^ 2) = 0 := by simp [hflat]
  rw [hasDerivAt_iff_isLittleO]
  have hEo : (fun s => hEff h p qe (r s)) =o[nhds t] (fun _ => (1 : ℝ)) := by
    rw [Asymptotics.isLittleO_one_iff]
    have := hEc.tendsto; rwa [hE0] at this
  have hgO : ∀ a, (fun s => g s a) =O[nhds t] fun s => s - t := by
    intro a
    have := (hg a).isBigO_sub
    simpa [hflat] using this
  have hmO : (fun s => Real.sqrt (∑ a, g s a ^ 2)) =O[nhds t] fun s => s - t := by
    have hle : ∀ s, ‖Real.sqrt (∑ a, g s a ^ 2)‖ ≤ ‖∑ a, |g s a|‖ := by
      intro s
      rw [Real.norm_of_nonneg (Real.sqrt_nonneg _), Real.norm_of_nonneg (Finset.sum_nonneg fun a _ => abs_nonneg _)]
      apply Real.sqrt_le_iff.mpr
      refine ⟨Finset.sum_nonneg fun a _ => abs_nonneg _, ?_⟩
      calc ∑ a, g s a ^ 2 = ∑ a, |g s a| ^ 2 := Finset.sum_congr rfl fun a _ => (sq_abs _).symm
        _ ≤ (∑ a, |g s a|) ^ 2 := Finset.sum_sq_le_sq_sum_of_nonneg fun a _ => abs_nonneg _
    refine Asymptotics.IsBigO.trans (Asymptotics.IsBigO.of_norm_le hle) ?_
    exact (Asymptotics.IsBigO.fun_sum fun a _ => (hgO a).abs_left).norm_left
  have := hEo.mul_isBigO hmO
  simp only [one_mul] at this
  simpa [hE0] using this

theorem weight_deriv_still (h p : ℝ) (qe : ℕ) (r : ℝ → ℝ) (r' : ℝ) (g : ℝ → Fin d → ℝ) (g' : Fin d → ℝ)
    (t : ℝ) (hs : ∀ᶠ s in nhds t, g s = 0) :
    HasDerivAt (fun s => hEff h p qe (r s) * Real.sqrt (∑ a, g s a ^ 2)) (weightRate h p qe (r t) r' (g t) g') t := by
  have hflat : g t = 0 := hs.self_of_nhds
  have hzero : weightRate h p qe (r t) r' (g t) g' = 0 := by
    unfold weightRate dot; simp [hflat]
  rw [hzero]
  refine (hasDerivAt_const t (0 : ℝ)).congr_of_eventuallyEq ?_
  filter_upwards [hs] with s h
  simp [h]

/-! ### Nodal densities along a curve -/

theorem list_sum_deriv {α : Type} (l : List α) (f : ℝ → α → ℝ) (f' : α → ℝ) (t : ℝ) (h : ∀ a, HasDerivAt (fun s => f s a) (f' a) t) :
    HasDerivAt (fun s => (l.map (f s)).sum) (l.map f').sum t := by
  induction l with
  | nil => simpa using hasDerivAt_const t (0 : ℝ)
  | cons a l ih => simp only [List.map_cons, List.sum_cons]; exact (h a).fun_add ih

theorem addAt_map {α : Type} (ids : List ι) (l : List α) (i : ι) :
    ∃ l' : List α, ∀ rho : α → ℝ, addAt ids (l.map rho) i = (l'.map rho).sum := by
  classical
  refine ⟨((ids.zip l).filter fun p => decide (p.1 = i)).map Prod.snd, fun rho => ?_⟩
  unfold addAt
  have hz : ids.zip (l.map rho) = (ids.zip l).map (Prod.map id rho) := by
    rw [List.zip_map_right]
  rw [hz, List.filter_map, List.map_map, List.map_map]
  congr 2

theorem nodalAverage_deriv (tt : Fin k → Fin nE → ι) (rho : ℝ → Fin nE → ℝ) (rho' : Fin nE → ℝ) (t : ℝ)
    (h : ∀ e, HasDerivAt (fun s => rho s e) (rho' e) t) (i : ι) :
    HasDerivAt (fun s => nodalAverage tt (rho s) i) (nodalAverage tt rho' i) t := by
  have hrep : ∀ r : Fin nE → ℝ, repeatEach r k = ((List.finRange nE).flatMap fun e => List.replicate k e).map r := by
    intro r; unfold repeatEach; rw [List.map_flatMap]; simp
  obtain ⟨l, hl⟩ := addAt_map (ravel tt) ((List.finRange nE).flatMap fun e => List.replicate k e) i
  unfold nodalAverage
  simp only [hrep, hl]
  exact (list_sum_deriv l rho rho' t h).div_const _

theorem valAt_deriv (B : FE ι (Fin nE) Q d) (x : ℝ → ι → ℝ) (x' : ι → ℝ) (t : ℝ) (h : ∀ i, HasDerivAt (fun s => x s i) (x' i) t)
    (e : Fin nE) (q : Q) : HasDerivAt (fun s => valAt B (x s) e q) (valAt B x' e q) t :=
  HasDerivAt.fun_sum fun i _ => (h i).mul_const _

theorem gradAt_deriv (B : FE ι (Fin nE) Q d) (x : ℝ → ι → ℝ) (x' : ι → ℝ) (t : ℝ) (h : ∀ i, HasDerivAt (fun s => x s i) (x' i) t)
    (e : Fin nE) (q : Q) (a : Fin d) : HasDerivAt (fun s => gradAt B (x s) e q a) (gradAt B x' e q a) t :=
  HasDerivAt.fun_sum fun i _ => (h i).mul_const _

/-! ### The transposed average -/

open Classical in
theorem toElements_transpose (tt : Fin k → Fin nE → ι) (ht : ∀ e, Function.Injective fun a => tt a e) (g : ι → ℝ) (x : Fin nE → ℝ)
    (y : ι → ℝ) (hy : ∀ i, (∃ a e, tt a e = i) → Spec.Heat.IsMean tt x i (y i)) (hz : ∀ i, (¬ ∃ a e, tt a e = i) → y i = 0) :
    ∑ i, g i * y i = ∑ e, toElements tt g e * x e := by
  have hy' : ∀ i, y i = ∑ e, ∑ a, if tt a e = i then x e / max (count tt i) 1 else 0 := by
    intro i
    by_cases hi : ∃ a e, tt a e = i
    · have hm := hy i hi
      unfold Spec.Heat.IsMean at hm
      have hpos : (1 : ℝ) ≤ (Finset.univ.filter fun e => ∃ a, tt a e = i).card := by
        obtain ⟨a, e, hae⟩ := hi
        exact_mod_cast Finset.card_pos.mpr ⟨e, by simp only [Finset.mem_filter, Finset.mem_univ, true_and]; exact ⟨a, hae⟩⟩
      rw [hm, count_card tt ht i, max_eq_left hpos, Finset.sum_div, Finset.sum_filter]
      refine Finset.sum_congr rfl fun e _ => ?_
      by_cases h : ∃ a, tt a e = i
      · rw [if_pos h]
        obtain ⟨a, ha⟩ := h
        rw [Finset.sum_eq_single a]
        · rw [if_pos ha]
        · intro b _ hb; rw [if_neg]; intro hbi; exact hb (ht e (by simpa using hbi.trans ha.symm))
        · simp
      · rw [if_neg h]
        symm
        apply Finset.sum_eq_zero
        intro a _
        rw [if_neg]; exact fun ha => h ⟨a, ha⟩
    · rw [hz i hi]
      symm
      exact Finset.sum_eq_zero fun e _ => Finset.sum_eq_zero fun a _ => if_neg fun h => hi ⟨a, e, h⟩
  simp only [hy', Finset.mul_sum]
  rw [Finset.sum_comm]
  refine Finset.sum_congr rfl fun e _ => ?_
  rw [Finset.sum_comm]
  unfold toElements
  rw [Finset.sum_mul]
  refine Finset.sum_congr rfl fun a _ => ?_
  rw [Finset.sum_eq_single (tt a e)]
  · rw [if_pos rfl]; ring
  · intro i _ hi; rw [if_neg (Ne.symm hi)]; ring
  · simp

theorem nodalAverage_unused (tt : Fin k → Fin nE → ι) (rho : Fin nE → ℝ) (i : ι) (hi : ¬ ∃ a e, tt a e = i) : nodalAverage tt rho i = 0 := by
  classical
  unfold nodalAverage addAt
  have : ((ravel tt).zip (repeatEach rho k)).filter (fun p => p.1 = i) = [] := by
    rw [List.filter_eq_nil_iff]
    intro p hp
    have := (List.of_mem_zip hp).1
    unfold ravel at this
    simp only [List.mem_flatMap, List.mem_map, List.mem_finRange, true_and] at this
    obtain ⟨a, e, hae⟩ := this
    simp only [decide_eq_true_eq]
    exact fun h => hi ⟨a, e, hae.trans h⟩
  simp [this]

end
end Verif.Heat
