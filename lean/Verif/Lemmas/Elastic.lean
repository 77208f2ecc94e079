import Verif.Model.Elastic
import Mathlib.Algebra.Order.Chebyshev
import Mathlib.Analysis.Calculus.Deriv.Slope
import Mathlib.Analysis.Calculus.Deriv.Add
import Mathlib.Analysis.Calculus.Deriv.Mul
import Mathlib.Topology.Instances.Matrix
import Mathlib.Tactic.LinearCombination

/-! Supporting lemmas for the elasticity analysis. -/
set_option linter.unusedSectionVars false

namespace Verif.Elastic

open Matrix Material

variable {ι E Q : Type} [Fintype ι] [Fintype E] [Fintype Q] {d : ℕ}

noncomputable section

theorem lamMu_scale (Em nu : ℝ) : lamMu Em nu = (Em * (lamMu 1 nu).1, Em * (lamMu 1 nu).2) := by
  unfold lamMu
  ext
  · simp only; ring
  · simp only; rw [mul_one_div]

theorem stiffForm_scale (Em nu : ℝ) (g h : Matrix (Fin d) (Fin d) ℝ) : stiffForm Em nu g h = Em * stiffForm 1 nu g h := by
  unfold stiffForm; rw [lamMu_scale]; simp only; ring

theorem ddot_comm (a b : Matrix (Fin d) (Fin d) ℝ) : ddot a b = ddot b a := by
  unfold ddot; simp only [mul_comm]

theorem ddot_add_left (a b c : Matrix (Fin d) (Fin d) ℝ) : ddot (a + b) c = ddot a c + ddot b c := by
  unfold ddot; simp only [Matrix.add_apply, add_mul, Finset.sum_add_distrib]

theorem ddot_smul_left (k : ℝ) (a c : Matrix (Fin d) (Fin d) ℝ) : ddot (k • a) c = k * ddot a c := by
  unfold ddot; simp only [Matrix.smul_apply, smul_eq_mul, mul_assoc, Finset.mul_sum]

theorem ddot_one (a : Matrix (Fin d) (Fin d) ℝ) : ddot 1 a = a.trace := by
  unfold ddot Matrix.trace
  apply Finset.sum_congr rfl
  intro i _
  rw [Finset.sum_eq_single i]
  · simp
  · intro j _ h; simp [Matrix.one_apply_ne h.symm]
  · simp

theorem stiffForm_comm (Em nu : ℝ) (g h : Matrix (Fin d) (Fin d) ℝ) : stiffForm Em nu g h = stiffForm Em nu h g := by
  unfold stiffForm; rw [ddot_comm]; ring

theorem sym_add (g h : Matrix (Fin d) (Fin d) ℝ) : sym (g + h) = sym g + sym h := by
  unfold sym; rw [transpose_add, ← smul_add]; congr 1; abel

theorem sym_smul (k : ℝ) (g : Matrix (Fin d) (Fin d) ℝ) : sym (k • g) = k • sym g := by
  unfold sym; rw [transpose_smul, ← smul_add, smul_comm]

theorem stiffForm_add (Em nu : ℝ) (g h k : Matrix (Fin d) (Fin d) ℝ) :
    stiffForm Em nu (g + h) k = stiffForm Em nu g k + stiffForm Em nu h k := by
  unfold stiffForm; rw [sym_add, ddot_add_left, Matrix.trace_add]; ring

theorem stiffForm_smul (Em nu c : ℝ) (g k : Matrix (Fin d) (Fin d) ℝ) :
    stiffForm Em nu (c • g) k = c * stiffForm Em nu g k := by
  unfold stiffForm; rw [sym_smul, ddot_smul_left, Matrix.trace_smul, smul_eq_mul]; ring

theorem stiffForm_zero (Em nu : ℝ) (k : Matrix (Fin d) (Fin d) ℝ) : stiffForm Em nu 0 k = 0 := by
  have := stiffForm_smul Em nu 0 0 k; simpa using this

theorem stiffForm_sum {α : Type} (s : Finset α) (Em nu : ℝ) (c : α → ℝ) (g : α → Matrix (Fin d) (Fin d) ℝ)
    (k : Matrix (Fin d) (Fin d) ℝ) : stiffForm Em nu (∑ i ∈ s, c i • g i) k = ∑ i ∈ s, c i * stiffForm Em nu (g i) k := by
  classical
  induction s using Finset.induction_on with
  | empty => simp [stiffForm_zero]
  | insert a s ha ih => rw [Finset.sum_insert ha, Finset.sum_insert ha, stiffForm_add, stiffForm_smul, ih]

/-- The energy form of one element for unit modulus. -/
def unitForm (B : FE ι E Q d) (nu : ℝ) (u v : ι → ℝ) (e : E) : ℝ :=
  ∑ q, stiffForm 1 nu (gradOf B u e q) (gradOf B v e q) * B.dx e q

theorem unitForm_comm (B : FE ι E Q d) (nu : ℝ) (u v : ι → ℝ) (e : E) : unitForm B nu u v e = unitForm B nu v u e := by
  unfold unitForm; simp only [stiffForm_comm 1 nu (gradOf B u e _)]

theorem gradOf_sub (B : FE ι E Q d) (u v : ι → ℝ) (e : E) (q : Q) : gradOf B (u - v) e q = gradOf B u e q + (-1 : ℝ) • gradOf B v e q := by
  unfold gradOf
  rw [Finset.smul_sum, ← Finset.sum_add_distrib]
  apply Finset.sum_congr rfl
  intro i _
  rw [Pi.sub_apply, sub_smul, neg_one_smul, sub_eq_add_neg]

theorem unitForm_sub_sub (B : FE ι E Q d) (nu : ℝ) (u v : ι → ℝ) (e : E) :
    unitForm B nu (u - v) (u - v) e = unitForm B nu u u e - 2 * unitForm B nu u v e + unitForm B nu v v e := by
  unfold unitForm
  rw [Finset.mul_sum, ← Finset.sum_sub_distrib, ← Finset.sum_add_distrib]
  apply Finset.sum_congr rfl
  intro q _
  have hr : ∀ a b c : Matrix (Fin d) (Fin d) ℝ, stiffForm 1 nu a (b + (-1 : ℝ) • c) = stiffForm 1 nu a b - stiffForm 1 nu a c := by
    intro a b c
    rw [stiffForm_comm, stiffForm_add, stiffForm_smul, stiffForm_comm, stiffForm_comm 1 nu c a]; ring
  rw [gradOf_sub, hr, stiffForm_comm 1 nu (_ + _) (gradOf B u e q), hr, stiffForm_comm 1 nu (_ + _) (gradOf B v e q), hr,
    stiffForm_comm 1 nu (gradOf B v e q) (gradOf B u e q)]
  ring

/-- The quadratic form of the stiffness matrix. -/
theorem stiffness_form (B : FE ι E Q d) (Em : E → ℝ) (nu : ℝ) (u v : ι → ℝ) :
    ∑ i, v i * ∑ j, stiffness B Em nu i j * u j = ∑ e, Em e * unitForm B nu u v e := by
  have h : ∀ e q, stiffForm 1 nu (gradOf B u e q) (gradOf B v e q) =
      ∑ i, ∑ j, v i * (stiffForm 1 nu (B.grad j e q) (B.grad i e q) * u j) := by
    intro e q
    unfold gradOf
    rw [stiffForm_sum, Finset.sum_comm]
    apply Finset.sum_congr rfl
    intro j _
    rw [stiffForm_comm, stiffForm_sum, Finset.mul_sum]
    apply Finset.sum_congr rfl
    intro i _
    rw [stiffForm_comm]; ring
  unfold unitForm
  simp only [h]
  unfold stiffness
  calc ∑ i, v i * ∑ j, (∑ e, ∑ q, stiffForm (Em e) nu (B.grad j e q) (B.grad i e q) * B.dx e q) * u j
      = ∑ i, ∑ j, ∑ e, ∑ q, Em e * (v i * (stiffForm 1 nu (B.grad j e q) (B.grad i e q) * u j) * B.dx e q) := by
        apply Finset.sum_congr rfl; intro i _
        rw [Finset.mul_sum]
        apply Finset.sum_congr rfl; intro j _
        rw [Finset.sum_mul, Finset.mul_sum]
        apply Finset.sum_congr rfl; intro e _
        rw [Finset.sum_mul, Finset.mul_sum]
        apply Finset.sum_congr rfl; intro q _
        rw [stiffForm_scale]; ring
    _ = ∑ e, ∑ q, ∑ i, ∑ j, Em e * (v i * (stiffForm 1 nu (B.grad j e q) (B.grad i e q) * u j) * B.dx e q) := by
        have step : ∀ i, ∑ j, ∑ e, ∑ q, Em e * (v i * (stiffForm 1 nu (B.grad j e q) (B.grad i e q) * u j) * B.dx e q) =
            ∑ e, ∑ q, ∑ j, Em e * (v i * (stiffForm 1 nu (B.grad j e q) (B.grad i e q) * u j) * B.dx e q) := by
          intro i
          rw [Finset.sum_comm]
          apply Finset.sum_congr rfl; intro e _
          rw [Finset.sum_comm]
        simp only [step]
        rw [Finset.sum_comm]
        apply Finset.sum_congr rfl; intro e _
        rw [Finset.sum_comm]
    _ = _ := by
        apply Finset.sum_congr rfl; intro e _
        rw [Finset.mul_sum]
        apply Finset.sum_congr rfl; intro q _
        rw [Finset.sum_mul, Finset.mul_sum]
        apply Finset.sum_congr rfl; intro i _
        rw [Finset.sum_mul, Finset.mul_sum]

/-- `tr(ε)² ≤ d ε:ε`. -/
theorem trace_sq_le (a : Matrix (Fin d) (Fin d) ℝ) : a.trace ^ 2 ≤ d * ddot a a := by
  have h1 : a.trace ^ 2 ≤ d * ∑ i, a i i ^ 2 := by
    have := sq_sum_le_card_mul_sum_sq (s := Finset.univ) (f := fun i : Fin d => a i i)
    simpa [Matrix.trace] using this
  refine h1.trans (mul_le_mul_of_nonneg_left ?_ (Nat.cast_nonneg _))
  unfold ddot
  apply Finset.sum_le_sum
  intro i _
  rw [sq]
  exact Finset.single_le_sum (f := fun j => a i j * a i j) (fun j _ => mul_self_nonneg _) (Finset.mem_univ i)

theorem ddot_self_nonneg (a : Matrix (Fin d) (Fin d) ℝ) : 0 ≤ ddot a a :=
  Finset.sum_nonneg fun _ _ => Finset.sum_nonneg fun _ _ => mul_self_nonneg _

theorem stiffForm_nonneg (hd : d ≤ 3) {nu : ℝ} (h0 : -1 < nu) (h1 : nu < 1 / 2) (g : Matrix (Fin d) (Fin d) ℝ) :
    0 ≤ stiffForm 1 nu g g := by
  unfold stiffForm lamMu
  simp only [mul_one]
  set t := (sym g).trace
  set s := ddot (sym g) (sym g) with hs
  have hs0 : 0 ≤ s := ddot_self_nonneg _
  have ht : t ^ 2 ≤ 3 * s := (trace_sq_le (sym g)).trans (mul_le_mul_of_nonneg_right (by exact_mod_cast hd) hs0)
  have ha : 0 < 1 + nu := by linarith
  have hb : 0 < 1 - 2 * nu := by linarith
  have key : nu / ((1 + nu) * (1 - 2 * nu)) * t * t + 2 * (1 / (2 * (1 + nu))) * s =
      (nu * t ^ 2 + (1 - 2 * nu) * s) / ((1 + nu) * (1 - 2 * nu)) := by
    have h2 : 2 * (1 / (2 * (1 + nu))) = (1 - 2 * nu) / ((1 + nu) * (1 - 2 * nu)) := by
      rw [eq_div_iff (mul_pos ha hb).ne']
      have : 2 * (1 / (2 * (1 + nu))) = 1 / (1 + nu) := by field_simp
      rw [this, ← mul_assoc, one_div, inv_mul_cancel₀ ha.ne', one_mul]
    rw [h2]; ring
  rw [key]
  apply div_nonneg _ (mul_pos ha hb).le
  rcases le_or_gt 0 nu with hn | hn
  · have := mul_nonneg hn (sq_nonneg t); nlinarith
  · nlinarith [mul_le_mul_of_nonneg_left ht (neg_nonneg.mpr hn.le)]

theorem sym_zero_of_form (hd : d ≤ 3) {nu : ℝ} (h0 : -1 < nu) (h1 : nu < 1 / 2) {g : Matrix (Fin d) (Fin d) ℝ}
    (h : stiffForm 1 nu g g = 0) : sym g = 0 := by
  unfold stiffForm lamMu at h
  simp only [mul_one] at h
  set t := (sym g).trace
  set s := ddot (sym g) (sym g) with hs
  have hs0 : 0 ≤ s := ddot_self_nonneg _
  have ht : t ^ 2 ≤ 3 * s := (trace_sq_le (sym g)).trans (mul_le_mul_of_nonneg_right (by exact_mod_cast hd) hs0)
  have ha : 0 < 1 + nu := by linarith
  have hb : 0 < 1 - 2 * nu := by linarith
  have key : nu / ((1 + nu) * (1 - 2 * nu)) * t * t + 2 * (1 / (2 * (1 + nu))) * s =
      (nu * t ^ 2 + (1 - 2 * nu) * s) / ((1 + nu) * (1 - 2 * nu)) := by
    have h2 : 2 * (1 / (2 * (1 + nu))) = (1 - 2 * nu) / ((1 + nu) * (1 - 2 * nu)) := by
      rw [eq_div_iff (mul_pos ha hb).ne']
      have : 2 * (1 / (2 * (1 + nu))) = 1 / (1 + nu) := by field_simp
      rw [this, ← mul_assoc, one_div, inv_mul_cancel₀ ha.ne', one_mul]
    rw [h2]; ring
  rw [key, div_eq_zero_iff] at h
  have hnum : nu * t ^ 2 + (1 - 2 * nu) * s = 0 := h.resolve_right (mul_pos ha hb).ne'
  have hsz : s = 0 := by
    rcases le_or_gt 0 nu with hn | hn
    · have := mul_nonneg hn (sq_nonneg t)
      have h3 : (1 - 2 * nu) * s ≤ 0 := by linarith
      nlinarith
    · have h3 : nu * t ^ 2 ≥ nu * (3 * s) := by nlinarith [mul_le_mul_of_nonneg_left ht (neg_nonneg.mpr hn.le)]
      have : (1 + nu) * s ≤ 0 := by nlinarith
      nlinarith
  have hij := (Finset.sum_eq_zero_iff_of_nonneg fun i _ =>
    Finset.sum_nonneg fun j _ => mul_self_nonneg (sym g i j)).mp (show ∑ i, ∑ j, sym g i j * sym g i j = 0 from hsz)
  ext i j
  have := (Finset.sum_eq_zero_iff_of_nonneg fun j _ => mul_self_nonneg (sym g i j)).mp (hij i (Finset.mem_univ i)) j
    (Finset.mem_univ j)
  simpa using mul_self_eq_zero.mp this

theorem unitForm_nonneg (B : FE ι E Q d) (hd : d ≤ 3) (hdx : ∀ e q, 0 ≤ B.dx e q) {nu : ℝ} (h0 : -1 < nu) (h1 : nu < 1 / 2)
    (u : ι → ℝ) (e : E) : 0 ≤ unitForm B nu u u e :=
  Finset.sum_nonneg fun q _ => mul_nonneg (stiffForm_nonneg hd h0 h1 _) (hdx e q)

theorem elemEnergy_eq (B : FE ι E Q d) (Em : E → ℝ) (nu : ℝ) (u : ι → ℝ) (e : E) :
    elemEnergy B Em nu u e = (1 / 2) * (Em e * unitForm B nu u u e) := by
  unfold elemEnergy unitForm
  rw [Finset.mul_sum, Finset.mul_sum]
  apply Finset.sum_congr rfl
  intro q _
  have : energyDensity (Em e) nu (gradOf B u e q) = 1 / 2 * stiffForm (Em e) nu (gradOf B u e q) (gradOf B u e q) := by
    unfold energyDensity stiffForm eye
    simp only
    rw [ddot_add_left, ddot_smul_left, ddot_smul_left, ddot_smul_left, ddot_one]
    ring
  rw [this, stiffForm_scale]; ring

theorem Solves.zero {K : Matrix ι ι ℝ} {D : Finset ι} {f u : ι → ℝ} (h : Solves K D f u) {i : ι} (hi : i ∈ D) : u i = 0 := by
  classical
  have := congrFun h i
  simp only [Matrix.mulVec, dotProduct, enforceK, enforceF, if_pos hi] at this
  simpa using this

theorem Solves.free {K : Matrix ι ι ℝ} {D : Finset ι} {f u : ι → ℝ} (h : Solves K D f u) {i : ι} (hi : i ∉ D) :
    ∑ j, K i j * u j = f i := by
  classical
  have := congrFun h i
  simpa only [Matrix.mulVec, dotProduct, enforceK, enforceF, if_neg hi] using this

theorem solves_iff {K : Matrix ι ι ℝ} {D : Finset ι} {f u : ι → ℝ} :
    Solves K D f u ↔ (∀ i ∈ D, u i = 0) ∧ ∀ i ∉ D, ∑ j, K i j * u j = f i := by
  classical
  refine ⟨fun h => ⟨fun i hi => h.zero hi, fun i hi => h.free hi⟩, fun ⟨h1, h2⟩ => ?_⟩
  funext i
  by_cases hi : i ∈ D
  · simp [Matrix.mulVec, dotProduct, enforceK, enforceF, hi, h1 i hi]
  · simp only [Matrix.mulVec, dotProduct, enforceK, enforceF, if_neg hi]; exact h2 i hi

theorem complianceMulti_test {K : Matrix ι ι ℝ} {D : Finset ι} {f u v : ι → ℝ} (h : Solves K D f u) (hv : ∀ i ∈ D, v i = 0) :
    complianceMulti D f v = ∑ i, v i * ∑ j, K i j * u j := by
  classical
  unfold complianceMulti
  apply Finset.sum_congr rfl
  intro i _
  by_cases hi : i ∈ D
  · rw [hv i hi]; ring
  · rw [h.free hi]; simp only [enforceF, if_neg hi]; ring

theorem compliance_single_eq_multi (D : Finset ι) (f u : ι → ℝ) : complianceSingle D f u = complianceMulti D f u := by
  classical
  unfold complianceSingle complianceMulti
  apply Finset.sum_subset (Finset.subset_univ _)
  intro i _ hi
  have : i ∈ D := by simpa using hi
  simp [enforceF, this]

/-- The compliance of two designs differs by the work of the stiffness difference on the two displacement fields. -/
theorem compliance_diff (B : FE ι E Q d) (nu : ℝ) {Em Em' : E → ℝ} {D : Finset ι} {f u u' : ι → ℝ}
    (h : Solves (stiffness B Em nu) D f u) (h' : Solves (stiffness B Em' nu) D f u') :
    complianceMulti D f u' - complianceMulti D f u = -∑ e, (Em' e - Em e) * unitForm B nu u u' e := by
  rw [complianceMulti_test h (fun i hi => h'.zero hi), complianceMulti_test h' (fun i hi => h.zero hi), stiffness_form,
    stiffness_form, ← Finset.sum_sub_distrib, ← Finset.sum_neg_distrib]
  apply Finset.sum_congr rfl
  intro e _
  rw [unitForm_comm B nu u' u]; ring

theorem compliance_self (B : FE ι E Q d) (nu : ℝ) {Em : E → ℝ} {D : Finset ι} {f u : ι → ℝ}
    (h : Solves (stiffness B Em nu) D f u) : complianceMulti D f u = ∑ e, Em e * unitForm B nu u u e := by
  rw [complianceMulti_test h (fun i hi => h.zero hi), stiffness_form]

/-! ### Differentiability -/

theorem enforceK_continuousAt (B : FE ι E Q d) (nu : ℝ) (D : Finset ι) (Em : ℝ → E → ℝ) (t : ℝ)
    (hE : ∀ e, ContinuousAt (fun s => Em s e) t) : ContinuousAt (fun s => enforceK (stiffness B (Em s) nu) D) t := by
  classical
  refine continuousAt_pi.mpr fun i => continuousAt_pi.mpr fun j => ?_
  by_cases hi : i ∈ D
  · simp only [enforceK, if_pos hi]; exact continuousAt_const
  · simp only [enforceK, if_neg hi, stiffness]
    refine tendsto_finsetSum _ fun e _ => tendsto_finsetSum _ fun q _ => ?_
    have h1 : ∀ s, stiffForm (Em s e) nu (B.grad j e q) (B.grad i e q) * B.dx e q =
        Em s e * (stiffForm 1 nu (B.grad j e q) (B.grad i e q) * B.dx e q) := fun s => by rw [stiffForm_scale]; ring
    simp only [h1]
    exact (hE e).tendsto.mul_const _

open Classical in
theorem solution_continuousAt (B : FE ι E Q d) (nu : ℝ) (D : Finset ι) (f : ι → ℝ) (Em : ℝ → E → ℝ) (t : ℝ)
    (hE : ∀ e, ContinuousAt (fun s => Em s e) t) (hdet : (enforceK (stiffness B (Em t) nu) D).det ≠ 0) (u : ℝ → ι → ℝ)
    (hu : ∀ᶠ s in nhds t, Solves (stiffness B (Em s) nu) D f (u s)) : ContinuousAt u t := by
  set A : ℝ → Matrix ι ι ℝ := fun s => enforceK (stiffness B (Em s) nu) D with hA
  have hAc : ContinuousAt A t := enforceK_continuousAt B nu D Em t hE
  have hdc : ContinuousAt (fun s => (A s).det) t := (continuous_id.matrix_det.continuousAt).comp hAc
  have hadj : ContinuousAt (fun s => (A s).adjugate) t := (continuous_id.matrix_adjugate.continuousAt).comp hAc
  have hne : ∀ᶠ s in nhds t, (A s).det ≠ 0 := hdc.eventually_ne hdet
  have hform : ContinuousAt (fun s => ((A s).det)⁻¹ • ((A s).adjugate *ᵥ enforceF f D)) t := by
    refine (hdc.inv₀ hdet).smul ?_
    refine continuousAt_pi.mpr fun i => ?_
    simp only [Matrix.mulVec, dotProduct]
    refine tendsto_finsetSum _ fun j _ => ?_
    exact ((continuousAt_pi.mp (continuousAt_pi.mp hadj i) j).tendsto).mul_const _
  refine hform.congr ?_
  filter_upwards [hu, hne] with s hs hn
  have : A s *ᵥ u s = enforceF f D := hs
  rw [← this, Matrix.mulVec_mulVec, Matrix.adjugate_mul, Matrix.smul_mulVec, Matrix.one_mulVec, smul_smul, inv_mul_cancel₀ hn, one_smul]

theorem hasDerivAt_mul_cont {g h : ℝ → ℝ} {g' t : ℝ} (hg : HasDerivAt g g' t) (hh : ContinuousAt h t) :
    HasDerivAt (fun s => (g s - g t) * h s) (g' * h t) t := by
  rw [hasDerivAt_iff_tendsto_slope] at hg ⊢
  have hh' : Filter.Tendsto h (nhdsWithin t {t}ᶜ) (nhds (h t)) := hh.tendsto.mono_left nhdsWithin_le_nhds
  refine (hg.mul hh').congr fun s => ?_
  simp only [slope_def_field, sub_self, zero_mul, sub_zero]
  ring

theorem unitForm_continuousAt (B : FE ι E Q d) (nu : ℝ) (v : ι → ℝ) (u : ℝ → ι → ℝ) (t : ℝ) (hu : ContinuousAt u t) (e : E) :
    ContinuousAt (fun s => unitForm B nu v (u s) e) t := by
  unfold unitForm
  refine tendsto_finsetSum _ fun q _ => ?_
  have h1 : ∀ s, stiffForm 1 nu (gradOf B v e q) (gradOf B (u s) e q) * B.dx e q =
      (∑ i, u s i * stiffForm 1 nu (B.grad i e q) (gradOf B v e q)) * B.dx e q := by
    intro s; rw [stiffForm_comm]; conv_lhs => unfold gradOf
    rw [stiffForm_sum]; rfl
  simp only [h1]
  refine Filter.Tendsto.mul_const _ (tendsto_finsetSum _ fun i _ => ?_)
  exact ((continuousAt_pi.mp hu i).tendsto).mul_const _

open Classical in
/-- Derivative of the compliance along a curve of moduli. -/
theorem compliance_hasDerivAt (B : FE ι E Q d) (nu : ℝ) (D : Finset ι) (f : ι → ℝ) (Em : ℝ → E → ℝ) (Em' : E → ℝ) (t : ℝ)
    (hE : ∀ e, HasDerivAt (fun s => Em s e) (Em' e) t) (hdet : (enforceK (stiffness B (Em t) nu) D).det ≠ 0) (u : ℝ → ι → ℝ)
    (hu : ∀ᶠ s in nhds t, Solves (stiffness B (Em s) nu) D f (u s)) :
    HasDerivAt (fun s => complianceMulti D f (u s)) (-∑ e, Em' e * unitForm B nu (u t) (u t) e) t := by
  have hc := solution_continuousAt B nu D f Em t (fun e => (hE e).continuousAt) hdet u hu
  have ht : Solves (stiffness B (Em t) nu) D f (u t) := hu.self_of_nhds
  have h1 : HasDerivAt (fun s => complianceMulti D f (u t) + -∑ e, (Em s e - Em t e) * unitForm B nu (u t) (u s) e)
      (-∑ e, Em' e * unitForm B nu (u t) (u t) e) t := by
    refine HasDerivAt.const_add _ (HasDerivAt.neg ?_)
    have := HasDerivAt.fun_sum (u := Finset.univ) (A := fun e s => (Em s e - Em t e) * unitForm B nu (u t) (u s) e)
      (A' := fun e => Em' e * unitForm B nu (u t) (u t) e) (x := t)
      (fun e _ => hasDerivAt_mul_cont (hE e) (unitForm_continuousAt B nu (u t) u t hc e))
    exact this
  refine h1.congr_of_eventuallyEq ?_
  filter_upwards [hu] with s hs
  rw [← compliance_diff B nu ht hs]; ring

end
end Verif.Elastic
