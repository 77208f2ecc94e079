import Verif.Model.RunScaled
import Verif.Spec.RunScaled
import Verif.Lemmas.Alike
import Verif.Lemmas.RunBy

/-! A run with `scaling=True` in terms of the original problem. -/
namespace Verif.Run
open Verif Verif.Sched Verif.Spec Verif.Driver

variable {ι E Q : Type} [Fintype ι] [Fintype E] [Fintype Q] {d m : ℕ}

noncomputable section
open Classical

/-! ### Filter -/

theorem bell_scaled (R : Setup ι E Q d m) {L : ℝ} (hL : 0 < L) (r : ℝ) (i j : E) :
    bell (scaledSetup R L).toCommon r i j = bell R.toCommon (L * r) i j := by
  have hd : dist ((scaledSetup R L).centers j) ((scaledSetup R L).centers i) = 1 / L * dist (R.centers j) (R.centers i) := by
    show dist ((1 / L) • R.centers j) ((1 / L) • R.centers i) = _
    rw [dist_smul₀, Real.norm_of_nonneg (by positivity)]
  unfold bell
  rw [hd]
  have h1 : 1 / L * dist (R.centers j) (R.centers i) ≤ r ↔ dist (R.centers j) (R.centers i) ≤ L * r := by
    rw [one_div, inv_mul_le_iff₀ hL]
  have h2 : 3 * (1 / L * dist (R.centers j) (R.centers i)) / r = 3 * dist (R.centers j) (R.centers i) / (L * r) := by
    rw [show 3 * (1 / L * dist (R.centers j) (R.centers i)) = 3 * dist (R.centers j) (R.centers i) / L from by ring, div_div]
  simp only [h1, h2]

theorem share_scaled (R : Setup ι E Q d m) {L : ℝ} (hL : 0 < L) (r : ℝ) (i j : E) :
    share (scaledSetup R L).toCommon r i j = share R.toCommon (L * r) i j := by
  unfold share
  simp only [bell_scaled R hL]
  rfl

/-- The weak form is coercive for all radii. -/
def Coercive (N : Nodal E) : Prop :=
  ∀ r, 0 < r → ∀ x : Fin N.nodes → ℝ, x ≠ 0 → 0 < ∑ i, ∑ j, x i * (N.mass i j + r ^ 2 * N.stiff i j) * x j

theorem scaledNodal_coercive {N : Nodal E} {L : ℝ} (hL : 0 < L) (h : Coercive (scaledNodal N L d)) : Coercive N := by
  intro r hr x hx
  have h1 := h (r / L) (by positivity) x hx
  have e : ∀ i j : Fin N.nodes, x i * ((scaledNodal N L d).mass i j + (r / L) ^ 2 * (scaledNodal N L d).stiff i j) * x j =
      (1 / L) ^ d * (x i * (N.mass i j + r ^ 2 * N.stiff i j) * x j) := by
    intro i j
    simp only [scaledNodal, one_div_pow]
    field_simp
  have h2 : ∑ i : Fin N.nodes, ∑ j : Fin N.nodes, x i * ((scaledNodal N L d).mass i j + (r / L) ^ 2 * (scaledNodal N L d).stiff i j) * x j =
      (1 / L) ^ d * ∑ i : Fin N.nodes, ∑ j : Fin N.nodes, x i * (N.mass i j + r ^ 2 * N.stiff i j) * x j := by
    simp only [e, Finset.mul_sum]
  have h3 := h2 ▸ h1
  exact (mul_pos_iff_of_pos_left (by positivity)).1 h3

/-- Same nodes. -/
def sameNodes (N : Nodal E) (L : ℝ) (d : ℕ) : Fin N.nodes ≃ Fin (scaledNodal N L d).nodes := Equiv.refl _

theorem relaxed_scaled {N : Nodal E} {L : ℝ} (hL : 0 < L) (h : Coercive (scaledNodal N L d))
    {r : ℝ} (hr : 0 < r) (D : Finset (Fin N.nodes)) (D' : Finset (Fin (scaledNodal N L d).nodes)) (hD : ∀ n, sameNodes N L d n ∈ D' ↔ n ∈ D) (value : ℝ)
    (y : Fin N.nodes → ℝ) (y' : Fin (scaledNodal N L d).nodes → ℝ) (hy : ∀ n, y' (sameNodes N L d n) = y n) (n : Fin N.nodes) :
    relaxed (scaledNodal N L d) r D' value y' (sameNodes N L d n) = relaxed N (L * r) D value y n := by
  have hr' : 0 < L * r := mul_pos hL hr
  obtain ⟨c, hc⟩ : ∃ c : Change (Fin 0) E (Fin 0) E 0, c.length = 1 / L :=
    ⟨{ element := Equiv.refl E, motion := LinearEquiv.refl ℝ (Fin 0 → ℝ), case := Equiv.refl (Fin 0), length := 1 / L }, rfl⟩
  have hlr : c.length * (L * r) = r := by rw [hc]; field_simp
  have h1 := nodalMatrix_det (h r hr) D'
  have h2 := nodalMatrix_det (scaledNodal_coercive hL h (L * r) hr') D
  have := relaxed_alike (c := c) (N := N) (N' := scaledNodal N L d) (f := sameNodes N L d) (sm := (1 / L) ^ d) (fun i j => rfl)
    (fun i j => by
      rw [hc]
      show (1 / L) ^ 2 * (L ^ 2 * (1 / L) ^ d * N.stiff i j) = _
      field_simp) (r := L * r) hD h2 (by rw [hlr]; exact h1) (s := 1) (value := value) (y := y) (y' := y')
    (fun n => by rw [hy, one_mul]) n
  rw [hlr, one_mul, one_mul] at this
  exact this

theorem nodal_scaled {N : Nodal E} {L : ℝ} (hL : 0 < L) (h : Coercive (scaledNodal N L d)) {r : ℝ} (hr : 0 < r) (R R' : Common E d)
    (hv : R'.volume = R.volume) (hde : R'.design = R.design) (x : E → ℝ) (value : ℝ) (D : Finset (Fin N.nodes))
    (D' : Finset (Fin (scaledNodal N L d).nodes)) (hD : ∀ n, sameNodes N L d n ∈ D' ↔ n ∈ D) (value' : ℝ) (i : E) :
    cornerMean (scaledNodal N L d) (relaxed (scaledNodal N L d) r D' value' (nodeMean R' (scaledNodal N L d) value x)) i =
      cornerMean N (relaxed N (L * r) D value' (nodeMean R N value x)) i := by
  have h1 : ∀ n, nodeMean R' (scaledNodal N L d) value x (sameNodes N L d n) = nodeMean R N value x n := by
    intro n
    unfold nodeMean
    rw [hv, hde]
    rfl
  have h2 := relaxed_scaled hL h hr D D' hD value' (nodeMean R N value x) (nodeMean R' (scaledNodal N L d) value x) h1
  unfold cornerMean
  show (∑ a : Fin N.k, relaxed (scaledNodal N L d) r D' value' (nodeMean R' (scaledNodal N L d) value x) (sameNodes N L d (N.t i a))) / (N.k : ℝ) = _
  simp only [h2]

/-- The filter of the scaled problem is the filter of the original one with a radius `L` times as large. -/
theorem blur_scaled (R : Setup ι E Q d m) {L : ℝ} (hL : 0 < L) (h : Basics (scaledSetup R L).toCommon) {r : ℝ} (hr : 0 < r) (x : E → ℝ) :
    blur (scaledSetup R L).toCommon r x = blur R.toCommon (L * r) x := by
  funext i
  have hm : (scaledSetup R L).toCommon.nodal = R.toCommon.nodal.map fun N => scaledNodal N L d := rfl
  cases hN : R.toCommon.nodal with
  | none =>
    unfold blur
    rw [hm, hN]
    simp only [Option.map_none, share_scaled R hL]
    rfl
  | some N =>
    have hN' : (scaledSetup R L).toCommon.nodal = some (scaledNodal N L d) := by rw [hm, hN]; rfl
    unfold blur
    rw [hN', hN]
    exact nodal_scaled hL (h.nodal _ hN').coercive hr _ _ rfl rfl x 1 _ _ (fun n => by
      unfold held
      simp only [Finset.mem_filter, Finset.mem_univ, true_and]
      rfl) 1 i

theorem blurT_scaled (R : Setup ι E Q d m) {L : ℝ} (hL : 0 < L) (h : Basics (scaledSetup R L).toCommon) {r : ℝ} (hr : 0 < r) (x : E → ℝ) :
    blurT (scaledSetup R L).toCommon r x = blurT R.toCommon (L * r) x := by
  funext i
  have hm : (scaledSetup R L).toCommon.nodal = R.toCommon.nodal.map fun N => scaledNodal N L d := rfl
  cases hN : R.toCommon.nodal with
  | none =>
    unfold blurT
    rw [hm, hN]
    simp only [Option.map_none, share_scaled R hL]
    rfl
  | some N =>
    have hN' : (scaledSetup R L).toCommon.nodal = some (scaledNodal N L d) := by rw [hm, hN]; rfl
    unfold blurT
    rw [hN', hN]
    exact congrArg (min · 0) (nodal_scaled hL (h.nodal _ hN').coercive hr _ _ rfl rfl x 0 ∅ ∅ (fun n => by simp) 0 i)

theorem physical_scaled (R : Setup ι E Q d m) {L : ℝ} (hL : 0 < L) (h : Basics (scaledSetup R L).toCommon) {v : Vals} (hr : 0 < v.radius)
    (rho : E → ℝ) : physical (scaledSetup R L).toCommon v rho = physical R.toCommon (widened L v) rho := by
  funext e
  unfold physical
  rw [blur_scaled R hL h hr]
  rfl

theorem excess_scaled (R : Setup ι E Q d m) {L : ℝ} (hL : 0 < L) (h : Basics (scaledSetup R L).toCommon) {v : Vals} (hr : 0 < v.radius)
    (rho : E → ℝ) : excess (scaledSetup R L).toCommon v rho = excess R.toCommon (widened L v) rho := by
  unfold excess
  rw [physical_scaled R hL h hr]
  rfl

theorem chained_scaled {n : ℕ} (R : Setup ι E Q d m) {L : ℝ} (hL : 0 < L) (h : Basics (scaledSetup R L).toCommon) {v : Vals} (hr : 0 < v.radius)
    (rho : E → ℝ) (cols : Fin n → E → ℝ) : chained (scaledSetup R L).toCommon v rho cols = chained R.toCommon (widened L v) rho cols := by
  unfold chained
  simp only [blur_scaled R hL h hr, blurT_scaled R hL h hr]
  rfl

/-! ### Columns without a load -/

theorem blurT_smul (R : Common E d) (r : ℝ) {s : ℝ} (hs : 0 ≤ s) (g : E → ℝ) (j : E) : blurT R r (fun e => s * g e) j = s * blurT R r g j := by
  unfold blurT
  cases R.nodal with
  | none =>
    simp only
    split_ifs
    · rw [Finset.mul_sum]
      exact Finset.sum_congr rfl fun i _ => by ring
    · rw [mul_zero]
  | some N =>
    simp only
    rw [mul_min_of_nonneg _ _ hs, mul_zero]
    congr 1
    have h1 : nodeMean R N 0 (fun e => s * g e) = s • nodeMean R N 0 g := by
      funext n
      simp only [Pi.smul_apply, smul_eq_mul]
      unfold nodeMean
      rw [← mul_div_assoc, Finset.mul_sum]
      congr 1
      refine Finset.sum_congr rfl fun e _ => ?_
      split_ifs
      · ring
      · ring
    have h2 : relaxed N r ∅ 0 (s • nodeMean R N 0 g) = s • relaxed N r ∅ 0 (nodeMean R N 0 g) := by
      unfold relaxed
      rw [← Matrix.mulVec_smul]
      congr 1
      funext i
      simp only [Finset.notMem_empty, if_false, Pi.smul_apply, smul_eq_mul, Finset.mul_sum]
      exact Finset.sum_congr rfl fun j _ => by ring
    rw [h1, h2]
    unfold cornerMean
    simp only [Pi.smul_apply, smul_eq_mul, ← Finset.mul_sum, mul_div_assoc]

theorem blur_smul (R : Common E d) (hN : R.nodal = none) (r s : ℝ) (g : E → ℝ) (j : E) : blur R r (fun e => s * g e) j = s * blur R r g j := by
  unfold blur
  rw [hN]
  simp only
  split_ifs
  · rw [Finset.mul_sum]
    exact Finset.sum_congr rfl fun i _ => by ring
  · rfl

/-- Adding columns that are zero divides the sensitivity. -/
theorem chained_few {n : ℕ} (hn : m ≤ n) (hm : 0 < m) (R : Common E d) (hsf : R.sensFilter = true → R.nodal = none) (v : Vals) (rho : E → ℝ) {s : ℝ}
    (hs : 0 ≤ s) (cols : Fin m → E → ℝ) (more : Fin n → E → ℝ) (h1 : ∀ (j : Fin n) (hj : j.1 < m), more j = fun e => s * cols ⟨j, hj⟩ e)
    (h2 : ∀ j : Fin n, m ≤ j.1 → more j = 0) : chained R v rho more = fun e => s * (m / n) * chained R v rho cols e := by
  have hm' : (m : ℝ) ≠ 0 := by positivity
  have hsum : ∀ e, (∑ j, blurT R v.radius (fun e => more j e * thresholdSlope v.beta R.betaEta (blur R v.radius rho e)) e) / n =
      s * (m / n) * ((∑ j, blurT R v.radius (fun e => cols j e * thresholdSlope v.beta R.betaEta (blur R v.radius rho e)) e) / m) := by
    intro e
    have e1 : ∀ j : Fin n, blurT R v.radius (fun e => more j e * thresholdSlope v.beta R.betaEta (blur R v.radius rho e)) e =
        (fun i : ℕ => if hi : i < m then
          s * blurT R v.radius (fun e => cols ⟨i, hi⟩ e * thresholdSlope v.beta R.betaEta (blur R v.radius rho e)) e else 0) j := by
      intro j
      by_cases hj : j.1 < m
      · simp only [hj, dif_pos]
        rw [h1 j hj, ← blurT_smul R _ hs]
        simp only [mul_assoc]
      · simp only [hj, dif_neg, not_false_eq_true]
        rw [h2 j (not_lt.1 hj)]
        have := blurT_smul R v.radius (le_refl (0 : ℝ)) (fun _ => 0) e
        simpa using this
    have e2 : ∑ j, blurT R v.radius (fun e => more j e * thresholdSlope v.beta R.betaEta (blur R v.radius rho e)) e =
        s * ∑ j, blurT R v.radius (fun e => cols j e * thresholdSlope v.beta R.betaEta (blur R v.radius rho e)) e := by
      rw [Finset.sum_congr rfl fun j _ => e1 j, Fin.sum_univ_eq_sum_range (fun i : ℕ => if hi : i < m then
          s * blurT R v.radius (fun e => cols ⟨i, hi⟩ e * thresholdSlope v.beta R.betaEta (blur R v.radius rho e)) e else 0) n,
        ← Finset.sum_subset (Finset.range_subset_range.2 hn), ← Fin.sum_univ_eq_sum_range, Finset.mul_sum]
      · exact Finset.sum_congr rfl fun j _ => by simp only [j.2, dif_pos]
      · intro i _ hi
        rw [dif_neg (by simpa using hi)]
    rw [e2]
    field_simp
  unfold chained
  simp only [hsum]
  split_ifs with hf
  · funext e
    rw [blur_smul R (hsf hf)]
  · rfl

/-! ### Mechanics -/

/-- The factor of the strain energy. -/
def scaledEnergy (d : ℕ) (L : ℝ) : ℝ := L ^ 2 * (1 / L) ^ d

theorem scaledWork_pos {L : ℝ} (hL : 0 < L) : 0 < scaledWork d L := by
  unfold scaledWork; positivity

theorem scaledEnergy_pos {L : ℝ} (hL : 0 < L) : 0 < scaledEnergy d L := by
  unfold scaledEnergy; positivity

theorem scaled_unit {L : ℝ} (hL : 0 < L) : scaledWork d L = 1 / (scaledEnergy d L * 10 ^ 10) := by
  unfold scaledWork scaledEnergy; rw [one_div_pow]; field_simp

theorem strain_scaled (R : Setup ι E Q d m) (L : ℝ) (u : ι → ℝ) (e : E) (q : Q) : strain (scaledSetup R L) u e q = L • strain R u e q := by
  ext a b
  show ((∑ i, u i * (L * R.fe.grad i e q a b)) + ∑ i, u i * (L * R.fe.grad i e q b a)) / 2 =
    L * (((∑ i, u i * R.fe.grad i e q a b) + ∑ i, u i * R.fe.grad i e q b a) / 2)
  simp only [mul_left_comm _ L, ← Finset.mul_sum]
  ring

theorem innerWork_scaled (R : Setup ι E Q d m) (L : ℝ) (Em : E → ℝ) (u w : ι → ℝ) (e : E) :
    innerWork (scaledSetup R L) Em u w e = scaledEnergy d L * innerWork R Em u w e := by
  unfold innerWork
  rw [Finset.mul_sum]
  refine Finset.sum_congr rfl fun q _ => ?_
  rw [strain_scaled, strain_scaled]
  show stressWork R (Em e) (L • strain R u e q) (L • strain R w e q) * ((1 / L) ^ d * R.fe.dx e q) = _
  rw [stressWork_smul]
  unfold scaledEnergy
  ring

theorem displaced_scaled (R : Setup ι E Q d m) {L : ℝ} (hL : 0 < L) {Em : E → ℝ} {f u : ι → ℝ}
    (h : Displaced (scaledSetup R L) Em (fun i => f i * (1 / 10 ^ 5)) u) : Displaced R Em f ((scaledEnergy d L * 10 ^ 5) • u) := by
  have hE := scaledEnergy_pos (d := d) hL
  refine ⟨fun i hi => ?_, fun w hw => ?_⟩
  · have := h.1 i hi
    simp [this]
  · have h2 := h.2 w hw
    simp only [innerWork_scaled] at h2
    have e1 : ∀ e, innerWork R Em ((scaledEnergy d L * 10 ^ 5) • u) w e = 10 ^ 5 * (scaledEnergy d L * innerWork R Em u w e) := by
      intro e
      have := innerWork_smul R Em (scaledEnergy d L * 10 ^ 5) 1 u w e
      rw [one_smul] at this
      rw [this]; ring
    simp only [e1, ← Finset.mul_sum] at h2 ⊢
    rw [h2, Finset.mul_sum]
    refine Finset.sum_congr rfl fun i _ => ?_
    ring

theorem slope_mul (R : Setup ι E Q d m) (p x s U : ℝ) : Spec.slope R p x (s * U) = s * Spec.slope R p x U := by
  unfold Spec.slope slopeOf
  ring

/-- The finite element part of a run with scaling. -/
theorem scaledResponse_ok {R : Setup ι E Q d m} {L : ℝ} (hL : 0 < L) (h : Sound (scaledSetup R L)) {v : Vals} (hp : 0 ≤ v.p) (proj : E → ℝ)
    (hp0 : ∀ e, 0 ≤ proj e) :
    ∃ c cols, scaledResponse (scaledSetup R L) v proj = .ok (c, cols) ∧ 0 ≤ c ∧ (∀ k e, cols k e ≤ 0) ∧
      ∃ u : Fin m → ι → ℝ,
        (∀ j, Displaced R (fun e => young R v.p (proj e)) (fun i => R.loads j i * v.neumannScale) (u j)) ∧
        c = scaledWork d L * ((∑ j, ∑ i, R.loads j i * v.neumannScale * u j i) / m) ∧
        (∀ (j : Fin (nTasks ι m)) (hj : j.1 < m), cols j = fun e => scaledWork d L *
          slope R v.p (proj e) (innerWork R (fun e => young R v.p (proj e)) (u ⟨j, hj⟩) (u ⟨j, hj⟩) e / 2)) ∧
        ∀ j : Fin (nTasks ι m), m ≤ j.1 → cols j = 0 := by
  have hκ := scaledEnergy_pos (d := d) hL
  unfold scaledResponse
  simp only
  have hEm : modulus (scaledSetup R L) v.p proj = Elastic.simpField R.E0 (R.E0 * R.eMinCoeff) v.p proj := rfl
  rw [hEm]
  obtain ⟨hE0, hc0, hc1⟩ : 0 < R.E0 ∧ 0 < R.eMinCoeff ∧ R.eMinCoeff ≤ 1 := h.modulus
  have hEmin : 0 < R.E0 * R.eMinCoeff := mul_pos hE0 hc0
  have hEle : R.E0 * R.eMinCoeff ≤ R.E0 := by nlinarith
  have hdet := (Elastic.C73_unique_solution (scaledSetup R L).fe h.dim h.weights R.nu h.poisson.1 h.poisson.2 R.E0 (R.E0 * R.eMinCoeff) v.p
    hEmin hEle proj hp0 R.dirichlet h.supports).1
  have hEnn : ∀ e, 0 ≤ Elastic.simpField R.E0 (R.E0 * R.eMinCoeff) v.p proj e := by
    intro e
    unfold Elastic.simpField Material.simp
    have := mul_nonneg (sub_nonneg.mpr hEle) (Real.rpow_nonneg (hp0 e) v.p)
    linarith
  have hen := fun u => Elastic.C69_energy_nonneg (scaledSetup R L).fe h.dim (fun e q => (h.weights e q).le) _ hEnn R.nu h.poisson.1 h.poisson.2 u
  have hEy : Elastic.simpField R.E0 (R.E0 * R.eMinCoeff) v.p proj = fun e => young R v.p (proj e) := by
    funext e
    unfold Elastic.simpField
    rw [young_eq]
  obtain ⟨cs, us, hobj, hsol, hsum, hlen⟩ := objectives_full h _ hdet v.neumannScale
  have hobj' : Elastic.objectives (scaledSetup R L).backend (scaledSetup R L).solver
      (Elastic.stiffness (scaledSetup R L).fe (Elastic.simpField R.E0 (R.E0 * R.eMinCoeff) v.p proj) (scaledSetup R L).nu)
      (scaledSetup R L).dirichlet (List.ofFn (scaledSetup R L).loads) v.neumannScale = .ok (cs, us) := hobj
  rw [hobj']
  simp only
  have hcomp : ∀ j : Fin m, Elastic.complianceSingle (scaledSetup R L).dirichlet (fun i => (scaledSetup R L).loads j i * v.neumannScale) (us.getD j 0) =
      scaledWork d L * ∑ i, R.loads j i * v.neumannScale * ((scaledEnergy d L * 10 ^ 5) • us.getD j 0) i := by
    intro j
    rw [(Elastic.C69_compliance_is_twice_energy _ _ _ _ _ _ (hsol j)).2.2.2.1, Finset.mul_sum]
    refine Finset.sum_congr rfl fun i _ => ?_
    show R.loads j i * (1 / 10 ^ 5) * v.neumannScale * _ = _
    rw [scaled_unit hL]
    simp only [Pi.smul_apply, smul_eq_mul]
    field_simp
  have hwork : ∀ (u : ι → ℝ) (e : E), innerWork (scaledSetup R L) (fun e => young R v.p (proj e)) u u e =
      scaledWork d L * innerWork R (fun e => young R v.p (proj e)) ((scaledEnergy d L * 10 ^ 5) • u) ((scaledEnergy d L * 10 ^ 5) • u) e := by
    intro u e
    rw [innerWork_scaled, innerWork_smul, scaled_unit hL]
    field_simp
  have hcol : ∀ (u : ι → ℝ) (e : E), Material.dCSimp (proj e) (Elastic.elemEnergy (scaledSetup R L).fe (Elastic.simpField R.E0 (R.E0 * R.eMinCoeff) v.p proj)
      (scaledSetup R L).nu u e) (scaledSetup R L).E0 ((scaledSetup R L).E0 * (scaledSetup R L).eMinCoeff) v.p = scaledWork d L *
        Spec.slope R v.p (proj e) (innerWork R (fun e => young R v.p (proj e)) ((scaledEnergy d L * 10 ^ 5) • u) ((scaledEnergy d L * 10 ^ 5) • u) e / 2) := by
    intro u e
    rw [hEy, slope_eq, energy_eq, hwork, mul_div_assoc]
    exact slope_mul R v.p (proj e) _ _
  refine ⟨_, _, rfl, ?_, fun j e => ?_, fun j => (scaledEnergy d L * 10 ^ 5) • us.getD j 0, fun j => ?_, ?_, fun j hj => ?_, fun j hj => ?_⟩
  · refine div_nonneg ?_ (Nat.cast_nonneg _)
    rw [hsum]
    exact Finset.sum_nonneg fun j _ => (hen _).2 _ _ (hsol j)
  · exact Props.C25_simp_sensitivity_nonpos _ _ _ _ _ hEle hp ((hen _).1 e)
  · have := displaced_of_solves (hsol j)
    rw [hEy] at this
    refine displaced_scaled R hL ?_
    have e : (fun i => (scaledSetup R L).loads j i * v.neumannScale) = fun i => R.loads j i * v.neumannScale * (1 / 10 ^ 5) := by
      funext i
      show R.loads j i * (1 / 10 ^ 5) * v.neumannScale = _
      ring
    rw [← e]
    exact this
  · rw [hsum]
    simp only [hcomp, ← Finset.mul_sum, mul_div_assoc]
  · funext e
    exact hcol _ e
  · funext e
    rw [hcol]
    have : us.getD (j : ℕ) 0 = 0 := by
      rw [List.getD_eq_getElem?_getD, List.getElem?_eq_none (by omega)]; rfl
    rw [this, smul_zero]
    have h0 : innerWork R (fun e => young R v.p (proj e)) 0 0 e = 0 := by
      have := innerWork_smul R (fun e => young R v.p (proj e)) 0 0 0 0 e
      rw [zero_smul] at this
      rw [this]; ring
    rw [h0]
    have := slope_mul R v.p (proj e) 0 0
    rw [zero_div]
    rw [zero_mul, zero_mul] at this
    rw [this, mul_zero]; rfl

theorem le_nTasks [Nonempty ι] : m ≤ nTasks ι m := by
  unfold nTasks
  split_ifs with h
  · have := Fintype.card_pos (α := ι); omega
  · exact le_rfl

theorem sens_factor [Nonempty ι] (hm : 0 < m) (L : ℝ) : scaledWork d L * ((m : ℝ) / nTasks ι m) = scaledSens d m (Fintype.card ι) L := by
  unfold scaledSens nTasks
  split_ifs with h
  · rw [h, Nat.cast_one, mul_one_div]
  · have : (m : ℝ) ≠ 0 := by positivity
    rw [div_self this, mul_one, div_one]

theorem scaledSens_pos [Nonempty ι] {L : ℝ} (hL : 0 < L) : 0 < scaledSens d m (Fintype.card ι) L := by
  unfold scaledSens
  have := scaledWork_pos (d := d) hL
  have := Fintype.card_pos (α := ι)
  split_ifs <;> positivity

theorem scaled_sensFilter {R : Setup ι E Q d m} {L : ℝ} (h : Basics (scaledSetup R L).toCommon) : R.sensFilter = true → R.nodal = none := by
  intro hf
  cases hN : R.nodal with
  | none => rfl
  | some N =>
    have hN' : (scaledSetup R L).toCommon.nodal = some (scaledNodal N L d) := by
      show R.nodal.map _ = _
      rw [hN]; rfl
    have := (h.nodal _ hN').noSensFilter
    rw [show (scaledSetup R L).toCommon.sensFilter = R.sensFilter from rfl, hf] at this
    exact absurd this (by decide)

theorem allScheduled_scaled {R : Setup ι E Q d m} {L : ℝ} {k : ℕ} {v : Vals} (h : AllScheduled (scaledSetup R L).toCommon k v) :
    AllScheduled R.toCommon k v :=
  ⟨h.p, h.volFrac, h.moveLimit, h.beta, h.percentile, h.radius, h.neumannScale, h.eta, h.etaConst⟩

theorem bracket_scaled (R : Setup ι E Q d m) (L : ℝ) (F : ℝ → ℝ) : ∀ n, bracket (scaledSetup R L).toCommon F n = bracket R.toCommon F n
  | 0 => rfl
  | n + 1 => by unfold bracket; rw [bracket_scaled R L F n]

theorem bisected_scaled {R : Setup ι E Q d m} {L : ℝ} {F : ℝ → ℝ} {l : ℝ} (h : Bisected (scaledSetup R L).toCommon F l) : Bisected R.toCommon F l := by
  unfold Bisected Enough middle at h ⊢
  simp only [bracket_scaled] at h
  exact h

theorem ocStep_scaled {R : Setup ι E Q d m} {L : ℝ} (hL : 0 < L) (h : Basics (scaledSetup R L).toCommon) {v : Vals} (hr : 0 < v.radius) {g rho : E → ℝ}
    {rs : ℝ} {r : Rec} {rho' : E → ℝ} {rs' : ℝ} (hs : OCStep (scaledSetup R L).toCommon v g rho rs r rho' rs') :
    OCStep R.toCommon (widened L v) g rho rs r rho' rs' := by
  obtain ⟨s, i1, i2, i3, i4, i5, i6, i7, i8, i9⟩ := hs
  simp only [excess_scaled R hL h hr] at i4 i6
  exact ⟨s, i1, i2, i3, bisected_scaled i4, i5, i6, i7, i8, i9⟩

theorem scaled_computes [Nonempty ι] {R : Setup ι E Q d m} {L : ℝ} (hL : 0 < L) (h : WellPosed (scaledSetup R L)) :
    Computes (scaledSetup R L).toCommon (stepWith (scaledSetup R L).toCommon (scaledResponse (scaledSetup R L))) (ScaledIteration R L) (0 ≤ ·) := by
  refine stepWith_ok h.toBasics h.toOCRules _ _ _ fun k v hv rho hrho => ?_
  have hphy := physical_scaled R hL h.toBasics hv.radius rho
  have hp0 := fun e => (physical_range h.toBasics hv hrho e).1
  obtain ⟨c, cols, h1, h2, h3, u, u1, u2, u3, u4⟩ := scaledResponse_ok hL h.toSound hv.p (physical (scaledSetup R L).toCommon v rho) hp0
  refine ⟨c, cols, h1, h2, Or.inl h3, fun rs r rho' rs' e1 e2 e3 hs =>
    ⟨v, u, allScheduled_scaled (e1 ▸ hv.all), by rw [← hphy]; exact u1, by rw [e2, u2], e3, ?_⟩⟩
  have hs' := ocStep_scaled hL h.toBasics hv.radius hs
  rw [chained_scaled R hL h.toBasics hv.radius, chained_few le_nTasks h.loadCases R.toCommon (scaled_sensFilter h.toBasics) (widened L v) rho
    (scaledWork_pos (d := d) hL).le
    (fun j e => Spec.slope R v.p (physical (scaledSetup R L).toCommon v rho e)
      (innerWork R (fun e => young R v.p (physical (scaledSetup R L).toCommon v rho e)) (u j) (u j) e / 2)) cols u3 u4, sens_factor h.loadCases, hphy] at hs'
  exact hs'

end
end Verif.Run
