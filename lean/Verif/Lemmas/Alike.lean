import Verif.Spec.Alike
import Verif.Lemmas.Run

/-! Two descriptions of the same problem: every quantity of an iteration is translated. -/
namespace Verif.Run
open Verif Verif.Sched Verif.Spec

noncomputable section
open Classical

variable {ι E Q ι' E' Q' : Type} [Fintype ι] [Fintype E] [Fintype Q] [Fintype ι'] [Fintype E'] [Fintype Q'] {d d' m : ℕ}
variable {c : Change ι E ι' E' m} {R : Setup ι E Q d m} {R' : Setup ι' E' Q' d' m}

theorem work_pos (h : Alike c R R') : 0 < c.work := by
  obtain ⟨-, -, h1, h2, h3⟩ := h.factors
  unfold Change.work
  positivity

theorem sum_design (h : Alike c R R') (f : E' → ℝ) : ∑ e ∈ R'.design, f e = ∑ e ∈ R.design, f (c.element e) :=
  (Finset.sum_equiv c.element (fun e => (h.design e).symm) fun _ _ => rfl).symm

theorem volume_sum (h : Alike c R R') : ∑ e ∈ R'.design, R'.volume e = c.volume * ∑ e ∈ R.design, R.volume e := by
  rw [sum_design h, Finset.mul_sum]
  exact Finset.sum_congr rfl fun e _ => h.volume e

/-! ### Filter -/

theorem bell_alike (h : Alike c R R') (r : ℝ) (i j : E) :
    bell R'.toCommon (c.length * r) (c.element i) (c.element j) = bell R.toCommon r i j := by
  have hl := h.factors.1
  unfold bell
  rw [h.centers]
  simp only [mul_le_mul_iff_right₀ hl]
  rw [mul_left_comm, mul_div_mul_left _ _ hl.ne']

theorem share_alike (h : Alike c R R') (r : ℝ) (i j : E) :
    share R'.toCommon (c.length * r) (c.element i) (c.element j) = share R.toCommon r i j := by
  unfold share
  rw [bell_alike h, sum_design h]
  simp only [bell_alike h]

variable {N : Nodal E} {N' : Nodal E'}

theorem touches_alike {f : Fin N.nodes ≃ Fin N'.nodes}
    (ht : ∀ e, ∃ g : Fin N.k ≃ Fin N'.k, ∀ i, N'.t (c.element e) (g i) = f (N.t e i)) (e : E) (n : Fin N.nodes) :
    (∃ i, N'.t (c.element e) i = f n) ↔ ∃ i, N.t e i = n := by
  obtain ⟨g, hg⟩ := ht e
  constructor
  · rintro ⟨i, hi⟩
    refine ⟨g.symm i, f.injective ?_⟩
    rw [← hg, Equiv.apply_symm_apply, hi]
  · rintro ⟨i, rfl⟩
    exact ⟨g i, hg i⟩

theorem nodeMean_alike (h : Alike c R R') {f : Fin N.nodes ≃ Fin N'.nodes}
    (ht : ∀ e, ∃ g : Fin N.k ≃ Fin N'.k, ∀ i, N'.t (c.element e) (g i) = f (N.t e i)) {s value : ℝ} {x : E → ℝ} {x' : E' → ℝ}
    (hx : ∀ e ∈ R.design, x' (c.element e) = s * x e) (n : Fin N.nodes) :
    nodeMean R'.toCommon N' (s * value) x' (f n) = s * nodeMean R.toCommon N value x n := by
  have hs : ∀ y : E' → ℝ, ∑ e ∈ Finset.univ.filter fun e => ∃ i, N'.t e i = f n, y e =
      ∑ e ∈ Finset.univ.filter fun e => ∃ i, N.t e i = n, y (c.element e) := fun y =>
    (Finset.sum_equiv c.element (fun e => by
      simp only [Finset.mem_filter, Finset.mem_univ, true_and]; exact (touches_alike ht e n).symm) fun _ _ => rfl).symm
  have hw := h.factors.2.1
  unfold nodeMean
  rw [hs, hs]
  have h1 : ∀ e, R'.volume (c.element e) * (if c.element e ∈ R'.design then x' (c.element e) else s * value) =
      c.volume * (s * (R.volume e * if e ∈ R.design then x e else value)) := by
    intro e
    rw [h.volume]
    by_cases he : e ∈ R.design
    · rw [if_pos ((h.design e).2 he), if_pos he, hx e he]; ring
    · rw [if_neg (fun hn => he ((h.design e).1 hn)), if_neg he]; ring
  simp only [h1]
  simp only [h.volume]
  rw [← Finset.mul_sum, ← Finset.mul_sum, ← Finset.mul_sum, mul_div_mul_left _ _ hw.ne', mul_div_assoc]

theorem held_alike (h : Alike c R R') {f : Fin N.nodes ≃ Fin N'.nodes}
    (ht : ∀ e, ∃ g : Fin N.k ≃ Fin N'.k, ∀ i, N'.t (c.element e) (g i) = f (N.t e i)) (n : Fin N.nodes) :
    f n ∈ held R'.toCommon N' ↔ n ∈ held R.toCommon N := by
  simp only [held, Finset.mem_filter, Finset.mem_univ, true_and]
  constructor
  · rintro ⟨e, he, hi⟩
    obtain ⟨e, rfl⟩ := c.element.surjective e
    exact ⟨e, fun hn => he ((h.design e).2 hn), (touches_alike ht e n).1 hi⟩
  · rintro ⟨e, he, hi⟩
    exact ⟨c.element e, fun hn => he ((h.design e).1 hn), (touches_alike ht e n).2 hi⟩

theorem relaxed_alike {f : Fin N.nodes ≃ Fin N'.nodes} {sm : ℝ}
    (hM : ∀ i j, N'.mass (f i) (f j) = sm * N.mass i j) (hK : ∀ i j, c.length ^ 2 * N'.stiff (f i) (f j) = sm * N.stiff i j)
    {r : ℝ} {D : Finset (Fin N.nodes)} {D' : Finset (Fin N'.nodes)} (hD : ∀ n, f n ∈ D' ↔ n ∈ D)
    (hdet : (nodalMatrix N r D).det ≠ 0) (hdet' : (nodalMatrix N' (c.length * r) D').det ≠ 0) {s value : ℝ}
    {y : Fin N.nodes → ℝ} {y' : Fin N'.nodes → ℝ} (hy : ∀ n, y' (f n) = s * y n) (n : Fin N.nodes) :
    relaxed N' (c.length * r) D' (s * value) y' (f n) = s * relaxed N r D value y n := by
  obtain ⟨h1, h2⟩ := relaxed_solves r D hdet value y
  obtain ⟨z, hz⟩ : ∃ z, z = relaxed N r D value y := ⟨_, rfl⟩
  rw [← hz] at h1 h2 ⊢
  have key : (nodalMatrix N' (c.length * r) D').mulVec (fun n' => s * z (f.symm n')) =
      fun i => if i ∈ D' then s * value else ∑ j, N'.mass i j * y' j := by
    funext i
    obtain ⟨i, rfl⟩ := f.surjective i
    simp only [Matrix.mulVec, dotProduct, nodalMatrix, Matrix.of_apply]
    by_cases hi : i ∈ D
    · simp only [(hD i).2 hi, if_true, ite_mul, one_mul, zero_mul]
      simp [h2 i hi]
    · have hi' : f i ∉ D' := fun hn => hi ((hD i).1 hn)
      simp only [hi', if_false]
      rw [← f.sum_comp, ← f.sum_comp]
      simp only [Equiv.symm_apply_apply, hM, hy]
      have e1 : ∀ j, (sm * N.mass i j + (c.length * r) ^ 2 * N'.stiff (f i) (f j)) * (s * z j) =
          sm * s * ((N.mass i j + r ^ 2 * N.stiff i j) * z j) := by
        intro j
        have := hK i j
        have : (c.length * r) ^ 2 * N'.stiff (f i) (f j) = r ^ 2 * (sm * N.stiff i j) := by rw [← this]; ring
        rw [this]; ring
      have e2 : ∀ j, sm * N.mass i j * (s * y j) = sm * s * (N.mass i j * y j) := fun j => by ring
      simp only [e1, e2, ← Finset.mul_sum]
      rw [h1 i hi]
  have := congrArg ((nodalMatrix N' (c.length * r) D')⁻¹.mulVec) key
  rw [Matrix.mulVec_mulVec, Matrix.nonsing_inv_mul _ (Ne.isUnit hdet'), Matrix.one_mulVec] at this
  have := congrFun this (f n)
  simp only [Equiv.symm_apply_apply] at this
  rw [this]
  rfl

theorem cornerMean_alike {f : Fin N.nodes ≃ Fin N'.nodes} (hk : N'.k = N.k)
    (ht : ∀ e, ∃ g : Fin N.k ≃ Fin N'.k, ∀ i, N'.t (c.element e) (g i) = f (N.t e i)) {s : ℝ}
    {y : Fin N.nodes → ℝ} {y' : Fin N'.nodes → ℝ} (hy : ∀ n, y' (f n) = s * y n) (e : E) :
    cornerMean N' y' (c.element e) = s * cornerMean N y e := by
  obtain ⟨g, hg⟩ := ht e
  unfold cornerMean
  rw [← g.sum_comp]
  simp only [hg, hy, ← Finset.mul_sum, hk, mul_div_assoc]

/-- The filter, for fields that differ by a factor `s`; the nodal filter is only translated for `s = 1`. -/
theorem blur_alike (h : Alike c R R') (hS : Sound R) (hS' : Sound R') {r s : ℝ} (hr : 0 < r) (hs : s = 1 ∨ R.nodal = none)
    {x : E → ℝ} {x' : E' → ℝ} (hx : ∀ e, x' (c.element e) = s * x e) (e : E) :
    blur R'.toCommon (c.length * r) x' (c.element e) = s * blur R.toCommon r x e := by
  cases hN : R.nodal with
  | none =>
    unfold blur
    simp only [hN, h.spacial hN, h.design]
    split_ifs
    · rw [sum_design h, Finset.mul_sum]
      refine Finset.sum_congr rfl fun j _ => ?_
      rw [share_alike h, hx]; ring
    · exact hx e
  | some N =>
    have hs1 : s = 1 := hs.resolve_right (by rw [hN]; simp)
    subst hs1
    obtain ⟨N', hN', hk, f, sm, hsm, ht, hM, hK⟩ := h.helmholtz N hN
    have hr' : 0 < c.length * r := mul_pos h.factors.1 hr
    unfold blur
    simp only [hN, hN']
    refine cornerMean_alike hk ht (fun n => ?_) e
    have := relaxed_alike (c := c) (s := 1) (value := 1) hM hK (r := r) (held_alike h ht)
      (nodalMatrix_det ((hS.nodal N hN).coercive r hr) _) (nodalMatrix_det ((hS'.nodal N' hN').coercive _ hr') _)
      (y := nodeMean R.toCommon N 1 x) (y' := nodeMean R'.toCommon N' (1 * 1) x')
      (fun n => nodeMean_alike h ht (fun e _ => hx e) n) n
    simpa only [one_mul] using this

theorem blurT_alike (h : Alike c R R') (hS : Sound R) (hS' : Sound R') {r s : ℝ} (hr : 0 < r) (hs : 0 < s)
    {x : E → ℝ} {x' : E' → ℝ} (hx : ∀ e, x' (c.element e) = s * x e) (e : E) :
    blurT R'.toCommon (c.length * r) x' (c.element e) = s * blurT R.toCommon r x e := by
  cases hN : R.nodal with
  | none =>
    unfold blurT
    simp only [hN, h.spacial hN, h.design]
    split_ifs
    · rw [sum_design h, Finset.mul_sum]
      refine Finset.sum_congr rfl fun j _ => ?_
      rw [share_alike h, hx]; ring
    · ring
  | some N =>
    obtain ⟨N', hN', hk, f, sm, hsm, ht, hM, hK⟩ := h.helmholtz N hN
    have hr' : 0 < c.length * r := mul_pos h.factors.1 hr
    unfold blurT
    simp only [hN, hN']
    rw [mul_min_of_nonneg _ _ hs.le, mul_zero]
    congr 1
    refine cornerMean_alike hk ht (fun n => ?_) e
    have := relaxed_alike (c := c) (s := s) (value := 0) hM hK (r := r) (D := ∅) (D' := ∅) (by simp)
      (nodalMatrix_det ((hS.nodal N hN).coercive r hr) _) (nodalMatrix_det ((hS'.nodal N' hN').coercive _ hr') _)
      (y := nodeMean R.toCommon N 0 x) (y' := nodeMean R'.toCommon N' (s * 0) x')
      (fun n => nodeMean_alike h ht (fun e _ => hx e) n) n
    simpa only [mul_zero] using this

/-! ### Scheduled values -/

/-- The scheduled values of the other description. -/
def other (c : Change ι E ι' E' m) (v : Vals) : Vals := { v with radius := c.length * v.radius }

theorem scheduled_unique {k : ℕ} {cfg : Config} {x y : Option ℝ} (h1 : Scheduled R.toCommon cfg k x) (h2 : Scheduled R.toCommon cfg k y) : x = y := by
  unfold Scheduled at h1 h2
  rw [h1] at h2
  exact Except.ok.inj h2

theorem allScheduled_unique {k : ℕ} {v w : Vals} (h1 : AllScheduled R.toCommon k v) (h2 : AllScheduled R.toCommon k w) : v = w := by
  have e1 := Option.some.inj (scheduled_unique h1.p h2.p)
  have e2 := Option.some.inj (scheduled_unique h1.volFrac h2.volFrac)
  have e3 := Option.some.inj (scheduled_unique h1.moveLimit h2.moveLimit)
  have e4 := Option.some.inj (scheduled_unique h1.beta h2.beta)
  have e5 := scheduled_unique h1.percentile h2.percentile
  have e6 := Option.some.inj (scheduled_unique h1.radius h2.radius)
  have e7 := Option.some.inj (scheduled_unique h1.neumannScale h2.neumannScale)
  have e8 : v.eta = w.eta := by
    cases he : R.etaConst with
    | none => exact Option.some.inj (scheduled_unique (h1.eta he) (h2.eta he))
    | some x => rw [h1.etaConst x he, h2.etaConst x he]
  obtain ⟨a1, a2, a3, a4, a5, a6, a7, a8⟩ := v
  obtain ⟨b1, b2, b3, b4, b5, b6, b7, b8⟩ := w
  simp only at e1 e2 e3 e4 e5 e6 e7 e8
  subst e1 e2 e3 e4 e5 e6 e7 e8
  rfl

theorem allScheduled_alike (h : Alike c R R') {k : ℕ} {v : Vals} (hv : AllScheduled R.toCommon k v) : AllScheduled R'.toCommon k (other c v) := by
  have hmax := h.iters.1
  refine ⟨?_, ?_, ?_, ?_, ?_, h.radius k _ hv.radius, ?_, fun he => ?_, fun x hx => ?_⟩
  · have := hv.p; unfold Scheduled at this ⊢; rw [h.p, hmax]; exact this
  · have := hv.volFrac; unfold Scheduled at this ⊢; rw [h.volFrac, hmax]; exact this
  · have := hv.moveLimit; unfold Scheduled at this ⊢; rw [h.moveLimit, hmax]; exact this
  · have := hv.beta; unfold Scheduled at this ⊢; rw [h.beta, hmax]; exact this
  · have := hv.percentile; unfold Scheduled at this ⊢; rw [h.percentile, hmax]; exact this
  · have := hv.neumannScale; unfold Scheduled at this ⊢; rw [h.neumannScale, hmax]; exact this
  · have := hv.eta (by rw [← h.eta.2]; exact he); unfold Scheduled at this ⊢; rw [h.eta.1, hmax]; exact this
  · exact hv.etaConst x (by rw [← h.eta.2]; exact hx)

/-! ### Physics -/

theorem physical_alike (h : Alike c R R') (hS : Sound R) (hS' : Sound R') {v : Vals} (hr : 0 < v.radius) {rho : E → ℝ} {rho' : E' → ℝ}
    (hx : ∀ e, rho' (c.element e) = rho e) (e : E) : physical R'.toCommon (other c v) rho' (c.element e) = physical R.toCommon v rho e := by
  unfold physical
  rw [h.betaEta]
  have := blur_alike h hS hS' hr (Or.inl rfl) (s := 1) (x := rho) (x' := rho') (by simpa using hx) e
  rw [one_mul] at this
  show threshold v.beta R.betaEta (blur R'.toCommon (c.length * v.radius) rho' (c.element e)) = _
  rw [this]

theorem young_alike (h : Alike c R R') (p x : ℝ) : young R' p x = c.modulus * young R p x := by
  unfold young
  rw [h.modulus, h.eMinCoeff]; ring

theorem slope_alike (h : Alike c R R') (hS : Sound R) (hS' : Sound R') (p x U : ℝ) :
    slope R' p x (c.work * U) = c.work * slope R p x U := by
  have hb := h.factors.2.2.2.1
  have hx0 : 0 ≤ max x (1 / 10 ^ 6) ^ p := Real.rpow_nonneg (le_max_of_le_right (by norm_num)) _
  obtain ⟨hE, hc0, hc1⟩ := hS.modulus
  obtain ⟨hE', hc0', hc1'⟩ := hS'.modulus
  have hmax : max (young R' p (max x (1 / 10 ^ 6))) (1 / 10 ^ 12) =
      c.modulus * max (young R p (max x (1 / 10 ^ 6))) (1 / 10 ^ 12) := by
    rcases h.modulusFloor with h1 | ⟨h1, h2⟩
    · rw [young_alike h, h1]; ring_nf
    · have g1 : R.E0 * R.eMinCoeff ≤ young R p (max x (1 / 10 ^ 6)) := by
        unfold young
        have : 0 ≤ (R.E0 - R.E0 * R.eMinCoeff) * max x (1 / 10 ^ 6) ^ p := mul_nonneg (by nlinarith) hx0
        linarith
      have g2 : R'.E0 * R'.eMinCoeff ≤ young R' p (max x (1 / 10 ^ 6)) := by
        unfold young
        have : 0 ≤ (R'.E0 - R'.E0 * R'.eMinCoeff) * max x (1 / 10 ^ 6) ^ p := mul_nonneg (by nlinarith) hx0
        linarith
      rw [max_eq_left (h1.trans g1), max_eq_left (h2.trans g2), young_alike h]
  unfold young at hmax
  unfold Spec.slope slopeOf
  rw [hmax, h.modulus, h.eMinCoeff]
  have hm : max (R.E0 * R.eMinCoeff + (R.E0 - R.E0 * R.eMinCoeff) * max x (1 / 10 ^ 6) ^ p) (1 / 10 ^ 12) ≠ 0 :=
    ne_of_gt (lt_max_of_lt_right (by norm_num))
  field_simp

/-- The displacement in the other description. -/
def otherMotion (c : Change ι E ι' E' m) (j : Fin m) (u : ι → ℝ) : ι' → ℝ := (c.sign j * c.load / (c.modulus * c.energy)) • c.motion u

theorem innerWork_linear (R : Setup ι E Q d m) (Em : E → ℝ) (u w : ι → ℝ) (e : E) :
    innerWork R Em u w e = Em e * innerWork R (fun _ => 1) u w e := by
  rw [← innerWork_eq, ← innerWork_eq, one_mul]

theorem strain_smul (R : Setup ι E Q d m) (s : ℝ) (u : ι → ℝ) (e : E) (q : Q) : strain R (s • u) e q = s • strain R u e q := by
  ext a b
  simp only [strain, Matrix.of_apply, Matrix.smul_apply, Pi.smul_apply, smul_eq_mul, mul_assoc, ← Finset.mul_sum]
  ring

theorem stressWork_smul (R : Setup ι E Q d m) (Em s t : ℝ) (a b : Matrix (Fin d) (Fin d) ℝ) :
    stressWork R Em (s • a) (t • b) = s * t * stressWork R Em a b := by
  unfold stressWork
  have : ∀ i j, (s • a) i j * (t • b) i j = s * t * (a i j * b i j) := fun i j => by
    simp only [Matrix.smul_apply, smul_eq_mul]; ring
  simp only [this, ← Finset.mul_sum, Matrix.trace_smul, smul_eq_mul]
  ring

theorem innerWork_smul (R : Setup ι E Q d m) (Em : E → ℝ) (s t : ℝ) (u w : ι → ℝ) (e : E) :
    innerWork R Em (s • u) (t • w) e = s * t * innerWork R Em u w e := by
  unfold innerWork
  rw [Finset.mul_sum]
  refine Finset.sum_congr rfl fun q _ => ?_
  rw [strain_smul, strain_smul, stressWork_smul]; ring

theorem innerWork_alike (h : Alike c R R') {Em : E → ℝ} {Em' : E' → ℝ} (hE : ∀ e, Em' (c.element e) = c.modulus * Em e)
    (j : Fin m) (u w : ι → ℝ) (e : E) :
    innerWork R' Em' (otherMotion c j u) (c.motion w) (c.element e) = c.sign j * c.load * innerWork R Em u w e := by
  obtain ⟨-, -, -, hb, hg⟩ := h.factors
  unfold otherMotion
  have h1 := innerWork_smul R' (fun _ => 1) (c.sign j * c.load / (c.modulus * c.energy)) 1 (c.motion u) (c.motion w) (c.element e)
  rw [one_smul] at h1
  rw [innerWork_linear R', h1, h.energy, hE, innerWork_linear R Em]
  field_simp

theorem displaced_alike (h : Alike c R R') {Em : E → ℝ} {Em' : E' → ℝ} (hE : ∀ e, Em' (c.element e) = c.modulus * Em e)
    {j : Fin m} {ns : ℝ} {u : ι → ℝ} (hu : Displaced R Em (fun i => R.loads j i * ns) u) :
    Displaced R' Em' (fun i => R'.loads (c.case j) i * ns) (otherMotion c j u) := by
  refine ⟨fun i hi => ?_, fun w' hw' => ?_⟩
  · have := (h.supports u).2 hu.1 i hi
    simp [otherMotion, this]
  · obtain ⟨w, rfl⟩ := c.motion.surjective w'
    have hw := (h.supports w).1 hw'
    rw [← c.element.sum_comp]
    simp only [innerWork_alike h hE]
    rw [← Finset.mul_sum, hu.2 w hw]
    have h1 := h.loads j w hw
    have e1 : ∑ i, R'.loads (c.case j) i * ns * c.motion w i = ns * ∑ i, R'.loads (c.case j) i * c.motion w i := by
      rw [Finset.mul_sum]; exact Finset.sum_congr rfl fun i _ => by ring
    have e2 : ∑ i, R.loads j i * ns * w i = ns * ∑ i, R.loads j i * w i := by
      rw [Finset.mul_sum]; exact Finset.sum_congr rfl fun i _ => by ring
    rw [e1, e2, h1]; ring

/-- The displacement is determined. -/
theorem displaced_unique (hS : Sound R) {p : ℝ} {x : E → ℝ} (hx : ∀ e, 0 ≤ x e) {f u w : ι → ℝ}
    (hu : Displaced R (fun e => young R p (x e)) f u) (hw : Displaced R (fun e => young R p (x e)) f w) : u = w := by
  obtain ⟨hE0, hc0, hc1⟩ := hS.modulus
  have solves : ∀ {u : ι → ℝ}, Displaced R (fun e => young R p (x e)) f u →
      Elastic.Solves (Elastic.stiffness R.fe (Elastic.simpField R.E0 (R.E0 * R.eMinCoeff) p x) R.nu) R.dirichlet f u := by
    intro u hu
    rw [Elastic.solves_iff]
    refine ⟨hu.1, fun i hi => ?_⟩
    have h1 := hu.2 (Pi.single i 1) fun k hk => by
      rw [Pi.single_eq_of_ne]; rintro rfl; exact hi hk
    have h2 := Elastic.stiffness_form R.fe (fun e => young R p (x e)) R.nu u (Pi.single i 1)
    have e0 : ∀ g : ι → ℝ, ∑ k, (Pi.single i 1 : ι → ℝ) k * g k = g i := by
      intro g
      rw [Finset.sum_eq_single i (fun k _ hk => by rw [Pi.single_eq_of_ne hk, zero_mul]) (by simp)]
      simp
    rw [e0] at h2
    have e1 : ∑ e, young R p (x e) * Elastic.unitForm R.fe R.nu u (Pi.single i 1) e =
        ∑ e, innerWork R (fun e => young R p (x e)) u (Pi.single i 1) e :=
      Finset.sum_congr rfl fun e _ => innerWork_eq R (fun e => young R p (x e)) u _ e
    rw [e1, h1] at h2
    have : ∑ k, f k * (Pi.single i 1 : ι → ℝ) k = f i := by
      rw [← e0 f]; exact Finset.sum_congr rfl fun k _ => mul_comm _ _
    rw [this] at h2
    exact h2
  exact ((Elastic.C73_unique_solution R.fe hS.dim hS.weights R.nu hS.poisson.1 hS.poisson.2 R.E0 (R.E0 * R.eMinCoeff) p
    (mul_pos hE0 hc0) (by nlinarith) x hx R.dirichlet hS.supports).2 f).unique (solves hu) (solves hw)

theorem compliance_alike (h : Alike c R R') {ns : ℝ} {u : Fin m → ι → ℝ} {u' : Fin m → ι' → ℝ}
    (hs : ∀ j, ∀ i ∈ R.dirichlet, u j i = 0) (hu : ∀ j, u' (c.case j) = otherMotion c j (u j)) :
    (∑ j, ∑ i, R'.loads j i * ns * u' j i) / m = c.work * ((∑ j, ∑ i, R.loads j i * ns * u j i) / m) := by
  rw [← mul_div_assoc, Finset.mul_sum, ← Equiv.sum_comp c.case]
  congr 1
  refine Finset.sum_congr rfl fun j _ => ?_
  have h1 := h.loads j (u j) (hs j)
  have e1 : ∑ i, R'.loads (c.case j) i * ns * u' (c.case j) i =
      ns * (c.sign j * c.load / (c.modulus * c.energy)) * ∑ i, R'.loads (c.case j) i * c.motion (u j) i := by
    rw [hu, Finset.mul_sum]; exact Finset.sum_congr rfl fun i _ => by simp only [otherMotion, Pi.smul_apply, smul_eq_mul]; ring
  have e2 : ∑ i, R.loads j i * ns * u j i = ns * ∑ i, R.loads j i * u j i := by
    rw [Finset.mul_sum]; exact Finset.sum_congr rfl fun i _ => by ring
  rw [e1, e2, h1]
  unfold Change.work
  have hsq : c.sign j * c.sign j = 1 := by rcases h.signs j with h | h <;> rw [h] <;> norm_num
  linear_combination (ns * c.load ^ 2 / (c.modulus * c.energy) * ∑ i, R.loads j i * u j i) * hsq

theorem gradient_alike (h : Alike c R R') (hS : Sound R) (hS' : Sound R') {v : Vals} (hr : 0 < v.radius) {rho : E → ℝ} {rho' : E' → ℝ}
    (hx : ∀ e, rho' (c.element e) = rho e) {u : Fin m → ι → ℝ} {u' : Fin m → ι' → ℝ}
    (hu : ∀ j, u' (c.case j) = otherMotion c j (u j)) (e : E) :
    gradient R' (other c v) rho' u' (c.element e) = c.work * gradient R v rho u e := by
  have hw := work_pos h
  obtain ⟨-, -, ha, hb, hg⟩ := h.factors
  have hph := physical_alike h hS hS' hr hx
  have hE : ∀ e, young R' v.p (physical R'.toCommon (other c v) rho' (c.element e)) = c.modulus * young R v.p (physical R.toCommon v rho e) := by
    intro e
    rw [hph, young_alike h]
  have hone : ∀ j e, blurT R'.toCommon (other c v).radius (fun e => slope R' v.p (physical R'.toCommon (other c v) rho' e)
      (innerWork R' (fun e => young R' v.p (physical R'.toCommon (other c v) rho' e)) (u' (c.case j)) (u' (c.case j)) e / 2) *
      thresholdSlope v.beta R'.betaEta (blur R'.toCommon (other c v).radius rho' e)) (c.element e) =
      c.work * blurT R.toCommon v.radius (fun e => slope R v.p (physical R.toCommon v rho e)
      (innerWork R (fun e => young R v.p (physical R.toCommon v rho e)) (u j) (u j) e / 2) *
      thresholdSlope v.beta R.betaEta (blur R.toCommon v.radius rho e)) e := by
    intro j e
    refine blurT_alike h hS hS' hr hw (fun e => ?_) e
    have hbl := blur_alike h hS hS' hr (Or.inl rfl) (s := 1) (x := rho) (x' := rho') (by simpa using hx) e
    rw [one_mul] at hbl
    show _ * thresholdSlope v.beta R'.betaEta (blur R'.toCommon (c.length * v.radius) rho' (c.element e)) = _
    rw [hbl, hph, h.betaEta, hu]
    have hin : innerWork R' (fun e => young R' v.p (physical R'.toCommon (other c v) rho' e)) (otherMotion c j (u j)) (otherMotion c j (u j)) (c.element e) / 2 =
        c.work * (innerWork R (fun e => young R v.p (physical R.toCommon v rho e)) (u j) (u j) e / 2) := by
      have := innerWork_alike h (Em := fun e => young R v.p (physical R.toCommon v rho e))
        (Em' := fun e => young R' v.p (physical R'.toCommon (other c v) rho' e)) hE j (u j) (u j) e
      conv_lhs => arg 1; unfold otherMotion
      rw [innerWork_smul]
      unfold otherMotion at this
      rw [← one_smul ℝ (c.motion (u j)), smul_smul, innerWork_smul] at this
      simp only [mul_one, one_smul] at this
      unfold Change.work
      have hne : c.modulus * c.energy ≠ 0 := by positivity
      have hsq : c.sign j * c.sign j = 1 := by rcases h.signs j with h | h <;> rw [h] <;> norm_num
      have h2 : c.sign j * c.load / (c.modulus * c.energy) * (c.sign j * c.load / (c.modulus * c.energy)) *
          innerWork R' (fun e => young R' v.p (physical R'.toCommon (other c v) rho' e)) (c.motion (u j)) (c.motion (u j)) (c.element e) =
          c.sign j * c.load / (c.modulus * c.energy) * (c.sign j * c.load * innerWork R (fun e => young R v.p (physical R.toCommon v rho e)) (u j) (u j) e) := by
        rw [← this]; ring
      rw [h2]
      linear_combination (c.load ^ 2 / (c.modulus * c.energy) * innerWork R (fun e => young R v.p (physical R.toCommon v rho e)) (u j) (u j) e / 2) * hsq
    rw [hin, slope_alike h hS hS']
    ring
  have hmean : ∀ e, (∑ j, blurT R'.toCommon (other c v).radius (fun e => slope R' v.p (physical R'.toCommon (other c v) rho' e)
      (innerWork R' (fun e => young R' v.p (physical R'.toCommon (other c v) rho' e)) (u' j) (u' j) e / 2) *
      thresholdSlope v.beta R'.betaEta (blur R'.toCommon (other c v).radius rho' e)) (c.element e)) / m =
      c.work * ((∑ j, blurT R.toCommon v.radius (fun e => slope R v.p (physical R.toCommon v rho e)
      (innerWork R (fun e => young R v.p (physical R.toCommon v rho e)) (u j) (u j) e / 2) *
      thresholdSlope v.beta R.betaEta (blur R.toCommon v.radius rho e)) e) / m) := by
    intro e
    rw [← mul_div_assoc, Finset.mul_sum, ← Equiv.sum_comp c.case]
    congr 1
    exact Finset.sum_congr rfl fun j _ => hone j e
  unfold gradient chained
  simp only [h.sensFilter]
  by_cases hsf : R.sensFilter = true
  · rw [if_pos hsf, if_pos hsf]
    refine blur_alike h hS hS' hr (Or.inr ?_) hmean e
    cases hN : R.nodal with
    | none => rfl
    | some N => have := (hS.nodal N hN).noSensFilter; rw [hsf] at this; simp at this
  · rw [if_neg hsf, if_neg hsf]
    exact hmean e

theorem excess_alike (h : Alike c R R') (hS : Sound R) (hS' : Sound R') {v : Vals} (hr : 0 < v.radius) {rho : E → ℝ} {rho' : E' → ℝ}
    (hx : ∀ e, rho' (c.element e) = rho e) : excess R'.toCommon (other c v) rho' = excess R.toCommon v rho := by
  have hw := h.factors.2.1
  unfold excess
  rw [volume_sum h, sum_design h]
  simp only [physical_alike h hS hS' hr hx, h.volume]
  have : ∀ e, physical R.toCommon v rho e * (c.volume * R.volume e) = c.volume * (physical R.toCommon v rho e * R.volume e) := fun e => by ring
  simp only [this, ← Finset.mul_sum]
  rw [mul_div_mul_left _ _ hw.ne']
  rfl

/-! ### One OC iteration -/

/-- Largest values over corresponding sets. -/
theorem greatest_alike {c : Change ι E ι' E' m} {S : Set E} {S' : Set E'} (hS : ∀ e, c.element e ∈ S' ↔ e ∈ S) {f : E → ℝ} {f' : E' → ℝ}
    {s : ℝ} (hs : 0 ≤ s) (hf : ∀ e ∈ S, f' (c.element e) = s * f e) {x x' : ℝ} (h : IsGreatest (f '' S) x) (h' : IsGreatest (f' '' S') x') :
    x' = s * x := by
  obtain ⟨⟨e, he, rfl⟩, h2⟩ := h
  obtain ⟨⟨e', he', rfl⟩, h2'⟩ := h'
  obtain ⟨a, rfl⟩ := c.element.surjective e'
  have ha := (hS a).1 he'
  apply le_antisymm
  · rw [hf a ha]
    exact mul_le_mul_of_nonneg_left (h2 ⟨a, ha, rfl⟩) hs
  · rw [← hf e he]
    exact h2' ⟨c.element e, (hS e).2 he, rfl⟩

theorem bisected_unique {F : ℝ → ℝ} {l l' : ℝ} (h : Bisected R.toCommon F l) (h' : Bisected R.toCommon F l') : l = l' := by
  obtain ⟨n, h1, h2, rfl⟩ := h
  obtain ⟨k, k1, k2, rfl⟩ := h'
  rcases lt_trichotomy n k with hlt | rfl | hlt
  · exact absurd h1 (k2 n hlt)
  · rfl
  · exact absurd k1 (h2 k hlt)

theorem bracket_alike (h : AlikeOC c R R') (F : ℝ → ℝ) : ∀ n, bracket R'.toCommon F n = bracket R.toCommon F n
  | 0 => by unfold bracket; rw [h.bounds.1, h.bounds.2]
  | n + 1 => by unfold bracket; rw [bracket_alike h F n]

theorem bisected_alike (h : AlikeOC c R R') {F : ℝ → ℝ} {l : ℝ} (hb : Bisected R'.toCommon F l) : Bisected R.toCommon F l := by
  have he : ∀ n, Enough R'.toCommon F n ↔ Enough R.toCommon F n := fun n => by unfold Enough middle; rw [bracket_alike h]
  obtain ⟨n, h1, h2, h3⟩ := hb
  refine ⟨n, (he n).1 h1, fun i hi hn => h2 i hi ((he i).2 hn), ?_⟩
  rw [h3]; unfold middle; rw [bracket_alike h]

theorem grown_alike (h : AlikeOC c R R') {v : Vals} {rho g : E → ℝ} {rho' g' : E' → ℝ}
    (hx : ∀ e, rho' (c.element e) = rho e) (hg : ∀ e, g' (c.element e) = g e) (l : ℝ) (e : E) :
    grown R'.toCommon (other c v) rho' g' l (c.element e) = grown R.toCommon v rho g l e := by
  unfold grown rate
  simp only [h.design, hx, hg, h.rates.1, h.rates.2, h.box.1, h.box.2]
  rfl

/-- One iteration of either description: the same densities, and the recorded numbers in the respective units. -/
theorem iteration_alike (h : AlikeOC c R R') (hS : Sound R) (hS' : Sound R') {k : ℕ} {v0 : Vals} (hv0 : ValsOk R.toCommon k v0)
    {rho : E → ℝ} {rho' : E' → ℝ} (hrho : ∀ e, 0 ≤ rho e ∧ rho e ≤ 1) (hx : ∀ e, rho' (c.element e) = rho e) {rs : ℝ}
    {r r' : Rec} {new : E → ℝ} {new' : E' → ℝ} {rs1 rs1' : ℝ} (hk : r.iter = k) (hk' : r'.iter = k)
    (hi : Iteration R rho rs r new rs1) (hi' : Iteration R' rho' (c.work * rs) r' new' rs1') :
    (∀ e, new' (c.element e) = new e) ∧ rs1' = c.work * rs1 ∧ r' = c.line r := by
  have hA := h.toAlike
  have hκ := work_pos hA
  obtain ⟨v, u, i1, i2, i3, i4, s, i5, i6, i7, i8, i9, i10, i11, i12, i13⟩ := hi
  obtain ⟨v', u', j1, j2, j3, j4, s', j5, j6, j7, j8, j9, j10, j11, j12, j13⟩ := hi'
  rw [hk] at i1 i7
  rw [hk'] at j1 j7
  have hv : v = v0 := allScheduled_unique i1 hv0.all
  subst hv
  have hv' : v' = other c v := allScheduled_unique j1 (allScheduled_alike hA i1)
  subst hv'
  have hr := hv0.radius
  have hph := physical_alike hA hS hS' hr hx
  have hp0 : ∀ e, 0 ≤ physical R.toCommon v rho e := by
    intro e
    have hbr := blur_range hS.toBasics hr hv0.all.radius hrho e
    unfold physical
    rw [← threshold_eq, (Props.C23_inplace_agree _ _ _).1]
    exact ((Props.C22_heaviside_range_and_monotone v.beta R.betaEta hv0.beta).1 _ hbr.1 hbr.2).1
  have hu : ∀ j, u' (c.case j) = otherMotion c j (u j) := by
    intro j
    have h1 := displaced_alike hA (Em := fun e => young R v.p (physical R.toCommon v rho e))
      (Em' := fun e => young R' v.p (physical R'.toCommon (other c v) rho' e)) (fun e => by rw [hph, young_alike hA]) (i2 j)
    refine displaced_unique hS' (fun e => ?_) (j2 (c.case j)) h1
    obtain ⟨e, rfl⟩ := c.element.surjective e
    rw [hph]; exact hp0 e
  have hgr := gradient_alike hA hS hS' hr hx hu
  have hab : ∀ e, |gradient R' (other c v) rho' u' (c.element e)| = c.work * |gradient R v rho u e| := fun e => by
    rw [hgr, abs_mul, abs_of_pos hκ]
  have hs : s' = c.work * s := by
    cases hq : v.percentile with
    | none => exact greatest_alike (fun e => h.design e) hκ.le (fun e _ => hab e) (i5 hq) (j5 hq)
    | some q =>
      rw [i6 q hq, j6 q hq]
      exact h.statistic q c.work _ _ hκ fun e _ => hab e
  have hm : max s' R'.scaleFloor = c.work * max s R.scaleFloor := by
    rw [hs, h.scaleFloor, mul_max_of_nonneg _ _ hκ.le]
  have hrs : rs1' = c.work * rs1 := by
    rw [i7, j7, hm]
    split_ifs <;> ring
  have hg : ∀ e, gradient R' (other c v) rho' u' (c.element e) / rs1' = gradient R v rho u e / rs1 := fun e => by
    rw [hgr, hrs, mul_div_mul_left _ _ hκ.ne']
  have hgrown := grown_alike h (v := v) hx (g := fun e => gradient R v rho u e / rs1)
    (g' := fun e => gradient R' (other c v) rho' u' e / rs1') hg
  have hex : ∀ l, excess R'.toCommon (other c v) (grown R'.toCommon (other c v) rho' (fun e => gradient R' (other c v) rho' u' e / rs1') l) =
      excess R.toCommon v (grown R.toCommon v rho (fun e => gradient R v rho u e / rs1) l) := fun l => excess_alike hA hS hS' hr (hgrown l)
  have hl : r'.lmid = r.lmid := by
    simp only [hex] at j8
    exact bisected_unique (bisected_alike h j8) i8
  have hnew : ∀ e, new' (c.element e) = new e := by
    intro e
    rw [i9, j9, hl, hgrown]
    simp only [hA.pinned]
  have hchange : r'.rhoChange = r.rhoChange := by
    have := greatest_alike (c := c) (s := 1) (fun e => h.design e) zero_le_one (f := fun e => |new e - rho e|)
      (f' := fun e => |new' e - rho' e|) (fun e _ => by simp only [hnew, hx, one_mul]) i11 j11
    rw [this, one_mul]
  have hin : ∀ e, (c.element e ∈ R'.design ∧ R'.rhoMin + 1 / 10 ^ 6 <
      grown R'.toCommon (other c v) rho' (fun e => gradient R' (other c v) rho' u' e / rs1') r'.lmid (c.element e) ∧
      grown R'.toCommon (other c v) rho' (fun e => gradient R' (other c v) rho' u' e / rs1') r'.lmid (c.element e) < R'.rhoMax - 1 / 10 ^ 6) ↔
      (e ∈ R.design ∧ R.rhoMin + 1 / 10 ^ 6 < grown R.toCommon v rho (fun e => gradient R v rho u e / rs1) r.lmid e ∧
      grown R.toCommon v rho (fun e => gradient R v rho u e / rs1) r.lmid e < R.rhoMax - 1 / 10 ^ 6) := by
    intro e
    rw [hl, hgrown, h.design, h.box.1, h.box.2]
  have hkkt : r'.kkt = c.work * r.kkt := by
    by_cases hne : {e | e ∈ R.design ∧ R.rhoMin + 1 / 10 ^ 6 < grown R.toCommon v rho (fun e => gradient R v rho u e / rs1) r.lmid e ∧
        grown R.toCommon v rho (fun e => gradient R v rho u e / rs1) r.lmid e < R.rhoMax - 1 / 10 ^ 6}.Nonempty
    · have hne' : {e | e ∈ R'.design ∧ R'.rhoMin + 1 / 10 ^ 6 <
          grown R'.toCommon (other c v) rho' (fun e => gradient R' (other c v) rho' u' e / rs1') r'.lmid e ∧
          grown R'.toCommon (other c v) rho' (fun e => gradient R' (other c v) rho' u' e / rs1') r'.lmid e < R'.rhoMax - 1 / 10 ^ 6}.Nonempty := by
        obtain ⟨e, he⟩ := hne
        exact ⟨c.element e, (hin e).2 he⟩
      refine greatest_alike hin hκ.le (fun e _ => ?_) (i13 hne) (j13 hne')
      rw [hgr, hl, hrs, h.volume, volume_sum hA, mul_div_mul_left _ _ h.factors.2.1.ne']
      rw [← abs_of_pos hκ, ← abs_mul, abs_of_pos hκ]
      congr 1; ring
    · have hem := Set.not_nonempty_iff_eq_empty.mp hne
      have hem' : {e | e ∈ R'.design ∧ R'.rhoMin + 1 / 10 ^ 6 <
          grown R'.toCommon (other c v) rho' (fun e => gradient R' (other c v) rho' u' e / rs1') r'.lmid e ∧
          grown R'.toCommon (other c v) rho' (fun e => gradient R' (other c v) rho' u' e / rs1') r'.lmid e < R'.rhoMax - 1 / 10 ^ 6} = ∅ := by
        apply Set.not_nonempty_iff_eq_empty.mp
        rintro ⟨e, he⟩
        obtain ⟨e, rfl⟩ := c.element.surjective e
        exact hne ⟨e, (hin e).1 he⟩
      rw [i12 hem, j12 hem', mul_zero]
  refine ⟨hnew, hrs, ?_⟩
  have hcomp : r'.compliance = c.work * r.compliance := by
    rw [i3, j3]
    exact compliance_alike hA (fun j => (i2 j).1) hu
  have hve : r'.volError = r.volError := by rw [i10, j10, hl, hex]
  have hns : r'.neumannScale = r.neumannScale := by rw [i4, j4]; rfl
  obtain ⟨a1, a2, a3, a4, a5, a6, a7⟩ := r
  obtain ⟨b1, b2, b3, b4, b5, b6, b7⟩ := r'
  simp only at hk hk' hchange hcomp hns hve hl hkkt
  subst hk hk' hchange hcomp hns hve hl hkkt
  rfl

end
end Verif.Run
