import Verif.Lemmas.Spacial
import Mathlib.Analysis.Convex.Combination
import Mathlib.Tactic.FieldSimp
import Mathlib.Tactic.Positivity

/-! Property theorems C27, C28: the spatial filter. -/
namespace Verif.Props
open Verif Verif.Spacial Verif.Spec
open Classical

variable {E : Type} [Fintype E] {d : ℕ}

/-- The design elements of a filter object. -/
def filterDesign (f : Filter E d) : Finset E := f.mask.getD Finset.univ

theorem gaussian_support (r : ℝ) : support .gaussian r none = r := by
  simp only [support, Option.getD_none]; ring

/-- For a positive radius `forward` fails exactly when there is no design element; otherwise it applies the matrix. -/
theorem forward_eq (f : Filter E d) (hr : 0 < f.radius) (hS : (filterDesign f).Nonempty) (rho : E → ℝ) :
    forward f rho = .ok (fun i => if i ∈ filterDesign f then ∑ j ∈ filterDesign f,
        matrix f.centers (kernel .gaussian f.radius none) (support .gaussian f.radius none) none (filterDesign f) i j
          * rho j else rho i,
      { f with W := some (matrix f.centers (kernel .gaussian f.radius none) (support .gaussian f.radius none) none
        (filterDesign f)) }) := by
  obtain ⟨e, he⟩ := hS
  unfold forward buildFilterMatrix
  have hex : ∃ i ∈ f.mask.getD Finset.univ, ∃ j ∈ f.mask.getD Finset.univ,
      dist (f.centers j) (f.centers i) ≤ support .gaussian f.radius none :=
    ⟨e, he, e, he, by rw [dist_self, gaussian_support]; exact hr.le⟩
  simp only [if_pos hex, bind, Except.bind, pure, Except.pure]
  rfl

/-- **C27 (a)** For every mesh, positive radius and non-empty design set `forward` is an averaging operator: it never
fails, keeps filtered design densities between the smallest and largest input design density, preserves constants, is
linear and order preserving, and leaves every non-design element untouched. -/
theorem C27_spacial_average (f : Filter E d) (hr : 0 < f.radius) (hS : (filterDesign f).Nonempty) :
    ∃ F : (E → ℝ) → (E → ℝ), (∀ rho, ∃ f', forward f rho = .ok (F rho, f')) ∧
      StaysInRange (filterDesign f) F ∧ PreservesConstants (filterDesign f) F ∧ IsLinear F ∧ Monotone F ∧
      ∀ rho, ∀ e, e ∉ filterDesign f → F rho e = rho e := by
  set W := matrix f.centers (kernel .gaussian f.radius none) (support .gaussian f.radius none) none (filterDesign f)
    with hW
  have hk := kernel_nonneg_pos .gaussian f.radius hr none
  have hs : 0 ≤ support .gaussian f.radius none := by rw [gaussian_support]; exact hr.le
  have hnn : ∀ i j, 0 ≤ W i j := fun i j => matrix_nonneg hk.1 (fun v h => by cases h) i j
  have hrow : ∀ i ∈ filterDesign f, ∑ j ∈ filterDesign f, W i j = 1 :=
    fun i hi => matrix_row_sum hk.1 hk.2 hs (fun v h => by cases h) hi
  refine ⟨fun rho i => if i ∈ filterDesign f then ∑ j ∈ filterDesign f, W i j * rho j else rho i,
    fun rho => ⟨_, forward_eq f hr hS rho⟩, ?_, ?_, ?_, ?_, ?_⟩
  · intro x lo hi hx e he
    simp only [if_pos he]
    exact convex_range (fun j _ => hnn e j) (hrow e he) hx
  · intro c e he
    simp only [if_pos he]
    rw [← Finset.sum_mul, hrow e he, one_mul]
  · intro x y a b
    funext i
    by_cases hi : i ∈ filterDesign f
    · simp only [if_pos hi, Finset.mul_sum, ← Finset.sum_add_distrib]
      exact Finset.sum_congr rfl fun j _ => by ring
    · simp only [if_neg hi]
  · intro x y hxy i
    by_cases hi : i ∈ filterDesign f
    · simp only [if_pos hi]
      exact Finset.sum_le_sum fun j _ => mul_le_mul_of_nonneg_left (hxy j) (hnn i j)
    · simp only [if_neg hi]; exact hxy i
  · intro rho e he
    simp only [if_neg he]

/-- **C27 (b)** The filter is local: the filtered density of an element depends only on the densities of the design
elements whose centres are within `radius` of it. -/
theorem C27_spacial_local (f : Filter E d) (hr : 0 < f.radius) (rho rho' y y' : E → ℝ) (f1 f1' : Filter E d)
    (h : forward f rho = .ok (y, f1)) (h' : forward f rho' = .ok (y', f1')) (e : E) (he : e ∈ filterDesign f)
    (hloc : ∀ j ∈ filterDesign f, dist (f.centers j) (f.centers e) ≤ f.radius → rho j = rho' j) : y e = y' e := by
  have hS : (filterDesign f).Nonempty := ⟨e, he⟩
  rw [forward_eq f hr hS] at h h'
  simp only [Except.ok.injEq, Prod.mk.injEq] at h h'
  rw [← h.1, ← h'.1]
  simp only [if_pos he]
  apply Finset.sum_congr rfl
  intro j hj
  by_cases hd : dist (f.centers j) (f.centers e) ≤ f.radius
  · rw [hloc j hj hd]
  · unfold matrix weight
    simp only [gaussian_support, if_neg hd, mul_zero, zero_mul]

/-- **C27 (c)** The weights are those of the Gaussian kernel: an element within the radius contributes in proportion to
`exp(-(3 dist / radius)^2 / 2)`. -/
theorem C27_spacial_weights (f : Filter E d) (hr : 0 < f.radius) (rho y : E → ℝ) (f1 : Filter E d)
    (h : forward f rho = .ok (y, f1)) (e : E) (he : e ∈ filterDesign f) :
    let near := (filterDesign f).filter fun j => dist (f.centers j) (f.centers e) ≤ f.radius
    let w := fun j => Real.exp (-(3 * dist (f.centers j) (f.centers e) / f.radius) ^ 2 / 2)
    y e = (∑ j ∈ near, w j * rho j) / ∑ j ∈ near, w j := by
  intro near w
  have hS : (filterDesign f).Nonempty := ⟨e, he⟩
  rw [forward_eq f hr hS] at h
  simp only [Except.ok.injEq, Prod.mk.injEq] at h
  rw [← h.1]
  simp only [if_pos he]
  have hker : ∀ x, kernel .gaussian f.radius none x = Real.exp (-(3 * x / f.radius) ^ 2 / 2) := by
    intro x
    simp only [kernel, Option.getD_none]
    congr 1
    have : x / (f.radius / 3) = 3 * x / f.radius := by field_simp
    rw [this]; ring
  have hrs := rowSum_pos (c := f.centers) (sup := support .gaussian f.radius none) (vol := none) (S := filterDesign f)
    (kernel_nonneg_pos .gaussian f.radius hr none).1 (kernel_nonneg_pos .gaussian f.radius hr none).2
    (by rw [gaussian_support]; exact hr.le) (fun v h => by cases h) he
  have hsum : ∑ k ∈ filterDesign f, weight f.centers (kernel .gaussian f.radius none)
      (support .gaussian f.radius none) none e k = ∑ j ∈ near, w j := by
    rw [Finset.sum_filter]
    apply Finset.sum_congr rfl
    intro j _
    unfold weight
    simp only [gaussian_support, hker]
    rfl
  unfold matrix
  simp only [if_neg hrs.ne']
  rw [hsum]
  simp only [mul_assoc, ← Finset.mul_sum]
  rw [one_div, ← div_eq_inv_mul]
  congr 1
  rw [Finset.sum_filter]
  apply Finset.sum_congr rfl
  intro j _
  unfold weight
  simp only [gaussian_support, hker]
  split_ifs <;> simp [w]

/-- **C27 (d)** `build_filter_matrix` with any of the three kernels, with or without volume correction by positive
volumes, has non-negative entries and rows summing to 1. -/
theorem C27_filter_matrix_stochastic (c : E → EuclideanSpace ℝ (Fin d)) (kind : Kind) (r : ℝ) (hr : 0 < r)
    (sigma : Option ℝ) (hs : ∀ s, sigma = some s → 0 ≤ s) (vol : Option (E → ℝ))
    (hv : ∀ v, vol = some v → ∀ e, 0 < v e) (mask : Option (Finset E)) (W : E → E → ℝ)
    (h : buildFilterMatrix c (kernel kind r sigma) (support kind r sigma) vol mask = .ok W) :
    (∀ i j, 0 ≤ W i j) ∧ ∀ i ∈ mask.getD Finset.univ, ∑ j ∈ mask.getD Finset.univ, W i j = 1 := by
  unfold buildFilterMatrix at h
  simp only at h
  split_ifs at h
  simp only [Except.ok.injEq] at h
  subst h
  have hk := kernel_nonneg_pos kind r hr sigma
  have hsup : 0 ≤ support kind r sigma := by
    cases kind with
    | linear => exact hr.le
    | quadratic => exact hr.le
    | gaussian =>
      simp only [support]
      cases sigma with
      | none => simp only [Option.getD_none]; positivity
      | some s => have := hs s rfl; simp only [Option.getD_some]; positivity
  exact ⟨fun i j => matrix_nonneg hk.1 (fun v h e => (hv v h e).le) i j,
    fun i hi => matrix_row_sum hk.1 hk.2 hsup hv hi⟩

/-- **C28 (a)** After a `forward`, `gradient` is its exact adjoint on perturbations supported on the design elements:
`<gradient v, δ> = <v, forward (x + δ) - forward x>`. -/
theorem C28_gradient_is_adjoint (f : Filter E d) (hr : 0 < f.radius) (x δ v y y' g : E → ℝ) (f1 f1' : Filter E d)
    (h : forward f x = .ok (y, f1)) (h' : forward f (fun e => x e + δ e) = .ok (y', f1'))
    (hg : gradient f1 v = .ok g) (hδ : ∀ e, e ∉ filterDesign f → δ e = 0) :
    dotP g δ = dotP v fun e => y' e - y e := by
  by_cases hS : (filterDesign f).Nonempty
  · rw [forward_eq f hr hS] at h h'
    simp only [Except.ok.injEq, Prod.mk.injEq] at h h'
    obtain ⟨hy, hf⟩ := h
    obtain ⟨hy', -⟩ := h'
    rw [← hf] at hg
    unfold gradient at hg
    simp only [Except.ok.injEq] at hg
    subst hy hy' hg
    unfold dotP
    rw [← Finset.sum_subset (Finset.subset_univ (filterDesign f)) (fun e _ he => by rw [hδ e he, mul_zero]),
      ← Finset.sum_subset (Finset.subset_univ (filterDesign f)) (fun e _ he => by
        simp only [if_neg he, hδ e he]; ring)]
    have l : ∀ e ∈ filterDesign f, (if e ∈ f.mask.getD Finset.univ then ∑ i ∈ f.mask.getD Finset.univ,
        matrix f.centers (kernel .gaussian f.radius none) (support .gaussian f.radius none) none (filterDesign f) i e
          * v i else 0) * δ e = ∑ i ∈ filterDesign f,
        matrix f.centers (kernel .gaussian f.radius none) (support .gaussian f.radius none) none (filterDesign f) i e
          * v i * δ e := by
      intro e he
      have he' : e ∈ f.mask.getD Finset.univ := he
      rw [if_pos he', Finset.sum_mul]
      rfl
    rw [Finset.sum_congr rfl l, Finset.sum_comm]
    apply Finset.sum_congr rfl
    intro i hi
    simp only [if_pos hi, ← Finset.sum_sub_distrib, Finset.mul_sum]
    apply Finset.sum_congr rfl
    intro j _
    ring
  · rw [Finset.not_nonempty_iff_eq_empty] at hS
    have : δ = fun _ => 0 := by funext e; exact hδ e (by rw [hS]; simp)
    subst this
    simp only [add_zero] at h'
    rw [h] at h'
    simp only [Except.ok.injEq, Prod.mk.injEq] at h'
    rw [← h'.1]
    simp [dotP]

/-- **C28 (b)** The gradient vanishes outside the design elements, keeps the sign of non-positive sensitivities (which
the OC update needs, C13) and preserves their total over the design elements. -/
theorem C28_gradient_sign_and_total (f : Filter E d) (hr : 0 < f.radius) (x v y g : E → ℝ) (f1 : Filter E d)
    (hS : (filterDesign f).Nonempty) (h : forward f x = .ok (y, f1)) (hg : gradient f1 v = .ok g) :
    (∀ e, e ∉ filterDesign f → g e = 0) ∧ ((∀ e ∈ filterDesign f, v e ≤ 0) → ∀ e, g e ≤ 0) ∧
    ∑ e ∈ filterDesign f, g e = ∑ e ∈ filterDesign f, v e := by
  rw [forward_eq f hr hS] at h
  simp only [Except.ok.injEq, Prod.mk.injEq] at h
  obtain ⟨-, hf⟩ := h
  rw [← hf] at hg
  unfold gradient at hg
  simp only [Except.ok.injEq] at hg
  have hk := kernel_nonneg_pos .gaussian f.radius hr none
  have hs : 0 ≤ support .gaussian f.radius none := by rw [gaussian_support]; exact hr.le
  have hg' : ∀ e, g e = if e ∈ filterDesign f then ∑ i ∈ filterDesign f,
      matrix f.centers (kernel .gaussian f.radius none) (support .gaussian f.radius none) none (filterDesign f) i e
        * v i else 0 := fun e => by rw [← hg]; rfl
  refine ⟨fun e he => by rw [hg', if_neg he], fun hv e => ?_, ?_⟩
  · rw [hg']
    split_ifs
    · exact Finset.sum_nonpos fun i hi => mul_nonpos_of_nonneg_of_nonpos
        (matrix_nonneg hk.1 (fun v h => by cases h) i e) (hv i hi)
    · exact le_rfl
  · have : ∀ e ∈ filterDesign f, g e = ∑ i ∈ filterDesign f,
      matrix f.centers (kernel .gaussian f.radius none) (support .gaussian f.radius none) none (filterDesign f) i e
        * v i := fun e he => by rw [hg', if_pos he]
    rw [Finset.sum_congr rfl this, Finset.sum_comm]
    apply Finset.sum_congr rfl
    intro i hi
    rw [← Finset.sum_mul, matrix_row_sum hk.1 hk.2 hs (fun v h => by cases h) hi, one_mul]

/-- **C28 (c)** The gradient is that of the *last forward*, not of the current radius: it raises before the first
`forward` and ignores `update_radius` until the next one. -/
theorem C28_gradient_uses_last_forward (f : Filter E d) (r : ℝ) (v : E → ℝ) :
    (f.W = none → gradient f v = .error .attributeError) ∧ gradient (updateRadius f r) v = gradient f v := by
  constructor
  · intro h; unfold gradient; rw [h]
  · rfl

/-- **C27 (e)** After `update_radius(r)` the filter behaves exactly like a filter freshly built with radius `r`: neither
the old radius nor the previously stored matrix has any effect on `forward`, or on a `gradient` taken after it. -/
theorem C27_update_radius (f g : Filter E d) (hc : g.centers = f.centers) (hm : g.mask = f.mask) (r : ℝ)
    (hr : g.radius = r) (rho v : E → ℝ) :
    (forward (updateRadius f r) rho).map (fun p => (p.1, gradient p.2 v)) =
      (forward g rho).map fun p => (p.1, gradient p.2 v) := by
  subst hr
  unfold forward updateRadius gradient
  simp only [hc, hm]

/-- **C27 (g)** Nearer elements weigh more: with any of the three kernels (and no volume correction), the weight of a design element in the
filtered density of another one does not increase with their distance. -/
theorem C27_weights_decrease (c : E → EuclideanSpace ℝ (Fin d)) (kind : Kind) (r : ℝ) (hr : 0 < r) (sigma : Option ℝ)
    (mask : Option (Finset E)) (W : E → E → ℝ)
    (h : buildFilterMatrix c (kernel kind r sigma) (support kind r sigma) none mask = .ok W)
    (i j k : E) (hjk : dist (c j) (c i) ≤ dist (c k) (c i)) : W i k ≤ W i j := by
  unfold buildFilterMatrix at h
  simp only at h
  split_ifs at h
  simp only [Except.ok.injEq] at h
  subst h
  have hk := kernel_nonneg_pos kind r hr sigma
  have hmono : ∀ x y : ℝ, 0 ≤ x → x ≤ y → kernel kind r sigma y ≤ kernel kind r sigma x := by
    intro x y hx hxy
    cases kind with
    | linear => exact max_le_max le_rfl (by linarith)
    | quadratic =>
      simp only [kernel]
      split_ifs with h1 h2 h2
      · exact le_rfl
      · have : x / r < 1 := (div_lt_one hr).2 (by linarith [not_le.mp h2])
        have : 0 ≤ x / r := by positivity
        nlinarith
      · exact absurd (h2.trans hxy) h1
      · have h3 : x / r ≤ y / r := by gcongr
        have h4 : 0 ≤ x / r := by positivity
        nlinarith
    | gaussian =>
      simp only [kernel]
      refine Real.exp_le_exp.mpr ?_
      have h3 : (x / sigma.getD (r / 3)) ^ 2 ≤ (y / sigma.getD (r / 3)) ^ 2 := by
        rw [div_pow, div_pow]
        gcongr
      linarith
  have hw : weight c (kernel kind r sigma) (support kind r sigma) none i k ≤ weight c (kernel kind r sigma) (support kind r sigma) none i j := by
    unfold weight
    split_ifs with h1 h2 h2
    · exact hmono _ _ dist_nonneg hjk
    · exact absurd (hjk.trans h1) h2
    · exact hk.1 _ dist_nonneg
    · exact le_rfl
  unfold matrix
  simp only
  refine mul_le_mul_of_nonneg_left hw ?_
  have hnn : 0 ≤ ∑ k ∈ mask.getD Finset.univ, weight c (kernel kind r sigma) (support kind r sigma) none i k :=
    Finset.sum_nonneg fun k _ => by
      unfold weight
      split_ifs
      · exact hk.1 _ dist_nonneg
      · exact le_rfl
  split_ifs
  · norm_num
  · exact div_nonneg zero_le_one hnn

/-- **C27 (f)** The element centre is the mean of the element's vertices: along every affine functional its value is the
average of the vertex values; in particular it lies in the convex hull of the vertices. -/
theorem C27_center_is_mean {E : Type} {d k : ℕ} (hk : 0 < k) {N : Type} (p : N → EuclideanSpace ℝ (Fin d)) (t : E → Fin k → N)
    (e : E) : center p t e ∈ convexHull ℝ (Set.range fun i => p (t e i)) ∧
      (∑ i, (p (t e i) - center p t e)) = 0 ∧
      ∀ (φ : EuclideanSpace ℝ (Fin d) →ₗ[ℝ] ℝ) (c : ℝ), φ (center p t e) + c = (∑ i, (φ (p (t e i)) + c)) / k := by
  have hk0 : (k : ℝ) ≠ 0 := by positivity
  refine ⟨?_, ?_, ?_⟩
  · unfold center
    rw [Finset.smul_sum]
    refine (convex_convexHull ℝ _).sum_mem (fun i _ => by positivity) ?_ fun i _ =>
      subset_convexHull ℝ _ ⟨i, rfl⟩
    rw [Finset.sum_const, Finset.card_univ, Fintype.card_fin, nsmul_eq_mul, mul_inv_cancel₀ hk0]
  · rw [Finset.sum_sub_distrib, Finset.sum_const, Finset.card_univ, Fintype.card_fin, center, ← Nat.cast_smul_eq_nsmul ℝ,
      smul_smul, mul_inv_cancel₀ hk0, one_smul, sub_self]
  · intro φ c
    rw [center, map_smul, map_sum, Finset.sum_add_distrib, Finset.sum_const, Finset.card_univ, Fintype.card_fin,
      nsmul_eq_mul, smul_eq_mul]
    field_simp

/-- A concrete instance: three points on a line, the last one not a design element. -/
noncomputable def spacialExample : Filter (Fin 3) 1 :=
  { centers := fun e => !₂[(e : ℝ)], mask := some {0, 1}, radius := 1.5 }

example : 0 < spacialExample.radius ∧ (filterDesign spacialExample).Nonempty ∧
    ∃ y f1, forward spacialExample (fun e => (e : ℝ)) = .ok (y, f1) ∧ y 2 = 2 ∧ 0 ≤ y 0 ∧ y 0 ≤ 1 := by
  have hr : 0 < spacialExample.radius := by norm_num [spacialExample]
  have hS : (filterDesign spacialExample).Nonempty := ⟨0, by simp [filterDesign, spacialExample]⟩
  refine ⟨hr, hS, ?_⟩
  obtain ⟨F, h1, h2, -, -, -, h6⟩ := C27_spacial_average spacialExample hr hS
  obtain ⟨f1, hf1⟩ := h1 (fun e => (e : ℝ))
  refine ⟨_, _, hf1, ?_, ?_⟩
  · rw [h6 _ 2 (by simp [filterDesign, spacialExample])]; norm_num
  · apply h2 (fun e => (e : ℝ)) 0 1 _ 0 (by simp [filterDesign, spacialExample])
    intro e he
    simp only [filterDesign, spacialExample, Option.getD_some, Finset.mem_insert, Finset.mem_singleton] at he
    rcases he with rfl | rfl <;> norm_num

end Verif.Props
