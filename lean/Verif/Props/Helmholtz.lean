import Verif.Lemmas.Helmholtz

/-! Property theorems C29-C32, C56, C57: the Helmholtz filters and element adjacency. -/
namespace Verif.Props
open Verif Verif.Helmholtz Verif.Spec
open Classical

variable {n : ℕ}

/-- An exact linear solver for the filter system. -/
def ExactSolver (M : Mesh n) (r : ℝ) (solve : (Fin n → ℝ) → (Fin n → ℝ)) : Prop := ∀ b, opA M r (solve b) = b

/-- **C29 (a)** The filter system always has exactly one solution, for every mesh with positive volumes and every
radius. -/
theorem C29_helmholtz_unique_solution (M : Mesh n) (hv : ∀ i, 0 < M.vol i) (r : ℝ) (rho : Fin n → ℝ) :
    ∃! y, opA M r y = opV M rho := by
  obtain ⟨y, hy⟩ := opA_surjective hv r (opV M rho)
  exact ⟨y, hy, fun z hz => opA_injective hv r (hz.trans hy.symm)⟩

/-- **C29 (b)** Discrete maximum principle and reproduction of constants, for every exact solver. -/
theorem C29_helmholtz_maximum_principle (M : Mesh n) (hv : ∀ i, 0 < M.vol i) (r : ℝ)
    (solve : (Fin n → ℝ) → (Fin n → ℝ)) (hs : ExactSolver M r solve) :
    StaysInRange Finset.univ (forward M solve) ∧ PreservesConstants Finset.univ (forward M solve) := by
  have range : StaysInRange Finset.univ (forward M solve) := by
    intro x lo hi hx e _
    have hsol : opA M r (forward M solve x) = opV M x := hs _
    refine ⟨?_, max_principle hv r hsol (fun i => (hx i (Finset.mem_univ _)).2) e⟩
    have hneg : opA M r (fun i => (-1) * forward M solve x i + 0 * x i) = opV M fun i => -x i := by
      funext i
      rw [opA_lin, hsol]; unfold opV; ring
    have := max_principle hv r hneg (hi := -lo) (fun i => by linarith [(hx i (Finset.mem_univ _)).1]) e
    linarith
  refine ⟨range, fun c e he => ?_⟩
  have := range (fun _ => c) c c (fun _ _ => ⟨le_rfl, le_rfl⟩) e he
  exact le_antisymm this.2 this.1

/-- **C29 (c)** The filter conserves the volume integral of the density: `Σ vol * forward(rho) = Σ vol * rho`, for the
adjacency computed from shared faces. -/
theorem C29_helmholtz_volume (c : Fin n → EuclideanSpace ℝ (Fin 3)) (faces : Fin n → List (List ℕ)) (vol : Fin n → ℝ)
    (hv : ∀ i, 0 < vol i) (r : ℝ) (solve : (Fin n → ℝ) → (Fin n → ℝ))
    (hs : ExactSolver (Mesh.ofFaces c faces vol) r solve) (rho : Fin n → ℝ) :
    ∑ i, vol i * forward (Mesh.ofFaces c faces vol) solve rho i = ∑ i, vol i * rho i := by
  set M := Mesh.ofFaces c faces vol with hM
  rcases Nat.eq_zero_or_pos n with h0 | hn
  · subst h0; simp
  have hsol : opA M r (forward M solve rho) = opV M rho := hs _
  have hsum : ∑ i, opA M r (forward M solve rho) i = ∑ i, opV M rho i := by rw [hsol]
  unfold opA opV at hsum
  rw [Finset.sum_add_distrib, ← Finset.mul_sum, laplacian_sum_zero (symmAdj_ofFaces c faces vol), mul_zero,
    add_zero] at hsum
  have hs0 : 0 < (∑ k, M.vol k) / n := by
    have : 0 < ∑ k, M.vol k := Finset.sum_pos (fun k _ => hv k) ⟨⟨0, hn⟩, Finset.mem_univ _⟩
    positivity
  have e : ∀ z : Fin n → ℝ, ∑ i, vnorm M i * z i = (∑ i, vol i * z i) / ((∑ k, M.vol k) / n) := by
    intro z
    rw [Finset.sum_div]
    apply Finset.sum_congr rfl
    intro i _
    have : M.vol i = vol i := rfl
    unfold vnorm; rw [this]; ring
  rw [e, e, div_left_inj' hs0.ne'] at hsum
  exact hsum

/-- **C29 (d)** The filter is order preserving and linear. -/
theorem C29_helmholtz_monotone_linear (M : Mesh n) (hv : ∀ i, 0 < M.vol i) (r : ℝ)
    (solve : (Fin n → ℝ) → (Fin n → ℝ)) (hs : ExactSolver M r solve) :
    Monotone (forward M solve) ∧ IsLinear (forward M solve) := by
  have hlin : IsLinear (forward M solve) := by
    intro x y a b
    apply opA_injective hv r
    funext i
    rw [opA_lin]
    have h1 : opA M r (forward M solve fun e => a * x e + b * y e) = opV M _ := hs _
    have h2 : opA M r (forward M solve x) = opV M x := hs _
    have h3 : opA M r (forward M solve y) = opV M y := hs _
    rw [h1, h2, h3]
    unfold opV; ring
  refine ⟨fun x y hxy i => ?_, hlin⟩
  have h := hlin x y 1 (-1)
  have h0 := ((C29_helmholtz_maximum_principle M hv r solve hs).1 (fun e => 1 * x e + -1 * y e)
    (-∑ j, |x j - y j|) 0 (fun e _ => ⟨by
      have h1 := Finset.single_le_sum (f := fun j => |x j - y j|) (fun j _ => abs_nonneg _) (Finset.mem_univ e)
      have := neg_abs_le (x e - y e)
      linarith, by have := hxy e; linarith⟩) i (Finset.mem_univ i)).2
  rw [h] at h0
  linarith

/-- **C30 (a)** Violated: the operator is not `V + r² L` with `L` independent of `r`. For every mesh with two adjacent
elements whose centres are at least `1e-12` apart, no radius-independent `L` fits — not even for two radii. -/
theorem C30_radius_misused (M : Mesh n) (i j : Fin n) (hij : i ≠ j) (hadj : j ∈ M.adj i)
    (hd : 1 / 10 ^ 12 ≤ dist (M.centers i) (M.centers j)) :
    ¬ ∃ L : (Fin n → ℝ) → (Fin n → ℝ), ∀ r : ℝ, 0 < r → ∀ x i, opA M r x i = opV M x i + r ^ 2 * L x i := by
  rintro ⟨L, hL⟩
  set x : Fin n → ℝ := fun l => if l = j then 1 else 0 with hx
  have hlap : ∀ r, laplacian M r x i = -coup M r i j := by
    intro r
    rw [laplacian_eq, Finset.sum_eq_single j]
    · simp [hx, hij]
    · intro l _ hl; simp [hx, hij, hl]
    · intro h; exact absurd (Finset.mem_univ j) h
  have hm : 0 < mult M i j := by
    unfold mult; exact_mod_cast List.count_pos_iff.mpr hadj
  have h1 := hL 1 one_pos x i
  have h2 := hL 2 two_pos x i
  unfold opA opV at h1 h2
  rw [hlap] at h1 h2
  simp only [coup, weight, if_neg (not_lt.mpr hd)] at h1 h2
  set D := dist (M.centers i) (M.centers j)
  have hexp : Real.exp (-D ^ 2 / (2 * 1 ^ 2)) ≤ Real.exp (-D ^ 2 / (2 * 2 ^ 2)) := by
    apply Real.exp_le_exp.mpr
    have := sq_nonneg D
    norm_num
    rw [div_le_div_iff₀ (by norm_num) (by norm_num)]
    linarith
  have hpos := Real.exp_pos (-D ^ 2 / (2 * 2 ^ 2))
  have : mult M i j * (4 * Real.exp (-D ^ 2 / (2 * 2 ^ 2))) = mult M i j * Real.exp (-D ^ 2 / (2 * 1 ^ 2)) := by
    linarith
  have := mul_left_cancel₀ hm.ne' this
  linarith

/-- **C30 (b)** What the operator is instead: `V + r⁴ L_r`, where `L_r` is the graph Laplacian of the face adjacency with
Gaussian weights `exp(-dist²/(2 r²))`. (Missing: agreement with the documented `r²`, which (a) refutes.) -/
theorem C30_operator_partial (M : Mesh n) (r : ℝ) (x : Fin n → ℝ) (i : Fin n) :
    opA M r x i = opV M x i + r ^ 4 * ∑ j, ((M.adj i).count j : ℝ) * weight M r i j * (x i - x j) := by
  unfold opA opV
  rw [laplacian_eq, Finset.mul_sum, Finset.mul_sum]
  congr 1
  apply Finset.sum_congr rfl
  intro j _
  unfold coup mult
  ring

/-- **C31 (a)** Exact characterisation: `gradient` is the adjoint of `forward` if and only if any two face-adjacent
elements (with centres `1e-12` apart) have equal volume. -/
theorem C31_gradient_adjoint_iff_equal_volumes (c : Fin n → EuclideanSpace ℝ (Fin 3)) (faces : Fin n → List (List ℕ))
    (vol : Fin n → ℝ) (hv : ∀ i, 0 < vol i) (r : ℝ) (hr : r ≠ 0) (solve : (Fin n → ℝ) → (Fin n → ℝ))
    (hs : ExactSolver (Mesh.ofFaces c faces vol) r solve) :
    IsAdjoint (forward (Mesh.ofFaces c faces vol) solve) (gradient (Mesh.ofFaces c faces vol) solve) ↔
    ∀ i j, j ∈ Adjacency.adjacency faces i → 1 / 10 ^ 12 ≤ dist (c i) (c j) → vol i = vol j := by
  set M := Mesh.ofFaces c faces vol with hM
  have hsym : SymmAdj M := symmAdj_ofFaces c faces vol
  have hvp : ∀ i, 0 < vnorm M i := fun i => vnorm_pos (M := M) hv i
  have hAsym : ∀ x y, ∑ i, opA M r x i * y i = ∑ i, x i * opA M r y i := by
    intro x y
    unfold opA
    simp only [add_mul, mul_add, Finset.sum_add_distrib]
    have := laplacian_symm hsym r x y
    have e1 : ∑ i, r ^ 2 * laplacian M r x i * y i = r ^ 2 * ∑ i, laplacian M r x i * y i := by
      rw [Finset.mul_sum]; exact Finset.sum_congr rfl fun i _ => by ring
    have e2 : ∑ i, x i * (r ^ 2 * laplacian M r y i) = r ^ 2 * ∑ i, x i * laplacian M r y i := by
      rw [Finset.mul_sum]; exact Finset.sum_congr rfl fun i _ => by ring
    rw [e1, e2, this]
    congr 1
    exact Finset.sum_congr rfl fun i _ => by ring
  have hsolve : ∀ u : Fin n → ℝ, solve (opV M fun i => opA M r u i / vnorm M i) = u := by
    intro u
    apply opA_injective (M := M) hv r
    rw [hs]
    funext i
    unfold opV
    rw [mul_div_cancel₀ _ (hvp i).ne']
  constructor
  · intro hadj i j hij hd
    by_cases hne : i = j
    · rw [hne]
    have key := hadj (fun l => opA M r (fun m => if m = i then 1 else 0) l / vnorm M l)
      (fun l => opA M r (fun m => if m = j then 1 else 0) l / vnorm M l)
    unfold dotP forward gradient at key
    rw [hsolve, hsolve] at key
    simp only [ite_mul, one_mul, zero_mul, mul_ite, mul_one, mul_zero, Finset.sum_ite_eq', Finset.mem_univ,
      if_true] at key
    have hA : ∀ a b : Fin n, a ≠ b → opA M r (fun m => if m = b then 1 else 0) a = -(r ^ 2 * coup M r a b) := by
      intro a b hab
      unfold opA
      simp only [if_neg hab]
      rw [laplacian_eq, Finset.sum_eq_single b]
      · simp [hab]
      · intro l _ hl; simp [hab, hl]
      · intro h; exact absurd (Finset.mem_univ b) h
    rw [hA i j hne, hA j i (Ne.symm hne), coup_symm hsym r j i] at key
    have hc : coup M r i j ≠ 0 := by
      unfold coup mult weight
      have h1 : (0 : ℝ) < ((M.adj i).count j : ℝ) := by exact_mod_cast List.count_pos_iff.mpr hij
      have h2 : ¬ dist (M.centers i) (M.centers j) < 1 / 10 ^ 12 := not_lt.mpr hd
      rw [if_neg h2]
      have := Real.exp_pos (-(dist (M.centers i) (M.centers j)) ^ 2 / (2 * r ^ 2))
      positivity
    have hX : -(r ^ 2 * coup M r i j) ≠ 0 := neg_ne_zero.mpr (mul_ne_zero (pow_ne_zero 2 hr) hc)
    rw [div_eq_div_iff (hvp i).ne' (hvp j).ne'] at key
    have hvn := mul_left_cancel₀ hX key
    have hden : (0 : ℝ) < (∑ k, M.vol k) / n := by
      have hn : 0 < n := Fin.pos i
      have : 0 < ∑ k, M.vol k := Finset.sum_pos (fun k _ => hv k) ⟨i, Finset.mem_univ _⟩
      positivity
    unfold vnorm at hvn
    rw [div_left_inj' hden.ne'] at hvn
    exact hvn.symm
  · intro hvol x y
    set u := solve (opV M x) with hu
    set w := solve (opV M y) with hw
    have hAu : opA M r u = opV M x := hs _
    have hAw : opA M r w = opV M y := hs _
    -- `V` commutes with `A`
    have hcoup : ∀ i j, coup M r i j * vnorm M i = coup M r i j * vnorm M j := by
      intro i j
      by_cases hm : j ∈ M.adj i
      · by_cases hd : dist (M.centers i) (M.centers j) < 1 / 10 ^ 12
        · unfold coup weight; rw [if_pos hd]; ring
        · have : M.vol i = M.vol j := hvol i j hm (not_lt.mp hd)
          unfold vnorm; rw [this]
      · unfold coup mult; rw [List.count_eq_zero_of_not_mem hm]; simp
    have hcomm : ∀ z i, opA M r (fun l => vnorm M l * z l) i = vnorm M i * opA M r z i := by
      intro z i
      unfold opA
      rw [laplacian_eq, laplacian_eq, mul_add]
      congr 1
      rw [Finset.mul_sum, Finset.mul_sum, Finset.mul_sum]
      apply Finset.sum_congr rfl
      intro j _
      linear_combination (r ^ 2 * z j) * hcoup i j
    set u' : Fin n → ℝ := fun l => u l / vnorm M l with hu'
    have huu : (fun l => vnorm M l * u' l) = u := by
      funext l; simp only [hu']; rw [mul_div_cancel₀ _ (hvp l).ne']
    have hx : opA M r u' = x := by
      funext i
      have h1 := hcomm u' i
      rw [huu, hAu] at h1
      unfold opV at h1
      exact (mul_left_cancel₀ (hvp i).ne' h1).symm
    show ∑ e, u e * y e = ∑ e, x e * w e
    calc ∑ e, u e * y e = ∑ e, u' e * opA M r w e := by
          apply Finset.sum_congr rfl; intro e _
          rw [hAw, ← congrFun huu e]; unfold opV; ring
      _ = ∑ e, opA M r u' e * w e := (hAsym u' w).symm
      _ = ∑ e, x e * w e := by rw [hx]

/-- **C31 (b)** In the volume-weighted inner product the filter is always self-adjoint, so the correct sensitivity is
`V forward(V⁻¹ v)`. (This is what holds for all meshes instead of the plain adjointness.) -/
theorem C31_weighted_adjoint_partial (c : Fin n → EuclideanSpace ℝ (Fin 3)) (faces : Fin n → List (List ℕ))
    (vol : Fin n → ℝ) (hv : ∀ i, 0 < vol i) (r : ℝ) (solve : (Fin n → ℝ) → (Fin n → ℝ))
    (hs : ExactSolver (Mesh.ofFaces c faces vol) r solve) (x y : Fin n → ℝ) :
    ∑ i, vol i * forward (Mesh.ofFaces c faces vol) solve x i * y i =
      ∑ i, vol i * x i * forward (Mesh.ofFaces c faces vol) solve y i := by
  set M := Mesh.ofFaces c faces vol with hM
  rcases Nat.eq_zero_or_pos n with h0 | hn
  · subst h0; simp
  set u := forward M solve x with hu
  set w := forward M solve y with hw
  have hAu : opA M r u = opV M x := hs _
  have hAw : opA M r w = opV M y := hs _
  have hsym := laplacian_symm (symmAdj_ofFaces c faces vol) r u w
  have h1 : ∑ i, u i * opA M r w i = ∑ i, opA M r u i * w i := by
    unfold opA
    simp only [add_mul, mul_add, Finset.sum_add_distrib]
    have e1 : ∑ i, r ^ 2 * laplacian M r u i * w i = r ^ 2 * ∑ i, laplacian M r u i * w i := by
      rw [Finset.mul_sum]; exact Finset.sum_congr rfl fun i _ => by ring
    have e2 : ∑ i, u i * (r ^ 2 * laplacian M r w i) = r ^ 2 * ∑ i, u i * laplacian M r w i := by
      rw [Finset.mul_sum]; exact Finset.sum_congr rfl fun i _ => by ring
    rw [e1, e2, ← hsym]
    congr 1
    exact Finset.sum_congr rfl fun i _ => by ring
  rw [hAw, hAu] at h1
  have hden : (0 : ℝ) < (∑ k, M.vol k) / n := by
    have : 0 < ∑ k, M.vol k := Finset.sum_pos (fun k _ => hv k) ⟨⟨0, hn⟩, Finset.mem_univ _⟩
    positivity
  have e : ∀ z z' : Fin n → ℝ, ∑ i, vol i * z i * z' i = (∑ i, vnorm M i * z i * z' i) * ((∑ k, M.vol k) / n) := by
    intro z z'
    rw [Finset.sum_mul]
    apply Finset.sum_congr rfl
    intro i _
    have : M.vol i = vol i := rfl
    have hd0 := hden.ne'
    unfold vnorm; rw [this]
    generalize (∑ k, M.vol k) / (n : ℝ) = D at hd0
    field_simp
  rw [e, e]
  congr 1
  unfold opV at h1
  calc ∑ i, vnorm M i * u i * y i = ∑ i, u i * (vnorm M i * y i) := Finset.sum_congr rfl fun i _ => by ring
    _ = _ := h1

/-! ### Nodal filter -/

variable {E N : Type} [Fintype E] [Fintype N] {k : ℕ}

/-- **C32 (a)** Element-to-node transfer: at every node belonging to at least one element the result lies between the
smallest and largest value taken by the elements containing it (density on design elements, the fixed value elsewhere);
in particular constants equal to the fixed value are reproduced. -/
theorem C32_element_to_node_range (t : E → Fin k → N) (vol : E → ℝ) (hv : ∀ e, 0 < vol e) (design : Option (Finset E))
    (weighted : Bool) (fixedValue : ℝ) (rho : E → ℝ) (m : N) (hm : ∃ e, ∃ i, t e i = m) (lo hi : ℝ)
    (hdes : ∀ e ∈ design.getD Finset.univ, (∃ i, t e i = m) → lo ≤ rho e ∧ rho e ≤ hi)
    (hfix : ∀ e ∉ design.getD Finset.univ, (∃ i, t e i = m) → lo ≤ fixedValue ∧ fixedValue ≤ hi) :
    lo ≤ elementToNode t vol design weighted fixedValue rho m ∧
      elementToNode t vol design weighted fixedValue rho m ≤ hi := by
  unfold elementToNode
  simp only
  set S := design.getD Finset.univ
  set w : E → ℝ := fun e => if weighted then vol e else 1 with hw
  have hwpos : ∀ e, 0 < w e := by intro e; simp only [hw]; split_ifs; exact hv e; norm_num
  have hval : ∀ e, (∃ i, t e i = m) → lo ≤ (if e ∈ S then rho e else fixedValue) ∧
      (if e ∈ S then rho e else fixedValue) ≤ hi := by
    intro e he
    by_cases h : e ∈ S
    · simp only [if_pos h]; exact hdes e h he
    · simp only [if_neg h]; exact hfix e h he
  have hsum : 0 < ∑ e, if ∃ i, t e i = m then w e else 0 := by
    obtain ⟨e, he⟩ := hm
    apply Finset.sum_pos' (fun e _ => by split_ifs; exact (hwpos e).le; exact le_rfl)
    exact ⟨e, Finset.mem_univ _, by rw [if_pos he]; exact hwpos e⟩
  rw [if_neg hsum.ne', le_div_iff₀ hsum, div_le_iff₀ hsum, Finset.mul_sum, Finset.mul_sum]
  constructor
  · apply Finset.sum_le_sum
    intro e _
    by_cases he : ∃ i, t e i = m
    · rw [if_pos he, if_pos he, mul_comm]
      exact mul_le_mul_of_nonneg_left (hval e he).1 (hwpos e).le
    · rw [if_neg he, if_neg he, mul_zero]
  · apply Finset.sum_le_sum
    intro e _
    by_cases he : ∃ i, t e i = m
    · rw [if_pos he, if_pos he, mul_comm hi]
      exact mul_le_mul_of_nonneg_left (hval e he).2 (hwpos e).le
    · rw [if_neg he, if_neg he, mul_zero]

/-- **C32 (b)** Node-to-element transfer: the element value lies between the smallest and largest value of its nodes. -/
theorem C32_node_to_element_range (t : E → Fin k → N) (hk : 0 < k) (x : N → ℝ) (e : E) (lo hi : ℝ)
    (hx : ∀ i, lo ≤ x (t e i) ∧ x (t e i) ≤ hi) : lo ≤ nodeToElement t x e ∧ nodeToElement t x e ≤ hi := by
  unfold nodeToElement
  have hk' : (0 : ℝ) < k := by exact_mod_cast hk
  rw [le_div_iff₀ hk', div_le_iff₀ hk']
  have e1 : ∑ _i : Fin k, lo = lo * k := by simp [mul_comm]
  have e2 : ∑ _i : Fin k, hi = hi * k := by simp [mul_comm]
  exact ⟨e1 ▸ Finset.sum_le_sum fun i _ => (hx i).1, e2 ▸ Finset.sum_le_sum fun i _ => (hx i).2⟩

/-- **C32 (c)** The gradient output is never positive, whatever the input and the solver. -/
theorem C32_nodal_gradient_nonpos (t : E → Fin k → N) (vol : E → ℝ) (design : Option (Finset E))
    (solveG : (N → ℝ) → (N → ℝ)) (v : E → ℝ) (e : E) : nodalGradient t vol design solveG v e ≤ 0 :=
  min_le_right _ _

/-- **C32 (d)** If the nodal PDE solve obeys the maximum principle (including the fixed value 1 when there are non-design
elements), so does the whole filter: filtered densities of a field in `[lo, 1]` stay in `[lo, 1]`. -/
theorem C32_nodal_forward_range (t : E → Fin k → N) (hk : 0 < k) (vol : E → ℝ) (hv : ∀ e, 0 < vol e)
    (design : Option (Finset E)) (hcover : ∀ m : N, ∃ e, ∃ i, t e i = m) (solveF : (N → ℝ) → (N → ℝ)) (lo : ℝ)
    (hlo : lo ≤ 1) (hsolve : ∀ y : N → ℝ, (∀ m, lo ≤ y m ∧ y m ≤ 1) → ∀ m, lo ≤ solveF y m ∧ solveF y m ≤ 1)
    (rho : E → ℝ) (hrho : ∀ e, lo ≤ rho e ∧ rho e ≤ 1) (e : E) :
    lo ≤ nodalForward t vol design solveF rho e ∧ nodalForward t vol design solveF rho e ≤ 1 := by
  apply C32_node_to_element_range t hk
  intro i
  apply hsolve
  intro m
  exact C32_element_to_node_range t vol hv design true 1 rho m (hcover m) lo 1 (fun e _ _ => hrho e)
    (fun e _ _ => ⟨hlo, le_rfl⟩)

/-- **C32 (e)** The nodal PDE solve with natural boundary conditions: when the stiffness matrix is symmetric and
annihilates constants and the mass matrix is symmetric, every solution has the same integral as the input, and the
constant field solves the equation with a constant right-hand side. -/
theorem C32_nodal_solve_conserves (Mm K : N → N → ℝ) (hM : ∀ m l, Mm m l = Mm l m) (hK : ∀ m l, K m l = K l m)
    (hK1 : ∀ m, ∑ l, K m l = 0) (r fv : ℝ) :
    (∀ y x, SolvesNodal Mm K r fv ∅ y x → ∑ m, (∑ l, Mm m l) * x m = ∑ m, (∑ l, Mm m l) * y m) ∧
    ∀ c : ℝ, SolvesNodal Mm K r fv ∅ (fun _ => c) (fun _ => c) := by
  constructor
  · rintro y x ⟨h, -⟩
    have hsum : ∑ m, ∑ l, (Mm m l + r ^ 2 * K m l) * x l = ∑ m, ∑ l, Mm m l * y l :=
      Finset.sum_congr rfl fun m _ => h m (by simp)
    rw [Finset.sum_comm, Finset.sum_comm (f := fun m l => Mm m l * y l)] at hsum
    calc ∑ m, (∑ l, Mm m l) * x m = ∑ l, ∑ m, (Mm m l + r ^ 2 * K m l) * x l := by
          apply Finset.sum_congr rfl
          intro l _
          rw [← Finset.sum_mul, Finset.sum_add_distrib, ← Finset.mul_sum]
          have : ∑ m, K m l = 0 := by rw [← hK1 l]; exact Finset.sum_congr rfl fun m _ => hK m l
          rw [this, mul_zero, add_zero]
          congr 1
          exact Finset.sum_congr rfl fun m _ => hM l m
      _ = ∑ l, ∑ m, Mm m l * y l := hsum
      _ = ∑ m, (∑ l, Mm m l) * y m := by
          apply Finset.sum_congr rfl
          intro l _
          rw [← Finset.sum_mul]
          congr 1
          exact Finset.sum_congr rfl fun m _ => hM m l
  · intro c
    refine ⟨fun m _ => ?_, fun m hm => by simp at hm⟩
    have : ∑ l, (Mm m l + r ^ 2 * K m l) * c = ∑ l, Mm m l * c + r ^ 2 * (∑ l, K m l) * c := by
      rw [Finset.mul_sum, Finset.sum_mul, ← Finset.sum_add_distrib]
      exact Finset.sum_congr rfl fun l _ => by ring
    rw [this, hK1]; ring

/-- **C56** Violated: the nodal filter's `gradient` cannot be the adjoint of `forward` (nor any linear map): whenever it
is not identically zero, it fails `gradient (-v) = -gradient v`. -/
theorem C56_nodal_gradient_not_linear (t : E → Fin k → N) (vol : E → ℝ) (design : Option (Finset E))
    (solveG : (N → ℝ) → (N → ℝ)) (v : E → ℝ) (e : E) (h : nodalGradient t vol design solveG v e ≠ 0) :
    nodalGradient t vol design solveG (fun e => -v e) e ≠ -nodalGradient t vol design solveG v e := by
  have h1 := C32_nodal_gradient_nonpos t vol design solveG v e
  have h2 := C32_nodal_gradient_nonpos t vol design solveG (fun e => -v e) e
  intro h3
  apply h
  linarith

/-- **C56 (b)** Hence it is not the adjoint of any map at all unless it is identically zero. -/
theorem C56_nodal_gradient_not_adjoint (t : E → Fin k → N) (vol : E → ℝ) (design : Option (Finset E))
    (solveG : (N → ℝ) → (N → ℝ)) (v : E → ℝ) (e : E) (h : nodalGradient t vol design solveG v e ≠ 0)
    (F : (E → ℝ) → (E → ℝ)) : ¬ IsAdjoint F (nodalGradient t vol design solveG) := by
  intro hadj
  apply C56_nodal_gradient_not_linear t vol design solveG v e h
  have h1 := hadj v (fun e' => if e' = e then 1 else 0)
  have h2 := hadj (fun e' => -v e') (fun e' => if e' = e then 1 else 0)
  unfold dotP at h1 h2
  simp only [mul_ite, mul_one, mul_zero, Finset.sum_ite_eq', Finset.mem_univ, if_true] at h1 h2
  rw [h2, h1, ← Finset.sum_neg_distrib]
  exact Finset.sum_congr rfl fun i _ => by ring

/-! ### Adjacency -/

/-- **C57 (a)** Element adjacency is symmetric, with multiplicities (number of shared faces). -/
theorem C57_adjacency_symmetric (faces : Fin n → List (List ℕ)) (i j : Fin n) :
    (Adjacency.adjacency faces i).count j = (Adjacency.adjacency faces j).count i :=
  Adjacency.adjacency_count faces i j

/-- **C57 (b)** On a conforming mesh — no element lists a face twice and every face belongs to at most two elements —
the neighbours of an element are exactly the other elements having a face in common with it. -/
theorem C57_adjacency_exact (faces : Fin n → List (List ℕ)) (hnd : ∀ i, (faces i).Nodup)
    (hconf : ∀ f i j l, f ∈ faces i → f ∈ faces j → f ∈ faces l → i = j ∨ i = l ∨ j = l) (i j : Fin n) :
    j ∈ Adjacency.adjacency faces i ↔ i ≠ j ∧ ∃ f, f ∈ faces i ∧ f ∈ faces j := by
  rw [Adjacency.mem_adjacency]
  have hcount : ∀ f a, (Adjacency.elemsOf faces f).count a ≤ 1 := by
    intro f a
    rw [Adjacency.count_elemsOf]
    exact List.nodup_iff_count_le_one.mp (hnd a) f
  constructor
  · rintro ⟨f, hf⟩
    have hne : i ≠ j := by
      rintro rfl
      have := hcount f i
      rcases hf with h | h <;> · rw [h] at this; simp at this
    refine ⟨hne, f, ?_, ?_⟩
    · exact Adjacency.mem_elemsOf.mp (by rcases hf with h | h <;> rw [h] <;> simp)
    · exact Adjacency.mem_elemsOf.mp (by rcases hf with h | h <;> rw [h] <;> simp)
  · rintro ⟨hne, f, hi, hj⟩
    refine ⟨f, ?_⟩
    have hmi := Adjacency.mem_elemsOf.mpr hi
    have hmj := Adjacency.mem_elemsOf.mpr hj
    have hnodup : (Adjacency.elemsOf faces f).Nodup := List.nodup_iff_count_le_one.mpr (hcount f)
    have honly : ∀ a ∈ Adjacency.elemsOf faces f, a = i ∨ a = j := by
      intro a ha
      rcases hconf f i j a hi hj (Adjacency.mem_elemsOf.mp ha) with h | h | h
      · exact absurd h hne
      · left; exact h.symm
      · right; exact h.symm
    generalize Adjacency.elemsOf faces f = l at *
    match l, hnodup, honly, hmi, hmj with
    | [], _, _, h, _ => simp at h
    | [a], _, _, h1, h2 =>
      simp only [List.mem_singleton] at h1 h2
      exact absurd (h1.trans h2.symm) hne
    | [a, b], hn, ho, h1, h2 =>
      have ha := ho a (by simp)
      have hb := ho b (by simp)
      have hab : a ≠ b := by rintro rfl; simp at hn
      rcases ha with rfl | rfl <;> rcases hb with rfl | rfl
      · exact absurd rfl hab
      · left; rfl
      · right; rfl
      · exact absurd rfl hab
    | a :: b :: c :: l, hn, ho, _, _ =>
      exfalso
      have ha := ho a (by simp)
      have hb := ho b (by simp)
      have hc := ho c (by simp)
      simp only [List.nodup_cons, List.mem_cons, not_or] at hn
      rcases ha with rfl | rfl <;> rcases hb with rfl | rfl <;> rcases hc with rfl | rfl <;> simp_all

/-- **C57 (c)** Two tetrahedra have a face key in common exactly when some three-node face of one is a rearrangement of
a face of the other (the keys do not depend on the node order). -/
theorem C57_face_key_order_free (l l' : List ℕ) : Adjacency.key l = Adjacency.key l' ↔ l.Perm l' :=
  Adjacency.key_eq_iff

/-- Two tetrahedra sharing the face `{1,2,3}`, with different node orders, are adjacent, and the filter's hypotheses are
met by them. -/
def twoTets : Fin 2 → List (List ℕ) := ![Adjacency.tetFaces ![0, 1, 2, 3], Adjacency.tetFaces ![3, 2, 1, 4]]

example : Adjacency.adjacency twoTets 0 = [1] ∧ Adjacency.adjacency twoTets 1 = [0] := by decide

example : ∃ solve, ExactSolver (Mesh.ofFaces (fun i => !₂[(i : ℝ), 0, 0]) twoTets (fun i => 1 + (i : ℝ))) 0.5 solve := by
  have h := opA_surjective (M := Mesh.ofFaces (fun i => !₂[(i : ℝ), 0, 0]) twoTets (fun i => 1 + (i : ℝ)))
    (fun i => by show (0 : ℝ) < 1 + (i : ℝ); positivity) 0.5
  exact ⟨fun b => (h b).choose, fun b => (h b).choose_spec⟩

end Verif.Props
