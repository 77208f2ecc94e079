import Verif.Props.Helmholtz
import Verif.Props.Projection
import Mathlib.Analysis.SpecialFunctions.Integrals.Basic

/-!
C93: whether the default (nodal Helmholtz) filter maps densities to densities. It does when no two different nodes have a
positive coupling in `M + r² K`; with the finite element matrices of hexahedra and a small radius it does not.
-/
namespace Verif.Props
open Verif Verif.Helmholtz
open Classical

variable {E N : Type} [Fintype E] [Fintype N] {k : ℕ}

/-- The nodal solve obeys the maximum principle when the off-diagonal entries of `M + r² K` are not positive. -/
theorem nodal_maximum_principle (Mm K : N → N → ℝ) (hM : ∀ a b, 0 ≤ Mm a b) (hrow : ∀ a, 0 < ∑ b, Mm a b) (hK : ∀ a, ∑ b, K a b = 0)
    (r : ℝ) (hoff : ∀ a b, a ≠ b → Mm a b + r ^ 2 * K a b ≤ 0) (D : Finset N) (lo hi fv : ℝ) (hf : lo ≤ fv ∧ fv ≤ hi) (y x : N → ℝ)
    (hy : ∀ n, lo ≤ y n ∧ y n ≤ hi) (hx : SolvesNodal Mm K r fv D y x) (n : N) : lo ≤ x n ∧ x n ≤ hi := by
  have hsum : ∀ a, ∑ b, (Mm a b + r ^ 2 * K a b) * x b = ∑ b, (Mm a b + r ^ 2 * K a b) * (x b - x a) + (∑ b, Mm a b) * x a := by
    intro a
    have h1 : ∑ b, (Mm a b + r ^ 2 * K a b) = ∑ b, Mm a b := by
      rw [Finset.sum_add_distrib, ← Finset.mul_sum, hK a, mul_zero, add_zero]
    rw [← h1, Finset.sum_mul, ← Finset.sum_add_distrib]
    exact Finset.sum_congr rfl fun b _ => by ring
  constructor
  · obtain ⟨a, -, ha⟩ := Finset.exists_min_image Finset.univ x ⟨n, Finset.mem_univ n⟩
    refine le_trans ?_ (ha n (Finset.mem_univ n))
    by_cases hD : a ∈ D
    · rw [hx.2 a hD]; exact hf.1
    · have h1 := hx.1 a hD
      rw [hsum a] at h1
      have h2 : ∑ b, (Mm a b + r ^ 2 * K a b) * (x b - x a) ≤ 0 := by
        refine Finset.sum_nonpos fun b _ => ?_
        by_cases hb : a = b
        · subst hb; simp
        · exact mul_nonpos_of_nonpos_of_nonneg (hoff a b hb) (by have := ha b (Finset.mem_univ b); linarith)
      have h3 : (∑ b, Mm a b) * lo ≤ ∑ b, Mm a b * y b := by
        rw [Finset.sum_mul]
        exact Finset.sum_le_sum fun b _ => mul_le_mul_of_nonneg_left (hy b).1 (hM a b)
      exact le_of_mul_le_mul_left (by linarith) (hrow a)
  · obtain ⟨a, -, ha⟩ := Finset.exists_max_image Finset.univ x ⟨n, Finset.mem_univ n⟩
    refine le_trans (ha n (Finset.mem_univ n)) ?_
    by_cases hD : a ∈ D
    · rw [hx.2 a hD]; exact hf.2
    · have h1 := hx.1 a hD
      rw [hsum a] at h1
      have h2 : 0 ≤ ∑ b, (Mm a b + r ^ 2 * K a b) * (x b - x a) := by
        refine Finset.sum_nonneg fun b _ => ?_
        by_cases hb : a = b
        · subst hb; simp
        · exact mul_nonneg_of_nonpos_of_nonpos (hoff a b hb) (by have := ha b (Finset.mem_univ b); linarith)
      have h3 : ∑ b, Mm a b * y b ≤ (∑ b, Mm a b) * hi := by
        rw [Finset.sum_mul]
        exact Finset.sum_le_sum fun b _ => mul_le_mul_of_nonneg_left (hy b).2 (hM a b)
      exact le_of_mul_le_mul_left (by linarith) (hrow a)

/-- **C93 (partial: when no two different nodes are positively coupled).** The filtered densities of a field in `[lo, 1]` are in
`[lo, 1]`: on every mesh without isolated nodes, with positive volumes and any non-design elements, for every exact solver, provided
the mass matrix is entrywise non-negative with positive row sums, the stiffness matrix annihilates constants and
`M_ab + r² K_ab ≤ 0` for `a ≠ b`. -/
theorem C93_maximum_principle_partial (t : E → Fin k → N) (hk : 0 < k) (vol : E → ℝ) (hv : ∀ e, 0 < vol e)
    (design : Finset E) (hcover : ∀ m : N, ∃ e, ∃ i, t e i = m) (Mm K : N → N → ℝ) (hM : ∀ a b, 0 ≤ Mm a b)
    (hrow : ∀ a, 0 < ∑ b, Mm a b) (hK : ∀ a, ∑ b, K a b = 0) (r : ℝ) (hoff : ∀ a b, a ≠ b → Mm a b + r ^ 2 * K a b ≤ 0)
    (solve : (N → ℝ) → (N → ℝ)) (hsolve : ∀ y, SolvesNodal Mm K r 1
      (Finset.univ.filter fun n => ∃ e, e ∉ design ∧ ∃ i, t e i = n) y (solve y))
    (lo : ℝ) (hlo : lo ≤ 1) (rho : E → ℝ) (hrho : ∀ e, lo ≤ rho e ∧ rho e ≤ 1) (e : E) :
    lo ≤ nodalForward t vol (some design) solve rho e ∧ nodalForward t vol (some design) solve rho e ≤ 1 :=
  C32_nodal_forward_range t hk vol hv _ hcover solve lo hlo
    (fun y hy => nodal_maximum_principle Mm K hM hrow hK r hoff _ lo 1 1 ⟨hlo, le_rfl⟩ y _ hy (hsolve y)) rho hrho e

/-! ### Four cubes in a row -/

/-- The linear shape functions on `[0, 1]` and their derivatives. -/
noncomputable def hat (a : Fin 2) (s : ℝ) : ℝ := if a = 0 then 1 - s else s

/-- `hat' a`. -/
def hatSlope (a : Fin 2) : ℝ := if a = 0 then -1 else 1

theorem hat_deriv (a : Fin 2) (s : ℝ) : HasDerivAt (hat a) (hatSlope a) s := by
  unfold hat hatSlope
  fin_cases a
  · simpa using (hasDerivAt_id s).const_sub 1
  · simp only [Fin.mk_one, one_ne_zero, if_false]
    exact hasDerivAt_id s

/-- `∫ φ_a φ_b` over the unit interval. -/
noncomputable def mass1 (a b : Fin 2) : ℝ := ∫ s in (0 : ℝ)..1, hat a s * hat b s

/-- `∫ φ_a' φ_b'`. -/
noncomputable def stiff1 (a b : Fin 2) : ℝ := ∫ _ in (0 : ℝ)..1, hatSlope a * hatSlope b

/-- A corner of the unit cube. -/
abbrev Corner := Fin 2 × Fin 2 × Fin 2

/-- Mass matrix of trilinear shape functions on the unit cube (a product of interval integrals, by Fubini). -/
noncomputable def cubeMass (a b : Corner) : ℝ := mass1 a.1 b.1 * mass1 a.2.1 b.2.1 * mass1 a.2.2 b.2.2

/-- Stiffness matrix of trilinear shape functions on the unit cube: `∫ ∇φ_a · ∇φ_b`. -/
noncomputable def cubeStiff (a b : Corner) : ℝ :=
  stiff1 a.1 b.1 * mass1 a.2.1 b.2.1 * mass1 a.2.2 b.2.2 + mass1 a.1 b.1 * stiff1 a.2.1 b.2.1 * mass1 a.2.2 b.2.2 +
    mass1 a.1 b.1 * mass1 a.2.1 b.2.1 * stiff1 a.2.2 b.2.2

/-- Nodes of four unit cubes in a row. -/
abbrev RowNode := Fin 5 × Fin 2 × Fin 2

/-- The node at corner `c` of cube `e`. -/
def rowNode (e : Fin 4) (c : Corner) : RowNode := (if c.1 = 0 then e.castSucc else e.succ, c.2)

/-- The corners in some order. -/
def corner (i : Fin 8) : Corner := (if i.val < 4 then 0 else 1, if i.val % 4 < 2 then 0 else 1, if i.val % 2 = 0 then 0 else 1)

/-- Connectivity. -/
def rowT (e : Fin 4) (i : Fin 8) : RowNode := rowNode e (corner i)

/-- Assembly over the four cubes. -/
noncomputable def assembled (local' : Corner → Corner → ℝ) (a b : RowNode) : ℝ :=
  ∑ e, ∑ p : Corner, ∑ q : Corner, if rowNode e p = a ∧ rowNode e q = b then local' p q else 0

theorem mass1_eq (a b : Fin 2) : mass1 a b = if a = b then 1 / 3 else 1 / 6 := by
  unfold mass1 hat
  have e1 : ∀ s : ℝ, (1 - s) * (1 - s) = 1 - 2 * s + s ^ 2 := fun s => by ring
  have i1 : ∫ s in (0 : ℝ)..1, (1 - 2 * s + s ^ 2) = 1 / 3 := by
    rw [intervalIntegral.integral_add (by apply Continuous.intervalIntegrable; fun_prop) (by apply Continuous.intervalIntegrable; fun_prop),
      intervalIntegral.integral_sub (by apply Continuous.intervalIntegrable; fun_prop) (by apply Continuous.intervalIntegrable; fun_prop)]
    rw [intervalIntegral.integral_const_mul, integral_id, integral_pow]
    norm_num
  have e2 : ∀ s : ℝ, (1 - s) * s = s - s ^ 2 := fun s => by ring
  have e3 : ∀ s : ℝ, s * (1 - s) = s - s ^ 2 := fun s => by ring
  have e4 : ∀ s : ℝ, s * s = s ^ 2 := fun s => by ring
  fin_cases a <;> fin_cases b <;> simp [e1, e2, e3, e4, i1, integral_pow] <;> norm_num

theorem stiff1_eq (a b : Fin 2) : stiff1 a b = if a = b then 1 else -1 := by
  unfold stiff1 hatSlope
  fin_cases a <;> fin_cases b <;> simp

/-- Assembly as a bilinear form. -/
theorem assembled_form (L : Corner → Corner → ℝ) (w x : RowNode → ℝ) :
    ∑ a, w a * ∑ b, assembled L a b * x b = ∑ e, ∑ p, ∑ q, w (rowNode e p) * L p q * x (rowNode e q) := by
  unfold assembled
  simp only [Finset.sum_mul, Finset.mul_sum]
  have h : ∀ a, ∑ b, ∑ e, ∑ p : Corner, ∑ q : Corner, w a * ((if rowNode e p = a ∧ rowNode e q = b then L p q else 0) * x b) =
      ∑ e, ∑ p : Corner, ∑ q : Corner, if rowNode e p = a then w a * L p q * x (rowNode e q) else 0 := by
    intro a
    rw [Finset.sum_comm]
    refine Finset.sum_congr rfl fun e _ => ?_
    rw [Finset.sum_comm]
    refine Finset.sum_congr rfl fun p _ => ?_
    rw [Finset.sum_comm]
    refine Finset.sum_congr rfl fun q _ => ?_
    by_cases hp : rowNode e p = a
    · simp only [hp, true_and, if_true]
      rw [Finset.sum_eq_single (rowNode e q)]
      · simp; ring
      · intro b _ hb
        rw [if_neg (Ne.symm hb)]; ring
      · intro hn; exact absurd (Finset.mem_univ _) hn
    · simp [hp]
  rw [Finset.sum_congr rfl fun a _ => h a, Finset.sum_comm]
  refine Finset.sum_congr rfl fun e _ => ?_
  rw [Finset.sum_comm]
  refine Finset.sum_congr rfl fun p _ => ?_
  rw [Finset.sum_comm]
  refine Finset.sum_congr rfl fun q _ => ?_
  rw [Finset.sum_ite_eq]
  simp

/-- Testing with a field that depends on the position along the row only. -/
theorem row_form {L : Corner → Corner → ℝ} {l : Fin 2 → Fin 2 → ℝ} (hL : ∀ p1 q, ∑ p2, ∑ p3, L (p1, p2, p3) q = l p1 q.1 / 4)
    (w : Fin 5 → ℝ) (x : RowNode → ℝ) :
    ∑ a, (fun n : RowNode => w n.1) a * ∑ b, assembled L a b * x b =
      ∑ e : Fin 4, ∑ p1 : Fin 2, ∑ q1 : Fin 2, w (if p1 = 0 then e.castSucc else e.succ) * (l p1 q1 / 4) *
        ∑ b, ∑ c, x (if q1 = 0 then e.castSucc else e.succ, b, c) := by
  rw [assembled_form]
  refine Finset.sum_congr rfl fun e _ => ?_
  rw [Fintype.sum_prod_type]
  refine Finset.sum_congr rfl fun p1 _ => ?_
  have h : ∀ q : Corner, ∑ p' : Fin 2 × Fin 2, w (rowNode e (p1, p')).1 * L (p1, p') q * x (rowNode e q) =
      w (if p1 = 0 then e.castSucc else e.succ) * (l p1 q.1 / 4) * x (rowNode e q) := by
    intro q
    rw [← hL p1 q, Fintype.sum_prod_type, Finset.mul_sum, Finset.sum_mul]
    refine Finset.sum_congr rfl fun p2 _ => ?_
    rw [Finset.mul_sum, Finset.sum_mul]
    rfl
  rw [Finset.sum_comm, Finset.sum_congr rfl fun q _ => h q, Fintype.sum_prod_type]
  refine Finset.sum_congr rfl fun q1 _ => ?_
  rw [Fintype.sum_prod_type, Finset.mul_sum]
  refine Finset.sum_congr rfl fun q2 _ => ?_
  rw [Finset.mul_sum]
  rfl

theorem cubeMass_sum (p1 : Fin 2) (q : Corner) : ∑ p2, ∑ p3, cubeMass (p1, p2, p3) q = mass1 p1 q.1 / 4 := by
  obtain ⟨q1, q2, q3⟩ := q
  simp only [cubeMass, mass1_eq, Fin.sum_univ_two]
  by_cases h : p1 = q1 <;> fin_cases q2 <;> fin_cases q3 <;> simp [h] <;> norm_num

theorem cubeStiff_sum (p1 : Fin 2) (q : Corner) : ∑ p2, ∑ p3, cubeStiff (p1, p2, p3) q = stiff1 p1 q.1 / 4 := by
  obtain ⟨q1, q2, q3⟩ := q
  simp only [cubeStiff, mass1_eq, stiff1_eq, Fin.sum_univ_two]
  by_cases h : p1 = q1 <;> fin_cases q2 <;> fin_cases q3 <;> simp [h] <;> norm_num

theorem rowT_mem (e : Fin 4) (n : RowNode) : (∃ i, rowT e i = n) ↔ n.1 = e.castSucc ∨ n.1 = e.succ := by
  revert e n; decide

/-- The nodal means of the field that is 1 on the first cube and 0 on the others. -/
theorem row_nodes (n : RowNode) : elementToNode rowT (fun _ => 1) (some Finset.univ) true 1 (fun e => if e = 0 then 1 else 0) n =
    (![1, 1 / 2, 0, 0, 0] : Fin 5 → ℝ) n.1 := by
  unfold elementToNode
  simp only [Option.getD_some, Finset.mem_univ, if_true, rowT_mem, Fin.sum_univ_four]
  obtain ⟨i, b⟩ := n
  fin_cases i <;> simp <;> norm_num

theorem rowMean (x : RowNode → ℝ) (e : Fin 4) : nodeToElement rowT x e =
    (∑ b, ∑ c, x (e.castSucc, b, c) + ∑ b, ∑ c, x (e.succ, b, c)) / 8 := by
  unfold nodeToElement
  simp [Fin.sum_univ_eight, rowT, rowNode, corner, Fin.sum_univ_two]
  ring

/-- **C93 (refuted for small radii).** Four unit cubes in a row, all of them design elements, with the finite element mass and
stiffness matrices of trilinear shape functions, and the radius with `r² = 1/12`: the default filter, with an exact solver, maps
the densities `1, 0, 0, 0` to a *negative* density of the last cube. The analysis then works with a negative density, whatever
the sharpness of the projection: with a fractional SIMP exponent numpy's power is NaN there. -/
theorem C93_negative_filtered_density (r : ℝ) (hr : r ^ 2 = 1 / 12) (solve : (RowNode → ℝ) → (RowNode → ℝ))
    (hsolve : let y := elementToNode rowT (fun _ => 1) (some Finset.univ) true 1 fun e => if e = 0 then 1 else 0
      SolvesNodal (assembled cubeMass) (assembled cubeStiff) r 1 ∅ y (solve y)) :
    nodalForward rowT (fun _ => 1) (some Finset.univ) solve (fun e => if e = 0 then 1 else 0) 3 = -1 / 490 ∧
    ∀ beta eta, 0 < beta →
      Projection.heavisideInplace (nodalForward rowT (fun _ => 1) (some Finset.univ) solve (fun e => if e = 0 then 1 else 0) 3) beta eta < 0 := by
  have key : nodalForward rowT (fun _ => 1) (some Finset.univ) solve (fun e => if e = 0 then 1 else 0) 3 = -1 / 490 := by
    unfold nodalForward
    simp only at hsolve
    obtain ⟨y, hy⟩ : ∃ y, y = elementToNode rowT (fun _ => 1) (some Finset.univ) true 1 fun e => if e = 0 then 1 else 0 := ⟨_, rfl⟩
    rw [← hy] at hsolve ⊢
    obtain ⟨x, hx⟩ : ∃ x, x = solve y := ⟨_, rfl⟩
    rw [← hx] at hsolve ⊢
    obtain ⟨w, hw⟩ : ∃ w : RowNode → ℝ, w = fun n => (![-1 / 980, 1 / 196, -1 / 20, 97 / 196, 1079 / 980] : Fin 5 → ℝ) n.1 := ⟨_, rfl⟩
    have h1 : ∑ a, w a * ∑ b, (assembled cubeMass a b + r ^ 2 * assembled cubeStiff a b) * x b =
        ∑ a, w a * ∑ b, assembled cubeMass a b * y b := Finset.sum_congr rfl fun a _ => by rw [hsolve.1 a (by simp)]
    have h2 : ∑ a, w a * ∑ b, (assembled cubeMass a b + r ^ 2 * assembled cubeStiff a b) * x b =
        ∑ a, w a * ∑ b, assembled cubeMass a b * x b + 1 / 12 * ∑ a, w a * ∑ b, assembled cubeStiff a b * x b := by
      rw [Finset.mul_sum, ← Finset.sum_add_distrib]
      refine Finset.sum_congr rfl fun a _ => ?_
      rw [hr]
      simp only [add_mul, Finset.sum_add_distrib, mul_add]
      congr 1
      simp only [Finset.mul_sum]
      exact Finset.sum_congr rfl fun b _ => by ring
    rw [h2, hw, row_form cubeMass_sum, row_form cubeMass_sum, row_form cubeStiff_sum] at h1
    rw [rowMean]
    have hyv : ∀ i b c, y (i, b, c) = (![1, 1 / 2, 0, 0, 0] : Fin 5 → ℝ) i := fun i b c => by rw [hy]; exact row_nodes _
    obtain ⟨S, hS⟩ : ∃ S : Fin 5 → ℝ, S = fun i => ∑ b, ∑ c, x (i, b, c) := ⟨_, rfl⟩
    have hS' : ∀ i, ∑ b, ∑ c, x (i, b, c) = S i := fun i => by rw [hS]
    simp only [hyv, hS'] at h1 ⊢
    simp [Fin.sum_univ_four, Fin.sum_univ_two, rowNode, mass1_eq, stiff1_eq] at h1 ⊢
    linarith
  refine ⟨key, fun beta eta hb => ?_⟩
  rw [key, (C23_inplace_agree _ _ _).1, ← Projection.heaviside_zero beta eta]
  exact Projection.heaviside_strictMono hb eta (by norm_num)

/-! The equation of that theorem has a solution. -/

theorem assembled_symm {L : Corner → Corner → ℝ} (hL : ∀ p q, L p q = L q p) (a b : RowNode) : assembled L a b = assembled L b a := by
  unfold assembled
  refine Finset.sum_congr rfl fun e _ => ?_
  rw [Finset.sum_comm]
  refine Finset.sum_congr rfl fun p _ => Finset.sum_congr rfl fun q _ => ?_
  rw [hL]
  simp only [and_comm]

theorem row_apply {L : Corner → Corner → ℝ} {l : Fin 2 → Fin 2 → ℝ} (hs : ∀ p q, L p q = L q p)
    (hL : ∀ p1 q, ∑ p2, ∑ p3, L (p1, p2, p3) q = l p1 q.1 / 4) (u : Fin 5 → ℝ) (a : RowNode) :
    ∑ b, assembled L a b * u b.1 = ∑ e : Fin 4, ∑ p1 : Fin 2, ∑ q1 : Fin 2, u (if p1 = 0 then e.castSucc else e.succ) * (l p1 q1 / 4) *
        if (if q1 = 0 then e.castSucc else e.succ) = a.1 then 1 else 0 := by
  have h := row_form hL u fun n => if n = a then 1 else 0
  have h1 : ∀ a', ∑ b, assembled L a' b * (if b = a then 1 else 0) = assembled L a' a := by
    intro a'
    simp
  simp only [h1] at h
  rw [show ∑ b, assembled L a b * u b.1 = ∑ b : RowNode, u b.1 * assembled L b a from
    Finset.sum_congr rfl fun b _ => by rw [assembled_symm hs a b, mul_comm], h]
  refine Finset.sum_congr rfl fun e _ => Finset.sum_congr rfl fun p1 _ => Finset.sum_congr rfl fun q1 _ => ?_
  congr 1
  obtain ⟨i, b, c⟩ := a
  clear h h1
  obtain ⟨j, hj⟩ : ∃ j, j = if q1 = 0 then e.castSucc else e.succ := ⟨_, rfl⟩
  rw [← hj]
  by_cases hji : j = i
  · subst hji
    fin_cases b <;> fin_cases c <;> rw [Fin.sum_univ_two, Fin.sum_univ_two, Fin.sum_univ_two] <;> simp
  · simp [hji]

theorem row_solution (r : ℝ) (hr : r ^ 2 = 1 / 12) : SolvesNodal (assembled cubeMass) (assembled cubeStiff) r 1 ∅
    (elementToNode rowT (fun _ => 1) (some Finset.univ) true 1 fun e => if e = 0 then 1 else 0)
    fun n => (![881 / 980, 99 / 196, 1 / 20, -1 / 196, 1 / 980] : Fin 5 → ℝ) n.1 := by
  have hm : ∀ p q, cubeMass p q = cubeMass q p := fun p q => by simp only [cubeMass, mass1_eq, eq_comm]
  have hk : ∀ p q, cubeStiff p q = cubeStiff q p := fun p q => by simp only [cubeStiff, mass1_eq, stiff1_eq, eq_comm]
  refine ⟨fun a _ => ?_, by simp⟩
  have e1 : ∀ u : Fin 5 → ℝ, ∑ b : RowNode, (assembled cubeMass a b + r ^ 2 * assembled cubeStiff a b) * u b.1 =
      ∑ b, assembled cubeMass a b * u b.1 + 1 / 12 * ∑ b, assembled cubeStiff a b * u b.1 := by
    intro u
    rw [hr, Finset.mul_sum, ← Finset.sum_add_distrib]
    exact Finset.sum_congr rfl fun b _ => by ring
  rw [e1]
  simp only [row_nodes]
  rw [row_apply hm cubeMass_sum, row_apply hm cubeMass_sum, row_apply hk cubeStiff_sum]
  obtain ⟨i, bc⟩ := a
  simp only [Fin.sum_univ_four, Fin.sum_univ_two, mass1_eq, stiff1_eq]
  fin_cases i <;> simp <;> norm_num

/-- Non-vacuity of C93 (refutation). -/
example := C93_negative_filtered_density (Real.sqrt (1 / 12)) (Real.sq_sqrt (by norm_num))
  (fun _ n => (![881 / 980, 99 / 196, 1 / 20, -1 / 196, 1 / 980] : Fin 5 → ℝ) n.1) (row_solution _ (Real.sq_sqrt (by norm_num)))

end Verif.Props
