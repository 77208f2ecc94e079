import Verif.Spec.Heat
import Verif.Lemmas.Elastic
import Mathlib.Algebra.BigOperators.Group.List.Basic

/-! Supporting lemmas for the heat analysis. -/
namespace Verif.Heat

open Matrix Material Elastic

variable {ι Q : Type} [Fintype ι] [Fintype Q] {E : Type} [Fintype E] {d nE k : ℕ}

set_option linter.unusedSectionVars false
set_option linter.unusedSimpArgs false

noncomputable section

theorem conduction_apply (B : FE ι E Q d) (ke : E → ℝ) (T : ι → ℝ) (i : ι) :
    ∑ j, conduction B ke i j * T j = ∑ e, ∑ q, ke e * dot (gradAt B T e q) (B.grad i e q) * B.dx e q := by
  unfold conduction
  simp only [Finset.sum_mul]
  rw [Finset.sum_comm]
  refine Finset.sum_congr rfl fun e _ => ?_
  rw [Finset.sum_comm]
  refine Finset.sum_congr rfl fun q _ => ?_
  unfold dot gradAt
  have : ∀ j, ke e * (∑ a, B.grad j e q a * B.grad i e q a) * B.dx e q * T j =
      ke e * (∑ a, T j * B.grad j e q a * B.grad i e q a) * B.dx e q := by
    intro j
    rw [show (∑ a, T j * B.grad j e q a * B.grad i e q a) = T j * ∑ a, B.grad j e q a * B.grad i e q a by
      rw [Finset.mul_sum]; exact Finset.sum_congr rfl fun a _ => by ring]
    ring
  simp only [this]
  rw [← Finset.sum_mul, ← Finset.mul_sum, Finset.sum_comm]
  simp only [Finset.sum_mul]

theorem robinForm_apply (R : Region ι) (h : ℝ) (p : ℝ) (T : ι → ℝ) (i : ι) :
    ∑ j, robinForm R h none p i j * T j = ∑ q, h * (∑ j, T j * R.val j q) * R.val i q * R.dx q := by
  unfold robinForm robinH
  simp only [Finset.sum_mul]
  rw [Finset.sum_comm]
  refine Finset.sum_congr rfl fun q _ => ?_
  rw [Finset.mul_sum, Finset.sum_mul, Finset.sum_mul]
  exact Finset.sum_congr rfl fun j _ => by ring

theorem virtualForm_apply (B : FE ι E Q d) (h p : ℝ) (qe : ℕ) (rn T : ι → ℝ) (i : ι) :
    ∑ j, virtualForm B h p qe rn i j * T j =
      ∑ e, ∑ q, hEff h p qe (valAt B rn e q) * interface B rn e q * valAt B T e q * B.val i e q * B.dx e q := by
  unfold virtualForm
  simp only [Finset.sum_mul]
  rw [Finset.sum_comm]
  refine Finset.sum_congr rfl fun e _ => ?_
  rw [Finset.sum_comm]
  refine Finset.sum_congr rfl fun q _ => ?_
  conv_rhs => rw [show valAt B T e q = ∑ j, T j * B.val j e q from rfl, Finset.mul_sum, Finset.sum_mul, Finset.sum_mul]
  exact Finset.sum_congr rfl fun j _ => by ring

theorem foldl_apply (Ms : List (Matrix ι ι ℝ)) (M : Matrix ι ι ℝ) (T : ι → ℝ) (i : ι) :
    ∑ j, (Ms.foldl (· + ·) M) i j * T j = ∑ j, M i j * T j + (Ms.map fun N => ∑ j, N i j * T j).sum := by
  induction Ms generalizing M with
  | nil => simp
  | cons N Ms ih =>
    rw [List.foldl_cons, ih, List.map_cons, List.sum_cons]
    simp only [Matrix.add_apply, add_mul, Finset.sum_add_distrib]; ring

theorem foldl_vec (fs : List (ι → ℝ)) (f : ι → ℝ) (i : ι) : (fs.foldl (· + ·) f) i = f i + (fs.map fun g => g i).sum := by
  induction fs generalizing f with
  | nil => simp
  | cons g fs ih => rw [List.foldl_cons, ih, List.map_cons, List.sum_cons, Pi.add_apply]; ring

/-- A task as `from_facets` returns it. -/
def Built (T : Task ι Q d nE k) : Prop := ∃ T0 : Task ι Q d nE k, T0.build = .ok T

theorem assembleRobin_one (regions : List (Region ι)) (h Tenv : ℝ) (rho : Option (Fin nE → ℝ)) (p : ℝ) :
    assembleRobin regions (.one h) (.one Tenv) rho p =
      .ok (regions.map fun R => robinForm R h none p, regions.map fun R => robinLoad R h Tenv none p) := by
  have hb : (rho.bind fun _ => (none : Option (ι → ℝ))) = none := by cases rho <;> rfl
  unfold assembleRobin Coef.expand
  simp only [List.length_replicate, and_self, if_true, hb]
  congr 2
  · induction regions with
    | nil => rfl
    | cons R l ih => simp [List.replicate_succ, ih]
  · induction regions with
    | nil => rfl
    | cons R l ih => simp only [List.length_cons, List.replicate_succ, List.zip_cons_cons, List.zipWith_cons_cons, ih, List.map_cons]

theorem robinForm_p (R : Region ι) (h p p' : ℝ) : robinForm R h none p = robinForm R h none p' := rfl

theorem Built.terms {T : Task ι Q d nE k} (hT : Built T) :
    match T.robin with
    | none => T.bilinear = [] ∧ T.linear = []
    | some (h, Tenv) => T.bilinear = T.regions.map (fun R => robinForm R h none 0) ∧
        T.linear = T.regions.map fun R => robinLoad R h Tenv none 0 := by
  obtain ⟨T0, h0⟩ := hT
  unfold Task.build at h0
  rcases hr : T0.robin with _ | ⟨h, Tenv⟩
  · rw [hr] at h0
    injection h0 with h1
    subst h1
    simp [hr]
  · rw [hr] at h0
    simp only [assembleRobin_one, Except.map] at h0
    injection h0 with h1
    subst h1
    simp [hr]

theorem conducted_eq (B : FE ι E Q d) (ke : E → ℝ) (T : ι → ℝ) (i : ι) :
    Spec.Heat.conducted B ke T i = ∑ j, conduction B ke i j * T j := by
  rw [conduction_apply]; rfl

/-- The matrix row of a built task minus its load is the spec's heat balance. -/
theorem balance_ke {T : Task ι Q d nE k} (hT : Built T) (ke : Fin nE → ℝ) (rho : Fin nE → ℝ) (p : ℝ) (u : ι → ℝ)
    (i : ι) :
    ∑ j, ((T.forms rho p).foldl (· + ·) (conduction T.fe ke)) i j * u j - T.emit rho p i =
      Spec.Heat.conducted T.fe ke u i +
      Spec.Heat.losses T.fe T.robin T.regions p T.q (T.nodal rho) u i := by
  have ht := hT.terms
  unfold Task.emit
  rw [foldl_apply, foldl_vec, conducted_eq]
  unfold Task.forms Task.loads Spec.Heat.losses
  rcases hr : T.robin with _ | ⟨h, Tenv⟩
  · rw [hr] at ht
    simp [ht.1, ht.2]
  · rw [hr] at ht
    simp only [ht.1, ht.2, List.map_append, List.map_map, List.sum_append, List.map_cons, List.map_nil, List.sum_cons, List.sum_nil,
      add_zero, Pi.zero_apply, zero_add, Function.comp_def]
    have h1 : ∀ l : List (Region ι), (l.map fun R => ∑ j, robinForm R h none 0 i j * u j).sum -
        (l.map fun R => robinLoad R h Tenv none 0 i).sum = (l.map fun R => Spec.Heat.surfaceLoss R h Tenv u i).sum := by
      intro l
      induction l with
      | nil => simp
      | cons R l ih =>
        simp only [List.map_cons, List.sum_cons]
        rw [← ih, robinForm_apply]
        have : Spec.Heat.surfaceLoss R h Tenv u i = ∑ q, h * (∑ j, u j * R.val j q) * R.val i q * R.dx q - robinLoad R h Tenv none 0 i := by
          unfold Spec.Heat.surfaceLoss robinLoad robinH
          rw [← Finset.sum_sub_distrib]
          exact Finset.sum_congr rfl fun q _ => by ring
        rw [this]; ring
    have h2 : ∑ j, virtualForm T.fe h p T.q (T.nodal rho) i j * u j - virtualLoad T.fe h Tenv p T.q (T.nodal rho) i =
        Spec.Heat.interfaceLoss T.fe h Tenv p T.q (T.nodal rho) u i := by
      rw [virtualForm_apply]
      unfold virtualLoad Spec.Heat.interfaceLoss
      rw [← Finset.sum_sub_distrib]
      refine Finset.sum_congr rfl fun e _ => ?_
      rw [← Finset.sum_sub_distrib]
      refine Finset.sum_congr rfl fun q _ => ?_
      have e1 : Spec.Heat.field T.fe (T.nodal rho) e q = valAt T.fe (T.nodal rho) e q := rfl
      have e2 : Spec.Heat.steepness T.fe (T.nodal rho) e q = interface T.fe (T.nodal rho) e q := rfl
      have e3 : Spec.Heat.field T.fe u e q = valAt T.fe u e q := rfl
      rw [e1, e2, e3]; unfold hEff; ring
    rw [← h1, ← h2]; ring

theorem balance_eq {T : Task ι Q d nE k} (hT : Built T) (law : ℝ → ℝ → ℝ → ℝ → ℝ) (Ec : ℝ) (rho : Fin nE → ℝ) (p : ℝ) (u : ι → ℝ)
    (i : ι) :
    ∑ j, T.matrix law Ec rho p i j * u j - T.emit rho p i =
      Spec.Heat.conducted T.fe (T.ke law Ec rho p) u i +
      Spec.Heat.losses T.fe T.robin T.regions p T.q (T.nodal rho) u i := balance_ke hT _ rho p u i

/-- What an exact linear solver returns for the enforced system of a load case. -/
def HSolves (K : Matrix ι ι ℝ) (D : Finset ι) (emit : ι → ℝ) (v : ℝ) (u : ι → ℝ) : Prop := enforceK K D *ᵥ u = enforceRhs emit D v

theorem hsolves_iff {K : Matrix ι ι ℝ} {D : Finset ι} {f u : ι → ℝ} {v : ℝ} :
    HSolves K D f v u ↔ (∀ i ∈ D, u i = v) ∧ ∀ i ∉ D, ∑ j, K i j * u j = f i := by
  classical
  constructor
  · intro h
    refine ⟨fun i hi => ?_, fun i hi => ?_⟩
    · have := congrFun h i
      simp only [Matrix.mulVec, dotProduct, enforceK, enforceRhs, if_pos hi] at this
      simpa using this
    · have := congrFun h i
      simpa only [Matrix.mulVec, dotProduct, enforceK, enforceRhs, if_neg hi] using this
  · rintro ⟨h1, h2⟩
    funext i
    by_cases hi : i ∈ D
    · simp [Matrix.mulVec, dotProduct, enforceK, enforceRhs, hi, h1 i hi]
    · simp only [Matrix.mulVec, dotProduct, enforceK, enforceRhs, if_neg hi]; exact h2 i hi

theorem hsolves_balanced {T : Task ι Q d nE k} (hT : Built T) (law : ℝ → ℝ → ℝ → ℝ → ℝ) (Ec : ℝ) (rho : Fin nE → ℝ) (p : ℝ)
    (D : Finset ι) (v : ℝ) (u : ι → ℝ) :
    HSolves (T.matrix law Ec rho p) D (T.emit rho p) v u ↔
      Spec.Heat.Balanced T.fe (T.ke law Ec rho p) T.robin T.regions p T.q (T.nodal rho) D v u := by
  rw [hsolves_iff]
  unfold Spec.Heat.Balanced
  refine and_congr Iff.rfl (forall_congr' fun i => imp_congr Iff.rfl ?_)
  rw [← balance_eq hT, sub_eq_zero]

end
end Verif.Heat

/-! ### Averaging -/
namespace Verif.Heat
noncomputable section
open Elastic Matrix
set_option linter.unusedSectionVars false

variable {ι Q : Type} [Fintype ι] [Fintype Q] {d nE k : ℕ}

theorem ravel_length (t : Fin k → Fin nE → ι) : (ravel t).length = k * nE := by
  unfold ravel; simp [List.length_flatMap]

theorem repeatEach_length (rho : Fin nE → ℝ) (m : ℕ) : (repeatEach rho m).length = nE * m := by
  unfold repeatEach; simp [List.length_flatMap]

open Classical in
theorem addAt_replicate (ids : List ι) (n : ℕ) (hn : n = ids.length) (c : ℝ) (i : ι) : addAt ids (List.replicate n c) i = c * ids.count i := by
  subst hn
  unfold addAt
  induction ids with
  | nil => simp
  | cons a l ih =>
    simp only [List.length_cons, List.replicate_succ, List.zip_cons_cons, List.filter_cons, List.count_cons]
    by_cases h : a = i
    · simp only [h, decide_true, if_true, List.map_cons, List.sum_cons, ih, beq_self_eq_true]; push_cast; ring
    · have : (a == i) = false := by simpa using h
      simp only [h, decide_false, Bool.false_eq_true, if_false, ih, this]; push_cast; ring

open Classical in
theorem count_eq (t : Fin k → Fin nE → ι) (i : ι) : count t i = (ravel t).count i := by
  unfold count; rw [addAt_replicate _ _ rfl, one_mul]

open Classical in
theorem ravel_count (t : Fin k → Fin nE → ι) (i : ι) : (ravel t).count i = ∑ a, ∑ e, if t a e = i then 1 else 0 := by
  unfold ravel
  rw [List.count_flatMap, ← List.ofFn_eq_map, List.sum_ofFn]
  refine Finset.sum_congr rfl fun a _ => ?_
  simp only [Function.comp_def]
  rw [List.count_eq_countP, List.countP_map, List.countP_eq_length_filter, Finset.sum_ite, Finset.sum_const_zero, add_zero,
    Finset.sum_const, smul_eq_mul, mul_one, ← List.toFinset_card_of_nodup ((List.nodup_finRange nE).filter _)]
  congr 1
  ext e; simp

open Classical in
/-- Every nodal density is between 0 and 1 if the element densities are, although the wrong ones are averaged. -/
theorem nodalAverage_mem (t : Fin k → Fin nE → ι) (rho : Fin nE → ℝ) (h : ∀ e, 0 ≤ rho e ∧ rho e ≤ 1) (i : ι) :
    0 ≤ nodalAverage t rho i ∧ nodalAverage t rho i ≤ 1 := by
  have key : ∀ (ids : List ι) (vals : List ℝ), (∀ x ∈ vals, 0 ≤ x ∧ x ≤ 1) → 0 ≤ addAt ids vals i ∧ addAt ids vals i ≤ ids.count i := by
    intro ids
    induction ids with
    | nil => intro vals _; simp [addAt]
    | cons a l ih =>
      intro vals hv
      cases vals with
      | nil => constructor <;> simp [addAt]
      | cons x vs =>
        have hx := hv x (by simp)
        have := ih vs fun y hy => hv y (by simp [hy])
        unfold addAt at this ⊢
        simp only [List.zip_cons_cons, List.filter_cons, List.count_cons]
        by_cases hai : a = i
        · simp only [hai, decide_true, if_true, List.map_cons, List.sum_cons, beq_self_eq_true]
          push_cast
          exact ⟨add_nonneg hx.1 this.1, by linarith [hx.2, this.2]⟩
        · have hb : (a == i) = false := by simpa using hai
          simp only [hai, decide_false, Bool.false_eq_true, if_false, hb, add_zero]
          exact this
  have hv : ∀ x ∈ repeatEach rho k, 0 ≤ x ∧ x ≤ 1 := by
    intro x hx
    unfold repeatEach at hx
    obtain ⟨e, -, he⟩ := List.mem_flatMap.mp hx
    rw [List.eq_of_mem_replicate he]; exact h e
  have := key (ravel t) _ hv
  unfold nodalAverage
  have hm : (0 : ℝ) < max (count t i) 1 := lt_max_of_lt_right one_pos
  refine ⟨div_nonneg this.1 hm.le, (div_le_one hm).mpr ?_⟩
  rw [count_eq]; exact this.2.trans (le_max_left _ _)

open Classical in
theorem count_card (t : Fin k → Fin nE → ι) (ht : ∀ e, Function.Injective fun a => t a e) (i : ι) :
    count t i = (Finset.univ.filter fun e => ∃ a, t a e = i).card := by
  classical
  rw [count_eq, ravel_count, Finset.sum_comm, Finset.card_eq_sum_ones, Finset.sum_filter]
  congr 1
  refine Finset.sum_congr rfl fun e _ => ?_
  by_cases h : ∃ a, t a e = i
  · rw [if_pos h]
    obtain ⟨a, ha⟩ := h
    rw [Finset.sum_eq_single a]
    · simp [ha]
    · intro b _ hb; rw [if_neg]; intro hbi; exact hb (ht e (by simpa using hbi.trans ha.symm))
    · simp
  · rw [if_neg h]
    apply Finset.sum_eq_zero
    intro a _
    rw [if_neg]; exact fun ha => h ⟨a, ha⟩

theorem field_mem (B : FE ι (Fin nE) Q d) (hv : ∀ i e q, 0 ≤ B.val i e q) (h1 : ∀ e q, ∑ i, B.val i e q = 1) (x : ι → ℝ)
    (hx : ∀ i, 0 ≤ x i ∧ x i ≤ 1) (e : Fin nE) (q : Q) : 0 ≤ valAt B x e q ∧ valAt B x e q ≤ 1 := by
  unfold valAt
  refine ⟨Finset.sum_nonneg fun i _ => mul_nonneg (hx i).1 (hv i e q), ?_⟩
  rw [← h1 e q]
  exact Finset.sum_le_sum fun i _ => mul_le_of_le_one_left (hv i e q) (hx i).2

/-! ### Quadratic form -/

theorem quad_conduction (B : FE ι (Fin nE) Q d) (ke : Fin nE → ℝ) (T : ι → ℝ) :
    ∑ i, T i * ∑ j, conduction B ke i j * T j = ∑ e, ∑ q, ke e * dot (gradAt B T e q) (gradAt B T e q) * B.dx e q := by
  simp only [conduction_apply, Finset.mul_sum]
  rw [Finset.sum_comm]
  refine Finset.sum_congr rfl fun e _ => ?_
  rw [Finset.sum_comm]
  refine Finset.sum_congr rfl fun q _ => ?_
  unfold dot
  have h2 : ∀ i, T i * (ke e * (∑ a, gradAt B T e q a * B.grad i e q a) * B.dx e q) =
      ke e * (∑ a, gradAt B T e q a * (T i * B.grad i e q a)) * B.dx e q := by
    intro i
    have : (∑ a, gradAt B T e q a * (T i * B.grad i e q a)) = T i * ∑ a, gradAt B T e q a * B.grad i e q a := by
      rw [Finset.mul_sum]; exact Finset.sum_congr rfl fun a _ => by ring
    rw [this]; ring
  simp only [h2]
  rw [← Finset.sum_mul, ← Finset.mul_sum, Finset.sum_comm]
  congr 2
  refine Finset.sum_congr rfl fun a _ => ?_
  rw [← Finset.mul_sum]; rfl

theorem quad_robin (R : Region ι) (h p : ℝ) (T : ι → ℝ) :
    ∑ i, T i * ∑ j, robinForm R h none p i j * T j = ∑ q, h * (∑ j, T j * R.val j q) ^ 2 * R.dx q := by
  simp only [robinForm_apply, Finset.mul_sum]
  rw [Finset.sum_comm]
  refine Finset.sum_congr rfl fun q _ => ?_
  have : (∑ j, T j * R.val j q) ^ 2 = ∑ i, T i * R.val i q * (∑ j, T j * R.val j q) := by rw [← Finset.sum_mul]; ring
  rw [this, Finset.mul_sum, Finset.sum_mul]
  refine Finset.sum_congr rfl fun i _ => ?_
  rw [← Finset.mul_sum]; ring

theorem quad_virtual (B : FE ι (Fin nE) Q d) (h p : ℝ) (qe : ℕ) (rn T : ι → ℝ) :
    ∑ i, T i * ∑ j, virtualForm B h p qe rn i j * T j =
      ∑ e, ∑ q, hEff h p qe (valAt B rn e q) * interface B rn e q * valAt B T e q ^ 2 * B.dx e q := by
  simp only [virtualForm_apply, Finset.mul_sum]
  rw [Finset.sum_comm]
  refine Finset.sum_congr rfl fun e _ => ?_
  rw [Finset.sum_comm]
  refine Finset.sum_congr rfl fun q _ => ?_
  have : valAt B T e q ^ 2 = ∑ i, T i * B.val i e q * valAt B T e q := by rw [← Finset.sum_mul, sq]; rfl
  rw [this, Finset.mul_sum, Finset.sum_mul]
  exact Finset.sum_congr rfl fun i _ => by ring

end
end Verif.Heat
