import Verif.Lemmas.Heat
import Verif.Props.Elastic

/-!
Heat analysis: element-to-node averaging (C52), heat balance of every load case (C82), unique solvability (C83), design-dependent Robin
boundaries (C85), thermal compliance (C86). The sensitivities (C84) are in `Verif.Props.HeatSens`.
-/
namespace Verif.Heat

open Matrix Material Elastic

variable {ι Q : Type} [Fintype ι] [Fintype Q] {d nE k : ℕ}

set_option linter.unusedSectionVars false

noncomputable section

/-! ### C52: averaging -/

open Classical in
/-- **C52, partial.** On every mesh whose elements have distinct vertices, the divisor is the number of elements at the node, and a constant
density is reproduced at every node of the mesh. Missing: non-constant densities, for which the claim is false
(`C52_wrong_elements_averaged`). -/
theorem C52_constant_density_partial (t : Fin k → Fin nE → ι) (ht : ∀ e, Function.Injective fun a => t a e) (i : ι)
    (hi : ∃ a e, t a e = i) (c : ℝ) :
    count t i = (Finset.univ.filter fun e => ∃ a, t a e = i).card ∧
    Spec.Heat.IsMean t (fun _ => c) i (nodalAverage t (fun _ => c) i) ∧ nodalAverage t (fun _ => c) i = c := by
  have hc := count_card t ht i
  obtain ⟨a, e, hae⟩ := hi
  have hpos : 1 ≤ (Finset.univ.filter fun e => ∃ a, t a e = i).card :=
    Finset.card_pos.mpr ⟨e, by simp only [Finset.mem_filter, Finset.mem_univ, true_and]; exact ⟨a, hae⟩⟩
  have hpos' : (1 : ℝ) ≤ (Finset.univ.filter fun e => ∃ a, t a e = i).card := by exact_mod_cast hpos
  have hrep : repeatEach (fun _ : Fin nE => c) k = List.replicate (ravel t).length c := by
    rw [List.eq_replicate_iff]
    refine ⟨by rw [repeatEach_length, ravel_length, Nat.mul_comm], fun x hx => ?_⟩
    unfold repeatEach at hx
    obtain ⟨e, -, he⟩ := List.mem_flatMap.mp hx
    exact List.eq_of_mem_replicate he
  have hval : nodalAverage t (fun _ => c) i = c := by
    unfold nodalAverage
    rw [hrep, addAt_replicate _ _ rfl, ← count_eq, hc, max_eq_left hpos', mul_div_assoc, div_self (by linarith), mul_one]
  refine ⟨by rw [hc], ?_, hval⟩
  rw [hval]
  unfold Spec.Heat.IsMean
  rw [Finset.sum_const, nsmul_eq_mul]
  have hne : ((Finset.univ.filter fun e => ∃ a, t a e = i).card : ℝ) ≠ 0 := by linarith
  rw [mul_comm, mul_div_assoc, div_self hne, mul_one]

/-- Two triangles `0 1 2` and `1 2 3`. -/
def twoTriangles : Fin 3 → Fin 2 → Fin 4 := ![![0, 1], ![1, 2], ![2, 3]]

/-- **C52 (refuted).** On a mesh of two triangles sharing an edge, with densities 0 and 1, the node 1 belongs to both triangles, but gets
the density 0 of the first one instead of the mean 1/2. -/
theorem C52_wrong_elements_averaged :
    (∀ e, Function.Injective fun a => twoTriangles a e) ∧ (∀ e, ∃ a, twoTriangles a e = 1) ∧
    nodalAverage twoTriangles ![0, 1] 1 = 0 ∧ ¬ Spec.Heat.IsMean twoTriangles ![0, 1] 1 (nodalAverage twoTriangles ![0, 1] 1) := by
  have hz : nodalAverage twoTriangles ![0, 1] 1 = 0 := by
    have hr : ravel twoTriangles = [0, 1, 1, 2, 2, 3] := by decide
    have hv : repeatEach (![0, 1] : Fin 2 → ℝ) 3 = [0, 0, 0, 1, 1, 1] := by
      simp [repeatEach, List.finRange_succ, List.replicate_succ]
    unfold nodalAverage
    rw [hr, hv]
    have : addAt ([0, 1, 1, 2, 2, 3] : List (Fin 4)) [0, 0, 0, 1, 1, 1] 1 = 0 := by
      unfold addAt
      simp only [List.zip_cons_cons, List.zip_nil_right, List.filter_cons, List.filter_nil]
      simp
    rw [this, zero_div]
  refine ⟨by decide, by decide, hz, ?_⟩
  rw [hz]
  unfold Spec.Heat.IsMean
  have hf : (Finset.univ.filter fun e => ∃ a, twoTriangles a e = 1) = Finset.univ := by
    ext e; revert e; simp only [Finset.mem_filter, Finset.mem_univ, true_and, iff_true]; decide
  intro h
  have h2 : (∑ e : Fin 2, (![0, 1] : Fin 2 → ℝ) e) / (Finset.univ : Finset (Fin 2)).card = 0 := by
    rw [← hf]; convert h.symm
  simp at h2

/-! ### C82: heat balance -/

theorem bind_okay {α β : Type} (a : α) (f : α → Res β) : ((Except.ok a : Res α) >>= f) = f a := rfl

open Classical in
/-- **C82, partial.** For every task as constructed, every material law and density field, and every exact direct solver: if all load cases
prescribe their temperature on the same nodes and the system is regular, the analysis succeeds and returns, for every load case, the
temperature that has its prescribed value and balances conduction against the losses through the Robin surfaces and the interface. Missing:
different nodes per load case (`C82_other_regions_wrong`), nodal densities that are true averages (C52). -/
theorem C82_heat_balance_partial (T : Task ι Q d nE k) (hT : Built T) (S : Solver.Backend ℝ (Matrix ι ι ℝ) (ι → ℝ)) (hS : ExactDirect S)
    (c : Solver.Cfg ℝ) (hc : c.solver = "auto" ∨ c.solver = "spsolve") (law : ℝ → ℝ → ℝ → ℝ → ℝ) (Ec : ℝ) (rho : Fin nE → ℝ) (p : ℝ)
    (D : Finset ι) (hD : ∀ D' ∈ T.dirichlet, D' = D) (hl : T.dirichlet.length = T.values.length) (hne : T.values ≠ [])
    (hdet : (enforceK (T.matrix law Ec rho p) D).det ≠ 0) :
    ∃ us, T.solve S c law Ec rho p = .ok us ∧
      List.Forall₂ (fun v u => Spec.Heat.Balanced T.fe (T.ke law Ec rho p) T.robin T.regions p T.q (T.nodal rho) D v u) T.values us := by
  have hrep : T.dirichlet = List.replicate T.values.length D := List.eq_replicate_iff.mpr ⟨hl, hD⟩
  obtain ⟨v, vs, hv⟩ := List.exists_cons_of_ne_nil hne
  have hname : (if c.solver = "auto" then "spsolve" else c.solver) = "spsolve" := by
    rcases hc with h | h
    · rw [if_pos h]
    · rw [h]; simp
  set K := T.matrix law Ec rho p with hK
  have hz : List.zipWith (fun D v => enforceRhs (T.emit rho p) D v) (List.replicate T.values.length D) T.values =
      T.values.map fun v => enforceRhs (T.emit rho p) D v := by
    clear * -
    induction T.values with
    | nil => rfl
    | cons a l ih => simp [List.replicate_succ, ih]
  have hsolve : T.solve S c law Ec rho p = .ok (T.values.map fun v => (enforceK K D)⁻¹ *ᵥ enforceRhs (T.emit rho p) D v) := by
    unfold Task.solve solveMulti
    simp only [hname]
    rw [if_neg (by simp), if_neg (by rw [hv]; simp), hrep, hz]
    have hr2 : List.replicate T.values.length D = D :: List.replicate vs.length D := by rw [hv]; rfl
    rw [hr2]
    simp only [if_true]
    rw [← hK, (hS _ (by convert hdet)).2, bind_okay]
    unfold broadcast
    rw [if_pos (by simp), List.map_map]
    rfl
  refine ⟨_, hsolve, ?_⟩
  rw [List.forall₂_map_right_iff, List.forall₂_same]
  intro w _
  rw [← hsolves_balanced hT, ← hK]
  show enforceK K D *ᵥ _ = _
  rw [Matrix.mulVec_mulVec, Matrix.mul_nonsing_inv _ (Ne.isUnit hdet), Matrix.one_mulVec]

/-- A rod: one linear element between two nodes, one quadrature point in the middle. -/
def rod : FE (Fin 2) (Fin 1) (Fin 1) 1 where
  val _ _ _ := 1 / 2
  grad i _ _ _ := if i = 0 then -1 else 1
  dx _ _ := 1

/-- A rod of conductivity 2 without Robin boundaries; the first load case prescribes the temperature 0 at the left end, the second one the
temperature 1 at the right end. -/
def twoCases : Task (Fin 2) (Fin 1) 1 1 2 where
  fe := rod
  t := ![![0], ![1]]
  dirichlet := [{0}, {1}]
  values := [0, 1]
  robin := none
  regions := []
  bilinear := []
  linear := []
  designRobin := false
  objective := .compliance
  avgWeight := 0
  k := 2

theorem rod_conduction (ke : Fin 1 → ℝ) : conduction rod ke = !![ke 0, -ke 0; -ke 0, ke 0] := by
  ext i j
  fin_cases i <;> fin_cases j <;> simp [conduction, rod, dot]

/-- **C82 (refuted for load cases with different Dirichlet nodes).** In `twoCases` the second load case should be the uniform temperature 1;
with any exact direct solver the analysis returns the temperature 1/2 at the node where 1 is prescribed (and 0 at the other one). -/
theorem C82_other_regions_wrong (S : Solver.Backend ℝ (Matrix (Fin 2) (Fin 2) ℝ) (Fin 2 → ℝ)) (hS : ExactDirect S) :
    Built twoCases ∧
    ∃ u1 u2, twoCases.solve S { solver := "spsolve", rtol := 0 } simp (1 / 1000) (fun _ => 1) 3 = .ok [u1, u2] ∧
      u2 1 = 1 / 2 ∧ u2 0 = 0 ∧
      ¬ Spec.Heat.Balanced twoCases.fe (twoCases.ke simp (1 / 1000) (fun _ => 1) 3) twoCases.robin twoCases.regions 3 twoCases.q
        (twoCases.nodal fun _ => 1) {1} 1 u2 := by
  classical
  have hke : ∀ e, twoCases.ke simp (1 / 1000) (fun _ => 1) 3 e = 2 := by
    intro e; simp [Task.ke, Material.simp, twoCases]
  have hmat : twoCases.matrix simp (1 / 1000) (fun _ => 1) 3 = !![2, -2; -2, 2] := by
    have h0 : twoCases.matrix simp (1 / 1000) (fun _ => 1) 3 = conduction rod (twoCases.ke simp (1 / 1000) (fun _ => 1) 3) := rfl
    rw [h0, rod_conduction, hke]
  have hemit : twoCases.emit (fun _ => 1) 3 = 0 := rfl
  set K : Matrix (Fin 2) (Fin 2) ℝ := enforceK !![2, -2; -2, 2] {0} with hKdef
  have hK : K = !![1, 0; -2, 2] := by
    ext i j
    fin_cases i <;> fin_cases j <;> simp [K, enforceK]
  have hdet : K.det = 2 := by rw [hK]; simp [Matrix.det_fin_two]
  have hdet' : K.det ≠ 0 := by rw [hdet]; norm_num
  refine ⟨⟨twoCases, rfl⟩, K⁻¹ *ᵥ enforceRhs 0 {0} 0, K⁻¹ *ᵥ enforceRhs 0 {1} 1, ?_, ?_⟩
  · unfold Task.solve solveMulti
    rw [hmat, hemit]
    rw [if_neg (by simp), if_neg (by simp [twoCases])]
    show (S.splu K [enforceRhs 0 {0} 0, enforceRhs 0 {1} 1] >>= broadcast 2) = _
    rw [(hS K (by convert hdet')).2, bind_okay]
    unfold broadcast
    rw [if_pos (by simp)]
    simp only [List.map_cons, List.map_nil]
    congr!
  · set u := K⁻¹ *ᵥ enforceRhs (0 : Fin 2 → ℝ) {1} 1 with hu
    have hKu : K *ᵥ u = enforceRhs 0 {1} 1 := by
      rw [hu, Matrix.mulVec_mulVec, Matrix.mul_nonsing_inv _ (Ne.isUnit hdet'), Matrix.one_mulVec]
    have h0 := congrFun hKu 0
    have h1 := congrFun hKu 1
    rw [hK] at h0 h1
    simp [Matrix.mulVec, dotProduct, Fin.sum_univ_two, enforceRhs] at h0 h1
    have hu1 : u 1 = 1 / 2 := by rw [h0] at h1; linarith
    refine ⟨hu1, h0, fun hb => ?_⟩
    have := hb.1 1 (by simp)
    rw [hu1] at this; norm_num at this

/-- **C82 (further Dirichlet regions are ignored).** If one temperature is given for several regions, only the first region is held at it:
the analysis is, whatever the others are, the one without them. -/
theorem C82_extra_regions_ignored (S : Solver.Backend ℝ (Matrix ι ι ℝ) (ι → ℝ)) (c : Solver.Cfg ℝ) (K : Matrix ι ι ℝ) (emit : ι → ℝ)
    (D : Finset ι) (Ds : List (Finset ι)) (v : ℝ) : solveMulti S c K emit (D :: Ds) [v] = solveMulti S c K emit [D] [v] := by
  unfold solveMulti; simp

/-- **C82 (solver choice).** Only direct and PETSc solvers are accepted; every other name is rejected, whatever the system. -/
theorem C82_other_solvers_rejected (S : Solver.Backend ℝ (Matrix ι ι ℝ) (ι → ℝ)) (c : Solver.Cfg ℝ) (K : Matrix ι ι ℝ) (emit : ι → ℝ)
    (Ds : List (Finset ι)) (vals : List ℝ) (h1 : c.solver ≠ "auto") (h2 : c.solver ≠ "spsolve") (h3 : c.solver ≠ "petsc")
    (h4 : c.solver ≠ "petsc_spdirect") : solveMulti S c K emit Ds vals = .error .notImplemented := by
  unfold solveMulti
  simp only [if_neg h1]
  rw [if_pos ⟨h2, h3, h4⟩]

/-! ### C86: thermal compliance -/

/-- Heat dissipated through the Robin surfaces and the interface, `∫ h T²`. -/
def lossEnergy (T : Task ι Q d nE k) (rho : Fin nE → ℝ) (p : ℝ) (u : ι → ℝ) : ℝ :=
  match T.robin with
  | none => 0
  | some (h, _) => (T.regions.map fun R => ∑ q, h * (∑ j, u j * R.val j q) ^ 2 * R.dx q).sum +
      ∑ e, ∑ q, (h * Spec.Heat.field T.fe (T.nodal rho) e q ^ p * (1 - Spec.Heat.field T.fe (T.nodal rho) e q) ^ T.q) *
        Spec.Heat.steepness T.fe (T.nodal rho) e q * Spec.Heat.field T.fe u e q ^ 2 * T.fe.dx e q

/-- **C86.** For every task as constructed, every density field and temperature, the reported compliance `T·K T` is twice the sum of the
reported element energies plus the dissipation through Robin surfaces and interface. -/
theorem C86_compliance_is_dissipation (T : Task ι Q d nE k) (hT : Built T) (law : ℝ → ℝ → ℝ → ℝ → ℝ) (Ec : ℝ) (rho : Fin nE → ℝ) (p : ℝ)
    (u : ι → ℝ) :
    compliance (T.matrix law Ec rho p) u = 2 * ∑ e, energy T.fe (T.ke law Ec rho p) u e + lossEnergy T rho p u := by
  have ht := hT.terms
  have h0 : compliance (T.matrix law Ec rho p) u = ∑ i, u i * ∑ j, conduction T.fe (T.ke law Ec rho p) i j * u j +
      ((T.forms rho p).map fun N => ∑ i, u i * ∑ j, N i j * u j).sum := by
    unfold compliance Task.matrix
    simp only [foldl_apply, mul_add, Finset.sum_add_distrib]
    congr 1
    generalize T.forms rho p = l
    induction l with
    | nil => simp
    | cons N l ih => simp only [List.map_cons, List.sum_cons, mul_add, Finset.sum_add_distrib, ih]
  rw [h0, quad_conduction]
  congr 1
  · rw [Finset.mul_sum]
    refine Finset.sum_congr rfl fun e _ => ?_
    unfold energy
    rw [Finset.mul_sum]
    exact Finset.sum_congr rfl fun q _ => by ring
  · unfold Task.forms lossEnergy
    rcases hr : T.robin with _ | ⟨h, Tenv⟩
    · rw [hr] at ht; simp [ht.1]
    · rw [hr] at ht
      simp only [ht.1, List.map_append, List.map_map, List.sum_append, List.map_cons, List.map_nil, List.sum_cons, List.sum_nil, add_zero,
        Function.comp_def, quad_robin, quad_virtual]
      rfl

/-- The finite element data of first-order elements: quadrature weights are positive, basis functions non-negative with sum 1. -/
structure Regular (B : FE ι (Fin nE) Q d) : Prop where
  dx : ∀ e q, 0 < B.dx e q
  val : ∀ i e q, 0 ≤ B.val i e q
  one : ∀ e q, ∑ i, B.val i e q = 1

theorem lossEnergy_nonneg (T : Task ι Q d nE k) (hB : Regular T.fe) (hR : ∀ R ∈ T.regions, ∀ q, 0 ≤ R.dx q)
    (hh : ∀ h Tenv, T.robin = some (h, Tenv) → 0 ≤ h) (rho : Fin nE → ℝ) (hr : ∀ e, 0 ≤ rho e ∧ rho e ≤ 1) (p : ℝ) (u : ι → ℝ) :
    0 ≤ lossEnergy T rho p u := by
  unfold lossEnergy
  rcases hrb : T.robin with _ | ⟨h, Tenv⟩
  · exact le_refl _
  · have h0 := hh h Tenv hrb
    simp only
    refine add_nonneg (List.sum_nonneg fun x hx => ?_) (Finset.sum_nonneg fun e _ => Finset.sum_nonneg fun q _ => ?_)
    · obtain ⟨R, hRm, rfl⟩ := List.mem_map.mp hx
      exact Finset.sum_nonneg fun q _ => mul_nonneg (mul_nonneg h0 (sq_nonneg _)) (hR R hRm q)
    · have hf : 0 ≤ Spec.Heat.field T.fe (T.nodal rho) e q ∧ Spec.Heat.field T.fe (T.nodal rho) e q ≤ 1 :=
        field_mem T.fe hB.val hB.one _ (nodalAverage_mem T.t rho hr) e q
      refine mul_nonneg (mul_nonneg (mul_nonneg (mul_nonneg (mul_nonneg h0 (Real.rpow_nonneg hf.1 _)) (pow_nonneg (by linarith [hf.2]) _))
        (Real.sqrt_nonneg _)) (sq_nonneg _)) (hB.dx e q).le

theorem energy_nonneg (B : FE ι (Fin nE) Q d) (hB : Regular B) (ke : Fin nE → ℝ) (hk : ∀ e, 0 ≤ ke e) (u : ι → ℝ) (e : Fin nE) :
    0 ≤ energy B ke u e :=
  Finset.sum_nonneg fun q _ => mul_nonneg (mul_nonneg (mul_nonneg (by norm_num) (hk e))
    (Finset.sum_nonneg fun a _ => mul_self_nonneg _)) (hB.dx e q).le

/-- **C86 (sign).** Element energies and thermal compliance are never negative for admissible densities. -/
theorem C86_compliance_nonneg (T : Task ι Q d nE k) (hT : Built T) (hB : Regular T.fe) (hR : ∀ R ∈ T.regions, ∀ q, 0 ≤ R.dx q)
    (hh : ∀ h Tenv, T.robin = some (h, Tenv) → 0 ≤ h) (law : ℝ → ℝ → ℝ → ℝ → ℝ) (Ec : ℝ) (rho : Fin nE → ℝ)
    (hr : ∀ e, 0 ≤ rho e ∧ rho e ≤ 1) (p : ℝ) (hk : ∀ e, 0 ≤ T.ke law Ec rho p e) (u : ι → ℝ) :
    (∀ e, 0 ≤ energy T.fe (T.ke law Ec rho p) u e) ∧ 0 ≤ compliance (T.matrix law Ec rho p) u := by
  have h := energy_nonneg T.fe hB _ hk u
  refine ⟨h, ?_⟩
  rw [C86_compliance_is_dissipation T hT]
  have := Finset.sum_nonneg fun e (_ : e ∈ Finset.univ) => h e
  linarith [lossEnergy_nonneg T hB hR hh rho hr p u]

/-- **C86 (without Robin boundaries nothing flows).** If a task has no Robin boundary and its mesh is connected to the Dirichlet nodes, the
heat balance has the uniform prescribed temperature as its only solution; compliance, element energies and sensitivities are all zero, for
every design. -/
theorem C86_no_robin_uniform (T : Task ι Q d nE k) (hT : Built T) (hr : T.robin = none) (hB : Regular T.fe)
    (hgrad : ∀ e q a, ∑ i, T.fe.grad i e q a = 0) (law : ℝ → ℝ → ℝ → ℝ → ℝ) (Ec : ℝ) (rho : Fin nE → ℝ) (p : ℝ)
    (hk : ∀ e, 0 < T.ke law Ec rho p e) (D : Finset ι) (v : ℝ)
    (hconn : ∀ w : ι → ℝ, (∀ i ∈ D, w i = 0) → (∀ e q a, Spec.Heat.slope T.fe w e q a = 0) → w = 0) (u : ι → ℝ)
    (hu : Spec.Heat.Balanced T.fe (T.ke law Ec rho p) T.robin T.regions p T.q (T.nodal rho) D v u) :
    (∀ i, u i = v) ∧ compliance (T.matrix law Ec rho p) u = 0 ∧ (∀ e, energy T.fe (T.ke law Ec rho p) u e = 0) ∧
    ∀ e, T.sensitivity law Ec rho p u e = 0 := by
  have hgr : ∀ e q a, gradAt T.fe (fun i => u i - v) e q a = gradAt T.fe u e q a := by
    intro e q a
    have h1 : gradAt T.fe (fun i => u i - v) e q a = gradAt T.fe u e q a - v * ∑ i, T.fe.grad i e q a := by
      unfold gradAt
      rw [Finset.mul_sum, ← Finset.sum_sub_distrib]
      exact Finset.sum_congr rfl fun i _ => by ring
    rw [h1, hgrad]; ring
  have hbal : ∀ i ∉ D, ∑ j, conduction T.fe (T.ke law Ec rho p) i j * u j = 0 := by
    intro i hi
    have := hu.2 i hi
    rw [conducted_eq] at this
    simpa [Spec.Heat.losses, hr] using this
  -- test with u - v
  have hq : ∑ e, ∑ q, T.ke law Ec rho p e * dot (gradAt T.fe u e q) (gradAt T.fe u e q) * T.fe.dx e q = 0 := by
    have h1 := quad_conduction T.fe (T.ke law Ec rho p) fun i => u i - v
    have h2 : ∀ i, ∑ j, conduction T.fe (T.ke law Ec rho p) i j * (u j - v) = ∑ j, conduction T.fe (T.ke law Ec rho p) i j * u j := by
      intro i
      rw [conduction_apply, conduction_apply]
      refine Finset.sum_congr rfl fun e _ => Finset.sum_congr rfl fun q _ => ?_
      rw [show gradAt T.fe (fun j => u j - v) e q = gradAt T.fe u e q from funext (hgr e q)]
    have h3 : ∑ i, (u i - v) * ∑ j, conduction T.fe (T.ke law Ec rho p) i j * (u j - v) = 0 := by
      refine Finset.sum_eq_zero fun i _ => ?_
      by_cases hi : i ∈ D
      · rw [hu.1 i hi]; ring
      · rw [h2, hbal i hi]; ring
    rw [h3] at h1
    rw [h1]
    refine Finset.sum_congr rfl fun e _ => Finset.sum_congr rfl fun q _ => ?_
    rw [show gradAt T.fe (fun j => u j - v) e q = gradAt T.fe u e q from funext (hgr e q)]
  have hnn : ∀ e q, 0 ≤ T.ke law Ec rho p e * dot (gradAt T.fe u e q) (gradAt T.fe u e q) * T.fe.dx e q := fun e q =>
    mul_nonneg (mul_nonneg (hk e).le (Finset.sum_nonneg fun a _ => mul_self_nonneg _)) (hB.dx e q).le
  have hze : ∀ e q, dot (gradAt T.fe u e q) (gradAt T.fe u e q) = 0 := by
    intro e q
    have h1 := (Finset.sum_eq_zero_iff_of_nonneg fun e _ => Finset.sum_nonneg fun q _ => hnn e q).mp hq e (Finset.mem_univ e)
    have h2 := (Finset.sum_eq_zero_iff_of_nonneg fun q _ => hnn e q).mp h1 q (Finset.mem_univ q)
    rcases mul_eq_zero.mp h2 with h | h
    · exact (mul_eq_zero.mp h).resolve_left (hk e).ne'
    · exact absurd h (hB.dx e q).ne'
  have hg0 : ∀ e q a, gradAt T.fe u e q a = 0 := by
    intro e q a
    have := (Finset.sum_eq_zero_iff_of_nonneg fun a _ => mul_self_nonneg (gradAt T.fe u e q a)).mp (hze e q) a (Finset.mem_univ a)
    exact mul_self_eq_zero.mp this
  have hen : ∀ e, energy T.fe (T.ke law Ec rho p) u e = 0 := by
    intro e
    unfold energy
    exact Finset.sum_eq_zero fun q _ => by rw [hze]; ring
  have huv : (fun i => u i - v) = 0 := hconn _ (fun i hi => by rw [hu.1 i hi]; ring) fun e q a => (hgr e q a).trans (hg0 e q a)
  refine ⟨fun i => sub_eq_zero.mp (congrFun huv i), ?_, hen, fun e => ?_⟩
  · rw [C86_compliance_is_dissipation T hT]
    simp [hen, lossEnergy, hr]
  · unfold Task.sensitivity
    rw [hr]
    simp [hen, dCSimp]

/-! ### C83: unique solvability -/

open Classical in
/-- **C83.** With positive conductivities, a non-negative film coefficient and a mesh connected to the Dirichlet nodes, the system of every
load case has exactly one solution, for every density field in [0, 1]; it is the only temperature in heat balance. -/
theorem C83_heat_unique_solution (T : Task ι Q d nE k) (hT : Built T) (hB : Regular T.fe) (hR : ∀ R ∈ T.regions, ∀ q, 0 ≤ R.dx q)
    (hh : ∀ h Tenv, T.robin = some (h, Tenv) → 0 ≤ h) (law : ℝ → ℝ → ℝ → ℝ → ℝ) (Ec : ℝ) (rho : Fin nE → ℝ)
    (hr : ∀ e, 0 ≤ rho e ∧ rho e ≤ 1) (p : ℝ) (hk : ∀ e, 0 < T.ke law Ec rho p e) (D : Finset ι)
    (hconn : ∀ w : ι → ℝ, (∀ i ∈ D, w i = 0) → (∀ e q a, Spec.Heat.slope T.fe w e q a = 0) → w = 0) :
    (enforceK (T.matrix law Ec rho p) D).det ≠ 0 ∧
    ∀ v, ∃! u, Spec.Heat.Balanced T.fe (T.ke law Ec rho p) T.robin T.regions p T.q (T.nodal rho) D v u := by
  set K := T.matrix law Ec rho p with hK
  have hker : ∀ u : ι → ℝ, enforceK K D *ᵥ u = 0 → u = 0 := by
    intro u hu
    have hs : HSolves K D 0 0 u := by
      unfold HSolves; rw [hu]; funext i; simp [enforceRhs]
    rw [hsolves_iff] at hs
    have hz : compliance K u = 0 := by
      unfold compliance
      refine Finset.sum_eq_zero fun i _ => ?_
      by_cases hi : i ∈ D
      · rw [hs.1 i hi]; ring
      · rw [hs.2 i hi]; simp
    rw [hK, C86_compliance_is_dissipation T hT] at hz
    have hen := energy_nonneg T.fe hB (T.ke law Ec rho p) (fun e => (hk e).le) u
    have hsum := Finset.sum_nonneg fun e (_ : e ∈ Finset.univ) => hen e
    have hl := lossEnergy_nonneg T hB hR hh rho hr p u
    have hs0 : ∑ e, energy T.fe (T.ke law Ec rho p) u e = 0 := by linarith
    apply hconn u hs.1
    intro e q a
    have h1 := (Finset.sum_eq_zero_iff_of_nonneg fun e _ => hen e).mp hs0 e (Finset.mem_univ e)
    unfold energy at h1
    have h2 := (Finset.sum_eq_zero_iff_of_nonneg fun q _ => mul_nonneg (mul_nonneg (mul_nonneg (by norm_num) (hk e).le)
      (Finset.sum_nonneg fun a _ => mul_self_nonneg (gradAt T.fe u e q a))) (hB.dx e q).le).mp h1 q (Finset.mem_univ q)
    have h3 : dot (gradAt T.fe u e q) (gradAt T.fe u e q) = 0 := by
      rcases mul_eq_zero.mp h2 with h | h
      · rcases mul_eq_zero.mp h with h | h
        · have := hk e; linarith
        · exact h
      · exact absurd h (hB.dx e q).ne'
    exact mul_self_eq_zero.mp ((Finset.sum_eq_zero_iff_of_nonneg fun a _ => mul_self_nonneg (gradAt T.fe u e q a)).mp h3 a
      (Finset.mem_univ a))
  have hdet : (enforceK K D).det ≠ 0 := by
    intro hd0
    obtain ⟨u, hu0, hu⟩ := Matrix.exists_mulVec_eq_zero_iff.mpr hd0
    exact hu0 (hker u hu)
  refine ⟨hdet, fun v => ?_⟩
  refine ⟨(enforceK K D)⁻¹ *ᵥ enforceRhs (T.emit rho p) D v, ?_, ?_⟩
  · show Spec.Heat.Balanced _ _ _ _ _ _ _ _ _ _
    rw [← hsolves_balanced hT]
    show enforceK K D *ᵥ _ = _
    rw [Matrix.mulVec_mulVec, Matrix.mul_nonsing_inv _ (Ne.isUnit hdet), Matrix.one_mulVec]
  · intro w hw
    have hw' : enforceK K D *ᵥ w = enforceRhs (T.emit rho p) D v := (hsolves_balanced hT law Ec rho p D v w).mpr hw
    rw [← hw', Matrix.mulVec_mulVec, Matrix.nonsing_inv_mul _ (Ne.isUnit hdet), Matrix.one_mulVec]

/-! ### C85: design-dependent Robin boundary -/

/-- **C85 (refuted).** The option `design_robin_boundary=True` re-assembles the Robin boundary from the density at every analysis, but the
result never depends on the density: the task afterwards is unchanged, and objective values, temperatures and adjoint fields are those of the
option switched off, for every density field, exponent and solver. -/
theorem C85_design_robin_has_no_effect (T : Task ι Q d nE k) (hT : Built T) (h Tenv : ℝ) (hr : T.robin = some (h, Tenv))
    (rho : Fin nE → ℝ) (p : ℝ) :
    T.updateRobin rho p = .ok T ∧
    ∀ S c law Ec, ({ T with designRobin := true } : Task ι Q d nE k).objectives S c law Ec rho p =
      (({ T with designRobin := false } : Task ι Q d nE k).objectives S c law Ec rho p).map fun r =>
        ({ T with designRobin := true }, r.2) := by
  have key : ∀ b, ({ T with designRobin := b } : Task ι Q d nE k).updateRobin rho p = .ok { T with designRobin := b } := by
    intro b
    have ht := hT.terms
    rw [hr] at ht
    obtain ⟨h1, h2⟩ := ht
    unfold Task.updateRobin
    simp only [hr, assembleRobin_one, Except.map]
    congr 1
    rcases T with ⟨⟩
    simp only at h1 h2
    subst h1 h2
    rfl
  refine ⟨by simpa using key T.designRobin, fun S c law Ec => ?_⟩
  unfold Task.objectives
  simp only [if_true, Bool.false_eq_true, if_false, key true, bind_okay]
  have h1 : ({ T with designRobin := true } : Task ι Q d nE k).solve S c law Ec rho p =
    ({ T with designRobin := false } : Task ι Q d nE k).solve S c law Ec rho p := rfl
  have h2 : ∀ K Ts, ({ T with designRobin := true } : Task ι Q d nE k).objectiveValues K rho Ts =
    ({ T with designRobin := false } : Task ι Q d nE k).objectiveValues K rho Ts := fun _ _ => rfl
  have h3 : ({ T with designRobin := true } : Task ι Q d nE k).matrix law Ec rho p =
    ({ T with designRobin := false } : Task ι Q d nE k).matrix law Ec rho p := rfl
  have h4 : ∀ K Ts, ({ T with designRobin := true } : Task ι Q d nE k).adjoints S c K rho p Ts =
    ({ T with designRobin := false } : Task ι Q d nE k).adjoints S c K rho p Ts := fun _ _ => rfl
  simp only [h1, h2, h3, h4]
  rcases ({ T with designRobin := false } : Task ι Q d nE k).solve S c law Ec rho p with e | Ts
  · rfl
  simp only [bind_okay]
  rcases ({ T with designRobin := false } : Task ι Q d nE k).objectiveValues
    (({ T with designRobin := false } : Task ι Q d nE k).matrix law Ec rho p) rho Ts with e | Js
  · rfl
  simp only [bind_okay]
  rcases ({ T with designRobin := false } : Task ι Q d nE k).adjoints S c
    (({ T with designRobin := false } : Task ι Q d nE k).matrix law Ec rho p) rho p Ts with e | lam <;> rfl

end
end Verif.Heat
