import Verif.Lemmas.Embed
import Verif.Lemmas.RunBy
import Verif.Lemmas.RunLogBy
import Verif.Spec.RunHeat
import Verif.Props.HeatObj
import Mathlib.Data.List.GetD

/-! Lemmas for `Verif.Props.RunHeat`: the finite element part of a run on a heat task. -/
namespace Verif.Run
open Verif Verif.Sched Verif.Spec Verif.Driver Verif.Heat Verif.Elastic

variable {ι Q : Type} [Fintype ι] [Fintype Q] {d nE k : ℕ}

noncomputable section
open Classical

/-! ### Specification and code -/

theorem conductivity_eq (T : Task ι Q d nE k) (c p : ℝ) (x : Fin nE → ℝ) :
    T.ke Material.simp c x p = fun e => conductivity T c p (x e) := by
  funext e
  unfold Task.ke Material.simp conductivity
  ring

theorem gathered_eq (T : Task ι Q d nE k) (ht : ∀ e, Function.Injective fun a => T.t a e) (x : Fin nE → ℝ) : T.nodal x = gathered T x := by
  funext i
  unfold Task.nodal gathered valence
  rw [C52_what_is_averaged T.t ht]
  congr 1
  refine Finset.sum_congr rfl fun a _ => Finset.sum_congr rfl fun e _ => ?_
  by_cases h : T.t a e = i
  · rw [if_pos h]
    rw [Finset.sum_eq_single (pairedWith a e)]
    · rw [if_pos ⟨h, rfl⟩]
    · intro e' _ hne
      rw [if_neg]
      rintro ⟨-, h2⟩
      exact hne (Fin.ext h2.symm)
    · intro hn; exact absurd (Finset.mem_univ _) hn
  · rw [if_neg h]
    exact (Finset.sum_eq_zero fun e' _ => if_neg fun h2 => h h2.1).symm

theorem valence_eq (T : Task ι Q d nE k) (ht : ∀ e, Function.Injective fun a => T.t a e) (i : ι) : max (count T.t i) 1 = valence T i := by
  unfold valence
  rw [count_card T.t ht]

theorem heatSlope_eq (E0 c p x U : ℝ) : Material.dCSimp x U E0 (E0 * c) p = slopeOf E0 c p x U := by
  unfold Material.dCSimp slopeOf
  rfl

theorem heatColumn_eq (T : Task ι Q d nE k) (ht : ∀ e, Function.Injective fun a => T.t a e) (h1 : ∀ e q, ∑ i, T.fe.val i e q = 1)
    (c p : ℝ) (x : Fin nE → ℝ) (u : ι → ℝ) (e : Fin nE) : T.sensitivity Material.simp c x p u e = heatColumn T c p x u e := by
  have hen : energy T.fe (T.ke Material.simp c x p) u e =
      (∑ y, conductivity T c p (x e) * (∑ a, Spec.Heat.slope T.fe u e y a ^ 2) * T.fe.dx e y) / 2 := by
    unfold energy
    rw [Finset.sum_div]
    refine Finset.sum_congr rfl fun q _ => ?_
    have : dot (gradAt T.fe u e q) (gradAt T.fe u e q) = ∑ a, Spec.Heat.slope T.fe u e q a ^ 2 :=
      Finset.sum_congr rfl fun a _ => (sq _).symm
    rw [this, conductivity_eq]; ring
  have hslope : ∀ h Tenv i, explicitGrad T.fe h Tenv p T.q (T.nodal x) u i = interfaceSlope T h Tenv p x u i := by
    intro h Tenv i
    unfold explicitGrad interfaceSlope
    refine Finset.sum_congr rfl fun e _ => Finset.sum_congr rfl fun y _ => ?_
    rw [valAt_const T.fe h1, gathered_eq T ht]
    have hf : ∀ z : ι → ℝ, valAt T.fe z e y = Spec.Heat.field T.fe z e y := fun _ => rfl
    have hs : Heat.interface T.fe (gathered T x) e y = Spec.Heat.steepness T.fe (gathered T x) e y := rfl
    have hd : dot (fun a => gradAt T.fe (gathered T x) e y a / max (Spec.Heat.steepness T.fe (gathered T x) e y) (1 / 10 ^ 12)) (T.fe.grad i e y) =
        (∑ a, Spec.Heat.slope T.fe (gathered T x) e y a * T.fe.grad i e y a) / max (Spec.Heat.steepness T.fe (gathered T x) e y) (1 / 10 ^ 12) := by
      unfold dot
      rw [Finset.sum_div]
      refine Finset.sum_congr rfl fun a _ => ?_
      show Spec.Heat.slope T.fe (gathered T x) e y a / _ * _ = _
      ring
    rw [hs, hd]
    simp only [hf, dA]
    ring
  unfold Task.sensitivity heatColumn
  simp only
  rw [hen, heatSlope_eq]
  rcases ho : T.objective with _ | _ | _ <;> rcases hr : T.robin with _ | ⟨h, Tenv⟩ <;> simp only [add_zero]
  congr 1
  unfold toElements
  exact Finset.sum_congr rfl fun a _ => by rw [hslope, valence_eq T ht]

theorem slopeOf_nonpos {E0 c p x U : ℝ} (hE : 0 < E0) (hc : c ≤ 1) (hp : 0 ≤ p) (hU : 0 ≤ U) : slopeOf E0 c p x U ≤ 0 := by
  rw [← heatSlope_eq]
  exact Props.C25_simp_sensitivity_nonpos _ _ _ _ _ (by nlinarith) hp hU

/-! ### The linear systems -/

theorem solveMulti_all (S : Solver.Backend ℝ (Matrix ι ι ℝ) (ι → ℝ)) (hS : ExactDirect S) (c : Solver.Cfg ℝ)
    (hc : c.solver = "auto" ∨ c.solver = "spsolve") (K : Matrix ι ι ℝ) (f : ι → ℝ) (D : Finset ι) (Ds : List (Finset ι)) (vals : List ℝ)
    (hD : ∀ D' ∈ Ds, D' = D) (hl : Ds.length = vals.length) (hne : vals ≠ []) (hdet : (enforceK K D).det ≠ 0) :
    ∃ us, solveMulti S c K f Ds vals = .ok us ∧ us.length = vals.length := by
  have hrep : Ds = List.replicate vals.length D := List.eq_replicate_iff.mpr ⟨hl, hD⟩
  obtain ⟨v, vs, hv⟩ := List.exists_cons_of_ne_nil hne
  have hname : (if c.solver = "auto" then "spsolve" else c.solver) = "spsolve" := by
    rcases hc with h | h
    · rw [if_pos h]
    · rw [h]; simp
  refine ⟨(List.zipWith (fun D v => enforceRhs f D v) Ds vals).map fun g => (enforceK K D)⁻¹.mulVec g, ?_, by
    rw [List.length_map, List.length_zipWith, hl, min_self]⟩
  unfold solveMulti
  simp only [hname]
  rw [if_neg (by simp), if_neg (by rw [hv]; simp)]
  have hr2 : Ds = D :: List.replicate vs.length D := by rw [hrep, hv]; rfl
  obtain ⟨F, hF⟩ : ∃ F, F = List.zipWith (fun D v => enforceRhs f D v) Ds vals := ⟨_, rfl⟩
  have hlen : F.length = vals.length := by rw [hF, List.length_zipWith, hl, min_self]
  rw [← hF, hr2]
  simp only [if_true]
  rw [(hS _ (by convert hdet)).2, bind_okay]
  unfold broadcast
  rw [if_pos (by rw [List.length_map, hlen])]


theorem _root_.Verif.Spec.HeatSound.exact {R : HeatSetup ι Q d nE k} (h : HeatSound R) : ExactDirect R.backend := by
  intro K hK
  obtain ⟨h1, h2⟩ := h.direct K (by convert hK)
  exact ⟨fun f => by rw [h1], fun fs => by rw [h2]⟩

theorem _root_.Verif.Spec.HeatSound.one {R : HeatSetup ι Q d nE k} (h : HeatSound R) : ∃ D, D ∈ R.task.dirichlet ∧ ∀ D' ∈ R.task.dirichlet, D' = D := by
  have hl := h.regions
  have hv := h.loadCases
  rcases hd : R.task.dirichlet with _ | ⟨D, Ds⟩
  · rw [hd] at hl
    exact absurd (List.length_eq_zero_iff.mp hl.symm) hv
  · exact ⟨D, by simp, fun D' hD' => h.same D' (by rw [hd]; exact hD') D (by rw [hd]; simp)⟩

theorem _root_.Verif.Spec.HeatSound.regular {R : HeatSetup ι Q d nE k} (h : HeatSound R) : Regular R.task.fe := ⟨h.weights, h.shapes, h.partition⟩

theorem conductivity_pos {R : HeatSetup ι Q d nE k} (h : HeatSound R) {x : ℝ} (hx : 0 ≤ x) (p : ℝ) : 0 < conductivity R.task R.eMinCoeff p x := by
  obtain ⟨h1, h2, h3⟩ := h.material
  unfold conductivity
  have a1 := mul_pos h1 h2
  have a2 : 0 ≤ (R.task.k - R.task.k * R.eMinCoeff) * x ^ p := mul_nonneg (by nlinarith) (Real.rpow_nonneg hx p)
  linarith

theorem heat_det {R : HeatSetup ι Q d nE k} (h : HeatSound R) {x : Fin nE → ℝ} (hx : ∀ e, 0 ≤ x e ∧ x e ≤ 1) (p : ℝ) {D : Finset ι}
    (hD : D ∈ R.task.dirichlet) : (enforceK (R.task.matrix Material.simp R.eMinCoeff x p) D).det ≠ 0 :=
  (C83_heat_unique_solution R.task h.built h.regular h.surfaces h.film Material.simp R.eMinCoeff x hx p
    (fun e => by rw [conductivity_eq]; exact conductivity_pos h (hx e).1 p) D (h.connected D hD)).1

/-- The temperatures of all load cases. -/
theorem heat_solved {R : HeatSetup ι Q d nE k} (h : HeatSound R) {x : Fin nE → ℝ} (hx : ∀ e, 0 ≤ x e ∧ x e ≤ 1) (p : ℝ) :
    ∃ u : Fin R.task.values.length → ι → ℝ, R.task.solve R.backend R.solver Material.simp R.eMinCoeff x p = .ok (List.ofFn u) ∧
      ∀ j, Warmed R.task R.eMinCoeff p x j (u j) := by
  obtain ⟨D, hDm, hD⟩ := h.one
  obtain ⟨us, h1, h2⟩ := C82_heat_balance_partial R.task h.built R.backend h.exact R.solver h.solver Material.simp R.eMinCoeff x p D hD
    h.regions h.loadCases (heat_det h hx p hDm)
  have hlen : us.length = R.task.values.length := h2.length_eq.symm
  refine ⟨fun j => us.get (j.cast hlen.symm), ?_, fun j => ?_⟩
  · rw [h1]
    congr 1
    apply List.ext_getElem
    · rw [List.length_ofFn, hlen]
    · intro n a b
      simp
  · have hj : R.task.dirichlet.getD j ∅ = D := by
      rw [List.getD_eq_getElem _ _ (by rw [h.regions]; exact j.isLt)]
      exact hD _ (List.getElem_mem _)
    unfold Warmed
    rw [hj, ← conductivity_eq, ← gathered_eq R.task h.corners]
    have := (List.forall₂_iff_get.mp h2).2 j j.isLt (by rw [hlen]; exact j.isLt)
    exact this

theorem zipWith_ofFn {α β γ : Type} {n : ℕ} (f : α → β → γ) (a : Fin n → α) (b : Fin n → β) :
    List.zipWith f (List.ofFn a) (List.ofFn b) = List.ofFn fun j => f (a j) (b j) := by
  apply List.ext_getElem
  · simp
  · intro i h1 h2
    simp

theorem sum_div_ofFn {n : ℕ} (a : Fin n → ℝ) : (List.ofFn a).sum / (List.ofFn a).length = meanOf a := by
  unfold meanOf
  rw [List.sum_ofFn, List.length_ofFn]

theorem absScale_ofFn {n : ℕ} (a : Fin n → ℝ) : absScale (List.ofFn a) = Spec.sizeOf a := by
  unfold absScale Spec.sizeOf meanOf
  rw [List.map_ofFn, List.sum_ofFn, List.length_ofFn]
  rfl

/-- The objective values. -/
theorem heat_values {R : HeatSetup ι Q d nE k} (h : HeatSound R) (x : Fin nE → ℝ) (p : ℝ) {n : ℕ} (u : Fin n → ι → ℝ) :
    ∃ Js, R.task.objectiveValues (R.task.matrix Material.simp R.eMinCoeff x p) x (List.ofFn u) = .ok Js ∧
      Js.sum / Js.length = heatObjective R.task R.eMinCoeff p x u := by
  obtain ⟨c1, c2, -, -⟩ := C88_objective_values_partial R.task h.built h.partition Material.simp R.eMinCoeff x p (List.ofFn u)
  unfold heatObjective
  rcases ho : R.task.objective with _ | _ | _
  · refine ⟨_, c1 ho, ?_⟩
    rw [List.map_ofFn, sum_div_ofFn]
    simp only
    rw [← conductivity_eq, ← gathered_eq R.task h.corners]
    rfl
  · rcases hr : R.task.robin with _ | ⟨hh, Tenv⟩
    · exact absurd hr (h.robin (Or.inl ho))
    · unfold Task.objectiveValues
      simp only [ho, hr]
      rw [gathered_eq R.task h.corners]
      by_cases hs : Spec.Heat.interfaceSize R.task.fe (gathered R.task x) ≤ 1 / 10 ^ 16
      · refine ⟨_, if_pos hs, ?_⟩
        rw [if_pos hs, List.map_ofFn, sum_div_ofFn]
        simp [meanOf]
      · have hx : ∀ v, heatExchange R.task.fe v (gathered R.task x) Tenv hh = Spec.Heat.exchanged R.task.fe (gathered R.task x) hh Tenv v :=
          fun v => heatExchange_eq R.task.fe h.partition v _ Tenv hh (not_le.mp hs)
        rw [if_neg (show ¬ hxDen R.task.fe (gathered R.task x) ≤ 1 / 10 ^ 16 from hs), if_neg hs]
        simp only [hx, List.map_ofFn, List.length_ofFn]
        by_cases hw : R.task.avgWeight = 0
        · refine ⟨_, if_pos hw, ?_⟩
          rw [if_pos hw, sum_div_ofFn]
          rfl
        · rw [if_neg hw, if_neg hw]
          by_cases hn : 1 < n
          · refine ⟨_, if_pos hn, ?_⟩
            rw [if_pos hn, zipWith_ofFn, sum_div_ofFn, absScale_ofFn, absScale_ofFn]
            rfl
          · refine ⟨_, if_neg hn, ?_⟩
            rw [if_neg hn, zipWith_ofFn, sum_div_ofFn]
            rfl
  · refine ⟨_, c2 ho, ?_⟩
    rw [List.map_ofFn, sum_div_ofFn]
    rfl

/-- The adjoint systems can be solved. -/
theorem heat_adjoints {R : HeatSetup ι Q d nE k} (h : HeatSound R) {x : Fin nE → ℝ} (hx : ∀ e, 0 ≤ x e ∧ x e ≤ 1) (p : ℝ) (Ts : List (ι → ℝ)) :
    ∃ lam, R.task.adjoints R.backend R.solver (R.task.matrix Material.simp R.eMinCoeff x p) x p Ts = .ok lam := by
  obtain ⟨D, hDm, hD⟩ := h.one
  have hsol : ∀ f, ∃ us, solveMulti R.backend R.solver (R.task.matrix Material.simp R.eMinCoeff x p) f R.task.dirichlet R.task.values = .ok us := by
    intro f
    obtain ⟨us, hus, -⟩ := solveMulti_all R.backend h.exact R.solver h.solver _ f D _ _ hD h.regions h.loadCases (heat_det h hx p hDm)
    exact ⟨us, hus⟩
  unfold Task.adjoints
  rcases ho : R.task.objective with _ | _ | _
  · exact ⟨_, rfl⟩
  · rcases hr : R.task.robin with _ | ⟨hh, Tenv⟩
    · exact absurd hr (h.robin (Or.inl ho))
    · simp only
      by_cases hs : hxDen R.task.fe (R.task.nodal x) ≤ 1 / 10 ^ 16
      · exact ⟨_, if_pos hs⟩
      · rw [if_neg hs]
        obtain ⟨l1, e1⟩ := hsol (hxAdjRhs R.task.fe hh Tenv p R.task.q (R.task.nodal x))
        obtain ⟨l2, e2⟩ := hsol fun _ => 1
        rw [e1, bind_okay]
        by_cases hw : R.task.avgWeight = 0
        · rw [if_pos hw]; exact ⟨_, rfl⟩
        · rw [if_neg hw, e2, bind_okay]
          split_ifs <;> exact ⟨_, rfl⟩
  · exact hsol _

theorem heat_updateRobin {R : HeatSetup ι Q d nE k} (h : HeatSound R) (hd : R.task.designRobin = true) (x : Fin nE → ℝ) (p : ℝ) :
    R.task.updateRobin x p = .ok R.task := by
  rcases hr : R.task.robin with _ | ⟨hh, Tenv⟩
  · exact absurd hr (h.robin (Or.inr hd))
  · exact (C85_design_robin_has_no_effect R.task h.built hh Tenv hr x p).1

/-- The finite element part of a run on a heat task. -/
theorem heatResponse_ok {R : HeatSetup ι Q d nE k} (h : HeatSound R) (v : Vals) {x : Fin nE → ℝ} (hx : ∀ e, 0 ≤ x e ∧ x e ≤ 1) :
    ∃ u : Fin R.task.values.length → ι → ℝ, (∀ j, Warmed R.task R.eMinCoeff v.p x j (u j)) ∧
      heatResponse R R.task v x = .ok (heatObjective R.task R.eMinCoeff v.p x u, fun j => heatColumn R.task R.eMinCoeff v.p x (u j)) := by
  obtain ⟨u, u1, u2⟩ := heat_solved h hx v.p
  obtain ⟨Js, j1, j2⟩ := heat_values h x v.p u
  obtain ⟨lam, l1⟩ := heat_adjoints h hx v.p (List.ofFn u)
  refine ⟨u, u2, ?_⟩
  have hobj : R.task.objectives R.backend R.solver Material.simp R.eMinCoeff x v.p = .ok (R.task, Js, List.ofFn u, lam) := by
    unfold Task.objectives
    by_cases hd : R.task.designRobin = true
    · simp only [if_pos hd]
      rw [heat_updateRobin h hd, bind_okay, u1, bind_okay, j1, bind_okay, l1]
      rfl
    · simp only [if_neg hd]
      rw [bind_okay, u1, bind_okay, j1, bind_okay, l1]
      rfl
  unfold heatResponse
  rw [hobj]
  simp only
  rw [j2]
  congr 2
  funext j e
  rw [heatColumn_eq R.task h.corners h.partition]
  congr 1
  rw [List.getD_eq_getElem _ _ (by rw [List.length_ofFn]; exact j.isLt)]
  simp

theorem heatColumn_nonpos {R : HeatSetup ι Q d nE k} (h : HeatSound R) (hs : R.task.objective = .compliance → R.task.robin = none) {p : ℝ} (hp : 0 ≤ p)
    {x : Fin nE → ℝ} (hx : ∀ e, 0 ≤ x e) (u : ι → ℝ) (e : Fin nE) : heatColumn R.task R.eMinCoeff p x u e ≤ 0 := by
  unfold heatColumn
  have h0 : slopeOf R.task.k R.eMinCoeff p (x e) ((∑ y, conductivity R.task R.eMinCoeff p (x e) * (∑ a, Spec.Heat.slope R.task.fe u e y a ^ 2) * R.task.fe.dx e y) / 2) ≤ 0 := by
    refine slopeOf_nonpos h.material.1 h.material.2.2 hp (div_nonneg (Finset.sum_nonneg fun y _ => ?_) (by norm_num))
    exact mul_nonneg (mul_nonneg (conductivity_pos h (hx e) p).le (Finset.sum_nonneg fun a _ => sq_nonneg _)) (h.weights e y).le
  rcases ho : R.task.objective with _ | _ | _ <;> rcases hr : R.task.robin with _ | ⟨hh, Tenv⟩ <;> simp only [add_zero] <;> try exact h0
  rw [hs ho] at hr
  cases hr

/-- The recorded compliance is not negative. -/
def HeatGood (R : HeatSetup ι Q d nE k) (c : ℝ) : Prop := R.task.objective = .compliance → 0 ≤ c

theorem heatObjective_good {R : HeatSetup ι Q d nE k} (h : HeatSound R) {p : ℝ} {x : Fin nE → ℝ} (hx : ∀ e, 0 ≤ x e ∧ x e ≤ 1) {n : ℕ}
    (u : Fin n → ι → ℝ) : HeatGood R (heatObjective R.task R.eMinCoeff p x u) := by
  intro ho
  unfold heatObjective
  simp only [ho]
  unfold meanOf
  refine div_nonneg (Finset.sum_nonneg fun j _ => ?_) (Nat.cast_nonneg _)
  have h1 := (C86_compliance_nonneg R.task h.built h.regular h.surfaces h.film Material.simp R.eMinCoeff x hx p
    (fun e => by rw [conductivity_eq]; exact (conductivity_pos h (hx e).1 p).le) (u j)).2
  have h2 := (C88_objective_values_partial R.task h.built h.partition Material.simp R.eMinCoeff x p [u j]).1 ho
  unfold Task.objectiveValues at h2
  rw [ho] at h2
  simp only [List.map_cons, List.map_nil, Except.ok.injEq, List.cons.injEq, and_true] at h2
  rw [← conductivity_eq, ← gathered_eq R.task h.corners, ← h2]
  exact h1

/-! ### Iterations and runs -/

theorem heat_computes {R : HeatSetup ι Q d nE k} (h : HeatWellPosed R) :
    Computes R.toCommon (stepWith R.toCommon (heatResponse R R.task)) (HeatIteration R) (HeatGood R) := by
  refine stepWith_ok h.toBasics h.toOCRules _ _ _ fun n v hv rho hrho => ?_
  have hx := fun e => physical_range h.toBasics hv hrho e
  obtain ⟨u, u1, u2⟩ := heatResponse_ok h.toHeatSound v hx
  refine ⟨_, _, u2, heatObjective_good h.toHeatSound hx u, ?_, fun rs r rho' rs' e1 e2 e3 hs => ⟨v, u, e1 ▸ hv.all, u1, e2, e3, hs⟩⟩
  by_cases hn : R.nodal = none
  · refine Or.inl fun j e => heatColumn_nonpos h.toHeatSound (fun ho => ?_) hv.p (fun e => (hx e).1) (u j) e
    by_contra hr
    exact h.sign ho hr hn
  · exact Or.inr hn

theorem heatLog_response {R : HeatSetup ι Q d nE k} (h : HeatSound R) (n : ℕ) (v : Vals) (hv : ValsOk R.toCommon n v) (rho : Fin nE → ℝ)
    (hrho : ∀ e, 0 ≤ rho e ∧ rho e ≤ 1) : ∃ c cols, heatResponse R R.task v (physical R.toCommon v rho) = .ok (c, cols) := by
  obtain ⟨u, -, u2⟩ := heatResponse_ok h v fun e => physical_range h.toBasics hv hrho e
  exact ⟨_, _, u2⟩

theorem heatLog_computes {L : HeatLogSetup ι Q d nE k} (h : HeatLogWellPosed L) :
    LogComputes L.common (logStepWith L.common (heatResponse L.toHeatSetup L.task)) (HeatLogIteration L) (HeatGood L.toHeatSetup) := by
  refine logStepWith_ok h.toBasics h.toLogRules _ _ _ fun n v hv rho hrho => ?_
  have hx := fun e => physical_range h.toBasics hv hrho e
  obtain ⟨u, u1, u2⟩ := heatResponse_ok h.toHeatSound v hx
  exact ⟨_, _, u2, heatObjective_good h.toHeatSound hx u, fun lam rs r rho' rs' e1 e2 e3 hs => ⟨v, u, e1 ▸ hv.all, u1, e2, e3, hs⟩⟩

/-- The Robin terms are never changed by a run if none are missing. -/
theorem taskAfter_eq {R : HeatSetup ι Q d nE k} (hb : Built R.task) (hr : R.task.designRobin = true → R.task.robin ≠ none) (n : ℕ)
    (rho : Fin nE → ℝ) (x : State (Fin nE) d) : taskAfter R n rho x R.task = R.task := by
  unfold taskAfter
  rcases readVals x n with e | v
  · rfl
  · simp only
    rcases (if v.radius ≠ x.filter.radius then x.filter.updateRadius v.radius else x.filter).forward R.toCommon rho with e | y
    · rfl
    · simp only
      by_cases hd : R.task.designRobin = true
      · rw [if_pos hd]
        rcases hrob : R.task.robin with _ | ⟨hh, Tenv⟩
        · exact absurd hrob (hr hd)
        · rw [(C85_design_robin_has_no_effect R.task hb hh Tenv hrob _ _).1]
      · rw [if_neg hd]

/-- A heat run is the run of its fixed task. -/
theorem heat_embeds {R : HeatSetup ι Q d nE k} (hb : Built R.task) (hr : R.task.designRobin = true → R.task.robin ≠ none) :
    Embeds (fun x => (x, R.task)) (sysWith R.toCommon (stepWith R.toCommon (heatResponse R R.task))) (heatSys R) where
  maxIters := rfl
  recordTimes := rfl
  restart := rfl
  restartFrom := rfl
  valInit := rfl
  rhoMin := rfl
  rhoMax := rfl
  design := rfl
  pinned := rfl
  fixed := rfl
  step n rho x := by
    show heatStep R n rho (x, R.task) = _
    unfold heatStep
    simp only [taskAfter_eq hb hr]
    rfl
  record _ _ _ _ := rfl
  exportHist _ := rfl
  importHist _ := rfl
  initSched _ := rfl

theorem heatLog_embeds {L : HeatLogSetup ι Q d nE k} (hb : Built L.task) (hr : L.task.designRobin = true → L.task.robin ≠ none) :
    Embeds (fun x => (x, L.task)) (logSysWith L.common (logStepWith L.common (heatResponse L.toHeatSetup L.task))) (heatLogSys L) where
  maxIters := rfl
  recordTimes := rfl
  restart := rfl
  restartFrom := rfl
  valInit := rfl
  rhoMin := rfl
  rhoMax := rfl
  design := rfl
  pinned := rfl
  fixed := rfl
  step n rho x := by
    show heatLogStep L n rho (x, L.task) = _
    unfold heatLogStep
    simp only [taskAfter_eq (R := L.toHeatSetup) hb hr]
    rfl
  record _ _ _ _ := rfl
  exportHist _ := rfl
  importHist _ := rfl
  initSched _ := rfl

theorem newHeatRun_eq (R : HeatSetup ι Q d nE k) (files : List (Snapshot.Name × (Fin nE → ℝ))) :
    newHeatRun R files = (newRun R.toCommon files).lift fun x => (x, R.task) := rfl

theorem newHeatLogRun_eq (L : HeatLogSetup ι Q d nE k) (files : List (Snapshot.Name × (Fin nE → ℝ))) :
    newHeatLogRun L files = (newLogRun L.common files).lift fun x => (x, L.task) := rfl

theorem heat_calls {R : HeatSetup ι Q d nE k} (h : HeatSound R) (files : List (Snapshot.Name × (Fin nE → ℝ))) (cs : List Call) :
    runCalls (heatSys R) cs (newHeatRun R files) =
      ((runCalls (sysWith R.toCommon (stepWith R.toCommon (heatResponse R R.task))) cs (newRun R.toCommon files)).1.lift fun x => (x, R.task),
       (runCalls (sysWith R.toCommon (stepWith R.toCommon (heatResponse R R.task))) cs (newRun R.toCommon files)).2) :=
  (heat_embeds h.built fun hd => h.robin (Or.inr hd)).calls cs (newRun R.toCommon files)

theorem heatLog_calls {L : HeatLogSetup ι Q d nE k} (h : HeatSound L.toHeatSetup) (files : List (Snapshot.Name × (Fin nE → ℝ))) (cs : List Call) :
    runCalls (heatLogSys L) cs (newHeatLogRun L files) =
      ((runCalls (logSysWith L.common (logStepWith L.common (heatResponse L.toHeatSetup L.task))) cs (newLogRun L.common files)).1.lift
        fun x => (x, L.task),
       (runCalls (logSysWith L.common (logStepWith L.common (heatResponse L.toHeatSetup L.task))) cs (newLogRun L.common files)).2) :=
  (heatLog_embeds h.built fun hd => h.robin (Or.inr hd)).calls cs (newLogRun L.common files)

/-! The general lemmas about runs decide equality of elements classically. -/

theorem heat_run {R : HeatSetup ι Q d nE k} (h : HeatSound R) {files : List (Snapshot.Name × (Fin nE → ℝ))} {cs : List Call}
    {o : Opt (Fin nE) ℝ (State (Fin nE) d)} {r : Res Unit}
    (ho : @runCalls _ _ _ (fun a b => propDecidable (a = b)) _ _ _ _ (sysWith R.toCommon (stepWith R.toCommon (heatResponse R R.task))) cs (newRun R.toCommon files) = (o, r)) :
    runCalls (heatSys R) cs (newHeatRun R files) = (o.lift fun x => (x, R.task), r) := by
  rw [show (fun a b => propDecidable (a = b)) = instDecidableEqFin nE from Subsingleton.elim _ _] at ho
  rw [heat_calls h, ho]

theorem heat_call {R : HeatSetup ι Q d nE k} (h : HeatSound R) {files : List (Snapshot.Name × (Fin nE → ℝ))} {c : Call}
    {o : Opt (Fin nE) ℝ (State (Fin nE) d)} {r : Res Unit}
    (ho : @Call.run _ _ _ (fun a b => propDecidable (a = b)) _ _ _ _ (sysWith R.toCommon (stepWith R.toCommon (heatResponse R R.task))) c (newRun R.toCommon files) = (o, r)) :
    c.run (heatSys R) (newHeatRun R files) = (o.lift fun x => (x, R.task), r) := by
  rw [show (fun a b => propDecidable (a = b)) = instDecidableEqFin nE from Subsingleton.elim _ _] at ho
  rw [newHeatRun_eq, (heat_embeds h.built fun hd => h.robin (Or.inr hd)).call c, ho]

theorem heatLog_run {L : HeatLogSetup ι Q d nE k} (h : HeatSound L.toHeatSetup) {files : List (Snapshot.Name × (Fin nE → ℝ))} {cs : List Call}
    {o : Opt (Fin nE) ℝ (LogState (Fin nE) d)} {r : Res Unit}
    (ho : @runCalls _ _ _ (fun a b => propDecidable (a = b)) _ _ _ _ (logSysWith L.common (logStepWith L.common (heatResponse L.toHeatSetup L.task))) cs
      (newLogRun L.common files) = (o, r)) :
    runCalls (heatLogSys L) cs (newHeatLogRun L files) = (o.lift fun x => (x, L.task), r) := by
  rw [show (fun a b => propDecidable (a = b)) = instDecidableEqFin nE from Subsingleton.elim _ _] at ho
  rw [heatLog_calls h, ho]

theorem heatLog_call {L : HeatLogSetup ι Q d nE k} (h : HeatSound L.toHeatSetup) {files : List (Snapshot.Name × (Fin nE → ℝ))} {c : Call}
    {o : Opt (Fin nE) ℝ (LogState (Fin nE) d)} {r : Res Unit}
    (ho : @Call.run _ _ _ (fun a b => propDecidable (a = b)) _ _ _ _ (logSysWith L.common (logStepWith L.common (heatResponse L.toHeatSetup L.task))) c
      (newLogRun L.common files) = (o, r)) :
    c.run (heatLogSys L) (newHeatLogRun L files) = (o.lift fun x => (x, L.task), r) := by
  rw [show (fun a b => propDecidable (a = b)) = instDecidableEqFin nE from Subsingleton.elim _ _] at ho
  rw [newHeatLogRun_eq, (heatLog_embeds h.built fun hd => h.robin (Or.inr hd)).call c, ho]

end
end Verif.Run
