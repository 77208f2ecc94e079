import Verif.Lemmas.RunHeat
import Verif.Model.RunHeatRamp
import Verif.Spec.RunHeatRamp

/-! The finite element part of a run with the RAMP law on a heat task. -/
namespace Verif.Run
open Verif Verif.Sched Verif.Spec Verif.Driver Verif.Heat Verif.Elastic

variable {ι Q : Type} [Fintype ι] [Fintype Q] {d nE k : ℕ}

noncomputable section
open Classical

/-- The OC run with the RAMP law. -/
abbrev rampHeatSys (R : HeatSetup ι Q d nE k) : Sys (Fin nE) ℝ (State (Fin nE) d × Heat.Task ι Q d nE k) :=
  carry (sysWith R.toCommon fun _ _ x => (x, .error .runtimeError)) (heatStepWith R Material.ramp)

/-- The LogMOC run with the RAMP law. -/
abbrev rampHeatLogSys (L : HeatLogSetup ι Q d nE k) : Sys (Fin nE) ℝ (LogState (Fin nE) d × Heat.Task ι Q d nE k) :=
  carry (logSysWith L.common fun _ _ x => (x, .error .runtimeError)) (heatLogStepWith L Material.ramp)

theorem rampConductivity_eq (T : Task ι Q d nE k) (c p : ℝ) (x : Fin nE → ℝ) :
    T.ke Material.ramp c x p = fun e => rampConductivity T c p (x e) := by
  funext e
  unfold Task.ke Material.ramp rampConductivity
  ring

theorem ramp_heatColumn_eq (T : Task ι Q d nE k) (ht : ∀ e, Function.Injective fun a => T.t a e) (h1 : ∀ e q, ∑ i, T.fe.val i e q = 1)
    (c p : ℝ) (x : Fin nE → ℝ) (u : ι → ℝ) (e : Fin nE) : T.sensitivity Material.ramp c x p u e = rampHeatColumn T c p x u e := by
  have hen : energy T.fe (T.ke Material.ramp c x p) u e =
      (∑ y, rampConductivity T c p (x e) * (∑ a, Spec.Heat.slope T.fe u e y a ^ 2) * T.fe.dx e y) / 2 := by
    unfold energy
    rw [Finset.sum_div]
    refine Finset.sum_congr rfl fun q _ => ?_
    have : dot (gradAt T.fe u e q) (gradAt T.fe u e q) = ∑ a, Spec.Heat.slope T.fe u e q a ^ 2 :=
      Finset.sum_congr rfl fun a _ => (sq _).symm
    rw [this, rampConductivity_eq]; ring
  have hslope : ∀ h Tenv i, explicitGrad T.fe h Tenv p T.q (T.nodal x) u i = interfaceSlope T h Tenv p x u i := by
    intro h Tenv i
    unfold explicitGrad interfaceSlope
    refine Finset.sum_congr rfl fun e _ => Finset.sum_congr rfl fun y _ => ?_
    rw [valAt_const T.fe h1, gathered_eq T ht]
    have hf : ∀ z : ι → ℝ, valAt T.fe z e y = Spec.Heat.field T.fe z e y := fun _ => rfl
    have hs : Heat.interface T.fe (gathered T x) e y = Spec.Heat.steepness T.fe (gathered T x) e y := rfl
    have hd : dot (fun a => gradAt T.fe (gathered T x) e y a / max (Spec.Heat.steepness T.fe (gathered T x) e y) (1 / 10 ^ 12)) (T.fe.grad i e y) =
        (∑ a, Spec.Heat.slope T.fe (gathered T x) e y a * T.fe.grad i e y a) / max (Spec.Heat.steepness T.fe (gathered T x) e y) (1 / 10 ^ 12) := by
      unfold dot
      rw [Finset.sum_div]
      refine Finset.sum_congr rfl fun a _ => ?_
      show Spec.Heat.slope T.fe (gathered T x) e y a / _ * _ = _
      ring
    rw [hs, hd]
    simp only [hf, dA]
    ring
  unfold Task.sensitivity rampHeatColumn
  simp only
  rw [hen, heatSlope_eq]
  rcases ho : T.objective with _ | _ | _ <;> rcases hr : T.robin with _ | ⟨h, Tenv⟩ <;> simp only [add_zero]
  congr 1
  unfold toElements
  exact Finset.sum_congr rfl fun a _ => by rw [hslope, valence_eq T ht]

theorem rampConductivity_pos {R : HeatSetup ι Q d nE k} (h : HeatSound R) {x : ℝ} (hx : 0 ≤ x ∧ x ≤ 1) {p : ℝ} (hp : 0 ≤ p) :
    0 < rampConductivity R.task R.eMinCoeff p x := by
  obtain ⟨h1, h2, h3⟩ := h.material
  unfold rampConductivity
  have a1 := mul_pos h1 h2
  have hd : 0 ≤ p * (1 - x) := mul_nonneg hp (by linarith [hx.2])
  have a2 : 0 ≤ (R.task.k - R.task.k * R.eMinCoeff) * (x / (1 + p * (1 - x))) :=
    mul_nonneg (by nlinarith) (div_nonneg hx.1 (by linarith))
  linarith

theorem ramp_heat_det {R : HeatSetup ι Q d nE k} (h : HeatSound R) {x : Fin nE → ℝ} (hx : ∀ e, 0 ≤ x e ∧ x e ≤ 1) {p : ℝ} (hp : 0 ≤ p) {D : Finset ι}
    (hD : D ∈ R.task.dirichlet) : (enforceK (R.task.matrix Material.ramp R.eMinCoeff x p) D).det ≠ 0 :=
  (C83_heat_unique_solution R.task h.built h.regular h.surfaces h.film Material.ramp R.eMinCoeff x hx p
    (fun e => by rw [rampConductivity_eq]; exact rampConductivity_pos h (hx e) hp) D (h.connected D hD)).1

theorem ramp_heat_solved {R : HeatSetup ι Q d nE k} (h : HeatSound R) {x : Fin nE → ℝ} (hx : ∀ e, 0 ≤ x e ∧ x e ≤ 1) {p : ℝ} (hp : 0 ≤ p) :
    ∃ u : Fin R.task.values.length → ι → ℝ, R.task.solve R.backend R.solver Material.ramp R.eMinCoeff x p = .ok (List.ofFn u) ∧
      ∀ j, RampWarmed R.task R.eMinCoeff p x j (u j) := by
  obtain ⟨D, hDm, hD⟩ := h.one
  obtain ⟨us, h1, h2⟩ := C82_heat_balance_partial R.task h.built R.backend h.exact R.solver h.solver Material.ramp R.eMinCoeff x p D hD
    h.regions h.loadCases (ramp_heat_det h hx hp hDm)
  have hlen : us.length = R.task.values.length := h2.length_eq.symm
  refine ⟨fun j => us.get (j.cast hlen.symm), ?_, fun j => ?_⟩
  · rw [h1]
    congr 1
    apply List.ext_getElem
    · rw [List.length_ofFn, hlen]
    · intro n a b
      simp
  · have hj : R.task.dirichlet.getD j ∅ = D := by
      rw [List.getD_eq_getElem _ _ (by rw [h.regions]; exact j.isLt)]
      exact hD _ (List.getElem_mem _)
    unfold RampWarmed
    rw [hj, ← rampConductivity_eq, ← gathered_eq R.task h.corners]
    have := (List.forall₂_iff_get.mp h2).2 j j.isLt (by rw [hlen]; exact j.isLt)
    exact this

theorem ramp_heat_values {R : HeatSetup ι Q d nE k} (h : HeatSound R) (x : Fin nE → ℝ) (p : ℝ) {n : ℕ} (u : Fin n → ι → ℝ) :
    ∃ Js, R.task.objectiveValues (R.task.matrix Material.ramp R.eMinCoeff x p) x (List.ofFn u) = .ok Js ∧
      Js.sum / Js.length = rampHeatObjective R.task R.eMinCoeff p x u := by
  obtain ⟨c1, -, -, -⟩ := C88_objective_values_partial R.task h.built h.partition Material.ramp R.eMinCoeff x p (List.ofFn u)
  obtain ⟨Js, j1, j2⟩ := heat_values h x p u
  unfold rampHeatObjective
  rcases ho : R.task.objective with _ | _ | _
  · refine ⟨_, c1 ho, ?_⟩
    rw [List.map_ofFn, sum_div_ofFn]
    simp only
    rw [← rampConductivity_eq, ← gathered_eq R.task h.corners]
    rfl
  · refine ⟨Js, ?_, j2⟩
    rw [← j1]
    unfold Task.objectiveValues
    simp only [ho]
  · refine ⟨Js, ?_, j2⟩
    rw [← j1]
    unfold Task.objectiveValues
    simp only [ho]

theorem ramp_heat_adjoints {R : HeatSetup ι Q d nE k} (h : HeatSound R) {x : Fin nE → ℝ} (hx : ∀ e, 0 ≤ x e ∧ x e ≤ 1) {p : ℝ} (hp : 0 ≤ p) (Ts : List (ι → ℝ)) :
    ∃ lam, R.task.adjoints R.backend R.solver (R.task.matrix Material.ramp R.eMinCoeff x p) x p Ts = .ok lam := by
  obtain ⟨D, hDm, hD⟩ := h.one
  have hsol : ∀ f, ∃ us, solveMulti R.backend R.solver (R.task.matrix Material.ramp R.eMinCoeff x p) f R.task.dirichlet R.task.values = .ok us := by
    intro f
    obtain ⟨us, hus, -⟩ := solveMulti_all R.backend h.exact R.solver h.solver _ f D _ _ hD h.regions h.loadCases (ramp_heat_det h hx hp hDm)
    exact ⟨us, hus⟩
  unfold Task.adjoints
  rcases ho : R.task.objective with _ | _ | _
  · exact ⟨_, rfl⟩
  · rcases hr : R.task.robin with _ | ⟨hh, Tenv⟩
    · exact absurd hr (h.robin (Or.inl ho))
    · simp only
      by_cases hs : hxDen R.task.fe (R.task.nodal x) ≤ 1 / 10 ^ 16
      · exact ⟨_, if_pos hs⟩
      · rw [if_neg hs]
        obtain ⟨l1, e1⟩ := hsol (hxAdjRhs R.task.fe hh Tenv p R.task.q (R.task.nodal x))
        obtain ⟨l2, e2⟩ := hsol fun _ => 1
        rw [e1, bind_okay]
        by_cases hw : R.task.avgWeight = 0
        · rw [if_pos hw]; exact ⟨_, rfl⟩
        · rw [if_neg hw, e2, bind_okay]
          split_ifs <;> exact ⟨_, rfl⟩
  · exact hsol _

theorem ramp_heatResponse_ok {R : HeatSetup ι Q d nE k} (h : HeatSound R) (v : Vals) (hp : 0 ≤ v.p) {x : Fin nE → ℝ} (hx : ∀ e, 0 ≤ x e ∧ x e ≤ 1) :
    ∃ u : Fin R.task.values.length → ι → ℝ, (∀ j, RampWarmed R.task R.eMinCoeff v.p x j (u j)) ∧
      heatResponseWith R Material.ramp R.task v x = .ok (rampHeatObjective R.task R.eMinCoeff v.p x u, fun j => rampHeatColumn R.task R.eMinCoeff v.p x (u j)) := by
  obtain ⟨u, u1, u2⟩ := ramp_heat_solved h hx hp
  obtain ⟨Js, j1, j2⟩ := ramp_heat_values h x v.p u
  obtain ⟨lam, l1⟩ := ramp_heat_adjoints h hx hp (List.ofFn u)
  refine ⟨u, u2, ?_⟩
  have hobj : R.task.objectives R.backend R.solver Material.ramp R.eMinCoeff x v.p = .ok (R.task, Js, List.ofFn u, lam) := by
    unfold Task.objectives
    by_cases hd : R.task.designRobin = true
    · simp only [if_pos hd]
      rw [heat_updateRobin h hd, bind_okay, u1, bind_okay, j1, bind_okay, l1]
      rfl
    · simp only [if_neg hd]
      rw [bind_okay, u1, bind_okay, j1, bind_okay, l1]
      rfl
  unfold heatResponseWith
  rw [hobj]
  simp only
  rw [j2]
  congr 2
  funext j e
  rw [ramp_heatColumn_eq R.task h.corners h.partition]
  congr 1
  rw [List.getD_eq_getElem _ _ (by rw [List.length_ofFn]; exact j.isLt)]
  simp

theorem ramp_heatColumn_nonpos {R : HeatSetup ι Q d nE k} (h : HeatSound R) (hs : R.task.objective = .compliance → R.task.robin = none) {p : ℝ} (hp : 0 ≤ p)
    {x : Fin nE → ℝ} (hx : ∀ e, 0 ≤ x e ∧ x e ≤ 1) (u : ι → ℝ) (e : Fin nE) : rampHeatColumn R.task R.eMinCoeff p x u e ≤ 0 := by
  unfold rampHeatColumn
  have h0 : slopeOf R.task.k R.eMinCoeff p (x e) ((∑ y, rampConductivity R.task R.eMinCoeff p (x e) * (∑ a, Spec.Heat.slope R.task.fe u e y a ^ 2) * R.task.fe.dx e y) / 2) ≤ 0 := by
    refine slopeOf_nonpos h.material.1 h.material.2.2 hp (div_nonneg (Finset.sum_nonneg fun y _ => ?_) (by norm_num))
    exact mul_nonneg (mul_nonneg (rampConductivity_pos h (hx e) hp).le (Finset.sum_nonneg fun a _ => sq_nonneg _)) (h.weights e y).le
  rcases ho : R.task.objective with _ | _ | _ <;> rcases hr : R.task.robin with _ | ⟨hh, Tenv⟩ <;> simp only [add_zero] <;> try exact h0
  rw [hs ho] at hr
  cases hr

theorem ramp_heatObjective_good {R : HeatSetup ι Q d nE k} (h : HeatSound R) {p : ℝ} (hp : 0 ≤ p) {x : Fin nE → ℝ} (hx : ∀ e, 0 ≤ x e ∧ x e ≤ 1) {n : ℕ}
    (u : Fin n → ι → ℝ) : HeatGood R (rampHeatObjective R.task R.eMinCoeff p x u) := by
  intro ho
  unfold rampHeatObjective
  simp only [ho]
  unfold meanOf
  refine div_nonneg (Finset.sum_nonneg fun j _ => ?_) (Nat.cast_nonneg _)
  have h1 := (C86_compliance_nonneg R.task h.built h.regular h.surfaces h.film Material.ramp R.eMinCoeff x hx p
    (fun e => by rw [rampConductivity_eq]; exact (rampConductivity_pos h (hx e) hp).le) (u j)).2
  have h2 := (C88_objective_values_partial R.task h.built h.partition Material.ramp R.eMinCoeff x p [u j]).1 ho
  unfold Task.objectiveValues at h2
  rw [ho] at h2
  simp only [List.map_cons, List.map_nil, Except.ok.injEq, List.cons.injEq, and_true] at h2
  rw [← rampConductivity_eq, ← gathered_eq R.task h.corners, ← h2]
  exact h1

theorem ramp_heat_computes {R : HeatSetup ι Q d nE k} (h : HeatWellPosed R) :
    Computes R.toCommon (stepWith R.toCommon (heatResponseWith R Material.ramp R.task)) (RampHeatIteration R) (HeatGood R) := by
  refine stepWith_ok h.toBasics h.toOCRules _ _ _ fun n v hv rho hrho => ?_
  have hx := fun e => physical_range h.toBasics hv hrho e
  obtain ⟨u, u1, u2⟩ := ramp_heatResponse_ok h.toHeatSound v hv.p hx
  refine ⟨_, _, u2, ramp_heatObjective_good h.toHeatSound hv.p hx u, ?_, fun rs r rho' rs' e1 e2 e3 hs => ⟨v, u, e1 ▸ hv.all, u1, e2, e3, hs⟩⟩
  by_cases hn : R.nodal = none
  · refine Or.inl fun j e => ramp_heatColumn_nonpos h.toHeatSound (fun ho => ?_) hv.p hx (u j) e
    by_contra hr
    exact h.sign ho hr hn
  · exact Or.inr hn

theorem ramp_heatLog_response {R : HeatSetup ι Q d nE k} (h : HeatSound R) (n : ℕ) (v : Vals) (hv : ValsOk R.toCommon n v) (rho : Fin nE → ℝ)
    (hrho : ∀ e, 0 ≤ rho e ∧ rho e ≤ 1) : ∃ c cols, heatResponseWith R Material.ramp R.task v (physical R.toCommon v rho) = .ok (c, cols) := by
  obtain ⟨u, -, u2⟩ := ramp_heatResponse_ok h v hv.p fun e => physical_range h.toBasics hv hrho e
  exact ⟨_, _, u2⟩

theorem ramp_heatLog_computes {L : HeatLogSetup ι Q d nE k} (h : HeatLogWellPosed L) :
    LogComputes L.common (logStepWith L.common (heatResponseWith L.toHeatSetup Material.ramp L.task)) (RampHeatLogIteration L) (HeatGood L.toHeatSetup) := by
  refine logStepWith_ok h.toBasics h.toLogRules _ _ _ fun n v hv rho hrho => ?_
  have hx := fun e => physical_range h.toBasics hv hrho e
  obtain ⟨u, u1, u2⟩ := ramp_heatResponse_ok h.toHeatSound v hv.p hx
  exact ⟨_, _, u2, ramp_heatObjective_good h.toHeatSound hv.p hx u, fun lam rs r rho' rs' e1 e2 e3 hs => ⟨v, u, e1 ▸ hv.all, u1, e2, e3, hs⟩⟩

theorem ramp_heat_embeds {R : HeatSetup ι Q d nE k} (hb : Built R.task) (hr : R.task.designRobin = true → R.task.robin ≠ none) :
    Embeds (fun x => (x, R.task)) (sysWith R.toCommon (stepWith R.toCommon (heatResponseWith R Material.ramp R.task))) (rampHeatSys R) where
  maxIters := rfl
  recordTimes := rfl
  restart := rfl
  restartFrom := rfl
  valInit := rfl
  rhoMin := rfl
  rhoMax := rfl
  design := rfl
  pinned := rfl
  fixed := rfl
  step n rho x := by
    show heatStepWith R Material.ramp n rho (x, R.task) = _
    unfold heatStepWith
    simp only [taskAfter_eq hb hr]
    rfl
  record _ _ _ _ := rfl
  exportHist _ := rfl
  importHist _ := rfl
  initSched _ := rfl

theorem ramp_heatLog_embeds {L : HeatLogSetup ι Q d nE k} (hb : Built L.task) (hr : L.task.designRobin = true → L.task.robin ≠ none) :
    Embeds (fun x => (x, L.task)) (logSysWith L.common (logStepWith L.common (heatResponseWith L.toHeatSetup Material.ramp L.task))) (rampHeatLogSys L) where
  maxIters := rfl
  recordTimes := rfl
  restart := rfl
  restartFrom := rfl
  valInit := rfl
  rhoMin := rfl
  rhoMax := rfl
  design := rfl
  pinned := rfl
  fixed := rfl
  step n rho x := by
    show heatLogStepWith L Material.ramp n rho (x, L.task) = _
    unfold heatLogStepWith
    simp only [taskAfter_eq (R := L.toHeatSetup) hb hr]
    rfl
  record _ _ _ _ := rfl
  exportHist _ := rfl
  importHist _ := rfl
  initSched _ := rfl

theorem ramp_heat_calls {R : HeatSetup ι Q d nE k} (h : HeatSound R) (files : List (Snapshot.Name × (Fin nE → ℝ))) (cs : List Call) :
    runCalls (rampHeatSys R) cs (newHeatRun R files) =
      ((runCalls (sysWith R.toCommon (stepWith R.toCommon (heatResponseWith R Material.ramp R.task))) cs (newRun R.toCommon files)).1.lift fun x => (x, R.task),
       (runCalls (sysWith R.toCommon (stepWith R.toCommon (heatResponseWith R Material.ramp R.task))) cs (newRun R.toCommon files)).2) :=
  (ramp_heat_embeds h.built fun hd => h.robin (Or.inr hd)).calls cs (newRun R.toCommon files)

theorem ramp_heatLog_calls {L : HeatLogSetup ι Q d nE k} (h : HeatSound L.toHeatSetup) (files : List (Snapshot.Name × (Fin nE → ℝ))) (cs : List Call) :
    runCalls (rampHeatLogSys L) cs (newHeatLogRun L files) =
      ((runCalls (logSysWith L.common (logStepWith L.common (heatResponseWith L.toHeatSetup Material.ramp L.task))) cs (newLogRun L.common files)).1.lift
        fun x => (x, L.task),
       (runCalls (logSysWith L.common (logStepWith L.common (heatResponseWith L.toHeatSetup Material.ramp L.task))) cs (newLogRun L.common files)).2) :=
  (ramp_heatLog_embeds h.built fun hd => h.robin (Or.inr hd)).calls cs (newLogRun L.common files)

theorem ramp_heat_run {R : HeatSetup ι Q d nE k} (h : HeatSound R) {files : List (Snapshot.Name × (Fin nE → ℝ))} {cs : List Call}
    {o : Opt (Fin nE) ℝ (State (Fin nE) d)} {r : Res Unit}
    (ho : @runCalls _ _ _ (fun a b => propDecidable (a = b)) _ _ _ _ (sysWith R.toCommon (stepWith R.toCommon (heatResponseWith R Material.ramp R.task))) cs (newRun R.toCommon files) = (o, r)) :
    runCalls (rampHeatSys R) cs (newHeatRun R files) = (o.lift fun x => (x, R.task), r) := by
  rw [show (fun a b => propDecidable (a = b)) = instDecidableEqFin nE from Subsingleton.elim _ _] at ho
  rw [ramp_heat_calls h, ho]

theorem ramp_heat_call {R : HeatSetup ι Q d nE k} (h : HeatSound R) {files : List (Snapshot.Name × (Fin nE → ℝ))} {c : Call}
    {o : Opt (Fin nE) ℝ (State (Fin nE) d)} {r : Res Unit}
    (ho : @Call.run _ _ _ (fun a b => propDecidable (a = b)) _ _ _ _ (sysWith R.toCommon (stepWith R.toCommon (heatResponseWith R Material.ramp R.task))) c (newRun R.toCommon files) = (o, r)) :
    c.run (rampHeatSys R) (newHeatRun R files) = (o.lift fun x => (x, R.task), r) := by
  rw [show (fun a b => propDecidable (a = b)) = instDecidableEqFin nE from Subsingleton.elim _ _] at ho
  rw [newHeatRun_eq, (ramp_heat_embeds h.built fun hd => h.robin (Or.inr hd)).call c, ho]

theorem ramp_heatLog_run {L : HeatLogSetup ι Q d nE k} (h : HeatSound L.toHeatSetup) {files : List (Snapshot.Name × (Fin nE → ℝ))} {cs : List Call}
    {o : Opt (Fin nE) ℝ (LogState (Fin nE) d)} {r : Res Unit}
    (ho : @runCalls _ _ _ (fun a b => propDecidable (a = b)) _ _ _ _ (logSysWith L.common (logStepWith L.common (heatResponseWith L.toHeatSetup Material.ramp L.task))) cs
      (newLogRun L.common files) = (o, r)) :
    runCalls (rampHeatLogSys L) cs (newHeatLogRun L files) = (o.lift fun x => (x, L.task), r) := by
  rw [show (fun a b => propDecidable (a = b)) = instDecidableEqFin nE from Subsingleton.elim _ _] at ho
  rw [ramp_heatLog_calls h, ho]

theorem ramp_heatLog_call {L : HeatLogSetup ι Q d nE k} (h : HeatSound L.toHeatSetup) {files : List (Snapshot.Name × (Fin nE → ℝ))} {c : Call}
    {o : Opt (Fin nE) ℝ (LogState (Fin nE) d)} {r : Res Unit}
    (ho : @Call.run _ _ _ (fun a b => propDecidable (a = b)) _ _ _ _ (logSysWith L.common (logStepWith L.common (heatResponseWith L.toHeatSetup Material.ramp L.task))) c
      (newLogRun L.common files) = (o, r)) :
    c.run (rampHeatLogSys L) (newHeatLogRun L files) = (o.lift fun x => (x, L.task), r) := by
  rw [show (fun a b => propDecidable (a = b)) = instDecidableEqFin nE from Subsingleton.elim _ _] at ho
  rw [newHeatLogRun_eq, (ramp_heatLog_embeds h.built fun hd => h.robin (Or.inr hd)).call c, ho]

end
end Verif.Run
