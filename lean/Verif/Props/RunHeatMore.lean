import Verif.Props.RunHeat
import Verif.Lemmas.Twin

/-!
C103–C105: what heat runs do not depend on, and where they go wrong.
-/
namespace Verif.Run
open Verif Verif.Sched Verif.Spec Verif.Driver Verif.Heat

variable {ι Q : Type} [Fintype ι] [Fintype Q] {d nE k : ℕ}

noncomputable section
open Classical

/-- The heat balance has one solution. -/
theorem warmed_unique {R : HeatSetup ι Q d nE k} (h : HeatSound R) {x : Fin nE → ℝ} (hx : ∀ e, 0 ≤ x e ∧ x e ≤ 1) {p : ℝ}
    {j : Fin R.task.values.length} {u w : ι → ℝ} (hu : Warmed R.task R.eMinCoeff p x j u) (hw : Warmed R.task R.eMinCoeff p x j w) : w = u := by
  have hD : R.task.dirichlet.getD j ∅ ∈ R.task.dirichlet := by
    rw [List.getD_eq_getElem _ _ (by rw [h.regions]; exact j.isLt)]
    exact List.getElem_mem _
  have := (C83_heat_unique_solution R.task h.built h.regular h.surfaces h.film Material.simp R.eMinCoeff x hx p
    (fun e => by rw [conductivity_eq]; exact conductivity_pos h (hx e).1 p) _ (h.connected _ hD)).2 (R.task.values.get j)
  rw [conductivity_eq, gathered_eq R.task h.corners] at this
  exact this.unique hw hu

/-- The same task with another objective. -/
abbrev _root_.Verif.Heat.Task.aim (T : Task ι Q d nE k) (obj : Objective) (weight : ℝ) : Task ι Q d nE k :=
  { T with objective := obj, avgWeight := weight }

/-- The same run with another load scale and objective. -/
abbrev HeatSetup.aim (R : HeatSetup ι Q d nE k) (c : Config) (obj : Objective) (weight : ℝ) : HeatSetup ι Q d nE k :=
  { R with
    cNeumannScale := c
    task := R.task.aim obj weight }

theorem heatColumn_aim (T : Task ι Q d nE k) (obj : Objective) (weight : ℝ)
    (hsame : (T.objective = .compliance ↔ obj = .compliance) ∨ T.robin = none) (c p : ℝ) (x : Fin nE → ℝ) (u : ι → ℝ) (e : Fin nE) :
    heatColumn (T.aim obj weight) c p x u e = heatColumn T c p x u e := by
  obtain ⟨T', hT'⟩ : ∃ T', T' = T.aim obj weight := ⟨_, rfl⟩
  unfold heatColumn
  congr 1
  show (match obj, T.robin with
    | .compliance, some (h, Tenv) => ∑ a, interfaceSlope T h Tenv p x u (T.t a e) / valence T (T.t a e)
    | _, _ => 0) = _
  rcases hr : T.robin with _ | ⟨hh, Tenv⟩
  · cases T.objective <;> cases obj <;> rfl
  · rcases hsame with h | h
    · cases ho : T.objective <;> cases obj <;> simp_all
    · rw [hr] at h; cases h

theorem warmed_aim {T : Task ι Q d nE k} {obj : Objective} {weight c p : ℝ} {x : Fin nE → ℝ} {j : Fin T.values.length} {u : ι → ℝ}
    (h : Warmed (T.aim obj weight) c p x j u) : Warmed T c p x j u := h

/-- Two lines of the histories that differ only in the recorded objective and load scale. -/
def SameButObjective (r r' : Rec) : Prop := r' = { r with compliance := r'.compliance, neumannScale := r'.neumannScale }

theorem heat_det_twin {R : HeatSetup ι Q d nE k} {c : Config} {obj : Objective} {weight : ℝ} (h : HeatSound R)
    (hsame : (R.task.objective = .compliance ↔ obj = .compliance) ∨ R.task.robin = none) {n : ℕ} {v : Vals} (hv : ValsOk R.toCommon n v)
    {rho : Fin nE → ℝ} (hrho : ∀ e, 0 ≤ rho e ∧ rho e ≤ 1) {rs : ℝ} {r r' : Rec} {new new' : Fin nE → ℝ} {rs1 rs1' : ℝ} (e : r.iter = n) (e' : r'.iter = n)
    (hi : HeatIteration R rho rs r new rs1) (hi' : HeatIteration (R.aim c obj weight) rho rs r' new' rs1') :
    new' = new ∧ rs1' = rs1 ∧ SameButObjective r r' := by
  obtain ⟨v1, u, a1, a2, -, -, a5⟩ := hi
  obtain ⟨v2, u', b1, b2, -, -, b5⟩ := hi'
  rw [e] at a1
  rw [e'] at b1
  obtain rfl : v1 = v := allScheduled_eq hv.all a1
  have hv2 : v2 = { v1 with neumannScale := v2.neumannScale } := allScheduled_twin a1 b1
  obtain ⟨ns, hns⟩ : ∃ ns, ns = v2.neumannScale := ⟨_, rfl⟩
  rw [← hns] at hv2
  subst hv2
  have hx := fun e => physical_range h.toBasics hv hrho e
  have hp : physical (R.aim c obj weight).toCommon { v1 with neumannScale := ns } rho = physical R.toCommon v1 rho := physical_twin R.toCommon c v1 ns rho
  rw [hp] at b2 b5
  have hu : u' = u := funext fun j => warmed_unique h hx (a2 j) (warmed_aim (b2 j))
  subst hu
  have hg : (fun (j : Fin (R.aim c obj weight).task.values.length) =>
      heatColumn (R.aim c obj weight).task (R.aim c obj weight).eMinCoeff v1.p (physical R.toCommon v1 rho) (u' j)) =
      fun j => heatColumn R.task R.eMinCoeff v1.p (physical R.toCommon v1 rho) (u' j) := by
    funext j e
    exact heatColumn_aim _ _ _ hsame _ _ _ _ _
  simp only at b5
  rw [hg] at b5
  have b6 := ocStep_twin (R := R.toCommon) b5
  rw [chained_twin] at b6
  exact ocStep_unique (e'.trans e.symm) a5 b6

/-- **C104.** The designs of a heat run do not depend on the load-scale schedule, nor on whether the objective is "averaged_temp" or
"heat_exchange", nor on the weight of the temperature in it; and without Robin boundaries not on the objective at all. Two well-posed OC runs
that differ only in these make the same calls the same way: same progress, same densities, same snapshots, and histories that differ only in
the recorded objective and load scale. -/
theorem C104_same_designs (R : HeatSetup ι Q d nE k) (c : Config) (obj : Objective) (weight : ℝ) (h : HeatWellPosed R)
    (h' : HeatWellPosed (R.aim c obj weight)) (hsame : (R.task.objective = .compliance ↔ obj = .compliance) ∨ R.task.robin = none)
    (files : List (Snapshot.Name × (Fin nE → ℝ))) (hs : CanStart R.toCommon files) (cs : List Call) :
    ∃ o o', runCalls (heatSys R) cs (newHeatRun R files) = (o, .ok ()) ∧
      runCalls (heatSys (R.aim c obj weight)) cs (newHeatRun (R.aim c obj weight) files) = (o', .ok ()) ∧
      o'.started = o.started ∧ o'.completed = o.completed ∧
      (o.started = true → o'.iterNext = o.iterNext ∧ o'.world.rho = o.world.rho ∧ o'.world.files = o.world.files ∧
        List.Forall₂ SameButObjective o.world.aux.1.log o'.world.aux.1.log) := by
  obtain ⟨o, o', ho, ho', h1, h2, h3⟩ := twin_by (c := c) h.toBasics h'.toBasics (heat_computes h) (heat_computes h') SameButObjective
    (fun r r' hr => by rw [hr]; exact ⟨rfl, rfl⟩) (fun r => rfl)
    (fun n v hv rho hrho rs r r' new new' rs1 rs1' e e' hi hi' => heat_det_twin h.toHeatSound hsame hv hrho e e' hi hi') hs cs
  exact ⟨_, _, heat_run h.toHeatSound ho, heat_run h'.toHeatSound ho', h1, h2, fun hs => ⟨(h3 hs).1, (h3 hs).2.1, (h3 hs).2.2.2, (h3 hs).2.2.1⟩⟩

/-- The same LogMOC run with another load scale and objective. -/
abbrev HeatLogSetup.aim (L : HeatLogSetup ι Q d nE k) (c : Config) (obj : Objective) (weight : ℝ) : HeatLogSetup ι Q d nE k :=
  { L with
    cNeumannScale := c
    task := L.task.aim obj weight }

/-- Two lines of the histories that differ only in the recorded objective and load scale. -/
def LogSameButObjective (r r' : LogRec) : Prop := r' = { r with compliance := r'.compliance, neumannScale := r'.neumannScale }

theorem heatLog_det_twin {L : HeatLogSetup ι Q d nE k} {c : Config} {obj : Objective} {weight : ℝ} (h : HeatSound L.toHeatSetup)
    (hsame : (L.task.objective = .compliance ↔ obj = .compliance) ∨ L.task.robin = none) {n : ℕ} {v : Vals} (hv : ValsOk L.toCommon n v)
    {rho : Fin nE → ℝ} (hrho : ∀ e, 0 ≤ rho e ∧ rho e ≤ 1) {lam rs : ℝ} {r r' : LogRec} {new new' : Fin nE → ℝ} {rs1 rs1' : ℝ} (e : r.iter = n) (e' : r'.iter = n)
    (hi : HeatLogIteration L rho lam rs r new rs1) (hi' : HeatLogIteration (L.aim c obj weight) rho lam rs r' new' rs1') :
    new' = new ∧ rs1' = rs1 ∧ LogSameButObjective r r' := by
  obtain ⟨v1, u, a1, a2, -, -, a5⟩ := hi
  obtain ⟨v2, u', b1, b2, -, -, b5⟩ := hi'
  rw [e] at a1
  rw [e'] at b1
  obtain rfl : v1 = v := allScheduled_eq hv.all a1
  have hv2 : v2 = { v1 with neumannScale := v2.neumannScale } := allScheduled_twin a1 b1
  obtain ⟨ns, hns⟩ : ∃ ns, ns = v2.neumannScale := ⟨_, rfl⟩
  rw [← hns] at hv2
  subst hv2
  have hx := fun e => physical_range h.toBasics hv hrho e
  have hp : physical (L.aim c obj weight).toCommon { v1 with neumannScale := ns } rho = physical L.toCommon v1 rho := physical_twin L.toCommon c v1 ns rho
  rw [hp] at b2 b5
  have hu : u' = u := funext fun j => warmed_unique h hx (a2 j) (warmed_aim (b2 j))
  subst hu
  have hg : (fun (j : Fin (L.aim c obj weight).task.values.length) =>
      heatColumn (L.aim c obj weight).task (L.aim c obj weight).eMinCoeff v1.p (physical L.toCommon v1 rho) (u' j)) =
      fun j => heatColumn L.task L.eMinCoeff v1.p (physical L.toCommon v1 rho) (u' j) := by
    funext j e
    exact heatColumn_aim _ _ _ hsame _ _ _ _ _
  simp only at b5
  rw [hg] at b5
  have b6 := logStep_twin (L := L.common) b5
  rw [chained_twin] at b6
  exact logStep_unique (e'.trans e.symm) a5 b6

/-- **C104.** The same for new LogMOC runs. -/
theorem C104_same_designs_logmoc (L : HeatLogSetup ι Q d nE k) (c : Config) (obj : Objective) (weight : ℝ) (h : HeatLogWellPosed L)
    (h' : HeatLogWellPosed (L.aim c obj weight)) (hsame : (L.task.objective = .compliance ↔ obj = .compliance) ∨ L.task.robin = none)
    (hnr : L.restart = false) (files : List (Snapshot.Name × (Fin nE → ℝ))) (cs : List Call) :
    ∃ o o', runCalls (heatLogSys L) cs (newHeatLogRun L files) = (o, .ok ()) ∧
      runCalls (heatLogSys (L.aim c obj weight)) cs (newHeatLogRun (L.aim c obj weight) files) = (o', .ok ()) ∧
      o'.started = o.started ∧ o'.completed = o.completed ∧
      (o.started = true → o'.iterNext = o.iterNext ∧ o'.world.rho = o.world.rho ∧ o'.world.files = o.world.files ∧
        List.Forall₂ LogSameButObjective o.world.aux.1.log o'.world.aux.1.log) := by
  obtain ⟨o, o', ho, ho', h1, h2, h3⟩ := log_twin_by (L := L.common) (c := c) h.toBasics h'.toBasics (heatLog_computes h) (heatLog_computes h')
    LogSameButObjective (fun r r' hr => by rw [hr]; exact ⟨rfl, rfl, rfl⟩)
    (fun n v hv rho hrho lam rs r r' new new' rs1 rs1' e e' hi hi' => heatLog_det_twin h.toHeatSound hsame hv hrho e e' hi hi') hnr files cs
  exact ⟨_, _, heatLog_run h.toHeatSound ho, heatLog_run h'.toHeatSound ho', h1, h2,
    fun hs => ⟨(h3 hs).1, (h3 hs).2.1, (h3 hs).2.2.2, (h3 hs).2.2.1⟩⟩

/-! ### Without Robin boundaries -/

theorem chained_zero {R : Common (Fin nE) d} (h : Basics R) (v : Vals) (rho : Fin nE → ℝ) {n : ℕ} (cols : Fin n → Fin nE → ℝ)
    (hc : ∀ j e, cols j e = 0) : chained R v rho cols = 0 := by
  have h1 : ∀ (r : ℝ) (g : Fin nE → ℝ), (∀ e, g e = 0) → blurT R r g = 0 := by
    intro r g hg
    funext j
    unfold blurT
    rcases R.nodal with _ | N
    · simp [hg]
    · have hm : nodeMean R N 0 g = 0 := by
        funext m
        unfold nodeMean
        simp [hg]
      have hr : relaxed N r ∅ 0 (nodeMean R N 0 g) = 0 := by
        rw [hm]
        unfold relaxed
        have : (fun i : Fin N.nodes => if i ∈ (∅ : Finset (Fin N.nodes)) then (0 : ℝ) else ∑ j, N.mass i j * (0 : Fin N.nodes → ℝ) j) = 0 := by
          funext i; simp
        rw [this, Matrix.mulVec_zero]
      show min (cornerMean N (relaxed N r ∅ 0 (nodeMean R N 0 g)) j) 0 = 0
      rw [hr]
      simp [cornerMean]
  have h2 : (fun e => (∑ j, blurT R v.radius (fun e => cols j e * thresholdSlope v.beta R.betaEta (blur R v.radius rho e)) e) / n) = 0 := by
    funext e
    rw [Finset.sum_eq_zero fun j _ => by rw [h1 _ _ fun e => by rw [hc, zero_mul]]; rfl]
    simp
  unfold chained
  simp only [h2]
  rcases hN : R.nodal with _ | N
  · split_ifs
    · funext i
      unfold blur
      rw [hN]
      simp
    · rfl
  · rw [(h.nodal N hN).noSensFilter]; rfl

theorem ocStep_zero {R : Common (Fin nE) d} {v : Vals} (heta : 0 < v.eta) (hrate : 0 ≤ R.rateMin ∧ R.rateMin ≤ R.rateMax)
    {rho : Fin nE → ℝ} {rs : ℝ} {r : Rec} {new : Fin nE → ℝ} {rs1 : ℝ} (hs : OCStep R v 0 rho rs r new rs1) (e : Fin nE)
    (he : e ∈ R.design) (hp : ¬ Pinned R e) :
    new e = min (max (rho e * R.rateMin) (max (rho e - v.moveLimit) R.rhoMin)) (min (rho e + v.moveLimit) R.rhoMax) := by
  obtain ⟨s, -, -, -, -, i9, -⟩ := hs
  rw [i9 e, if_neg hp]
  unfold grown
  rw [if_pos he]
  have : rate R v.eta ((0 : Fin nE → ℝ) e / rs1) r.lmid = R.rateMin := by
    unfold rate
    rw [if_neg (by rintro ⟨-, hn⟩; linarith)]
    simp only [Pi.zero_apply, zero_div, neg_zero]
    rw [Real.zero_rpow heta.ne', max_eq_right hrate.1, min_eq_left hrate.2]
  rw [this]

/-- What the sensitivities and the compliance are without Robin boundaries. -/
theorem heat_nothing {R : HeatSetup ι Q d nE k} (h : HeatSound R) (hr : R.task.robin = none) (hgrad : ∀ e q a, ∑ i, R.task.fe.grad i e q a = 0)
    {x : Fin nE → ℝ} (hx : ∀ e, 0 ≤ x e ∧ x e ≤ 1) {p : ℝ} {j : Fin R.task.values.length} {u : ι → ℝ} (hu : Warmed R.task R.eMinCoeff p x j u) :
    (∀ e, heatColumn R.task R.eMinCoeff p x u e = 0) ∧
      Spec.Heat.dissipated R.task.fe (fun e => conductivity R.task R.eMinCoeff p (x e)) R.task.robin R.task.regions p R.task.q (gathered R.task x) u = 0 := by
  have hD : R.task.dirichlet.getD j ∅ ∈ R.task.dirichlet := by
    rw [List.getD_eq_getElem _ _ (by rw [h.regions]; exact j.isLt)]
    exact List.getElem_mem _
  have hk : ∀ e, 0 < R.task.ke Material.simp R.eMinCoeff x p e := fun e => by rw [conductivity_eq]; exact conductivity_pos h (hx e).1 p
  unfold Warmed at hu
  rw [← conductivity_eq, ← gathered_eq R.task h.corners] at hu ⊢
  obtain ⟨-, -, c3, c4⟩ := C86_no_robin_uniform R.task h.built hr h.regular hgrad Material.simp R.eMinCoeff x p hk _ _ (h.connected _ hD) u hu
  refine ⟨fun e => by rw [← heatColumn_eq R.task h.corners h.partition, c4], ?_⟩
  unfold Spec.Heat.dissipated
  rw [hr]
  simp only [add_zero]
  refine Finset.sum_eq_zero fun e _ => ?_
  have h2 : ∑ q, R.task.ke Material.simp R.eMinCoeff x p e * (∑ a, Spec.Heat.slope R.task.fe u e q a ^ 2) * R.task.fe.dx e q =
      2 * energy R.task.fe (R.task.ke Material.simp R.eMinCoeff x p) u e := by
    unfold energy
    rw [Finset.mul_sum]
    refine Finset.sum_congr rfl fun q _ => ?_
    have : dot (gradAt R.task.fe u e q) (gradAt R.task.fe u e q) = ∑ a, Spec.Heat.slope R.task.fe u e q a ^ 2 :=
      Finset.sum_congr rfl fun a _ => (sq _).symm
    rw [this]; ring
  rw [h2, c3 e, mul_zero]

/-- The design densities that are not pinned are in the box. -/
def Boxed (R : Common (Fin nE) d) (rho : Fin nE → ℝ) : Prop := ∀ e ∈ R.design, ¬ Pinned R e → R.rhoMin ≤ rho e ∧ rho e ≤ R.rhoMax

theorem heat_fades {R : HeatSetup ι Q d nE k} (h : HeatWellPosed R) (hr : R.task.robin = none)
    (hgrad : ∀ e q a, ∑ i, R.task.fe.grad i e q a = 0) (hrate : 0 ≤ R.rateMin ∧ R.rateMin ≤ 1 ∧ R.rateMin ≤ R.rateMax)
    (heta : ∀ n v, AllScheduled R.toCommon n v → 0 < v.eta) :
    Computes R.toCommon (stepWith R.toCommon (heatResponse R R.task))
      (fun rho rs r rho' rs' => Boxed R.toCommon rho → Fades R rho rs r rho' rs' ∧ Boxed R.toCommon rho') (HeatGood R) := by
  refine stepWith_ok h.toBasics h.toOCRules _ _ _ fun n v hv rho hrho => ?_
  have hx := fun e => physical_range h.toBasics hv hrho e
  obtain ⟨u, u1, u2⟩ := heatResponse_ok h.toHeatSound v hx
  have hz := fun j => heat_nothing h.toHeatSound hr hgrad hx (u1 j)
  refine ⟨_, _, u2, heatObjective_good h.toHeatSound hx u, Or.inl fun j e => ((hz j).1 e).le, fun rs r rho' rs' e1 e2 e3 hs hb => ?_⟩
  rw [chained_zero h.toBasics v rho _ fun j e => (hz j).1 e] at hs
  have hnew := ocStep_zero (heta n v hv.all) ⟨hrate.1, hrate.2.2⟩ hs
  have hml := hv.moveLimit
  have key : ∀ e ∈ R.design, ¬ Pinned R.toCommon e → rho' e = max (R.rateMin * rho e) (max (rho e - v.moveLimit) R.rhoMin) ∧
      R.rhoMin ≤ rho' e ∧ rho' e ≤ R.rhoMax := by
    intro e he hp
    obtain ⟨b1, b2⟩ := hb e he hp
    have h0 : 0 ≤ rho e := (hrho e).1
    have h1 : R.rateMin * rho e ≤ rho e := by nlinarith [hrate.2.1]
    have hle : max (rho e * R.rateMin) (max (rho e - v.moveLimit) R.rhoMin) ≤ rho e :=
      max_le (by linarith) (max_le (by linarith) b1)
    rw [hnew e he hp, min_eq_left (le_min (by linarith) (by linarith)), mul_comm]
    rw [mul_comm] at hle
    exact ⟨rfl, (le_max_right _ _).trans (le_max_right _ _), hle.trans b2⟩
  refine ⟨⟨v.moveLimit, by rw [e1]; exact hv.move, fun ho => ?_, fun e he hp => (key e he hp).1⟩, fun e he hp => (key e he hp).2⟩
  rw [e2]
  unfold heatObjective
  simp only [ho]
  unfold meanOf
  rw [Finset.sum_eq_zero fun j _ => (hz j).2, zero_div]

theorem reached_mono {E : Type} [Fintype E] {It It' : (E → ℝ) → ℝ → Rec → (E → ℝ) → ℝ → Prop} {P : (E → ℝ) → Prop}
    (hi : ∀ rho rs r rho' rs', P rho → It rho rs r rho' rs' → It' rho rs r rho' rs' ∧ P rho') {rho0 : E → ℝ} {rs0 : ℝ} {log0 : List Rec} (h0 : P rho0)
    {rho : E → ℝ} {rs : ℝ} {log : List Rec} (h : Reached It rho0 rs0 log0 rho rs log) : Reached It' rho0 rs0 log0 rho rs log ∧ P rho := by
  induction h with
  | refl => exact ⟨.refl, h0⟩
  | next _ hs ih => exact ⟨.next ih.1 (hi _ _ _ _ _ ih.2 hs).1, (hi _ _ _ _ _ ih.2 hs).2⟩

/-- **C105.** Without Robin boundaries a heat run optimizes nothing (the temperature is uniform, C86). In a well-posed OC run with positive
`eta` every iteration replaces every unpinned design density `x` by `max(rate_min x, x - move_limit, rho_min)`, whatever the volume fraction,
the objective and the prescribed temperatures are. So after any calls all these densities are equal: there is no design; and if the
objective is the compliance, every recorded value is 0. -/
theorem C105_no_robin_no_design (R : HeatSetup ι Q d nE k) (h : HeatWellPosed R) (hnr : R.restart = false) (hr : R.task.robin = none)
    (hgrad : ∀ e q a, ∑ i, R.task.fe.grad i e q a = 0) (hrate : 0 ≤ R.rateMin ∧ R.rateMin ≤ 1 ∧ R.rateMin ≤ R.rateMax)
    (heta : ∀ n v, AllScheduled R.toCommon n v → 0 < v.eta) (files : List (Snapshot.Name × (Fin nE → ℝ))) (cs : List Call) :
    ∃ o, runCalls (heatSys R) cs (newHeatRun R files) = (o, .ok ()) ∧
      (o.started = true → (∃ rho0 rs, InitialDensities R.toCommon rho0 ∧ Reached (Fades R) rho0 0 [] o.world.rho rs o.world.aux.1.log) ∧
        ∃ x, ∀ e ∈ R.design, ¬ Pinned R.toCommon e → o.world.rho e = x) := by
  obtain ⟨o, ho, h1⟩ := refines_by h.toBasics (heat_fades h hr hgrad hrate heta) hnr files cs
  refine ⟨_, heat_run h.toHeatSound ho, fun hs => ?_⟩
  obtain ⟨-, rho0, rs, hi, hreach⟩ := h1 hs
  obtain ⟨x, hx, hrho0⟩ := hi
  have hv0 : ∀ e ∈ R.design, ¬ Pinned R.toCommon e → rho0 e = min R.rhoMax (max R.rhoMin x) := by
    intro e he hp
    rw [hrho0 e, if_neg]
    rintro (h2 | h2)
    · exact hp h2
    · exact Finset.disjoint_left.mp h.separate he h2
  have hbox := h.box
  have hb0 : Boxed R.toCommon rho0 := fun e he hp => by
    rw [hv0 e he hp]
    exact ⟨le_min hbox.2.1 (le_max_left _ _), min_le_left _ _⟩
  obtain ⟨r1, -⟩ := reached_mono (It' := Fades R) (P := Boxed R.toCommon) (fun rho rs r rho' rs' hp hi => hi hp) hb0 hreach
  obtain ⟨-, r2⟩ := reached_mono (It' := Fades R) (P := fun rho => ∃ x, ∀ e ∈ R.design, ¬ Pinned R.toCommon e → rho e = x)
    (fun rho rs r rho' rs' hp hi => ⟨hi, by
      obtain ⟨y, hy⟩ := hp
      obtain ⟨ml, -, -, h3⟩ := hi
      exact ⟨max (R.rateMin * y) (max (y - ml) R.rhoMin), fun e he hp => by rw [h3 e he hp, hy e he hp]⟩⟩) ⟨_, hv0⟩ r1
  exact ⟨⟨rho0, rs, ⟨x, hx, hrho0⟩, r1⟩, r2⟩

end
end Verif.Run
