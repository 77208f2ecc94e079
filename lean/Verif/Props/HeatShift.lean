import Verif.Props.RunHeatEx

/-!
C151: the zero of the temperature scale. A user may give all temperatures of a heat task in degrees Celsius or in kelvin; nothing physical
depends on it.
-/
namespace Verif.Run
open Verif Verif.Sched Verif.Spec Verif.Driver Verif.Heat

variable {ι Q : Type} [Fintype ι] [Fintype Q] {d nE k : ℕ}

noncomputable section
open Classical

/-- The same task with `c` added to every prescribed temperature and to the ambient temperature: what `from_facets` (task_heat.py 171–249)
makes of the shifted arguments. -/
def _root_.Verif.Heat.Task.shift (T : Task ι Q d nE k) (c : ℝ) : Task ι Q d nE k where
  fe := T.fe
  t := T.t
  dirichlet := T.dirichlet
  values := T.values.map (· + c)
  robin := T.robin.map fun r => (r.1, r.2 + c)
  regions := T.regions
  bilinear := T.bilinear
  linear := match T.robin with
    | none => T.linear
    | some (h, Tenv) => T.regions.map fun G => robinLoad G h (Tenv + c) none 0
  designRobin := T.designRobin
  objective := T.objective
  avgWeight := T.avgWeight
  k := T.k
  q := T.q

/-- The same run on the shifted task. -/
abbrev HeatSetup.shift (R : HeatSetup ι Q d nE k) (c : ℝ) : HeatSetup ι Q d nE k := { R with task := R.task.shift c }

/-- The same LogMOC run on the shifted task. -/
abbrev HeatLogSetup.shift (L : HeatLogSetup ι Q d nE k) (c : ℝ) : HeatLogSetup ι Q d nE k := { L with task := L.task.shift c }

/-- The basis functions of the body and of its surfaces add up to 1, so their gradients add up to 0. True of Lagrange elements (C145). -/
structure AddUp (T : Task ι Q d nE k) : Prop where
  val : ∀ e q, ∑ i, T.fe.val i e q = 1
  grad : ∀ e q a, ∑ i, T.fe.grad i e q a = 0
  surface : ∀ G ∈ T.regions, ∀ q, ∑ i, G.val i q = 1

theorem shift_length (T : Task ι Q d nE k) (c : ℝ) : (T.shift c).values.length = T.values.length := by simp [Task.shift]

theorem shift_built {T : Task ι Q d nE k} (c : ℝ) (h : ∃ T0 : Task ι Q d nE k, T0.build = .ok T) :
    ∃ T0 : Task ι Q d nE k, T0.build = .ok (T.shift c) := by
  obtain ⟨T0, h0⟩ := h
  refine ⟨T.shift c, ?_⟩
  unfold Task.build at h0 ⊢
  rcases hr : T0.robin with _ | ⟨hh, Te⟩
  · rw [hr] at h0
    injection h0 with h0
    subst h0
    simp [Task.shift, hr]
  · rw [hr] at h0
    simp only [assembleRobin_one, Except.map] at h0
    injection h0 with h0
    subst h0
    simp [Task.shift, hr, assembleRobin_one, Except.map]

theorem shift_sound {R : HeatSetup ι Q d nE k} (h : HeatSound R) (c : ℝ) : HeatSound (R.shift c) :=
  { h with
    built := shift_built c h.built
    film := fun hh Te e => by
      have e' : R.task.robin.map (fun r => (r.1, r.2 + c)) = some (hh, Te) := e
      rcases hr : R.task.robin with _ | ⟨h1, T1⟩
      · rw [hr] at e'; cases e'
      · rw [hr] at e'
        simp only [Option.map_some, Option.some.injEq, Prod.mk.injEq] at e'
        rw [← e'.1]; exact h.film _ _ hr
    loadCases := by
      have := h.loadCases
      simpa [Task.shift] using this
    regions := by
      have := h.regions
      simpa [Task.shift] using this
    robin := fun ho e => h.robin ho (by simpa [Task.shift] using e) }

theorem shift_wellPosed {R : HeatSetup ι Q d nE k} (h : HeatWellPosed R) (c : ℝ) : HeatWellPosed (R.shift c) :=
  { h with
    toHeatSound := shift_sound h.toHeatSound c
    sign := fun ho e => h.sign ho (by simpa [Task.shift] using e) }

theorem shift_logWellPosed {L : HeatLogSetup ι Q d nE k} (h : HeatLogWellPosed L) (c : ℝ) : HeatLogWellPosed (L.shift c) :=
  { h with
    toHeatSound := shift_sound h.toHeatSound c }

theorem field_shift {B : FE ι (Fin nE) Q d} (h : ∀ e q, ∑ i, B.val i e q = 1) (u : ι → ℝ) (c : ℝ) (e : Fin nE) (q : Q) :
    Spec.Heat.field B (fun i => u i + c) e q = Spec.Heat.field B u e q + c := by
  unfold Spec.Heat.field
  simp only [add_mul, Finset.sum_add_distrib, ← Finset.mul_sum, h, mul_one]

theorem slope_shift {B : FE ι (Fin nE) Q d} (h : ∀ e q a, ∑ i, B.grad i e q a = 0) (u : ι → ℝ) (c : ℝ) (e : Fin nE) (q : Q) (a : Fin d) :
    Spec.Heat.slope B (fun i => u i + c) e q a = Spec.Heat.slope B u e q a := by
  unfold Spec.Heat.slope
  simp only [add_mul, Finset.sum_add_distrib, ← Finset.mul_sum, h, mul_zero, add_zero]

/-- If `u` is the temperature of a load case, then `u + c` is the one after adding `c` to all prescribed temperatures and the ambient one. -/
theorem warmed_shift_of (T : Task ι Q d nE k) (hT : AddUp T) (c Ec p : ℝ) (x : Fin nE → ℝ) (j : Fin T.values.length) (u : ι → ℝ)
    (h : Warmed T Ec p x j u) : Warmed (T.shift c) Ec p x (Fin.cast (shift_length T c).symm j) (fun i => u i + c) := by
  obtain ⟨h1, h2⟩ := h
  have hv : (T.shift c).values.get (Fin.cast (shift_length T c).symm j) = T.values.get j + c := by
    simp [Task.shift]
    rfl
  refine ⟨fun i hi => ?_, fun i hi => ?_⟩
  · show u i + c = _
    rw [hv, h1 i hi]
  · rw [← h2 i hi]
    congr 1
    · show Spec.Heat.conducted T.fe _ _ i = _
      unfold Spec.Heat.conducted
      simp only [slope_shift hT.grad]
      rfl
    · show Spec.Heat.losses T.fe (T.robin.map fun r => (r.1, r.2 + c)) T.regions p T.q (gathered T x) _ i = _
      unfold Spec.Heat.losses
      rcases T.robin with _ | ⟨hh, Te⟩
      · rfl
      · show (T.regions.map fun G => Spec.Heat.surfaceLoss G hh (Te + c) (fun i => u i + c) i).sum +
          Spec.Heat.interfaceLoss T.fe hh (Te + c) p T.q (gathered T x) (fun i => u i + c) i = _
        congr 1
        · congr 1
          refine List.map_congr_left fun G hG => ?_
          unfold Spec.Heat.surfaceLoss
          refine Finset.sum_congr rfl fun q _ => ?_
          simp only [add_mul, Finset.sum_add_distrib, ← Finset.mul_sum, hT.surface G hG q, mul_one]
          rw [add_sub_add_right_eq_sub]
        · unfold Spec.Heat.interfaceLoss
          simp only [field_shift hT.val, add_sub_add_right_eq_sub]

/-- … and nothing else is: the temperature is unique. -/
theorem warmed_shift {R : HeatSetup ι Q d nE k} (h : HeatSound R) (hT : AddUp R.task) (c : ℝ) {p : ℝ} {x : Fin nE → ℝ} (hx : ∀ e, 0 ≤ x e ∧ x e ≤ 1)
    {j : Fin R.task.values.length} {u w : ι → ℝ} (hu : Warmed R.task R.eMinCoeff p x j u)
    (hw : Warmed (R.task.shift c) R.eMinCoeff p x (Fin.cast (shift_length R.task c).symm j) w) : w = fun i => u i + c :=
  warmed_unique (shift_sound h c) hx (warmed_shift_of R.task hT c R.eMinCoeff p x j u hu) hw

/-- Two analyses whose balances correspond compute corresponding temperatures. -/
theorem solved_alike {ι' Q' : Type} [Fintype ι'] [Fintype Q'] {d' nE' k' : ℕ} {R : HeatSetup ι Q d nE k} {R' : HeatSetup ι' Q' d' nE' k'} (h : HeatSound R)
    (h' : HeatSound R') (hl : R'.task.values.length = R.task.values.length) {p : ℝ} {x : Fin nE → ℝ} (hx : ∀ e, 0 ≤ x e ∧ x e ≤ 1) {x' : Fin nE' → ℝ}
    (hx' : ∀ e, 0 ≤ x' e ∧ x' e ≤ 1) (f : (ι → ℝ) → ι' → ℝ)
    (hf : ∀ j u, Warmed R.task R.eMinCoeff p x j u → Warmed R'.task R'.eMinCoeff p x' (Fin.cast hl.symm j) (f u)) :
    ∃ us, R.task.solve R.backend R.solver Material.simp R.eMinCoeff x p = .ok us ∧
      R'.task.solve R'.backend R'.solver Material.simp R'.eMinCoeff x' p = .ok (us.map f) := by
  obtain ⟨u, h1, h2⟩ := heat_solved h hx p
  obtain ⟨w, h3, h4⟩ := heat_solved h' hx' p
  refine ⟨_, h1, ?_⟩
  rw [h3]
  congr 1
  apply List.ext_getElem
  · simp [hl]
  · intro n a b
    have hn : n < R.task.values.length := by rw [List.length_ofFn] at a; omega
    simp only [List.getElem_ofFn, List.getElem_map]
    exact warmed_unique h' hx' (hf ⟨n, hn⟩ _ (h2 _)) (h4 _)

/-- **C151.** The temperatures are shifted: what the analysis of any admissible densities computes after adding `c` to all prescribed
temperatures and the ambient one is what it computed before plus `c`, at every node, in every load case. -/
theorem C151_temperature_shifts (R : HeatSetup ι Q d nE k) (h : HeatSound R) (hT : AddUp R.task) (c p : ℝ) (x : Fin nE → ℝ) (hx : ∀ e, 0 ≤ x e ∧ x e ≤ 1) :
    ∃ us, R.task.solve R.backend R.solver Material.simp R.eMinCoeff x p = .ok us ∧
      (R.task.shift c).solve R.backend R.solver Material.simp R.eMinCoeff x p = .ok (us.map fun u i => u i + c) :=
  solved_alike h (R' := R.shift c) (shift_sound h c) (shift_length R.task c) hx hx _ fun j u hu => warmed_shift_of R.task hT c R.eMinCoeff p x j u hu

theorem heatColumn_shift {T : Task ι Q d nE k} (hT : AddUp T) (hsame : T.objective ≠ .compliance ∨ T.robin = none) (c Ec p : ℝ) (x : Fin nE → ℝ)
    (u : ι → ℝ) (e : Fin nE) : heatColumn (T.shift c) Ec p x (fun i => u i + c) e = heatColumn T Ec p x u e := by
  unfold heatColumn
  congr 1
  · show slopeOf T.k Ec p (x e) ((∑ y, conductivity T Ec p (x e) * (∑ a, Spec.Heat.slope T.fe (fun i => u i + c) e y a ^ 2) * T.fe.dx e y) / 2) = _
    simp only [slope_shift hT.grad]
  · rcases hr : T.robin with _ | ⟨hh, Te⟩
    · have : (T.shift c).robin = none := by simp [Task.shift, hr]
      rw [this]
      rcases T.objective <;> rcases (T.shift c).objective <;> rfl
    · rcases hsame with ho | ho
      · have h2 : (T.shift c).objective = T.objective := rfl
        rw [h2]
        rcases ho' : T.objective
        · exact absurd ho' ho
        · rfl
        · rfl
      · rw [hr] at ho; cases ho

theorem chained_cast {R : Common (Fin nE) d} {v : Vals} {rho : Fin nE → ℝ} {n n' : ℕ} (h : n = n') (f : Fin n → Fin nE → ℝ) (g : Fin n' → Fin nE → ℝ)
    (hfg : ∀ j, g (Fin.cast h j) = f j) : chained R v rho g = chained R v rho f := by
  subst h
  have : g = f := funext hfg
  rw [this]

theorem sum_cast {n n' : ℕ} (h : n = n') (f : Fin n → ℝ) (g : Fin n' → ℝ) (hfg : ∀ j, g (Fin.cast h j) = f j) : meanOf g = meanOf f := by
  subst h
  have : g = f := funext hfg
  rw [this]

theorem meanOf_add {n : ℕ} (hn : n ≠ 0) (f : Fin n → ℝ) (c : ℝ) : meanOf (fun j => f j + c) = meanOf f + c := by
  unfold meanOf
  rw [Finset.sum_add_distrib]
  simp only [Finset.sum_const, Finset.card_univ, Fintype.card_fin, nsmul_eq_mul]
  have : (n : ℝ) ≠ 0 := by exact_mod_cast hn
  field_simp

/-- How the recorded objective changes when it is the mean sum of the temperatures, or the compliance without Robin boundaries. -/
theorem heatObjective_shift {T : Task ι Q d nE k} (hT : AddUp T) (hne : T.values ≠ []) (c Ec p : ℝ) (x : Fin nE → ℝ)
    (u : Fin T.values.length → ι → ℝ) (w : Fin (T.shift c).values.length → ι → ℝ)
    (hw : ∀ j, w (Fin.cast (shift_length T c).symm j) = fun i => u j i + c) :
    (T.objective = .averagedTemp → heatObjective (T.shift c) Ec p x w = heatObjective T Ec p x u + Fintype.card ι * c) ∧
    (T.objective = .compliance → T.robin = none → heatObjective (T.shift c) Ec p x w = heatObjective T Ec p x u) := by
  have hn : T.values.length ≠ 0 := by simpa using hne
  refine ⟨fun ho => ?_, fun ho hr => ?_⟩
  · have ho' : (T.shift c).objective = .averagedTemp := ho
    unfold heatObjective
    simp only [ho, ho']
    rw [sum_cast (shift_length T c).symm (fun j => (∑ i, u j i) + Fintype.card ι * c) _ fun j => ?_, meanOf_add hn]
    rw [hw j]
    simp [Finset.sum_add_distrib]
  · have ho' : (T.shift c).objective = .compliance := ho
    have hr' : (T.shift c).robin = none := by simp [Task.shift, hr]
    unfold heatObjective
    simp only [ho, ho', hr, hr']
    refine sum_cast (shift_length T c).symm _ _ fun j => ?_
    rw [hw j]
    unfold Spec.Heat.dissipated
    simp only [add_zero]
    show ∑ e, ∑ q, conductivity T Ec p (x e) * (∑ a, Spec.Heat.slope T.fe (fun i => u j i + c) e q a ^ 2) * T.fe.dx e q = _
    simp only [slope_shift hT.grad]

/-- Two lines of the histories that differ only in the recorded objective. -/
def OnlyObjective (r r' : Rec) : Prop := r' = { r with compliance := r'.compliance }

/-- Two lines of the LogMOC histories that differ only in the recorded objective; the mean sum of the temperatures is shifted by `c` per
node, and the compliance without Robin boundaries not at all. -/
def LogOnlyObjective (T : Task ι Q d nE k) (c : ℝ) (r r' : LogRec) : Prop :=
  r' = { r with compliance := r'.compliance } ∧ (T.objective = .averagedTemp → r'.compliance = r.compliance + Fintype.card ι * c) ∧
    (T.objective = .compliance → r'.compliance = r.compliance)

theorem heat_det_shift {R : HeatSetup ι Q d nE k} {c : ℝ} (h : HeatSound R) (hT : AddUp R.task)
    (hsame : R.task.objective ≠ .compliance ∨ R.task.robin = none) {n : ℕ} {v : Vals} (hv : ValsOk R.toCommon n v)
    {rho : Fin nE → ℝ} (hrho : ∀ e, 0 ≤ rho e ∧ rho e ≤ 1) {rs : ℝ} {r r' : Rec} {new new' : Fin nE → ℝ} {rs1 rs1' : ℝ} (e : r.iter = n) (e' : r'.iter = n)
    (hi : HeatIteration R rho rs r new rs1) (hi' : HeatIteration (R.shift c) rho rs r' new' rs1') :
    new' = new ∧ rs1' = rs1 ∧ OnlyObjective r r' := by
  obtain ⟨v1, u, a1, a2, -, a4, a5⟩ := hi
  obtain ⟨v2, w, b1, b2, -, b4, b5⟩ := hi'
  rw [e] at a1
  rw [e'] at b1
  obtain rfl : v1 = v := allScheduled_eq hv.all a1
  obtain rfl : v2 = v1 := allScheduled_eq a1 b1
  have hx := fun e => physical_range h.toBasics hv hrho e
  have hw : ∀ j, w (Fin.cast (shift_length R.task c).symm j) = fun i => u j i + c := fun j => warmed_shift h hT c hx (a2 j) (b2 _)
  rw [chained_cast (shift_length R.task c).symm (fun j => heatColumn R.task R.eMinCoeff v2.p (physical R.toCommon v2 rho) (u j)) _ fun j => by
    funext e
    rw [hw j]
    exact heatColumn_shift hT hsame _ _ _ _ _ _] at b5
  obtain ⟨c1, c2, c3⟩ := ocStep_unique (e'.trans e.symm) a5 b5
  exact ⟨c1, c2, by unfold OnlyObjective; rw [c3, b4, ← a4]⟩

/-- **C151.** For the objectives "averaged_temp" and "heat_exchange", and without Robin boundaries for every objective: a well-posed OC run
after adding `c` to all prescribed temperatures and the ambient temperature makes the same calls the same way — same progress, same densities,
same snapshots, histories that differ only in the recorded objective. -/
theorem C151_same_designs_partial (R : HeatSetup ι Q d nE k) (c : ℝ) (h : HeatWellPosed R) (hT : AddUp R.task)
    (hsame : R.task.objective ≠ .compliance ∨ R.task.robin = none)
    (files : List (Snapshot.Name × (Fin nE → ℝ))) (hs : CanStart R.toCommon files) (cs : List Call) :
    ∃ o o', runCalls (heatSys R) cs (newHeatRun R files) = (o, .ok ()) ∧
      runCalls (heatSys (R.shift c)) cs (newHeatRun (R.shift c) files) = (o', .ok ()) ∧
      o'.started = o.started ∧ o'.completed = o.completed ∧
      (o.started = true → o'.iterNext = o.iterNext ∧ o'.world.rho = o.world.rho ∧ o'.world.files = o.world.files ∧
        List.Forall₂ OnlyObjective o.world.aux.1.log o'.world.aux.1.log) := by
  have h' := shift_wellPosed h c
  obtain ⟨o, o', ho, ho', h1, h2, h3⟩ := twin_by (c := R.cNeumannScale) h.toBasics h'.toBasics (heat_computes h) (heat_computes (R := R.shift c) h') OnlyObjective
    (fun r r' hr => by rw [hr]; exact ⟨rfl, rfl⟩) (fun r => rfl)
    (fun n v hv rho hrho rs r r' new new' rs1 rs1' e e' hi hi' => heat_det_shift h.toHeatSound hT hsame hv hrho e e' hi hi') hs cs
  exact ⟨_, _, heat_run h.toHeatSound ho, heat_run h'.toHeatSound ho', h1, h2, fun hs => ⟨(h3 hs).1, (h3 hs).2.1, (h3 hs).2.2.2, (h3 hs).2.2.1⟩⟩

theorem heatLog_det_shift {L : HeatLogSetup ι Q d nE k} {c : ℝ} (h : HeatSound L.toHeatSetup) (hT : AddUp L.task)
    (hsame : L.task.objective ≠ .compliance ∨ L.task.robin = none) {n : ℕ} {v : Vals} (hv : ValsOk L.toCommon n v)
    {rho : Fin nE → ℝ} (hrho : ∀ e, 0 ≤ rho e ∧ rho e ≤ 1) {lam rs : ℝ} {r r' : LogRec} {new new' : Fin nE → ℝ} {rs1 rs1' : ℝ} (e : r.iter = n) (e' : r'.iter = n)
    (hi : HeatLogIteration L rho lam rs r new rs1) (hi' : HeatLogIteration (L.shift c) rho lam rs r' new' rs1') :
    new' = new ∧ rs1' = rs1 ∧ LogOnlyObjective L.task c r r' := by
  obtain ⟨v1, u, a1, a2, a3, a4, a5⟩ := hi
  obtain ⟨v2, w, b1, b2, b3, b4, b5⟩ := hi'
  rw [e] at a1
  rw [e'] at b1
  obtain rfl : v1 = v := allScheduled_eq hv.all a1
  obtain rfl : v2 = v1 := allScheduled_eq a1 b1
  have hx := fun e => physical_range h.toBasics hv hrho e
  have hw : ∀ j, w (Fin.cast (shift_length L.task c).symm j) = fun i => u j i + c := fun j =>
    warmed_shift (R := L.toHeatSetup) h hT c hx (a2 j) (b2 _)
  rw [chained_cast (shift_length L.task c).symm (fun j => heatColumn L.task L.eMinCoeff v2.p (physical L.toCommon v2 rho) (u j)) _ fun j => by
    funext e
    rw [hw j]
    exact heatColumn_shift hT hsame _ _ _ _ _ _] at b5
  obtain ⟨c1, c2, c3⟩ := logStep_unique (e'.trans e.symm) a5 b5
  have hob := heatObjective_shift hT h.loadCases c L.eMinCoeff v2.p (physical L.toCommon v2 rho) u w hw
  refine ⟨c1, c2, by rw [c3, b4, ← a4], fun ho => ?_, fun ho => ?_⟩
  · rw [b3, a3]; exact hob.1 ho
  · rw [b3, a3]; exact hob.2 ho (hsame.resolve_left fun hn => hn ho)

/-- **C151.** The same for new LogMOC runs, with the recorded objective. -/
theorem C151_same_designs_logmoc_partial (L : HeatLogSetup ι Q d nE k) (c : ℝ) (h : HeatLogWellPosed L) (hT : AddUp L.task)
    (hsame : L.task.objective ≠ .compliance ∨ L.task.robin = none) (hnr : L.restart = false)
    (files : List (Snapshot.Name × (Fin nE → ℝ))) (cs : List Call) :
    ∃ o o', runCalls (heatLogSys L) cs (newHeatLogRun L files) = (o, .ok ()) ∧
      runCalls (heatLogSys (L.shift c)) cs (newHeatLogRun (L.shift c) files) = (o', .ok ()) ∧
      o'.started = o.started ∧ o'.completed = o.completed ∧
      (o.started = true → o'.iterNext = o.iterNext ∧ o'.world.rho = o.world.rho ∧ o'.world.files = o.world.files ∧
        List.Forall₂ (LogOnlyObjective L.task c) o.world.aux.1.log o'.world.aux.1.log) := by
  have h' := shift_logWellPosed h c
  obtain ⟨o, o', ho, ho', h1, h2, h3⟩ := log_twin_by (L := L.common) (c := L.cNeumannScale) h.toBasics h'.toBasics (heatLog_computes h) (heatLog_computes (L := L.shift c) h')
    (LogOnlyObjective L.task c) (fun r r' hr => by rw [hr.1]; exact ⟨rfl, rfl, rfl⟩)
    (fun n v hv rho hrho lam rs r r' new new' rs1 rs1' e e' hi hi' => heatLog_det_shift h.toHeatSound hT hsame hv hrho e e' hi hi') hnr files cs
  exact ⟨_, _, heatLog_run h.toHeatSound ho, heatLog_run h'.toHeatSound ho', h1, h2,
    fun hs => ⟨(h3 hs).1, (h3 hs).2.1, (h3 hs).2.2.2, (h3 hs).2.2.1⟩⟩

/-- **C151.** With Robin boundaries the sensitivities of the objective "compliance" — from which the designs are computed — do depend on the
zero of the scale: in every element they change by `2 Tenv c + c²` times the rate at which `h ∫ ρ^p (1-ρ)^q |∇ρ|` changes with its density. -/
theorem C151_compliance_moves (T : Task ι Q d nE k) (hT : AddUp T) (hc : ∀ e, Function.Injective fun a => T.t a e) (ho : T.objective = .compliance)
    (h Tenv : ℝ) (hr : T.robin = some (h, Tenv)) (c Ec p : ℝ) (x : Fin nE → ℝ) (u : ι → ℝ) (e : Fin nE) :
    (T.shift c).sensitivity Material.simp Ec x p (fun i => u i + c) e = T.sensitivity Material.simp Ec x p u e +
      (2 * Tenv * c + c ^ 2) * ∑ a, interfaceSlope T h 1 p x (fun _ => 1) (T.t a e) / valence T (T.t a e) := by
  have hr' : (T.shift c).robin = some (h, Tenv + c) := by simp [Task.shift, hr]
  have ho' : (T.shift c).objective = .compliance := ho
  rw [heatColumn_eq T hc hT.val, heatColumn_eq (T.shift c) hc hT.val]
  unfold heatColumn
  simp only [ho, ho', hr, hr']
  rw [add_assoc]
  congr 1
  · show slopeOf T.k Ec p (x e) ((∑ y, conductivity T Ec p (x e) * (∑ a, Spec.Heat.slope T.fe (fun i => u i + c) e y a ^ 2) * T.fe.dx e y) / 2) = _
    simp only [slope_shift hT.grad]
  · have key : ∀ i, interfaceSlope (T.shift c) h (Tenv + c) p x (fun i => u i + c) i =
        interfaceSlope T h Tenv p x u i + (2 * Tenv * c + c ^ 2) * interfaceSlope T h 1 p x (fun _ => 1) i := by
      intro i
      have h1 : ∀ e q, Spec.Heat.field T.fe (fun _ => (1 : ℝ)) e q = 1 := fun e q => by
        unfold Spec.Heat.field
        simp only [one_mul, hT.val]
      show interfaceSlope { T.shift c with values := T.values } h (Tenv + c) p x (fun i => u i + c) i = _
      unfold interfaceSlope
      show ∑ e, ∑ y, h * (2 * (Tenv + c) * Spec.Heat.field T.fe (fun i => u i + c) e y - Spec.Heat.field T.fe (fun i => u i + c) e y ^ 2) *
        ((p * Spec.Heat.field T.fe (gathered T x) e y ^ (p - 1) * (1 - Spec.Heat.field T.fe (gathered T x) e y) ^ (T.q : ℝ) -
            T.q * Spec.Heat.field T.fe (gathered T x) e y ^ p * (1 - Spec.Heat.field T.fe (gathered T x) e y) ^ ((T.q : ℝ) - 1)) *
            Spec.Heat.steepness T.fe (gathered T x) e y * T.fe.val i e y +
          Spec.Heat.field T.fe (gathered T x) e y ^ p * (1 - Spec.Heat.field T.fe (gathered T x) e y) ^ (T.q : ℝ) *
            ((∑ a, Spec.Heat.slope T.fe (gathered T x) e y a * T.fe.grad i e y a) / max (Spec.Heat.steepness T.fe (gathered T x) e y) (1 / 10 ^ 12))) *
        T.fe.dx e y = _
      simp only [field_shift hT.val, h1, Finset.mul_sum, ← Finset.sum_add_distrib]
      refine Finset.sum_congr rfl fun e _ => Finset.sum_congr rfl fun y _ => ?_
      ring
    rw [Finset.mul_sum, ← Finset.sum_add_distrib]
    refine Finset.sum_congr rfl fun a _ => ?_
    show interfaceSlope (T.shift c) h (Tenv + c) p x (fun i => u i + c) (T.t a e) / valence T (T.t a e) = _
    rw [key]
    ring

/-! ### Concrete cases -/

theorem rods_addUp (obj : Objective) : AddUp (rodsRun obj).task where
  val := rods_one
  grad e q a := by fin_cases e <;> simp [rodsRun, rodsTask, rods, Fin.sum_univ_three, twoRods]
  surface := by simp [rodsRun, rodsTask]

theorem cold_addUp : AddUp coldRods.task where
  val := rods_one
  grad := (rods_addUp .compliance).grad
  surface := by simp [coldRods, rodsTask]

/-- From kelvin to degrees Celsius. -/
example := C151_same_designs_partial (rodsRun .averagedTemp) (-273.15) (rodsRun_wellPosed _ (by simp)) (rods_addUp _) (Or.inl (by simp [rodsRun])) []
  (Or.inl rfl) [.steps 2, .optimize]
example := C151_temperature_shifts (rodsRun .compliance) (rodsRun_sound _) (rods_addUp _) 273 3 ![0, 1] (by intro e; fin_cases e <;> norm_num)
example := C151_same_designs_partial coldRods 5 coldRods_wellPosed cold_addUp (Or.inr rfl) [] (Or.inl rfl) [.optimize]
example := C151_same_designs_logmoc_partial (heatLogOf (rodsRun .averagedTemp)) 5 (rodsLog_wellPosed _) (rods_addUp _)
  (Or.inl (by simp [rodsRun, heatLogOf])) rfl [] [.optimize]

theorem rods_valence : ∀ i : Fin 2, valence (rodsRun .compliance).task (i.castSucc) = ![1, 2] i := by
  have h : ∀ i : Fin 2, (Finset.univ.filter fun e : Fin 2 => ∃ a, twoRods a e = i.castSucc) = Finset.univ.filter fun e => e ≤ i := by
    intro i
    ext e
    simp only [Finset.mem_filter, Finset.mem_univ, true_and]
    revert e i
    decide
  intro i
  have hv : valence (rodsRun .compliance).task (i.castSucc) =
      max ((Finset.univ.filter fun e : Fin 2 => ∃ a, twoRods a e = i.castSucc).card : ℝ) 1 := by
    unfold valence
    simp only [show (rodsRun .compliance).task.t = twoRods from rfl]
  have hc : ∀ i : Fin 2, (Finset.univ.filter fun e : Fin 2 => e ≤ i).card = i + 1 := by decide
  have hc' : (Finset.univ.filter fun e : Fin 2 => e ≤ i).card = i + 1 := by convert hc i
  rw [hv, h, hc']
  fin_cases i <;> norm_num

/-- **C151.** A case where they do: two rods of which the left one is void and the right one is solid, ambient temperature 1, `p = 1`. After
adding `c` to all temperatures the sensitivity of the left one differs by `-(2 c + c²) 11/128`. -/
theorem C151_zero_matters (c : ℝ) (u : Fin 3 → ℝ) :
    ((rodsRun .compliance).task.shift c).sensitivity Material.simp (1 / 1000) ![0, 1] 1 (fun i => u i + c) 0 =
      (rodsRun .compliance).task.sensitivity Material.simp (1 / 1000) ![0, 1] 1 u 0 - (2 * c + c ^ 2) * (11 / 128) := by
  have hc := (rodsRun_sound .compliance).corners
  have hg : gathered (rodsRun .compliance).task ![0, 1] = ![0, 1 / 2, 1] := by
    rw [← gathered_eq _ hc]
    exact rods_nodal
  rw [C151_compliance_moves _ (rods_addUp _) hc rfl 1 1 rfl]
  have f0 : Spec.Heat.field rods ![0, 1 / 2, 1] 0 0 = 1 / 4 := by
    simp [Spec.Heat.field, rods, Fin.sum_univ_three, twoRods]; norm_num
  have f1 : Spec.Heat.field rods ![0, 1 / 2, 1] 1 0 = 3 / 4 := by
    simp [Spec.Heat.field, rods, Fin.sum_univ_three, twoRods]; norm_num
  have s0 : Spec.Heat.slope rods ![0, 1 / 2, 1] 0 0 0 = 1 / 2 := by
    simp [Spec.Heat.slope, rods, Fin.sum_univ_three, twoRods]
  have s1 : Spec.Heat.slope rods ![0, 1 / 2, 1] 1 0 0 = 1 / 2 := by
    simp [Spec.Heat.slope, rods, Fin.sum_univ_three, twoRods]; norm_num
  have o : ∀ e q, Spec.Heat.field rods (fun _ => (1 : ℝ)) e q = 1 := fun e q => valAt_const rods rods_one 1 e q
  have i0 : interfaceSlope (rodsRun .compliance).task 1 1 1 ![0, 1] (fun _ => 1) 0 = -(108 / 1024) := by
    unfold interfaceSlope
    rw [hg]
    show ∑ e, ∑ y : Fin 1, 1 * (2 * 1 * Spec.Heat.field rods (fun _ => 1) e y - Spec.Heat.field rods (fun _ => 1) e y ^ 2) *
      ((1 * Spec.Heat.field rods ![0, 1 / 2, 1] e y ^ ((1 : ℝ) - 1) * (1 - Spec.Heat.field rods ![0, 1 / 2, 1] e y) ^ ((4 : ℕ) : ℝ) -
          ((4 : ℕ) : ℝ) * Spec.Heat.field rods ![0, 1 / 2, 1] e y ^ (1 : ℝ) * (1 - Spec.Heat.field rods ![0, 1 / 2, 1] e y) ^ (((4 : ℕ) : ℝ) - 1)) *
          Spec.Heat.steepness rods ![0, 1 / 2, 1] e y * rods.val 0 e y +
        Spec.Heat.field rods ![0, 1 / 2, 1] e y ^ (1 : ℝ) * (1 - Spec.Heat.field rods ![0, 1 / 2, 1] e y) ^ ((4 : ℕ) : ℝ) *
          ((∑ a, Spec.Heat.slope rods ![0, 1 / 2, 1] e y a * rods.grad 0 e y a) / max (Spec.Heat.steepness rods ![0, 1 / 2, 1] e y) (1 / 10 ^ 12))) *
      rods.dx e y = _
    rw [show (((4 : ℕ) : ℝ) - 1) = ((3 : ℕ) : ℝ) by norm_num, show ((1 : ℝ) - 1) = ((0 : ℕ) : ℝ) by norm_num]
    simp only [Real.rpow_natCast, Real.rpow_one, rods_steep, o, Fin.sum_univ_two, Fin.sum_univ_one, Fin.isValue, f0, f1, s0, s1,
      show rods.val 0 0 0 = 1 / 2 from rfl, show rods.val 0 1 0 = 0 by simp [rods, twoRods], show rods.grad 0 0 0 0 = -1 from rfl,
      show rods.grad 0 1 0 0 = 0 by simp [rods, twoRods], show ∀ e y, rods.dx e y = 1 from fun _ _ => rfl]
    norm_num
  have i1 : interfaceSlope (rodsRun .compliance).task 1 1 1 ![0, 1] (fun _ => 1) 1 = 40 / 1024 := by
    unfold interfaceSlope
    rw [hg]
    show ∑ e, ∑ y : Fin 1, 1 * (2 * 1 * Spec.Heat.field rods (fun _ => 1) e y - Spec.Heat.field rods (fun _ => 1) e y ^ 2) *
      ((1 * Spec.Heat.field rods ![0, 1 / 2, 1] e y ^ ((1 : ℝ) - 1) * (1 - Spec.Heat.field rods ![0, 1 / 2, 1] e y) ^ ((4 : ℕ) : ℝ) -
          ((4 : ℕ) : ℝ) * Spec.Heat.field rods ![0, 1 / 2, 1] e y ^ (1 : ℝ) * (1 - Spec.Heat.field rods ![0, 1 / 2, 1] e y) ^ (((4 : ℕ) : ℝ) - 1)) *
          Spec.Heat.steepness rods ![0, 1 / 2, 1] e y * rods.val 1 e y +
        Spec.Heat.field rods ![0, 1 / 2, 1] e y ^ (1 : ℝ) * (1 - Spec.Heat.field rods ![0, 1 / 2, 1] e y) ^ ((4 : ℕ) : ℝ) *
          ((∑ a, Spec.Heat.slope rods ![0, 1 / 2, 1] e y a * rods.grad 1 e y a) / max (Spec.Heat.steepness rods ![0, 1 / 2, 1] e y) (1 / 10 ^ 12))) *
      rods.dx e y = _
    rw [show (((4 : ℕ) : ℝ) - 1) = ((3 : ℕ) : ℝ) by norm_num, show ((1 : ℝ) - 1) = ((0 : ℕ) : ℝ) by norm_num]
    simp only [Real.rpow_natCast, Real.rpow_one, rods_steep, o, Fin.sum_univ_two, Fin.sum_univ_one, Fin.isValue, f0, f1, s0, s1,
      show rods.val 1 0 0 = 1 / 2 by simp [rods, twoRods], show rods.val 1 1 0 = 1 / 2 by simp [rods, twoRods], show rods.grad 1 0 0 0 = 1 by simp [rods, twoRods],
      show rods.grad 1 1 0 0 = -1 by simp [rods, twoRods], show ∀ e y, rods.dx e y = 1 from fun _ _ => rfl]
    norm_num
  have v0 : valence (rodsRun .compliance).task 0 = 1 := rods_valence 0
  have v1 : valence (rodsRun .compliance).task 1 = 2 := rods_valence 1
  rw [Fin.sum_univ_two, show (rodsRun .compliance).task.t 0 0 = 0 from rfl, show (rodsRun .compliance).task.t 1 0 = 1 from rfl, i0, i1, v0, v1]
  ring

end
end Verif.Run
