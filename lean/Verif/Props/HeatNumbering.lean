import Verif.Props.HeatShift

/-!
C158: the numbering of the nodes and of the elements of a heat task.
-/
namespace Verif.Run
open Verif Verif.Sched Verif.Spec Verif.Driver Verif.Heat
open Verif.Elastic (enforceK ExactDirect)

variable {ι ι' Q : Type} [Fintype ι] [Fintype ι'] [Fintype Q] {d nE k : ℕ}

noncomputable section
open Classical

/-! ### Other numbers for the nodes -/

/-- The basis of the same mesh after renumbering the nodes. -/
def _root_.Verif.Heat.FE.renamed {E : Type} (B : FE ι E Q d) (π : ι ≃ ι') : FE ι' E Q d where
  val i := B.val (π.symm i)
  grad i := B.grad (π.symm i)
  dx := B.dx

/-- The facet basis of the same mesh after renumbering the nodes. -/
def _root_.Verif.Heat.Region.renamed (G : Region ι) (π : ι ≃ ι') : Region ι' where
  n := G.n
  val i := G.val (π.symm i)
  dx := G.dx

/-- What `from_facets` (task_heat.py 171–249) makes of the same problem after renumbering the nodes. -/
def _root_.Verif.Heat.Task.renamed (T : Task ι Q d nE k) (π : ι ≃ ι') : Task ι' Q d nE k where
  fe := T.fe.renamed π
  t a e := π (T.t a e)
  dirichlet := T.dirichlet.map fun D => D.map π.toEmbedding
  values := T.values
  robin := T.robin
  regions := T.regions.map fun G => G.renamed π
  bilinear := match T.robin with
    | none => []
    | some (h, _) => T.regions.map fun G => robinForm (G.renamed π) h none 0
  linear := match T.robin with
    | none => []
    | some (h, Tenv) => T.regions.map fun G => robinLoad (G.renamed π) h Tenv none 0
  designRobin := T.designRobin
  objective := T.objective
  avgWeight := T.avgWeight
  k := T.k
  q := T.q

/-- The same run on the renumbered task, with a solver for the renumbered systems. -/
abbrev HeatSetup.renamed (R : HeatSetup ι Q d nE k) (π : ι ≃ ι') (S : Solver.Backend ℝ (Matrix ι' ι' ℝ) (ι' → ℝ)) : HeatSetup ι' Q d nE k where
  toCommon := R.toCommon
  task := R.task.renamed π
  backend := S
  solver := R.solver

/-- The same LogMOC run on the renumbered task. -/
abbrev HeatLogSetup.renamed (L : HeatLogSetup ι Q d nE k) (π : ι ≃ ι') (S : Solver.Backend ℝ (Matrix ι' ι' ℝ) (ι' → ℝ)) :
    HeatLogSetup ι' Q d nE k where
  toHeatSetup := L.toHeatSetup.renamed π S
  toLogOpts := L.toLogOpts

/-- A direct solver returns the solution of every nonsingular system. -/
def SolvesExactly (S : Solver.Backend ℝ (Matrix ι' ι' ℝ) (ι' → ℝ)) : Prop :=
  ∀ K : Matrix ι' ι' ℝ, K.det ≠ 0 → (∀ f, S.spsolve K f = .ok (K⁻¹.mulVec f)) ∧ ∀ fs, S.splu K fs = .ok (fs.map fun f => K⁻¹.mulVec f)

variable (π : ι ≃ ι')

omit [Fintype ι] [Fintype ι'] in
theorem renamed_comp (u : ι → ℝ) (i : ι) : (u ∘ π.symm) (π i) = u i := by simp

theorem sum_renamed (f : ι → ℝ) : ∑ i, f (π.symm i) = ∑ i, f i := Equiv.sum_comp π.symm f

omit [Fintype Q] in
theorem field_renamed {E : Type} [Fintype E] (B : FE ι E Q d) (u : ι → ℝ) (e : E) (q : Q) :
    Spec.Heat.field (B.renamed π) (u ∘ π.symm) e q = Spec.Heat.field B u e q := sum_renamed π fun i => u i * B.val i e q

omit [Fintype Q] in
theorem slope_renamed {E : Type} [Fintype E] (B : FE ι E Q d) (u : ι → ℝ) (e : E) (q : Q) (a : Fin d) :
    Spec.Heat.slope (B.renamed π) (u ∘ π.symm) e q a = Spec.Heat.slope B u e q a := sum_renamed π fun i => u i * B.grad i e q a

omit [Fintype Q] in
theorem steepness_renamed {E : Type} [Fintype E] (B : FE ι E Q d) (u : ι → ℝ) (e : E) (q : Q) :
    Spec.Heat.steepness (B.renamed π) (u ∘ π.symm) e q = Spec.Heat.steepness B u e q := by
  unfold Spec.Heat.steepness
  simp only [slope_renamed]

theorem valence_renamed (T : Task ι Q d nE k) (i : ι') : valence (T.renamed π) i = valence T (π.symm i) := by
  unfold valence
  have : (Finset.univ.filter fun e => ∃ a, (T.renamed π).t a e = i) = Finset.univ.filter fun e => ∃ a, T.t a e = π.symm i := by
    ext e
    simp only [Finset.mem_filter, Finset.mem_univ, true_and]
    exact exists_congr fun a => (Equiv.eq_symm_apply π).symm
  rw [this]

theorem gathered_renamed (T : Task ι Q d nE k) (x : Fin nE → ℝ) : gathered (T.renamed π) x = gathered T x ∘ π.symm := by
  funext i
  show gathered (T.renamed π) x i = gathered T x (π.symm i)
  unfold gathered
  rw [valence_renamed]
  congr 1
  refine Finset.sum_congr rfl fun a _ => Finset.sum_congr rfl fun e _ => Finset.sum_congr rfl fun e' _ => ?_
  have : ((T.renamed π).t a e = i) ↔ T.t a e = π.symm i := (Equiv.eq_symm_apply π).symm
  simp only [this]

theorem conducted_renamed {E : Type} [Fintype E] (B : FE ι E Q d) (ke : E → ℝ) (u : ι → ℝ) (i : ι') :
    Spec.Heat.conducted (B.renamed π) ke (u ∘ π.symm) i = Spec.Heat.conducted B ke u (π.symm i) := by
  unfold Spec.Heat.conducted
  simp only [slope_renamed]
  rfl

theorem losses_renamed {E : Type} [Fintype E] (B : FE ι E Q d) (robin : Option (ℝ × ℝ)) (regions : List (Region ι)) (p : ℝ) (m : ℕ) (rn u : ι → ℝ) (i : ι') :
    Spec.Heat.losses (B.renamed π) robin (regions.map fun G => G.renamed π) p m (rn ∘ π.symm) (u ∘ π.symm) i =
      Spec.Heat.losses B robin regions p m rn u (π.symm i) := by
  rcases robin with _ | ⟨h, Te⟩
  · rfl
  · show ((regions.map fun G => G.renamed π).map fun G => Spec.Heat.surfaceLoss G h Te (u ∘ π.symm) i).sum +
      Spec.Heat.interfaceLoss (B.renamed π) h Te p m (rn ∘ π.symm) (u ∘ π.symm) i =
      (regions.map fun G => Spec.Heat.surfaceLoss G h Te u (π.symm i)).sum + Spec.Heat.interfaceLoss B h Te p m rn u (π.symm i)
    congr 1
    · rw [List.map_map]
      congr 1
      refine List.map_congr_left fun G _ => ?_
      show ∑ q, h * ((∑ j, u (π.symm j) * G.val (π.symm j) q) - Te) * G.val (π.symm i) q * G.dx q = _
      unfold Spec.Heat.surfaceLoss
      refine Finset.sum_congr rfl fun q _ => ?_
      rw [sum_renamed π fun j => u j * G.val j q]
    · unfold Spec.Heat.interfaceLoss
      simp only [field_renamed, steepness_renamed]
      rfl

theorem dirichlet_renamed (T : Task ι Q d nE k) (j : ℕ) : (T.renamed π).dirichlet.getD j ∅ = (T.dirichlet.getD j ∅).map π.toEmbedding := by
  show (T.dirichlet.map fun D => D.map π.toEmbedding).getD j ∅ = _
  rcases lt_or_ge j T.dirichlet.length with h | h
  · rw [List.getD_eq_getElem _ _ (by simpa using h), List.getD_eq_getElem _ _ h, List.getElem_map]
  · rw [List.getD_eq_default _ _ (by simpa using h), List.getD_eq_default _ _ h, Finset.map_empty]

theorem warmed_renamed_of (T : Task ι Q d nE k) (Ec p : ℝ) (x : Fin nE → ℝ) (j : Fin T.values.length) (u : ι → ℝ) (h : Warmed T Ec p x j u) :
    Warmed (T.renamed π) Ec p x j (fun i => u (π.symm i)) := by
  obtain ⟨h1, h2⟩ := h
  refine ⟨fun i hi => ?_, fun i hi => ?_⟩
  · rw [dirichlet_renamed, Finset.mem_map_equiv] at hi
    exact h1 _ hi
  · rw [dirichlet_renamed, Finset.mem_map_equiv] at hi
    show Spec.Heat.conducted (T.fe.renamed π) (fun e => conductivity T Ec p (x e)) (u ∘ π.symm) i +
      Spec.Heat.losses (T.fe.renamed π) T.robin (T.regions.map fun G => G.renamed π) p T.q (gathered (T.renamed π) x) (u ∘ π.symm) i = 0
    rw [gathered_renamed, conducted_renamed, losses_renamed]
    exact h2 _ hi

theorem interfaceSlope_renamed (T : Task ι Q d nE k) (h Tenv p : ℝ) (x : Fin nE → ℝ) (u : ι → ℝ) (i : ι) :
    interfaceSlope (T.renamed π) h Tenv p x (u ∘ π.symm) (π i) = interfaceSlope T h Tenv p x u i := by
  unfold interfaceSlope
  rw [gathered_renamed]
  simp only [show (T.renamed π).fe = T.fe.renamed π from rfl, field_renamed, slope_renamed, steepness_renamed]
  simp only [FE.renamed, Equiv.symm_apply_apply]
  rfl

theorem heatColumn_renamed (T : Task ι Q d nE k) (c p : ℝ) (x : Fin nE → ℝ) (u : ι → ℝ) (e : Fin nE) :
    heatColumn (T.renamed π) c p x (u ∘ π.symm) e = heatColumn T c p x u e := by
  unfold heatColumn
  congr 1
  · show slopeOf T.k c p (x e) ((∑ y, conductivity T c p (x e) * (∑ a, Spec.Heat.slope (T.fe.renamed π) (u ∘ π.symm) e y a ^ 2) * T.fe.dx e y) / 2) = _
    simp only [slope_renamed]
  · show (match T.objective, T.robin with
      | .compliance, some (h, Tenv) => ∑ a, interfaceSlope (T.renamed π) h Tenv p x (u ∘ π.symm) (π (T.t a e)) / valence (T.renamed π) (π (T.t a e))
      | _, _ => 0) = _
    simp only [interfaceSlope_renamed, valence_renamed, Equiv.symm_apply_apply]
    cases T.objective <;> rcases T.robin with _ | ⟨h, Te⟩ <;> rfl

theorem heatObjective_renamed {n : ℕ} (T : Task ι Q d nE k) (c p : ℝ) (x : Fin nE → ℝ) (u : Fin n → ι → ℝ) :
    heatObjective (T.renamed π) c p x (fun j => u j ∘ π.symm) = heatObjective T c p x u := by
  have hs : ∀ j, ∑ i, (u j ∘ π.symm) i = ∑ i, u j i := fun j => sum_renamed π (u j)
  have hi : Spec.Heat.interfaceSize (T.fe.renamed π) (gathered T x ∘ π.symm) = Spec.Heat.interfaceSize T.fe (gathered T x) := by
    unfold Spec.Heat.interfaceSize
    simp only [steepness_renamed]
    rfl
  have he : ∀ h Te j, Spec.Heat.exchanged (T.fe.renamed π) (gathered T x ∘ π.symm) h Te (u j ∘ π.symm) = Spec.Heat.exchanged T.fe (gathered T x) h Te (u j) := by
    intro h Te j
    unfold Spec.Heat.exchanged
    rw [hi]
    simp only [field_renamed, steepness_renamed]
    rfl
  have hd : ∀ j, Spec.Heat.dissipated (T.fe.renamed π) (fun e => conductivity T c p (x e)) T.robin (T.regions.map fun G => G.renamed π) p T.q
      (gathered T x ∘ π.symm) (u j ∘ π.symm) =
      Spec.Heat.dissipated T.fe (fun e => conductivity T c p (x e)) T.robin T.regions p T.q (gathered T x) (u j) := by
    intro j
    unfold Spec.Heat.dissipated
    simp only [field_renamed, steepness_renamed, slope_renamed]
    congr 1
    rcases T.robin with _ | ⟨h, Te⟩
    · rfl
    · show ((T.regions.map fun G => G.renamed π).map fun G => _).sum + _ = _
      congr 1
      rw [List.map_map]
      congr 1
      refine List.map_congr_left fun G _ => ?_
      show ∑ q, h * (∑ j', u j (π.symm j') * G.val (π.symm j') q) ^ 2 * G.dx q = _
      refine Finset.sum_congr rfl fun q _ => ?_
      rw [sum_renamed π fun j' => u j j' * G.val j' q]
  unfold heatObjective
  rw [gathered_renamed]
  simp only [show (T.renamed π).fe = T.fe.renamed π from rfl, show (T.renamed π).objective = T.objective from rfl,
    show (T.renamed π).robin = T.robin from rfl, show (T.renamed π).q = T.q from rfl, show (T.renamed π).avgWeight = T.avgWeight from rfl,
    show (T.renamed π).regions = T.regions.map fun G => G.renamed π from rfl, show ∀ y, conductivity (T.renamed π) c p y = conductivity T c p y from fun _ => rfl,
    hs, hi, he, hd]

theorem renamed_built (T : Task ι Q d nE k) : ∃ T0 : Task ι' Q d nE k, T0.build = .ok (T.renamed π) := by
  refine ⟨T.renamed π, ?_⟩
  unfold Task.build
  rcases hr : T.robin with _ | ⟨hh, Te⟩
  · simp [Task.renamed, hr]
  · simp [Task.renamed, hr, assembleRobin_one, Except.map, List.map_map]

variable {π}

theorem renamed_sound {R : HeatSetup ι Q d nE k} (h : HeatSound R) {S : Solver.Backend ℝ (Matrix ι' ι' ℝ) (ι' → ℝ)} (hS : SolvesExactly S) :
    HeatSound (R.renamed π S) :=
  { h.toBasics with
    built := renamed_built π R.task
    weights := h.weights
    shapes := fun i e q => h.shapes (π.symm i) e q
    partition := fun e q => (sum_renamed π fun i => R.task.fe.val i e q).trans (h.partition e q)
    corners := fun e a b hab => h.corners e (π.injective hab)
    surfaces := fun G hG q => by
      obtain ⟨G0, h0, rfl⟩ := List.mem_map.mp (show G ∈ R.task.regions.map fun G => G.renamed π from hG)
      exact h.surfaces G0 h0 q
    film := h.film
    material := h.material
    loadCases := h.loadCases
    regions := by
      show (R.task.dirichlet.map fun D => D.map π.toEmbedding).length = _
      rw [List.length_map]; exact h.regions
    same := fun D hD D' hD' => by
      obtain ⟨D0, h0, rfl⟩ := List.mem_map.mp (show D ∈ R.task.dirichlet.map fun D => D.map π.toEmbedding from hD)
      obtain ⟨D1, h1, rfl⟩ := List.mem_map.mp (show D' ∈ R.task.dirichlet.map fun D => D.map π.toEmbedding from hD')
      rw [h.same D0 h0 D1 h1]
    connected := fun D hD w hw hs => by
      obtain ⟨D0, h0, rfl⟩ := List.mem_map.mp (show D ∈ R.task.dirichlet.map fun D => D.map π.toEmbedding from hD)
      have hw' : w = (w ∘ π) ∘ π.symm := by funext i; simp
      have := h.connected D0 h0 (w ∘ π) (fun i hi => hw _ (by rw [Finset.mem_map_equiv]; simpa using hi)) (fun e q a => by
        have := hs e q a
        rw [hw'] at this
        exact (slope_renamed π R.task.fe (w ∘ π) e q a).symm.trans this)
      rw [hw', this]
      rfl
    robin := h.robin
    direct := hS
    solver := h.solver }

theorem warmed_renamed {R : HeatSetup ι Q d nE k} (h : HeatSound R) {S : Solver.Backend ℝ (Matrix ι' ι' ℝ) (ι' → ℝ)} (hS : SolvesExactly S) {p : ℝ}
    {x : Fin nE → ℝ} (hx : ∀ e, 0 ≤ x e ∧ x e ≤ 1) {j : Fin R.task.values.length} {u : ι → ℝ} {w : ι' → ℝ} (hu : Warmed R.task R.eMinCoeff p x j u)
    (hw : Warmed (R.task.renamed π) R.eMinCoeff p x j w) : w = u ∘ π.symm :=
  warmed_unique (renamed_sound (π := π) h hS) hx (warmed_renamed_of π R.task R.eMinCoeff p x j u hu) hw

/-- **C158, temperatures.** A node gets the same temperature whatever its number. -/
theorem C158_temperature (R : HeatSetup ι Q d nE k) (h : HeatSound R) (π : ι ≃ ι') (S : Solver.Backend ℝ (Matrix ι' ι' ℝ) (ι' → ℝ)) (hS : SolvesExactly S)
    (p : ℝ) (x : Fin nE → ℝ) (hx : ∀ e, 0 ≤ x e ∧ x e ≤ 1) :
    ∃ us, R.task.solve R.backend R.solver Material.simp R.eMinCoeff x p = .ok us ∧
      (R.task.renamed π).solve S R.solver Material.simp R.eMinCoeff x p = .ok (us.map fun u i => u (π.symm i)) :=
  solved_alike h (R' := R.renamed π S) (renamed_sound h hS) rfl hx hx _ fun j u hu => warmed_renamed_of π R.task R.eMinCoeff p x j u hu

theorem heat_det_renamed {R : HeatSetup ι Q d nE k} {S : Solver.Backend ℝ (Matrix ι' ι' ℝ) (ι' → ℝ)} (hS : SolvesExactly S) (h : HeatSound R)
    {n : ℕ} {v : Vals} (hv : ValsOk R.toCommon n v) {rho : Fin nE → ℝ} (hrho : ∀ e, 0 ≤ rho e ∧ rho e ≤ 1) {rs : ℝ} {r r' : Rec}
    {new new' : Fin nE → ℝ} {rs1 rs1' : ℝ} (e : r.iter = n) (e' : r'.iter = n)
    (hi : HeatIteration R rho rs r new rs1) (hi' : HeatIteration (R.renamed π S) rho rs r' new' rs1') : new' = new ∧ rs1' = rs1 ∧ r' = r := by
  obtain ⟨v1, u, a1, a2, a3, a4, a5⟩ := hi
  obtain ⟨v2, w, b1, b2, b3, b4, b5⟩ := hi'
  rw [e] at a1
  rw [e'] at b1
  obtain rfl : v1 = v := allScheduled_eq hv.all a1
  obtain rfl : v2 = v1 := allScheduled_eq a1 b1
  have hx := fun e => physical_range h.toBasics hv hrho e
  have hw : w = fun j => u j ∘ π.symm := funext fun j => warmed_renamed h hS hx (a2 j) (b2 j)
  subst hw
  have hcol : (fun j => heatColumn (R.task.renamed π) R.eMinCoeff v2.p (physical R.toCommon v2 rho) (u j ∘ π.symm)) =
      fun j => heatColumn R.task R.eMinCoeff v2.p (physical R.toCommon v2 rho) (u j) := by
    funext j e
    exact heatColumn_renamed π _ _ _ _ _ _
  have b5' : OCStep R.toCommon v2 (chained R.toCommon v2 rho fun j => heatColumn (R.task.renamed π) R.eMinCoeff v2.p (physical R.toCommon v2 rho)
    (u j ∘ π.symm)) rho rs r' new' rs1' := b5
  rw [hcol] at b5'
  obtain ⟨c1, c2, c3⟩ := ocStep_unique (e'.trans e.symm) a5 b5'
  refine ⟨c1, c2, ?_⟩
  have hc : r'.compliance = r.compliance := by
    rw [a3, b3]
    exact heatObjective_renamed π _ _ _ _ _
  rw [c3, hc, b4, ← a4]

/-- **C158, nodes.** A well-posed OC run on a heat task after renumbering the nodes (any bijection, and any solver that solves the renumbered
systems): the same calls make the same progress, with the same densities, snapshots and histories. -/
theorem C158_node_numbering_partial (R : HeatSetup ι Q d nE k) (π : ι ≃ ι') (S : Solver.Backend ℝ (Matrix ι' ι' ℝ) (ι' → ℝ)) (hS : SolvesExactly S)
    (h : HeatWellPosed R) (files : List (Snapshot.Name × (Fin nE → ℝ))) (hs : CanStart R.toCommon files) (cs : List Call) :
    ∃ o o', runCalls (heatSys R) cs (newHeatRun R files) = (o, .ok ()) ∧
      runCalls (heatSys (R.renamed π S)) cs (newHeatRun (R.renamed π S) files) = (o', .ok ()) ∧
      o'.started = o.started ∧ o'.completed = o.completed ∧
      (o.started = true → o'.iterNext = o.iterNext ∧ o'.world.rho = o.world.rho ∧ o'.world.files = o.world.files ∧
        o'.world.aux.1.log = o.world.aux.1.log) := by
  have h' : HeatWellPosed (R.renamed π S) := { h.toOCRules with toHeatSound := renamed_sound h.toHeatSound hS, sign := h.sign }
  obtain ⟨o, o', ho, ho', h1, h2, h3⟩ := twin_by (c := R.cNeumannScale) h.toBasics h'.toBasics (heat_computes h) (heat_computes (R := R.renamed π S) h')
    (fun r r' => r' = r) (fun r r' hr => by rw [hr]; exact ⟨rfl, rfl⟩) (fun r => rfl)
    (fun n v hv rho hrho rs r r' new new' rs1 rs1' e e' hi hi' => heat_det_renamed hS h.toHeatSound hv hrho e e' hi hi') hs cs
  refine ⟨_, _, heat_run h.toHeatSound ho, heat_run h'.toHeatSound ho', h1, h2, fun hs => ⟨(h3 hs).1, (h3 hs).2.1, (h3 hs).2.2.2, ?_⟩⟩
  have := (h3 hs).2.2.1
  rw [List.forall₂_iff_get] at this
  exact List.ext_get this.1.symm fun i hi hi' => this.2 i hi' hi

theorem heatLog_det_renamed {L : HeatLogSetup ι Q d nE k} {π : ι ≃ ι'} {S : Solver.Backend ℝ (Matrix ι' ι' ℝ) (ι' → ℝ)} (hS : SolvesExactly S)
    (h : HeatSound L.toHeatSetup) {n : ℕ} {v : Vals} (hv : ValsOk L.toCommon n v) {rho : Fin nE → ℝ} (hrho : ∀ e, 0 ≤ rho e ∧ rho e ≤ 1) {lam rs : ℝ}
    {r r' : LogRec} {new new' : Fin nE → ℝ} {rs1 rs1' : ℝ} (e : r.iter = n) (e' : r'.iter = n)
    (hi : HeatLogIteration L rho lam rs r new rs1) (hi' : HeatLogIteration (L.renamed π S) rho lam rs r' new' rs1') :
    new' = new ∧ rs1' = rs1 ∧ r' = r := by
  obtain ⟨v1, u, a1, a2, a3, a4, a5⟩ := hi
  obtain ⟨v2, w, b1, b2, b3, b4, b5⟩ := hi'
  rw [e] at a1
  rw [e'] at b1
  obtain rfl : v1 = v := allScheduled_eq hv.all a1
  obtain rfl : v2 = v1 := allScheduled_eq a1 b1
  have hx := fun e => physical_range h.toBasics hv hrho e
  have hw : w = fun j => u j ∘ π.symm := funext fun j => warmed_renamed (R := L.toHeatSetup) h hS hx (a2 j) (b2 j)
  subst hw
  have hcol : (fun j => heatColumn (L.task.renamed π) L.eMinCoeff v2.p (physical L.toCommon v2 rho) (u j ∘ π.symm)) =
      fun j => heatColumn L.task L.eMinCoeff v2.p (physical L.toCommon v2 rho) (u j) := by
    funext j e
    exact heatColumn_renamed π _ _ _ _ _ _
  have b5' : LogStep L.common v2 (chained L.toCommon v2 rho fun j => heatColumn (L.task.renamed π) L.eMinCoeff v2.p (physical L.toCommon v2 rho)
    (u j ∘ π.symm)) rho lam rs r' new' rs1' := b5
  rw [hcol] at b5'
  obtain ⟨c1, c2, c3⟩ := logStep_unique (e'.trans e.symm) a5 b5'
  refine ⟨c1, c2, ?_⟩
  have hc : r'.compliance = r.compliance := by
    rw [a3, b3]
    exact heatObjective_renamed π _ _ _ _ _
  rw [c3, hc, b4, ← a4]

/-- **C158, nodes.** The same for new LogMOC runs. -/
theorem C158_node_numbering_logmoc_partial (L : HeatLogSetup ι Q d nE k) (π : ι ≃ ι') (S : Solver.Backend ℝ (Matrix ι' ι' ℝ) (ι' → ℝ))
    (hS : SolvesExactly S) (h : HeatLogWellPosed L) (hnr : L.restart = false) (files : List (Snapshot.Name × (Fin nE → ℝ))) (cs : List Call) :
    ∃ o o', runCalls (heatLogSys L) cs (newHeatLogRun L files) = (o, .ok ()) ∧
      runCalls (heatLogSys (L.renamed π S)) cs (newHeatLogRun (L.renamed π S) files) = (o', .ok ()) ∧
      o'.started = o.started ∧ o'.completed = o.completed ∧
      (o.started = true → o'.iterNext = o.iterNext ∧ o'.world.rho = o.world.rho ∧ o'.world.files = o.world.files ∧
        o'.world.aux.1.log = o.world.aux.1.log) := by
  have h' : HeatLogWellPosed (L.renamed π S) := { h.toLogRules with toHeatSound := renamed_sound h.toHeatSound hS }
  obtain ⟨o, o', ho, ho', h1, h2, h3⟩ := log_twin_by (L := L.common) (c := L.cNeumannScale) h.toBasics h'.toBasics (heatLog_computes h)
    (heatLog_computes (L := L.renamed π S) h') (fun r r' => r' = r) (fun r r' hr => by rw [hr]; exact ⟨rfl, rfl, rfl⟩)
    (fun n v hv rho hrho lam rs r r' new new' rs1 rs1' e e' hi hi' => heatLog_det_renamed hS h.toHeatSound hv hrho e e' hi hi') hnr files cs
  refine ⟨_, _, heatLog_run h.toHeatSound ho, heatLog_run h'.toHeatSound ho', h1, h2, fun hs => ⟨(h3 hs).1, (h3 hs).2.1, (h3 hs).2.2.2, ?_⟩⟩
  have := (h3 hs).2.2.1
  rw [List.forall₂_iff_get] at this
  exact List.ext_get this.1.symm fun i hi hi' => this.2 i hi' hi

/-! ### Other numbers for the elements -/

/-- The same mesh with the elements renumbered: element `σ e` is what element `e` was. -/
def _root_.Verif.Heat.Task.reordered (T : Task ι Q d nE k) (σ : Equiv.Perm (Fin nE)) : Task ι Q d nE k where
  fe := { val := fun i e => T.fe.val i (σ.symm e), grad := fun i e => T.fe.grad i (σ.symm e), dx := fun e => T.fe.dx (σ.symm e) }
  t a e := T.t a (σ.symm e)
  dirichlet := T.dirichlet
  values := T.values
  robin := T.robin
  regions := T.regions
  bilinear := T.bilinear
  linear := T.linear
  designRobin := T.designRobin
  objective := T.objective
  avgWeight := T.avgWeight
  k := T.k
  q := T.q

theorem warmed_reordered_of (T : Task ι Q d nE k) (hr : T.robin = none) (σ : Equiv.Perm (Fin nE)) (Ec p : ℝ) (x : Fin nE → ℝ)
    (j : Fin T.values.length) (u : ι → ℝ) (h : Warmed T Ec p x j u) : Warmed (T.reordered σ) Ec p (fun e => x (σ.symm e)) j u := by
  obtain ⟨h1, h2⟩ := h
  refine ⟨h1, fun i hi => ?_⟩
  have := h2 i hi
  rw [hr] at this
  show Spec.Heat.conducted (T.reordered σ).fe (fun e => conductivity T Ec p (x (σ.symm e))) u i +
    Spec.Heat.losses (T.reordered σ).fe T.robin T.regions p T.q (gathered (T.reordered σ) _) u i = 0
  rw [hr]
  have hc : Spec.Heat.conducted (T.reordered σ).fe (fun e => conductivity T Ec p (x (σ.symm e))) u i =
      Spec.Heat.conducted T.fe (fun e => conductivity T Ec p (x e)) u i :=
    Equiv.sum_comp σ.symm fun e => ∑ q, conductivity T Ec p (x e) * (∑ a, Spec.Heat.slope T.fe u e q a * T.fe.grad i e q a) * T.fe.dx e q
  rw [hc]
  exact this

theorem reordered_sound {R : HeatSetup ι Q d nE k} (h : HeatSound R) (hr : R.task.robin = none) (σ : Equiv.Perm (Fin nE)) :
    HeatSound { R with task := R.task.reordered σ } :=
  { h with
    built := ⟨R.task.reordered σ, by
      obtain ⟨T0, h0⟩ := h.built
      unfold Task.build at h0 ⊢
      rcases hr0 : T0.robin with _ | ⟨hh, Te⟩
      · rw [hr0] at h0
        injection h0 with h0
        rw [← h0]
        simp [Task.reordered, hr0]
      · rw [hr0] at h0
        simp only [assembleRobin_one, Except.map] at h0
        injection h0 with h0
        rw [← h0] at hr
        simp [hr0] at hr⟩
    weights := fun e q => h.weights (σ.symm e) q
    shapes := fun i e q => h.shapes i (σ.symm e) q
    partition := fun e q => h.partition (σ.symm e) q
    corners := fun e => h.corners (σ.symm e)
    connected := fun D hD w hw hs => h.connected D hD w hw fun e q a => by
      have := hs (σ e) q a
      simpa [Spec.Heat.slope, Task.reordered] using this
    nodal := fun N hN => by
      have := h.nodal N hN
      exact ⟨this.1, this.2, this.3, this.4, this.5, this.6⟩ }

/-- **C158, elements, without Robin boundaries** (no nodal densities are used): the computed temperatures do not depend on the numbers of the
elements. -/
theorem C158_element_numbering_partial (R : HeatSetup ι Q d nE k) (h : HeatSound R) (hr : R.task.robin = none) (σ : Equiv.Perm (Fin nE)) (p : ℝ)
    (x : Fin nE → ℝ) (hx : ∀ e, 0 ≤ x e ∧ x e ≤ 1) :
    ∃ us, R.task.solve R.backend R.solver Material.simp R.eMinCoeff x p = .ok us ∧
      (R.task.reordered σ).solve R.backend R.solver Material.simp R.eMinCoeff (fun e => x (σ.symm e)) p = .ok us := by
  have := solved_alike h (R' := { R with task := R.task.reordered σ }) (reordered_sound h hr σ) rfl hx (x' := fun e => x (σ.symm e)) (fun e => hx (σ.symm e)) id
    fun j u hu => warmed_reordered_of R.task hr σ R.eMinCoeff p x j u hu
  simpa using this

theorem heatColumn_reordered (T : Task ι Q d nE k) (hr : T.robin = none) (σ : Equiv.Perm (Fin nE)) (c p : ℝ) (x : Fin nE → ℝ) (u : ι → ℝ) (e : Fin nE) :
    heatColumn (T.reordered σ) c p (fun e => x (σ.symm e)) u (σ e) = heatColumn T c p x u e := by
  have h1 : (T.reordered σ).robin = none := hr
  unfold heatColumn
  rw [h1, hr]
  show slopeOf T.k c p (x (σ.symm (σ e))) ((∑ y, conductivity T c p (x (σ.symm (σ e))) *
    (∑ a, Spec.Heat.slope (T.reordered σ).fe u (σ e) y a ^ 2) * T.fe.dx (σ.symm (σ e)) y) / 2) + _ = _
  have h2 : ∀ y a, Spec.Heat.slope (T.reordered σ).fe u (σ e) y a = Spec.Heat.slope T.fe u e y a := fun y a => by
    simp [Spec.Heat.slope, Task.reordered]
  simp only [h2, Equiv.symm_apply_apply]
  have h0 : (T.reordered σ).objective = T.objective := rfl
  rw [h0]
  cases T.objective <;> rfl

theorem heatObjective_reordered {n : ℕ} (T : Task ι Q d nE k) (hr : T.robin = none) (σ : Equiv.Perm (Fin nE)) (c p : ℝ) (x : Fin nE → ℝ)
    (u : Fin n → ι → ℝ) : heatObjective (T.reordered σ) c p (fun e => x (σ.symm e)) u = heatObjective T c p x u := by
  have h1 : (T.reordered σ).robin = none := hr
  have h0 : (T.reordered σ).objective = T.objective := rfl
  unfold heatObjective
  rw [h1, hr, h0]
  cases ho : T.objective with
  | compliance =>
    show meanOf _ = meanOf _
    congr 1
    funext j
    unfold Spec.Heat.dissipated
    show (∑ e, ∑ q, conductivity T c p (x (σ.symm e)) * (∑ a, Spec.Heat.slope T.fe (u j) (σ.symm e) q a ^ 2) * T.fe.dx (σ.symm e) q) + 0 = _ + 0
    congr 1
    exact Equiv.sum_comp σ.symm fun e => ∑ q, conductivity T c p (x e) * (∑ a, Spec.Heat.slope T.fe (u j) e q a ^ 2) * T.fe.dx e q
  | averagedTemp => rfl
  | heatExchange => rfl

/-- **C158, elements, without Robin boundaries.** The value of the objective that an iteration records does not depend on the numbers of the
elements, and every element gets the same sensitivity, for every load case: element `σ e` of the renumbered mesh gets what `e` got. -/
theorem C158_element_response_partial (R : HeatSetup ι Q d nE k) (h : HeatSound R) (hr : R.task.robin = none) (σ : Equiv.Perm (Fin nE)) (v : Vals)
    (x : Fin nE → ℝ) (hx : ∀ e, 0 ≤ x e ∧ x e ≤ 1) :
    ∃ (J : ℝ) (g : Fin R.task.values.length → Fin nE → ℝ), heatResponse R R.task v x = .ok (J, g) ∧
      heatResponse { R with task := R.task.reordered σ } (R.task.reordered σ) v (fun e => x (σ.symm e)) = .ok (J, fun j e => g j (σ.symm e)) := by
  obtain ⟨u, u1, u2⟩ := heatResponse_ok h v hx
  have h' : HeatSound { R with task := R.task.reordered σ } := reordered_sound h hr σ
  have hx' : ∀ e, 0 ≤ x (σ.symm e) ∧ x (σ.symm e) ≤ 1 := fun e => hx (σ.symm e)
  obtain ⟨w, w1, w2⟩ := heatResponse_ok h' v hx'
  have hw : w = u := funext fun j => warmed_unique h' hx' (warmed_reordered_of R.task hr σ R.eMinCoeff v.p x j (u j) (u1 j)) (w1 j)
  subst hw
  refine ⟨_, _, u2, w2.trans ?_⟩
  congr 1
  refine Prod.ext (heatObjective_reordered R.task hr σ _ _ _ _) ?_
  funext j e
  have := heatColumn_reordered R.task hr σ R.eMinCoeff v.p x (w j) (σ.symm e)
  rw [Equiv.apply_symm_apply] at this
  exact this

/-- The nodal densities of two rods in a row, the left one void and the right one solid, numbered from left to right. -/
theorem left_first : rodsTask.nodal ![0, 1] = ![0, 1 / 2, 1] := rods_nodal

/-- The same two rods numbered from right to left: now the void end counts as solid and the solid end as void. -/
theorem right_first : (rodsTask.reordered (Equiv.swap 0 1)).nodal ![1, 0] = ![1, 1 / 2, 0] := by
  have hr : ravel (rodsTask.reordered (Equiv.swap 0 1)).t = [1, 0, 2, 1] := by
    show ravel (fun a e => twoRods a ((Equiv.swap (0 : Fin 2) 1).symm e)) = _
    decide
  have hv : repeatEach (![1, 0] : Fin 2 → ℝ) 2 = [1, 1, 0, 0] := by
    simp [repeatEach, List.finRange_succ, List.replicate_succ]
  funext i
  show nodalAverage (rodsTask.reordered (Equiv.swap 0 1)).t ![1, 0] i = _
  unfold nodalAverage count
  rw [hr, hv]
  fin_cases i <;> simp [addAt, List.replicate_succ] <;> norm_num

theorem rods_reordered_built : Built (rodsTask.reordered (Equiv.swap 0 1)) :=
  ⟨rodsTask.reordered (Equiv.swap 0 1), by
    unfold Task.build Task.reordered rodsTask
    simp only [assembleRobin_one, Except.map]
    rfl⟩

/-- **C158 (refuted for the elements, with Robin boundaries).** Two rods in a row cooled at the solid–void interface, held at temperature 0 on
the left, in surroundings of temperature 1, the left one void and the right one solid. Numbering them from right to left instead of from left
to right changes the computed temperatures of that same body, whatever exact direct solver is used. -/
theorem C158_element_numbering_matters (S : Solver.Backend ℝ (Matrix (Fin 3) (Fin 3) ℝ) (Fin 3 → ℝ)) (hS : ExactDirect S) :
    ∃ us us', rodsTask.solve S { solver := "spsolve", rtol := 0 } Material.simp (1 / 1000) ![0, 1] 1 = .ok us ∧
      (rodsTask.reordered (Equiv.swap 0 1)).solve S { solver := "spsolve", rtol := 0 } Material.simp (1 / 1000) ![1, 0] 1 = .ok us' ∧
      us.head? ≠ us'.head? := by
  have hke : rodsTask.ke Material.simp (1 / 1000) ![0, 1] 1 = ![1 / 1000, 1] := by
    funext e; fin_cases e <;> norm_num [Task.ke, Material.simp, rodsTask]
  have hke' : (rodsTask.reordered (Equiv.swap 0 1)).ke Material.simp (1 / 1000) ![1, 0] 1 = ![1, 1 / 1000] := by
    funext e; fin_cases e <;> norm_num [Task.ke, Material.simp, rodsTask, Task.reordered]
  have hsound := rodsRun_sound .heatExchange
  have hbuilt : Built rodsTask := hsound.built
  have hreg0 : Regular rodsTask.fe := hsound.regular
  have hfilm : ∀ h Tenv, rodsTask.robin = some (h, Tenv) → 0 ≤ h := hsound.film
  have hdet :=
    (C83_heat_unique_solution rodsTask hbuilt hreg0 (by simp [rodsTask]) hfilm Material.simp (1 / 1000) ![0, 1]
      (by intro e; fin_cases e <;> norm_num) 1 (by rw [hke]; intro e; fin_cases e <;> norm_num) {0}
      (fun w hw hs => rods_connected w (hw 0 (by simp)) hs)).1
  have hreg : Regular (rodsTask.reordered (Equiv.swap 0 1)).fe :=
    ⟨fun e q => hsound.weights ((Equiv.swap 0 1).symm e) q, fun i e q => hsound.shapes i ((Equiv.swap 0 1).symm e) q,
      fun e q => hsound.partition ((Equiv.swap 0 1).symm e) q⟩
  have hdet' :=
    (C83_heat_unique_solution (rodsTask.reordered (Equiv.swap 0 1)) rods_reordered_built hreg (by simp [rodsTask, Task.reordered]) hfilm Material.simp (1 / 1000) ![1, 0]
      (by intro e; fin_cases e <;> norm_num) 1 (by rw [hke']; intro e; fin_cases e <;> norm_num) {0}
      (fun w hw hs => rods_connected w (hw 0 (by simp)) fun e q a => by
        have := hs (Equiv.swap 0 1 e) q a
        simpa [Spec.Heat.slope, Task.reordered, rodsTask] using this)).1
  obtain ⟨us, hus, hb⟩ := C82_heat_balance_partial rodsTask hbuilt S hS { solver := "spsolve", rtol := 0 } (Or.inr rfl) Material.simp (1 / 1000)
    ![0, 1] 1 {0} (by simp [rodsTask]) rfl (by simp [rodsTask]) hdet
  obtain ⟨us', hus', hb'⟩ := C82_heat_balance_partial (rodsTask.reordered (Equiv.swap 0 1)) rods_reordered_built S hS { solver := "spsolve", rtol := 0 }
    (Or.inr rfl) Material.simp (1 / 1000) ![1, 0] 1 {0} (by simp [rodsTask, Task.reordered]) rfl (by simp [rodsTask, Task.reordered]) hdet'
  refine ⟨us, us', hus, hus', fun heq => ?_⟩
  rw [show rodsTask.values = [0, 1] from rfl] at hb
  rw [show (rodsTask.reordered (Equiv.swap 0 1)).values = [0, 1] from rfl] at hb'
  obtain ⟨u, l, b1, -, rfl⟩ := List.forall₂_cons_left_iff.mp hb
  obtain ⟨u', l', b1', -, rfl⟩ := List.forall₂_cons_left_iff.mp hb'
  simp only [List.head?_cons, Option.some.injEq] at heq
  subst heq
  obtain ⟨h0, hn⟩ := b1
  obtain ⟨-, hn'⟩ := b1'
  rw [hke, left_first] at hn
  rw [hke', right_first] at hn'
  have u0 := h0 0 (by simp)
  have e1 := hn 1 (by simp)
  have e2 := hn 2 (by simp)
  have f1 := hn' 1 (by simp)
  have f2 := hn' 2 (by simp)
  have hs : Real.sqrt (1 / 4) = 1 / 2 := by rw [show (1 / 4 : ℝ) = (1 / 2) ^ 2 by norm_num]; exact Real.sqrt_sq (by norm_num)
  have hs' : Real.sqrt 4 = 2 := by rw [show (4 : ℝ) = 2 ^ 2 by norm_num]; exact Real.sqrt_sq (by norm_num)
  simp [Spec.Heat.conducted, Spec.Heat.losses, Spec.Heat.interfaceLoss, Spec.Heat.field, Spec.Heat.slope, Spec.Heat.steepness, rodsTask, rods,
    Task.reordered, twoRods, Fin.sum_univ_three, Fin.sum_univ_two] at e1 e2 f1 f2
  norm_num [hs, hs', u0] at e1 e2 f1 f2
  linarith

/-! ### Concrete cases -/

example := C158_element_numbering_partial coldRods coldRods_wellPosed.toHeatSound rfl (Equiv.swap 0 1) 3 ![0, 1] (by intro e; fin_cases e <;> norm_num)
example (v : Vals) := C158_element_response_partial coldRods coldRods_wellPosed.toHeatSound rfl (Equiv.swap 0 1) v ![0, 1] (by intro e; fin_cases e <;> norm_num)
example (S : Solver.Backend ℝ (Matrix (Fin 3) (Fin 3) ℝ) (Fin 3 → ℝ)) (hS : SolvesExactly S) :=
  C158_temperature (rodsRun .compliance) (rodsRun_sound _) (Equiv.swap (0 : Fin 3) 2) S hS 3 ![0, 1] (by intro e; fin_cases e <;> norm_num)
example (S : Solver.Backend ℝ (Matrix (Fin 3) (Fin 3) ℝ) (Fin 3 → ℝ)) (hS : SolvesExactly S) :=
  C158_node_numbering_partial (rodsRun .averagedTemp) (Equiv.swap (0 : Fin 3) 2) S hS (rodsRun_wellPosed _ (by simp)) [] (Or.inl rfl) [.steps 2, .optimize]
example (S : Solver.Backend ℝ (Matrix (Fin 3) (Fin 3) ℝ) (Fin 3 → ℝ)) (hS : SolvesExactly S) :=
  C158_node_numbering_logmoc_partial (heatLogOf (rodsRun .averagedTemp)) (Equiv.swap (0 : Fin 3) 2) S hS (rodsLog_wellPosed _) rfl [] [.steps 2, .optimize]

end
end Verif.Run
