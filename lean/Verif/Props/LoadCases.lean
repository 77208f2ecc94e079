import Verif.Props.HeatShift
import Verif.Props.Alike

/-!
C152: order, repetition and sign of the load cases.
-/
namespace Verif.Run
open Verif Verif.Sched Verif.Spec Verif.Driver Verif.Heat

noncomputable section
open Classical

/-- The list of `m'` load cases described by `σ` names every one of the `m` original ones equally often: a reordering if once, a repetition if
more often. -/
def EquallyOften {m m' : ℕ} (σ : Fin m' → Fin m) : Prop := ∃ r, 0 < r ∧ ∀ j, (Finset.univ.filter fun i => σ i = j).card = r

theorem sum_equally {m m' : ℕ} {σ : Fin m' → Fin m} {r : ℕ} (h : ∀ j, (Finset.univ.filter fun i => σ i = j).card = r) (f : Fin m → ℝ) :
    ∑ i, f (σ i) = r * ∑ j, f j := by
  rw [← Finset.sum_fiberwise_of_maps_to (s := Finset.univ) (t := Finset.univ) (g := σ) fun _ _ => Finset.mem_univ _, Finset.mul_sum]
  refine Finset.sum_congr rfl fun j _ => ?_
  rw [Finset.sum_congr rfl (g := fun _ => f j) fun i hi => by rw [(Finset.mem_filter.mp hi).2], Finset.sum_const, nsmul_eq_mul, h j]

/-- A mean over the load cases does not change. -/
theorem mean_equally {m m' : ℕ} {σ : Fin m' → Fin m} (h : EquallyOften σ) (f : Fin m → ℝ) : (∑ i, f (σ i)) / m' = (∑ j, f j) / m := by
  obtain ⟨r, hr, h⟩ := h
  have hm : (m' : ℝ) = r * m := by simpa using sum_equally h fun _ => 1
  rw [sum_equally h, hm]
  have : (r : ℝ) ≠ 0 := by exact_mod_cast hr.ne'
  exact mul_div_mul_left _ _ this

theorem equally_pos {m m' : ℕ} {σ : Fin m' → Fin m} (h : EquallyOften σ) (hm : 0 < m) : 0 < m' := by
  obtain ⟨r, hr, h⟩ := h
  have h1 := h ⟨0, hm⟩
  obtain ⟨i, -⟩ := Finset.card_pos.mp (h1 ▸ hr)
  exact i.pos

theorem chained_equally {E : Type} [Fintype E] {d : ℕ} {R : Common E d} {v : Vals} {rho : E → ℝ} {m m' : ℕ} {σ : Fin m' → Fin m} (h : EquallyOften σ)
    (f : Fin m → E → ℝ) : chained R v rho (fun i => f (σ i)) = chained R v rho f := by
  unfold chained
  simp only
  have : ∀ e, (∑ j, blurT R v.radius (fun e => f (σ j) e * thresholdSlope v.beta R.betaEta (blur R v.radius rho e)) e) / (m' : ℝ) =
      (∑ j, blurT R v.radius (fun e => f j e * thresholdSlope v.beta R.betaEta (blur R v.radius rho e)) e) / (m : ℝ) := fun e =>
    mean_equally h fun j => blurT R v.radius (fun e => f j e * thresholdSlope v.beta R.betaEta (blur R v.radius rho e)) e
  simp only [this]

/-! ### Elasticity -/

section elastic
variable {ι E Q : Type} [Fintype ι] [Fintype E] [Fintype Q] {d m m' : ℕ}

/-- The same run with the load cases listed as `σ` says, some of them pushing the other way. -/
def Setup.recase (R : Setup ι E Q d m) (σ : Fin m' → Fin m) (s : Fin m' → ℝ) : Setup ι E Q d m' where
  toCommon := R.toCommon
  fe := R.fe
  nu := R.nu
  E0 := R.E0
  dirichlet := R.dirichlet
  loads j i := s j * R.loads (σ j) i
  backend := R.backend
  solver := R.solver

/-- The same LogMOC run with the load cases listed as `σ` says, some of them pushing the other way. -/
def LogSetup.recase (L : LogSetup ι E Q d m) (σ : Fin m' → Fin m) (s : Fin m' → ℝ) : LogSetup ι E Q d m' where
  toSetup := L.toSetup.recase σ s
  toLogOpts := L.toLogOpts

theorem recase_sound {R : Setup ι E Q d m} (h : Sound R) {σ : Fin m' → Fin m} (hσ : EquallyOften σ) (s : Fin m' → ℝ) : Sound (R.recase σ s) where
  toBasics := h.toBasics
  dim := h.dim
  weights := h.weights
  poisson := h.poisson
  modulus := h.modulus
  supports := h.supports
  loadCases := equally_pos hσ h.loadCases
  direct := h.direct
  solver := h.solver

theorem recase_wellPosed {R : Setup ι E Q d m} (h : WellPosed R) {σ : Fin m' → Fin m} (hσ : EquallyOften σ) (s : Fin m' → ℝ) : WellPosed (R.recase σ s) where
  toSound := recase_sound h.toSound hσ s
  toOCRules := h.toOCRules

theorem recase_logWellPosed {L : LogSetup ι E Q d m} (h : LogWellPosed L) {σ : Fin m' → Fin m} (hσ : EquallyOften σ) (s : Fin m' → ℝ) :
    LogWellPosed (L.recase σ s) where
  toSound := recase_sound h.toSound hσ s
  toLogRules := h.toLogRules

theorem innerWork_both (R : Setup ι E Q d m) (Em : E → ℝ) (s t : ℝ) (u w : ι → ℝ) (e : E) :
    innerWork R Em (fun i => s * u i) (fun i => t * w i) e = s * t * innerWork R Em u w e :=
  innerWork_smul R Em s t u w e

theorem displaced_recase {R : Setup ι E Q d m} {Em : E → ℝ} {σ : Fin m' → Fin m} {s : Fin m' → ℝ} {ns : ℝ} {u : ι → ℝ} (j : Fin m')
    (h : Displaced R Em (fun i => R.loads (σ j) i * ns) u) :
    Displaced (R.recase σ s) Em (fun i => (R.recase σ s).loads j i * ns) (fun i => s j * u i) := by
  refine ⟨fun i hi => ?_, fun w hw => ?_⟩
  · show s j * u i = 0
    rw [h.1 i hi, mul_zero]
  · have h1 := h.2 w hw
    have h2 : ∀ e, innerWork (R.recase σ s) Em (fun i => s j * u i) w e = s j * innerWork R Em u w e := fun e => by
      have := innerWork_both R Em (s j) 1 u w e
      simp only [one_mul, mul_one] at this
      exact this
    simp only [h2, ← Finset.mul_sum, h1]
    rw [Finset.mul_sum]
    refine Finset.sum_congr rfl fun i _ => ?_
    show _ = s j * R.loads (σ j) i * ns * w i
    ring

/-- What the iterations of the two runs have in common, given the displacements. -/
theorem recase_same {R : Setup ι E Q d m} (h : Sound R) {σ : Fin m' → Fin m} (hσ : EquallyOften σ) {s : Fin m' → ℝ} (hs : ∀ j, s j = 1 ∨ s j = -1) {n : ℕ}
    {v : Vals} (hv : ValsOk R.toCommon n v) {rho : E → ℝ} (hrho : ∀ e, 0 ≤ rho e ∧ rho e ≤ 1) {u : Fin m → ι → ℝ} {w : Fin m' → ι → ℝ}
    (hu : ∀ j, Displaced R (fun e => young R v.p (physical R.toCommon v rho e)) (fun i => R.loads j i * v.neumannScale) (u j))
    (hw : ∀ j, Displaced (R.recase σ s) (fun e => young (R.recase σ s) v.p (physical R.toCommon v rho e))
      (fun i => (R.recase σ s).loads j i * v.neumannScale) (w j)) :
    (∑ j, ∑ i, (R.recase σ s).loads j i * v.neumannScale * w j i) / m' = (∑ j, ∑ i, R.loads j i * v.neumannScale * u j i) / m ∧
    gradient (R.recase σ s) v rho w = gradient R v rho u := by
  have hsq : ∀ j, s j * s j = 1 := fun j => by rcases hs j with h | h <;> rw [h] <;> norm_num
  have hwu : ∀ j, w j = fun i => s j * u (σ j) i := fun j =>
    displaced_unique (recase_sound h hσ s) (fun e => (physical_range h.toBasics hv hrho e).1) (hw j) (displaced_recase j (hu (σ j)))
  constructor
  · rw [← mean_equally hσ fun j => ∑ i, R.loads j i * v.neumannScale * u j i]
    congr 1
    refine Finset.sum_congr rfl fun j _ => Finset.sum_congr rfl fun i _ => ?_
    rw [hwu j]
    show s j * R.loads (σ j) i * v.neumannScale * (s j * u (σ j) i) = _
    linear_combination (R.loads (σ j) i * v.neumannScale * u (σ j) i) * hsq j
  · unfold gradient
    simp only
    rw [← chained_equally hσ]
    show chained R.toCommon v rho _ = _
    congr 1
    funext j e
    have : innerWork (R.recase σ s) (fun e => young R v.p (physical R.toCommon v rho e)) (w j) (w j) e =
        innerWork R (fun e => young R v.p (physical R.toCommon v rho e)) (u (σ j)) (u (σ j)) e := by
      rw [hwu j]
      show innerWork R (fun e => young R v.p (physical R.toCommon v rho e)) (fun i => s j * u (σ j) i) (fun i => s j * u (σ j) i) e = _
      rw [innerWork_both, hsq, one_mul]
    show slope R v.p (physical R.toCommon v rho e) (innerWork (R.recase σ s) (fun e => young R v.p (physical R.toCommon v rho e)) (w j) (w j) e / 2) = _
    rw [this]

theorem recase_det {R : Setup ι E Q d m} (h : Sound R) {σ : Fin m' → Fin m} (hσ : EquallyOften σ) {s : Fin m' → ℝ} (hs : ∀ j, s j = 1 ∨ s j = -1) {n : ℕ}
    {v : Vals} (hv : ValsOk R.toCommon n v) {rho : E → ℝ} (hrho : ∀ e, 0 ≤ rho e ∧ rho e ≤ 1) {rs : ℝ} {r r' : Rec} {new new' : E → ℝ} {rs1 rs1' : ℝ}
    (e : r.iter = n) (e' : r'.iter = n) (hi : Iteration R rho rs r new rs1) (hi' : Iteration (R.recase σ s) rho rs r' new' rs1') :
    new' = new ∧ rs1' = rs1 ∧ r = r' := by
  obtain ⟨v1, u, a1, a2, a3, a4, a5⟩ := hi
  obtain ⟨v2, w, b1, b2, b3, b4, b5⟩ := hi'
  rw [e] at a1
  rw [e'] at b1
  obtain rfl : v1 = v := allScheduled_eq hv.all a1
  obtain rfl : v2 = v1 := allScheduled_eq a1 b1
  obtain ⟨h1, h2⟩ := recase_same h hσ hs hv hrho a2 b2
  rw [h2] at b5
  obtain ⟨c1, c2, c3⟩ := ocStep_unique (e'.trans e.symm) a5 b5
  exact ⟨c1, c2, by rw [c3, b3, b4, h1, ← a3, ← a4]⟩

theorem recase_log_det {L : LogSetup ι E Q d m} (h : Sound L.toSetup) {σ : Fin m' → Fin m} (hσ : EquallyOften σ) {s : Fin m' → ℝ}
    (hs : ∀ j, s j = 1 ∨ s j = -1) {n : ℕ} {v : Vals} (hv : ValsOk L.toCommon n v) {rho : E → ℝ} (hrho : ∀ e, 0 ≤ rho e ∧ rho e ≤ 1) {lam rs : ℝ}
    {r r' : LogRec} {new new' : E → ℝ} {rs1 rs1' : ℝ} (e : r.iter = n) (e' : r'.iter = n) (hi : LogIteration L rho lam rs r new rs1)
    (hi' : LogIteration (L.recase σ s) rho lam rs r' new' rs1') : new' = new ∧ rs1' = rs1 ∧ r = r' := by
  obtain ⟨v1, u, a1, a2, a3, a4, a5⟩ := hi
  obtain ⟨v2, w, b1, b2, b3, b4, b5⟩ := hi'
  rw [e] at a1
  rw [e'] at b1
  obtain rfl : v1 = v := allScheduled_eq hv.all a1
  obtain rfl : v2 = v1 := allScheduled_eq a1 b1
  obtain ⟨h1, h2⟩ := recase_same (R := L.toSetup) h hσ hs hv hrho a2 b2
  have b6 : LogStep L.common v2 (gradient (L.toSetup.recase σ s) v2 rho w) rho lam rs r' new' rs1' := b5
  rw [h2] at b6
  obtain ⟨c1, c2, c3⟩ := logStep_unique (e'.trans e.symm) a5 b6
  have b3' : r'.compliance = (∑ j, ∑ i, (L.toSetup.recase σ s).loads j i * v2.neumannScale * w j i) / m' := b3
  exact ⟨c1, c2, by rw [c3, b3', b4, h1, ← a3, ← a4]⟩

/-- **C152.** Listing the load cases of a well-posed OC run in another order, each of them equally often, and reversing any of the forces,
changes nothing: same progress, densities, snapshots and histories after any calls. -/
theorem C152_load_cases (R : Setup ι E Q d m) (h : WellPosed R) (σ : Fin m' → Fin m) (hσ : EquallyOften σ) (s : Fin m' → ℝ) (hs : ∀ j, s j = 1 ∨ s j = -1)
    (files : List (Snapshot.Name × (E → ℝ))) (hst : CanStart R.toCommon files) (cs : List Call) :
    ∃ o o', runCalls (sys R) cs (newRun R.toCommon files) = (o, .ok ()) ∧
      runCalls (sys (R.recase σ s)) cs (newRun R.toCommon files) = (o', .ok ()) ∧
      o'.started = o.started ∧ o'.completed = o.completed ∧
      (o.started = true → o'.iterNext = o.iterNext ∧ o'.world.rho = o.world.rho ∧ o'.world.files = o.world.files ∧
        o'.world.aux.log = o.world.aux.log) := by
  have h' := recase_wellPosed h hσ s
  obtain ⟨o, o', ho, ho', h1, h2, h3⟩ := twin_by (c := R.cNeumannScale) h.toBasics h'.toBasics (step_computes h) (step_computes (R := R.recase σ s) h') Eq
    (fun r r' hr => by rw [hr]; exact ⟨rfl, rfl⟩) (fun r => rfl)
    (fun n v hv rho hrho rs r r' new new' rs1 rs1' e e' hi hi' => recase_det h.toSound hσ hs hv hrho e e' hi hi') hst cs
  exact ⟨o, o', ho, ho', h1, h2, fun hs => ⟨(h3 hs).1, (h3 hs).2.1, (h3 hs).2.2.2, (List.forall₂_eq_eq_eq ▸ (h3 hs).2.2.1 : _ = _).symm⟩⟩

/-- **C152.** The same for new LogMOC runs. -/
theorem C152_load_cases_logmoc (L : LogSetup ι E Q d m) (h : LogWellPosed L) (σ : Fin m' → Fin m) (hσ : EquallyOften σ) (s : Fin m' → ℝ)
    (hs : ∀ j, s j = 1 ∨ s j = -1) (hnr : L.restart = false) (files : List (Snapshot.Name × (E → ℝ))) (cs : List Call) :
    ∃ o o', runCalls (logSys L) cs (newLogRun L.common files) = (o, .ok ()) ∧
      runCalls (logSys (L.recase σ s)) cs (newLogRun L.common files) = (o', .ok ()) ∧
      o'.started = o.started ∧ o'.completed = o.completed ∧
      (o.started = true → o'.iterNext = o.iterNext ∧ o'.world.rho = o.world.rho ∧ o'.world.files = o.world.files ∧
        o'.world.aux.log = o.world.aux.log) := by
  have h' := recase_logWellPosed h hσ s
  obtain ⟨o, o', ho, ho', h1, h2, h3⟩ := log_twin_by (L := L.common) (c := L.cNeumannScale) h.toBasics h'.toBasics (logStep_computes h)
    (logStep_computes (L := L.recase σ s) h') Eq (fun r r' hr => by rw [hr]; exact ⟨rfl, rfl, rfl⟩)
    (fun n v hv rho hrho lam rs r r' new new' rs1 rs1' e e' hi hi' => recase_log_det h.toSound hσ hs hv hrho e e' hi hi') hnr files cs
  exact ⟨o, o', ho, ho', h1, h2, fun hs => ⟨(h3 hs).1, (h3 hs).2.1, (h3 hs).2.2.2, (List.forall₂_eq_eq_eq ▸ (h3 hs).2.2.1 : _ = _).symm⟩⟩

/-- Four load cases: the second one of the chain twice and the first one twice, once in the opposite direction. -/
example := C152_load_cases chainRun chainRun_wellPosed (m' := 4) ![1, 0, 1, 0] ⟨2, by norm_num, fun j => by fin_cases j <;> decide⟩ ![1, -1, 1, 1]
  (fun j => by fin_cases j <;> simp) [] (Or.inl rfl) [.steps 3, .optimize]

example := C152_load_cases_logmoc (logOf chainRun) chainLog_wellPosed (m' := 2) ![1, 0] ⟨1, by norm_num, fun j => by fin_cases j <;> decide⟩ ![1, -1]
  (fun j => by fin_cases j <;> simp) rfl [] [.steps 3, .optimize]

end elastic

/-! ### Heat -/

section heat
variable {ι Q : Type} [Fintype ι] [Fintype Q] {d nE k m' : ℕ}

/-- The same task with the prescribed temperatures listed as `σ` says. -/
def _root_.Verif.Heat.Task.recase (T : Task ι Q d nE k) (σ : Fin m' → Fin T.values.length) : Task ι Q d nE k where
  fe := T.fe
  t := T.t
  dirichlet := List.ofFn fun i => T.dirichlet.getD (σ i) ∅
  values := List.ofFn fun i => T.values.get (σ i)
  robin := T.robin
  regions := T.regions
  bilinear := T.bilinear
  linear := T.linear
  designRobin := T.designRobin
  objective := T.objective
  avgWeight := T.avgWeight
  k := T.k
  q := T.q

/-- The same run on that task. -/
abbrev HeatSetup.recase (R : HeatSetup ι Q d nE k) (σ : Fin m' → Fin R.task.values.length) : HeatSetup ι Q d nE k := { R with task := R.task.recase σ }

/-- The same LogMOC run on that task. -/
abbrev HeatLogSetup.recase (L : HeatLogSetup ι Q d nE k) (σ : Fin m' → Fin L.task.values.length) : HeatLogSetup ι Q d nE k :=
  { L with task := L.task.recase σ }

theorem recase_length (T : Task ι Q d nE k) (σ : Fin m' → Fin T.values.length) : (T.recase σ).values.length = m' := by simp [Task.recase]

theorem recase_built {T : Task ι Q d nE k} (σ : Fin m' → Fin T.values.length) (h : ∃ T0 : Task ι Q d nE k, T0.build = .ok T) :
    ∃ T0 : Task ι Q d nE k, T0.build = .ok (T.recase σ) := by
  obtain ⟨T0, h0⟩ := h
  refine ⟨T.recase σ, ?_⟩
  unfold Task.build at h0 ⊢
  rcases hr : T0.robin with _ | ⟨hh, Te⟩
  · rw [hr] at h0
    injection h0 with h0
    subst h0
    simp [Task.recase, hr]
  · rw [hr] at h0
    simp only [assembleRobin_one, Except.map] at h0
    injection h0 with h0
    subst h0
    simp [Task.recase, hr, assembleRobin_one, Except.map]

theorem recase_mem {R : HeatSetup ι Q d nE k} (h : HeatSound R) (σ : Fin m' → Fin R.task.values.length) {D : Finset ι}
    (hD : D ∈ (R.task.recase σ).dirichlet) : D ∈ R.task.dirichlet := by
  obtain ⟨i, rfl⟩ := (List.mem_ofFn' _ _).mp hD
  have hi : (σ i : ℕ) < R.task.dirichlet.length := by rw [h.regions]; exact (σ i).isLt
  show R.task.dirichlet.getD (σ i) ∅ ∈ _
  rw [List.getD_eq_getElem _ _ hi]
  exact List.getElem_mem _

theorem recase_heatSound {R : HeatSetup ι Q d nE k} (h : HeatSound R) {σ : Fin m' → Fin R.task.values.length} (hσ : EquallyOften σ) :
    HeatSound (R.recase σ) :=
  { h with
    built := recase_built σ h.built
    loadCases := by
      have hm : 0 < R.task.values.length := by
        have := h.loadCases
        exact List.length_pos_iff.mpr this
      have := equally_pos hσ hm
      intro he
      have h1 := recase_length R.task σ
      rw [he] at h1
      simp at h1
      omega
    regions := by simp [Task.recase]
    same := fun D hD D' hD' => h.same D (recase_mem h σ hD) D' (recase_mem h σ hD')
    connected := fun D hD => h.connected D (recase_mem h σ hD) }

theorem recase_heatWellPosed {R : HeatSetup ι Q d nE k} (h : HeatWellPosed R) {σ : Fin m' → Fin R.task.values.length} (hσ : EquallyOften σ) :
    HeatWellPosed (R.recase σ) :=
  { h with
    toHeatSound := recase_heatSound h.toHeatSound hσ
    sign := h.sign }

theorem recase_heatLogWellPosed {L : HeatLogSetup ι Q d nE k} (h : HeatLogWellPosed L) {σ : Fin m' → Fin L.task.values.length} (hσ : EquallyOften σ) :
    HeatLogWellPosed (L.recase σ) :=
  { h with
    toHeatSound := recase_heatSound (R := L.toHeatSetup) h.toHeatSound hσ }

/-- The temperature of a listed load case. -/
theorem warmed_recase {T : Task ι Q d nE k} {σ : Fin m' → Fin T.values.length} {c p : ℝ} {x : Fin nE → ℝ} {i : Fin (T.recase σ).values.length} {u : ι → ℝ}
    (h : Warmed (T.recase σ) c p x i u) : Warmed T c p x (σ (Fin.cast (recase_length T σ) i)) u := by
  have hi : (i : ℕ) < m' := lt_of_lt_of_eq i.isLt (recase_length T σ)
  have hv : (T.recase σ).values.get i = T.values.get (σ (Fin.cast (recase_length T σ) i)) :=
    List.get_ofFn (fun i => T.values.get (σ i)) i
  have hd : (T.recase σ).dirichlet.getD i ∅ = T.dirichlet.getD (σ (Fin.cast (recase_length T σ) i)) ∅ := by
    show (List.ofFn fun i => T.dirichlet.getD (σ i) ∅).getD i ∅ = _
    rw [List.getD_eq_getElem _ _ (by simpa using hi)]
    simp
    rfl
  unfold Warmed at h ⊢
  rw [hv, hd] at h
  exact h

theorem meanOf_equally {m m' : ℕ} {σ : Fin m' → Fin m} (h : EquallyOften σ) (f : Fin m → ℝ) : meanOf (fun i => f (σ i)) = meanOf f := mean_equally h f

theorem sizeOf_equally {m m' : ℕ} {σ : Fin m' → Fin m} (h : EquallyOften σ) (f : Fin m → ℝ) : Spec.sizeOf (fun i => f (σ i)) = Spec.sizeOf f := by
  unfold Spec.sizeOf
  rw [meanOf_equally h fun j => |f j|]

/-- The recorded objective does not change either, unless a single load case is repeated and a weight is on the temperature. -/
theorem heatObjective_equally {m m' : ℕ} {σ : Fin m' → Fin m} (h : EquallyOften σ) (T : Task ι Q d nE k)
    (hw : T.objective ≠ .heatExchange ∨ T.avgWeight = 0 ∨ 1 < m ∨ m' = 1) (c p : ℝ) (x : Fin nE → ℝ) (u : Fin m → ι → ℝ) :
    heatObjective T c p x (fun i => u (σ i)) = heatObjective T c p x u := by
  unfold heatObjective
  rcases ho : T.objective
  · exact meanOf_equally h fun j => Spec.Heat.dissipated T.fe (fun e => conductivity T c p (x e)) T.robin T.regions p T.q (gathered T x) (u j)
  · rcases hr : T.robin with _ | ⟨hh, Te⟩
    · rfl
    · simp only
      have hm : T.avgWeight ≠ 0 → (1 < m ↔ 1 < m') := by
        intro h0
        obtain ⟨r, hr, hc⟩ := h
        have hm' : m' = r * m := by
          have := sum_equally hc fun _ => 1
          simp only [Finset.sum_const, Finset.card_univ, Fintype.card_fin, nsmul_eq_mul, mul_one] at this
          exact_mod_cast this
        rcases hw with h1 | h1 | h1 | h1
        · exact absurd ho h1
        · exact absurd h1 h0
        · exact ⟨fun _ => by rw [hm']; nlinarith, fun _ => h1⟩
        · have : m = 1 := by
            have : m ∣ 1 := ⟨r, by rw [← h1, hm', mul_comm]⟩
            exact Nat.dvd_one.mp this
          rw [h1, this]
      by_cases hs : Spec.Heat.interfaceSize T.fe (gathered T x) ≤ 1 / 10 ^ 16
      · rw [if_pos hs, if_pos hs]
      rw [if_neg hs, if_neg hs]
      by_cases h0 : T.avgWeight = 0
      · rw [if_pos h0, if_pos h0]
        exact meanOf_equally h fun j => Spec.Heat.exchanged T.fe (gathered T x) hh Te (u j)
      rw [if_neg h0, if_neg h0]
      have e1 := sizeOf_equally h fun j => Spec.Heat.exchanged T.fe (gathered T x) hh Te (u j)
      have e2 := sizeOf_equally h fun j => ∑ i, u j i
      by_cases h1 : 1 < m
      · rw [if_pos h1, if_pos ((hm h0).mp h1)]
        rw [e1, e2]
        exact meanOf_equally h fun j => Spec.Heat.exchanged T.fe (gathered T x) hh Te (u j) /
          Spec.sizeOf (fun j => Spec.Heat.exchanged T.fe (gathered T x) hh Te (u j)) + T.avgWeight * ((∑ i, u j i) / Spec.sizeOf fun j => ∑ i, u j i)
      · rw [if_neg h1, if_neg fun h2 => h1 ((hm h0).mpr h2)]
        exact meanOf_equally h fun j => Spec.Heat.exchanged T.fe (gathered T x) hh Te (u j) + T.avgWeight * ∑ i, u j i
  · exact meanOf_equally h fun j => ∑ i, u j i

theorem heatObjective_cast {T T' : Task ι Q d nE k} {n n' : ℕ} (h : n = n') (c p : ℝ) (x : Fin nE → ℝ) (u : Fin n → ι → ℝ) (w : Fin n' → ι → ℝ)
    (hT : ∀ u : Fin n → ι → ℝ, heatObjective T' c p x u = heatObjective T c p x u) (hw : ∀ j, w (Fin.cast h j) = u j) :
    heatObjective T' c p x w = heatObjective T c p x u := by
  subst h
  have : w = u := funext hw
  rw [this, hT]

/-- What the iterations of the two heat runs have in common. -/
theorem recase_heat_same {R : HeatSetup ι Q d nE k} (h : HeatSound R) {σ : Fin m' → Fin R.task.values.length} (hσ : EquallyOften σ) {v : Vals}
    {rho : Fin nE → ℝ} (hx : ∀ e, 0 ≤ physical R.toCommon v rho e ∧ physical R.toCommon v rho e ≤ 1) {u : Fin R.task.values.length → ι → ℝ}
    {w : Fin (R.task.recase σ).values.length → ι → ℝ} (hu : ∀ j, Warmed R.task R.eMinCoeff v.p (physical R.toCommon v rho) j (u j))
    (hw : ∀ j, Warmed (R.task.recase σ) R.eMinCoeff v.p (physical R.toCommon v rho) j (w j)) :
    (R.task.objective ≠ .heatExchange ∨ R.task.avgWeight = 0 ∨ 1 < R.task.values.length ∨ m' = 1 →
      heatObjective (R.task.recase σ) R.eMinCoeff v.p (physical R.toCommon v rho) w = heatObjective R.task R.eMinCoeff v.p (physical R.toCommon v rho) u) ∧
    chained R.toCommon v rho (fun j => heatColumn (R.task.recase σ) R.eMinCoeff v.p (physical R.toCommon v rho) (w j)) =
      chained R.toCommon v rho fun j => heatColumn R.task R.eMinCoeff v.p (physical R.toCommon v rho) (u j) := by
  have hwu : ∀ i : Fin m', w (Fin.cast (recase_length R.task σ).symm i) = u (σ i) := fun i =>
    warmed_unique h hx (hu (σ i)) (warmed_recase (hw (Fin.cast (recase_length R.task σ).symm i)))
  constructor
  · intro hcond
    rw [← heatObjective_equally hσ R.task hcond]
    exact heatObjective_cast (recase_length R.task σ).symm _ _ _ (fun i => u (σ i)) w (fun _ => rfl) hwu
  · rw [← chained_equally hσ]
    refine chained_cast (recase_length R.task σ).symm _ _ fun i => ?_
    rw [hwu i]
    rfl

/-- Two lines of the histories that differ at most in the recorded objective, and not in that unless a single load case has been repeated and
the objective "heat_exchange" has a weight on the temperature. -/
def SameLine (T : Task ι Q d nE k) (m' : ℕ) (r r' : Rec) : Prop :=
  r' = { r with compliance := r'.compliance } ∧
    (T.objective ≠ .heatExchange ∨ T.avgWeight = 0 ∨ 1 < T.values.length ∨ m' = 1 → r' = r)

/-- The same for LogMOC. -/
def LogSameLine (T : Task ι Q d nE k) (m' : ℕ) (r r' : LogRec) : Prop :=
  r' = { r with compliance := r'.compliance } ∧
    (T.objective ≠ .heatExchange ∨ T.avgWeight = 0 ∨ 1 < T.values.length ∨ m' = 1 → r' = r)

/-- **C152.** Listing the load cases of a well-posed OC heat run in another order, each of them equally often, changes neither progress nor
densities nor snapshots, and of the histories at most the recorded objective: only if a single load case is repeated and the objective
"heat_exchange" has a weight on the temperature (the two terms are divided by their mean size only if there are several load cases). -/
theorem C152_heat_load_cases_partial (R : HeatSetup ι Q d nE k) (h : HeatWellPosed R) (σ : Fin m' → Fin R.task.values.length) (hσ : EquallyOften σ)
    (files : List (Snapshot.Name × (Fin nE → ℝ))) (hs : CanStart R.toCommon files) (cs : List Call) :
    ∃ o o', runCalls (heatSys R) cs (newHeatRun R files) = (o, .ok ()) ∧
      runCalls (heatSys (R.recase σ)) cs (newHeatRun (R.recase σ) files) = (o', .ok ()) ∧
      o'.started = o.started ∧ o'.completed = o.completed ∧
      (o.started = true → o'.iterNext = o.iterNext ∧ o'.world.rho = o.world.rho ∧ o'.world.files = o.world.files ∧
        List.Forall₂ (SameLine R.task m') o.world.aux.1.log o'.world.aux.1.log) := by
  have h' := recase_heatWellPosed h hσ
  obtain ⟨o, o', ho, ho', h1, h2, h3⟩ := twin_by (c := R.cNeumannScale) h.toBasics h'.toBasics (heat_computes h) (heat_computes (R := R.recase σ) h')
    (SameLine R.task m') (fun r r' hr => by rw [hr.1]; exact ⟨rfl, rfl⟩) (fun r => ⟨rfl, fun _ => rfl⟩)
    (fun n v hv rho hrho rs r r' new new' rs1 rs1' e e' hi hi' => by
      obtain ⟨v1, u, a1, a2, a3, a4, a5⟩ := hi
      obtain ⟨v2, w, b1, b2, b3, b4, b5⟩ := hi'
      rw [e] at a1
      rw [e'] at b1
      obtain rfl : v1 = v := allScheduled_eq hv.all a1
      obtain rfl : v2 = v1 := allScheduled_eq a1 b1
      obtain ⟨h1, h2⟩ := recase_heat_same h.toHeatSound hσ (fun e => physical_range h.toBasics hv hrho e) a2 b2
      have b6 : OCStep R.toCommon v2 (chained R.toCommon v2 rho fun j => heatColumn (R.task.recase σ) R.eMinCoeff v2.p (physical R.toCommon v2 rho) (w j))
        rho rs r' new' rs1' := b5
      rw [h2] at b6
      obtain ⟨c1, c2, c3⟩ := ocStep_unique (e'.trans e.symm) a5 b6
      refine ⟨c1, c2, by rw [c3, b4, ← a4], fun hc => ?_⟩
      have b7 : r'.compliance = heatObjective (R.task.recase σ) R.eMinCoeff v2.p (physical R.toCommon v2 rho) w := b3
      rw [c3, b4, ← a4, b7, h1 hc, ← a3]) hs cs
  exact ⟨_, _, heat_run h.toHeatSound ho, heat_run h'.toHeatSound ho', h1, h2, fun hs => ⟨(h3 hs).1, (h3 hs).2.1, (h3 hs).2.2.2, (h3 hs).2.2.1⟩⟩

/-- **C152.** The same for new LogMOC runs. -/
theorem C152_heat_load_cases_logmoc_partial (L : HeatLogSetup ι Q d nE k) (h : HeatLogWellPosed L) (σ : Fin m' → Fin L.task.values.length)
    (hσ : EquallyOften σ) (hnr : L.restart = false) (files : List (Snapshot.Name × (Fin nE → ℝ))) (cs : List Call) :
    ∃ o o', runCalls (heatLogSys L) cs (newHeatLogRun L files) = (o, .ok ()) ∧
      runCalls (heatLogSys (L.recase σ)) cs (newHeatLogRun (L.recase σ) files) = (o', .ok ()) ∧
      o'.started = o.started ∧ o'.completed = o.completed ∧
      (o.started = true → o'.iterNext = o.iterNext ∧ o'.world.rho = o.world.rho ∧ o'.world.files = o.world.files ∧
        List.Forall₂ (LogSameLine L.task m') o.world.aux.1.log o'.world.aux.1.log) := by
  have h' := recase_heatLogWellPosed h hσ
  obtain ⟨o, o', ho, ho', h1, h2, h3⟩ := log_twin_by (L := L.common) (c := L.cNeumannScale) h.toBasics h'.toBasics (heatLog_computes h)
    (heatLog_computes (L := L.recase σ) h') (LogSameLine L.task m') (fun r r' hr => by rw [hr.1]; exact ⟨rfl, rfl, rfl⟩)
    (fun n v hv rho hrho lam rs r r' new new' rs1 rs1' e e' hi hi' => by
      obtain ⟨v1, u, a1, a2, a3, a4, a5⟩ := hi
      obtain ⟨v2, w, b1, b2, b3, b4, b5⟩ := hi'
      rw [e] at a1
      rw [e'] at b1
      obtain rfl : v1 = v := allScheduled_eq hv.all a1
      obtain rfl : v2 = v1 := allScheduled_eq a1 b1
      obtain ⟨h1, h2⟩ := recase_heat_same (R := L.toHeatSetup) h.toHeatSound hσ (fun e => physical_range h.toBasics hv hrho e) a2 b2
      have b6 : LogStep L.common v2 (chained L.toCommon v2 rho fun j => heatColumn (L.task.recase σ) L.eMinCoeff v2.p (physical L.toCommon v2 rho) (w j))
        rho lam rs r' new' rs1' := b5
      rw [h2] at b6
      obtain ⟨c1, c2, c3⟩ := logStep_unique (e'.trans e.symm) a5 b6
      refine ⟨c1, c2, by rw [c3, b4, ← a4], fun hc => ?_⟩
      have b7 : r'.compliance = heatObjective (L.task.recase σ) L.eMinCoeff v2.p (physical L.toCommon v2 rho) w := b3
      rw [c3, b4, ← a4, b7, h1 hc, ← a3]) hnr files cs
  exact ⟨_, _, heatLog_run h.toHeatSound ho, heatLog_run h'.toHeatSound ho', h1, h2,
    fun hs => ⟨(h3 hs).1, (h3 hs).2.1, (h3 hs).2.2.2, (h3 hs).2.2.1⟩⟩

/-- The two load cases of the rods, swapped and listed twice. -/
example := C152_heat_load_cases_partial (m' := 4) (rodsRun .heatExchange) (rodsRun_wellPosed _ (by simp))
  (fun i => (![1, 0, 0, 1] i : Fin 2))
  ⟨2, by norm_num, fun j => by fin_cases j <;> decide⟩ [] (Or.inl rfl) [.steps 2, .optimize]
example := C152_heat_load_cases_logmoc_partial (m' := 2) (heatLogOf (rodsRun .compliance)) (rodsLog_wellPosed _)
  (fun i => (![1, 0] i : Fin 2))
  ⟨1, by norm_num, fun j => by fin_cases j <;> decide⟩ rfl [] [.optimize]

/-- **C152.** A single load case repeated, with a weight on the temperature: for the temperature 3 in the two rods the objective is recorded as
7 if it is listed once, and as 0 if it is listed twice. -/
theorem C152_repetition_recorded (K : Matrix (Fin 3) (Fin 3) ℝ) : rodsTask.objectiveValues K ![0, 1] [fun _ => 3] = .ok [7] ∧
    rodsTask.objectiveValues K ![0, 1] [fun _ => 3, fun _ => 3] = .ok [0, 0] := by
  have hden : ¬ hxDen rods (rodsTask.nodal ![0, 1]) ≤ 1 / 10 ^ 16 := by
    rw [rods_nodal]
    show ¬ Spec.Heat.interfaceSize rods ![0, 1 / 2, 1] ≤ _
    rw [rods_size]; norm_num
  have hx : heatExchange rods (fun _ => 3) (rodsTask.nodal ![0, 1]) 1 1 = -2 := by
    have h1 := rods_exchanged 3
    unfold Spec.Heat.exchanged at h1
    unfold heatExchange
    rw [if_neg hden, rods_nodal]
    have h2 : hxNum rods (fun _ => 3) ![0, 1 / 2, 1] 1 1 =
        ∑ e, ∑ q, -(1 * 1 * (Spec.Heat.field rods (fun _ => 3) e q - 1)) * Spec.Heat.steepness rods ![0, 1 / 2, 1] e q * rods.dx e q := by
      unfold hxNum
      simp only [valAt_const rods rods_one]
      refine Finset.sum_congr rfl fun e _ => Finset.sum_congr rfl fun q _ => ?_
      have : Spec.Heat.field rods (fun _ => (3 : ℝ)) e q = 3 := valAt_const rods rods_one 3 e q
      rw [this]
      show _ * Spec.Heat.steepness rods ![0, 1 / 2, 1] e q * _ = _
      ring
    rw [h2, show hxDen rods ![0, 1 / 2, 1] = Spec.Heat.interfaceSize rods ![0, 1 / 2, 1] from rfl, h1]
    norm_num
  have hs : sumTemp (fun _ : Fin 3 => (3 : ℝ)) = 9 := by
    unfold sumTemp
    simp [Fin.sum_univ_three]; norm_num
  have hf : rodsTask.fe = rods := rfl
  unfold Task.objectiveValues
  constructor
  · simp only [show rodsTask.objective = .heatExchange from rfl, show rodsTask.robin = some (1, 1) from rfl, hf, if_neg hden,
      show rodsTask.avgWeight = 1 from rfl, List.map_cons, List.map_nil, hx, hs]
    norm_num
  · simp only [show rodsTask.objective = .heatExchange from rfl, show rodsTask.robin = some (1, 1) from rfl, hf, if_neg hden,
      show rodsTask.avgWeight = 1 from rfl, List.map_cons, List.map_nil, hx, hs, absScale]
    norm_num

end heat

end
end Verif.Run
