import Verif.Props.HeatElementsLog
import Verif.Props.HeatUnits

/-!
C162: heat runs do not depend on the unit of length (for the objectives other than "averaged_temp": without Robin boundaries).
-/
namespace Verif.Run
open Verif Verif.Sched Verif.Spec Verif.Driver Verif.Heat

variable {ι Q : Type} [Fintype ι] [Fintype Q] {d nE k : ℕ}

noncomputable section
open Classical

/-- The factor by which the heat conducted at given temperatures changes when all lengths are multiplied by `s`. -/
def conductanceUnit (d : ℕ) (s : ℝ) : ℝ := s ^ d / s ^ 2

/-- Configuration and mesh data with all lengths multiplied by `s`; `rad` is the schedule of the filter radius in the new unit. The finite
element matrices of the nodal filter, the scale floor and the tolerance of the KKT residual change with their units. -/
def Common.inLengths {E : Type} (R : Common E d) (s : ℝ) (rad : Config) : Common E d :=
  { R with
    cRadius := rad
    nodal := R.nodal.map fun N =>
      { N with
        mass := fun i j => s ^ d * N.mass i j
        stiff := fun i j => conductanceUnit d s * N.stiff i j }
    centers := fun e => s • R.centers e
    volume := fun e => s ^ d * R.volume e
    scaleFloor := conductanceUnit d s * R.scaleFloor
    tolKkt := conductanceUnit d s * R.tolKkt }

/-- A surface region of a `d`-dimensional mesh with all lengths multiplied by `s`. -/
def _root_.Verif.Heat.Region.inLengths (G : Region ι) (d : ℕ) (s : ℝ) : Region ι where
  n := G.n
  val := G.val
  dx := fun y => s ^ d / s * G.dx y

/-- What `from_facets` (task_heat.py 171–249) makes of the problem with all lengths multiplied by `s`: gradients have the unit 1/length,
integration weights that of the volume or surface; the film coefficient has the unit conductivity/length. -/
def _root_.Verif.Heat.Task.inLengths (T : Task ι Q d nE k) (s : ℝ) : Task ι Q d nE k :=
  { T with
    fe := { val := T.fe.val, grad := fun i e y a => T.fe.grad i e y a / s, dx := fun e y => s ^ d * T.fe.dx e y }
    robin := T.robin.map fun r => (r.1 / s, r.2)
    regions := T.regions.map fun G => G.inLengths d s
    bilinear := match T.robin with
      | none => T.bilinear
      | some (h, _) => T.regions.map fun G => robinForm (G.inLengths d s) (h / s) none 0
    linear := match T.robin with
      | none => T.linear
      | some (h, Tenv) => T.regions.map fun G => robinLoad (G.inLengths d s) (h / s) Tenv none 0 }

/-- The same OC run in another unit of length. -/
abbrev HeatSetup.inLengths (R : HeatSetup ι Q d nE k) (s : ℝ) (rad : Config) : HeatSetup ι Q d nE k where
  toCommon := R.toCommon.inLengths s rad
  task := R.task.inLengths s
  backend := R.backend
  solver := R.solver

/-- The same LogMOC run in another unit of length: the scale floor has the unit of the conducted heat; so have the multiplier, its gains and
its range, unless the volume term is normalized. -/
abbrev HeatLogSetup.inLengths (L : HeatLogSetup ι Q d nE k) (s : ℝ) (rad : Config) : HeatLogSetup ι Q d nE k where
  toHeatSetup :=
    { L.toHeatSetup.inLengths s rad with
      lambdaLower := (if L.normalizeVolumeChain then 1 else conductanceUnit d s) * L.lambdaLower
      lambdaUpper := (if L.normalizeVolumeChain then 1 else conductanceUnit d s) * L.lambdaUpper
      tolKkt := L.tolKkt }
  toLogOpts :=
    { L.toLogOpts with
      lagScaleFloor := conductanceUnit d s * L.lagScaleFloor
      muP := (if L.normalizeVolumeChain then 1 else conductanceUnit d s) * L.muP
      alMu := (if L.normalizeVolumeChain then 1 else conductanceUnit d s) * L.alMu }

/-! ### Physics -/

omit [Fintype Q] in
theorem slope_inLengths (T : Task ι Q d nE k) (s : ℝ) (u : ι → ℝ) (e : Fin nE) (y : Q) (a : Fin d) :
    Spec.Heat.slope (T.inLengths s).fe u e y a = Spec.Heat.slope T.fe u e y a / s := by
  show ∑ i, u i * (T.fe.grad i e y a / s) = (∑ i, u i * T.fe.grad i e y a) / s
  rw [Finset.sum_div]
  exact Finset.sum_congr rfl fun i _ => by ring

theorem conducted_inLengths (T : Task ι Q d nE k) (s : ℝ) (ke : Fin nE → ℝ) (u : ι → ℝ) (i : ι) :
    Spec.Heat.conducted (T.inLengths s).fe ke u i = conductanceUnit d s * Spec.Heat.conducted T.fe ke u i := by
  unfold Spec.Heat.conducted
  rw [Finset.mul_sum]
  refine Finset.sum_congr rfl fun e _ => ?_
  rw [Finset.mul_sum]
  refine Finset.sum_congr rfl fun y _ => ?_
  simp only [slope_inLengths]
  show ke e * (∑ a, Spec.Heat.slope T.fe u e y a / s * (T.fe.grad i e y a / s)) * (s ^ d * T.fe.dx e y) = _
  have : ∑ a, Spec.Heat.slope T.fe u e y a / s * (T.fe.grad i e y a / s) = (∑ a, Spec.Heat.slope T.fe u e y a * T.fe.grad i e y a) / s ^ 2 := by
    rw [Finset.sum_div]
    exact Finset.sum_congr rfl fun a _ => by rw [div_mul_div_comm, sq]
  rw [this]
  unfold conductanceUnit
  ring

omit [Fintype Q] in
theorem steepness_inLengths (T : Task ι Q d nE k) {s : ℝ} (hs : 0 < s) (x : ι → ℝ) (e : Fin nE) (y : Q) :
    Spec.Heat.steepness (T.inLengths s).fe x e y = Spec.Heat.steepness T.fe x e y / s := by
  unfold Spec.Heat.steepness
  simp only [slope_inLengths, div_pow]
  rw [← Finset.sum_div, Real.sqrt_div (Finset.sum_nonneg fun a _ => sq_nonneg _), Real.sqrt_sq hs.le]

theorem losses_inLengths (T : Task ι Q d nE k) {s : ℝ} (hs : 0 < s) (p : ℝ) (x : Fin nE → ℝ) (u : ι → ℝ) (i : ι) :
    Spec.Heat.losses (T.inLengths s).fe (T.inLengths s).robin (T.inLengths s).regions p T.q (gathered T x) u i =
      conductanceUnit d s * Spec.Heat.losses T.fe T.robin T.regions p T.q (gathered T x) u i := by
  have h1 : (T.inLengths s).robin = T.robin.map fun r => (r.1 / s, r.2) := rfl
  have h2 : (T.inLengths s).regions = T.regions.map fun G => G.inLengths d s := rfl
  rw [h1, h2]
  rcases T.robin with _ | ⟨h, Tenv⟩
  · simp [Spec.Heat.losses]
  · show ((T.regions.map fun G => G.inLengths d s).map fun G => Spec.Heat.surfaceLoss G (h / s) Tenv u i).sum +
        Spec.Heat.interfaceLoss (T.inLengths s).fe (h / s) Tenv p T.q (gathered T x) u i =
      conductanceUnit d s * ((T.regions.map fun G => Spec.Heat.surfaceLoss G h Tenv u i).sum +
        Spec.Heat.interfaceLoss T.fe h Tenv p T.q (gathered T x) u i)
    rw [mul_add]
    congr 1
    · rw [List.map_map, ← List.sum_map_mul_left]
      congr 1
      refine List.map_congr_left fun G _ => ?_
      show ∑ y, h / s * ((∑ j, u j * G.val j y) - Tenv) * G.val i y * (s ^ d / s * G.dx y) =
        conductanceUnit d s * ∑ y, h * ((∑ j, u j * G.val j y) - Tenv) * G.val i y * G.dx y
      rw [Finset.mul_sum]
      refine Finset.sum_congr rfl fun y _ => ?_
      unfold conductanceUnit
      field_simp
    · unfold Spec.Heat.interfaceLoss
      rw [Finset.mul_sum]
      refine Finset.sum_congr rfl fun e _ => ?_
      rw [Finset.mul_sum]
      refine Finset.sum_congr rfl fun y _ => ?_
      rw [steepness_inLengths T hs]
      show h / s * Spec.Heat.field T.fe (gathered T x) e y ^ p * (1 - Spec.Heat.field T.fe (gathered T x) e y) ^ T.q *
          (Spec.Heat.steepness T.fe (gathered T x) e y / s) * (Spec.Heat.field T.fe u e y - Tenv) * T.fe.val i e y * (s ^ d * T.fe.dx e y) = _
      unfold conductanceUnit
      field_simp

theorem warmed_inLengths_of (T : Task ι Q d nE k) {s : ℝ} (hs : 0 < s) (Ec p : ℝ) (x : Fin nE → ℝ) (j : Fin T.values.length) (u : ι → ℝ)
    (h : Warmed T Ec p x j u) : Warmed (T.inLengths s) Ec p x j u := by
  obtain ⟨h1, h2⟩ := h
  refine ⟨h1, fun i hi => ?_⟩
  have := h2 i hi
  show Spec.Heat.conducted (T.inLengths s).fe (fun e => conductivity T Ec p (x e)) u i +
    Spec.Heat.losses (T.inLengths s).fe (T.inLengths s).robin (T.inLengths s).regions p T.q (gathered T x) u i = 0
  rw [losses_inLengths T hs, conducted_inLengths, ← mul_add, this, mul_zero]

theorem energy_inLengths (T : Task ι Q d nE k) (s : ℝ) (u : ι → ℝ) (c : ℝ) (e : Fin nE) :
    ∑ y, c * (∑ a, Spec.Heat.slope (T.inLengths s).fe u e y a ^ 2) * (T.inLengths s).fe.dx e y =
      conductanceUnit d s * ∑ y, c * (∑ a, Spec.Heat.slope T.fe u e y a ^ 2) * T.fe.dx e y := by
  rw [Finset.mul_sum]
  refine Finset.sum_congr rfl fun y _ => ?_
  simp only [slope_inLengths]
  have : ∑ a, (Spec.Heat.slope T.fe u e y a / s) ^ 2 = (∑ a, Spec.Heat.slope T.fe u e y a ^ 2) / s ^ 2 := by
    rw [Finset.sum_div]
    exact Finset.sum_congr rfl fun a _ => div_pow _ _ _
  rw [this]
  show c * _ * (s ^ d * T.fe.dx e y) = _
  unfold conductanceUnit
  ring

theorem heatColumn_inLengths (T : Task ι Q d nE k) (hr : T.robin = none ∨ T.objective = .averagedTemp) (s c p : ℝ) (x : Fin nE → ℝ) (u : ι → ℝ) (e : Fin nE) :
    heatColumn (T.inLengths s) c p x u e = conductanceUnit d s * heatColumn T c p x u e := by
  have h0 : (T.inLengths s).objective = T.objective := rfl
  have h2 : slopeOf T.k c p (x e) ((∑ y, conductivity T c p (x e) * (∑ a, Spec.Heat.slope (T.inLengths s).fe u e y a ^ 2) * (T.inLengths s).fe.dx e y) / 2) =
      conductanceUnit d s * slopeOf T.k c p (x e) ((∑ y, conductivity T c p (x e) * (∑ a, Spec.Heat.slope T.fe u e y a ^ 2) * T.fe.dx e y) / 2) := by
    rw [energy_inLengths]
    unfold slopeOf
    ring
  have h3 : ∀ z, conductivity (T.inLengths s) c p z = conductivity T c p z := fun _ => rfl
  unfold heatColumn
  simp only [h3]
  rw [show (T.inLengths s).k = T.k from rfl, h2, h0]
  rcases hr with hr | ho
  · rw [show (T.inLengths s).robin = none by simp [Task.inLengths, hr], hr]
    cases T.objective <;> simp
  · rw [ho]; simp

/-- The factor by which the recorded objective changes. -/
def objectiveUnit (T : Task ι Q d nE k) (s : ℝ) : ℝ := if T.objective = .averagedTemp then 1 else conductanceUnit d s

theorem heatObjective_inLengths {n : ℕ} (T : Task ι Q d nE k) (hr : T.robin = none ∨ T.objective = .averagedTemp) (s c p : ℝ) (x : Fin nE → ℝ)
    (u : Fin n → ι → ℝ) : heatObjective (T.inLengths s) c p x u = objectiveUnit T s * heatObjective T c p x u := by
  have h0 : (T.inLengths s).objective = T.objective := rfl
  unfold heatObjective objectiveUnit
  rw [h0]
  cases ho : T.objective with
  | compliance =>
    have hn : T.robin = none := hr.resolve_right (by rw [ho]; simp)
    rw [show (T.inLengths s).robin = none by simp [Task.inLengths, hn], hn]
    show (meanOf fun j => Spec.Heat.dissipated (T.inLengths s).fe (fun e => conductivity T c p (x e)) none _ p _ _ (u j)) =
      conductanceUnit d s * meanOf fun j => Spec.Heat.dissipated T.fe (fun e => conductivity T c p (x e)) none _ p _ _ (u j)
    rw [← meanOf_mul]
    congr 1
    funext j
    unfold Spec.Heat.dissipated
    simp only [add_zero, energy_inLengths]
    rw [Finset.mul_sum]
  | averagedTemp => simp
  | heatExchange =>
    have hn : T.robin = none := hr.resolve_right (by rw [ho]; simp)
    rw [show (T.inLengths s).robin = none by simp [Task.inLengths, hn], hn]
    simp

/-! ### The common part, seen as an elasticity problem without degrees of freedom -/

/-- All lengths times `s`. -/
def rescaling (nE d : ℕ) (s : ℝ) : Change Empty (Fin nE) Empty (Fin nE) 1 where
  element := Equiv.refl _
  motion := LinearEquiv.refl ℝ _
  case := Equiv.refl _
  length := s
  volume := s ^ d
  energy := s ^ 2 / s ^ d

theorem rescaling_work (nE d : ℕ) (s : ℝ) : (rescaling nE d s).work = conductanceUnit d s := by
  simp [Change.work, rescaling, conductanceUnit]

theorem conductanceUnit_pos (d : ℕ) {s : ℝ} (hs : 0 < s) : 0 < conductanceUnit d s := by
  unfold conductanceUnit; positivity

theorem alike_inLengths (R : Common (Fin nE) d) (hp : ∀ q x, R.pct q x = percentile q (R.design.val.map x)) {s : ℝ} (hs : 0 < s) {rad : Config}
    (hrad : ∀ n r, Scheduled R R.cRadius n (some r) → Scheduled R rad n (some (s * r))) (hnr : R.restart = false) :
    AlikeOC (rescaling nE d s) (bare R) (bare (R.inLengths s rad)) where
  factors := ⟨hs, pow_pos hs d, one_ne_zero, one_pos, div_pos (pow_pos hs 2) (pow_pos hs d)⟩
  signs := fun _ => Or.inl rfl
  p := rfl
  volFrac := rfl
  moveLimit := rfl
  beta := rfl
  percentile := rfl
  neumannScale := rfl
  eta := ⟨rfl, rfl⟩
  iters := ⟨rfl, rfl⟩
  restart := ⟨rfl, rfl⟩
  box := ⟨rfl, rfl⟩
  betaEta := rfl
  eMinCoeff := rfl
  sensFilter := rfl
  convergence := ⟨rfl, rfl⟩
  radius := fun n r h => hrad n r h
  statistic := fun q t x x' ht h => percentile_alike (R := bare R) hp q t x x' ht h
  volume := fun _ => rfl
  design := fun _ => Iff.rfl
  pinned := fun _ => Iff.rfl
  fixed := fun _ => Iff.rfl
  centers := fun e f => by
    show dist (s • R.centers e) (s • R.centers f) = s * dist (R.centers e) (R.centers f)
    rw [dist_smul₀, Real.norm_eq_abs, abs_of_pos hs]
  spacial := fun h => by
    show R.nodal.map _ = none
    rw [show R.nodal = none from h]; rfl
  helmholtz := fun N h => by
    refine ⟨{ N with mass := fun i j => s ^ d * N.mass i j, stiff := fun i j => conductanceUnit d s * N.stiff i j },
      by show R.nodal.map _ = _; rw [show R.nodal = some N from h]; rfl, rfl, Equiv.refl _, s ^ d, pow_pos hs d,
      fun e => ⟨Equiv.refl _, fun i => rfl⟩, fun i j => rfl, fun i j => ?_⟩
    show s ^ 2 * (s ^ d / s ^ 2 * N.stiff i j) = s ^ d * N.stiff i j
    field_simp
  modulus := (one_mul _).symm
  modulusFloor := Or.inl rfl
  supports := fun _ => Iff.rfl
  energy := fun u w e => by
    show ∑ q : Empty, _ = _ * ∑ q : Empty, _
    simp
  loads := fun j w _ => by
    show ∑ i : Empty, _ = _ * ∑ i : Empty, _
    simp
  bounds := ⟨rfl, rfl⟩
  rates := ⟨rfl, rfl⟩
  scaleFloor := by rw [rescaling_work]; rfl
  tolKkt := by rw [rescaling_work]; rfl
  saved := fun hr => by
    have : R.restart = true := hr
    rw [hnr] at this
    cases this

/-! ### Well-posedness -/

theorem inLengths_built {T : Task ι Q d nE k} (s : ℝ) (h : ∃ T0 : Task ι Q d nE k, T0.build = .ok T) :
    ∃ T0 : Task ι Q d nE k, T0.build = .ok (T.inLengths s) := by
  obtain ⟨T0, h0⟩ := h
  refine ⟨T.inLengths s, ?_⟩
  unfold Task.build at h0 ⊢
  rcases hr : T0.robin with _ | ⟨hh, Te⟩
  · rw [hr] at h0
    injection h0 with h0
    subst h0
    simp [Task.inLengths, hr]
  · rw [hr] at h0
    simp only [assembleRobin_one, Except.map] at h0
    injection h0 with h0
    subst h0
    simp [Task.inLengths, hr, assembleRobin_one, Except.map, List.map_map]

theorem inLengths_sound {R : HeatSetup ι Q d nE k} (h : HeatSound R) {s : ℝ} (hs : 0 < s) : HeatSound { R with task := R.task.inLengths s } :=
  { h with
    built := inLengths_built s h.built
    weights := fun e q => mul_pos (pow_pos hs d) (h.weights e q)
    surfaces := fun G hG q => by
      obtain ⟨G0, h0, rfl⟩ := List.mem_map.mp (show G ∈ R.task.regions.map fun G => G.inLengths d s from hG)
      exact mul_nonneg (by positivity) (h.surfaces G0 h0 q)
    film := fun hh Te e => by
      have e' : R.task.robin.map (fun r => (r.1 / s, r.2)) = some (hh, Te) := e
      rcases hr : R.task.robin with _ | ⟨h1, T1⟩
      · rw [hr] at e'; cases e'
      · rw [hr] at e'
        simp only [Option.map_some, Option.some.injEq, Prod.mk.injEq] at e'
        rw [← e'.1]; exact div_nonneg (h.film _ _ hr) hs.le
    robin := fun ho e => h.robin ho (by simpa [Task.inLengths] using e)
    connected := fun D hD w hw hsl => h.connected D hD w hw fun e q a => by
      have : Spec.Heat.slope (R.task.inLengths s).fe w e q a = 0 := hsl e q a
      rw [slope_inLengths] at this
      exact (div_eq_zero_iff.1 this).resolve_right hs.ne' }

/-- With the spatial filter and a filter radius that is accepted in the new unit, the run in the new unit is well-posed too. -/
theorem inLengths_wellPosed {R : HeatSetup ι Q d nE k} (h : HeatWellPosed R) (hr : R.task.robin = none ∨ R.task.objective = .averagedTemp) (hN : R.nodal = none) {s : ℝ} (hs : 0 < s)
    {rad : Config} (hg : GoodSchedule rad (Set.Ioi 0)) : HeatWellPosed (R.inLengths s rad) :=
  { inLengths_sound h.toHeatSound hs with
    toOCRules :=
      { percentages := h.percentages
        bracket := h.bracket
        scaleFloor := mul_pos (conductanceUnit_pos d hs) h.scaleFloor }
    radius := hg
    volume := fun e => mul_pos (pow_pos hs d) (h.volume e)
    nodal := fun N hN' => by
      have : R.nodal.map _ = some N := hN'
      rw [hN] at this
      cases this
    sign := fun ho hn => by
      rcases hr with hr | hr
      · exact absurd (show R.task.robin.map _ = none by rw [hr]; rfl) hn
      · have : R.task.objective = .compliance := ho
        rw [hr] at this
        cases this }

/-! ### Runs -/

/-- A line of the histories in the other unit of length. -/
def heatLine (T : Task ι Q d nE k) (s : ℝ) (r : Rec) : Rec :=
  { r with compliance := objectiveUnit T s * r.compliance, kkt := conductanceUnit d s * r.kkt }

theorem directory_rescaling (s : ℝ) (files : List (Snapshot.Name × (Fin nE → ℝ))) : (rescaling nE d s).directory files = files :=
  directory_refl rfl files

theorem heat_det_inLengths {R : HeatSetup ι Q d nE k} (h : HeatWellPosed R) (hd : d ≤ 3) (hp : ∀ q x, R.pct q x = percentile q (R.design.val.map x))
    (hr : R.task.robin = none ∨ R.task.objective = .averagedTemp) {s : ℝ} (hs : 0 < s) {rad : Config}
    (hrad : ∀ n r, Scheduled R.toCommon R.cRadius n (some r) → Scheduled R.toCommon rad n (some (s * r))) (hnr : R.restart = false)
    (h' : HeatWellPosed (R.inLengths s rad)) {n : ℕ} {v : Vals} (hv : ValsOk R.toCommon n v) {rho : Fin nE → ℝ}
    (hrho : ∀ e, 0 ≤ rho e ∧ rho e ≤ 1) {rs : ℝ} {r r' : Rec} {new new' : Fin nE → ℝ} {rs1 rs1' : ℝ} (e : r.iter = n) (e' : r'.iter = n)
    (hi : HeatIteration R rho rs r new rs1) (hi' : HeatIteration (R.inLengths s rad) rho (conductanceUnit d s * rs) r' new' rs1') :
    new' = new ∧ rs1' = conductanceUnit d s * rs1 ∧ r' = heatLine R.task s r := by
  have hb := bare_wellPosed h.toBasics h.toOCRules hd h.material.2
  have hb' := bare_wellPosed h'.toBasics h'.toOCRules hd h'.material.2
  have hA := alike_inLengths R.toCommon hp hs hrad hnr
  have hwork := rescaling_work nE d s
  obtain ⟨v1, u, a1, a2, a3, a4, a5⟩ := hi
  obtain ⟨v2, w, b1, b2, b3, b4, b5⟩ := hi'
  rw [e] at a1
  rw [e'] at b1
  obtain rfl : v1 = v := allScheduled_eq hv.all a1
  have hall : AllScheduled (R.toCommon.inLengths s rad) n (other (rescaling nE d s) v1) := allScheduled_alike hA.toAlike (R := bare R.toCommon) a1
  obtain rfl : v2 = other (rescaling nE d s) v1 := allScheduled_eq hall b1
  have hph : physical (R.toCommon.inLengths s rad) (other (rescaling nE d s) v1) rho = physical R.toCommon v1 rho := by
    funext e
    exact physical_alike (rho := rho) (rho' := rho) hA.toAlike hb.toSound hb'.toSound (v := v1) hv.radius (fun _ => rfl) e
  have hrange := fun e => physical_range h.toBasics hv hrho e
  have hw : w = u := funext fun j => by
    refine warmed_unique h'.toHeatSound hrange (warmed_inLengths_of R.task hs R.eMinCoeff v1.p _ j (u j) (a2 j)) ?_
    have := b2 j
    rw [show physical (R.inLengths s rad).toCommon (other (rescaling nE d s) v1) rho = _ from hph] at this
    exact this
  subst hw
  have hcol : ∀ j e, heatColumn (R.task.inLengths s) R.eMinCoeff v1.p (physical (R.toCommon.inLengths s rad) (other (rescaling nE d s) v1) rho) (w j) e =
      (rescaling nE d s).work * heatColumn R.task R.eMinCoeff v1.p (physical R.toCommon v1 rho) (w j) e := by
    intro j e
    rw [hwork, hph]
    exact heatColumn_inLengths R.task hr s _ _ _ _ _
  have hchain := chained_alike hA.toAlike hb.toSound hb'.toSound (v := v1) hv.radius (rho := rho) (rho' := rho) (fun _ => rfl)
    (g := fun j => heatColumn R.task R.eMinCoeff v1.p (physical R.toCommon v1 rho) (w j))
    (g' := fun j => heatColumn (R.task.inLengths s) R.eMinCoeff v1.p (physical (R.toCommon.inLengths s rad) (other (rescaling nE d s) v1) rho) (w j)) hcol
  rw [← hwork] at b5
  obtain ⟨c1, c2, c3⟩ := ocStep_alike (rho := rho) (rho' := rho) hA hb.toSound hb'.toSound (v := v1) hv.radius (fun _ => rfl) hchain (e'.trans e.symm) a5 b5
  refine ⟨funext c1, by rw [c2, hwork], ?_⟩
  have hc : r'.compliance = objectiveUnit R.task s * r.compliance := by
    rw [a3, b3, show physical (R.inLengths s rad).toCommon (other (rescaling nE d s) v1) rho = _ from hph]
    exact heatObjective_inLengths R.task hr s _ _ _ _
  rw [c3, hc, b4, show (other (rescaling nE d s) v1).neumannScale = v1.neumannScale from rfl, ← a4]
  unfold heatLine Change.line
  rw [hwork]

/-- **C162.** A new well-posed OC run on a heat task, without Robin boundaries or with objective "averaged_temp", in another unit of length (all
lengths times `s`, the filter radius too, the film coefficient divided by `s`): the same calls make the same progress, with the same densities and snapshots; the recorded objective (except "averaged_temp")
and KKT residual change with the unit of the conducted heat, all other recorded numbers are the same. -/
theorem C162_length_units (R : HeatSetup ι Q d nE k) (h : HeatWellPosed R) (hd : d ≤ 3) (hp : ∀ q x, R.pct q x = percentile q (R.design.val.map x))
    (hr : R.task.robin = none ∨ R.task.objective = .averagedTemp) (s : ℝ) (hs : 0 < s) (rad : Config)
    (hrad : ∀ n r, Scheduled R.toCommon R.cRadius n (some r) → Scheduled R.toCommon rad n (some (s * r))) (hnr : R.restart = false)
    (h' : HeatWellPosed (R.inLengths s rad)) (files : List (Snapshot.Name × (Fin nE → ℝ))) (cs : List Call) :
    ∃ o o', runCalls (heatSys R) cs (newHeatRun R files) = (o, .ok ()) ∧
      runCalls (heatSys (R.inLengths s rad)) cs (newHeatRun (R.inLengths s rad) files) = (o', .ok ()) ∧
      o'.started = o.started ∧ o'.completed = o.completed ∧
      (o.started = true → o'.iterNext = o.iterNext ∧ o'.world.rho = o.world.rho ∧ o'.world.files = o.world.files ∧
        o'.world.aux.1.log = o.world.aux.1.log.map (heatLine R.task s)) := by
  have hA := alike_inLengths R.toCommon hp hs hrad hnr
  have hwork := rescaling_work nE d s
  obtain ⟨o, o', ho, ho', h1, h2, h3⟩ := relabelled_by (R := bare R.toCommon) (heatLine R.task s)
    (fun r => ⟨rfl, by rw [hwork]; rfl⟩) hA (fun hn => by rw [show (bare R.toCommon).restart = R.restart from rfl, hnr] at hn; cases hn)
    h.toBasics h'.toBasics (heat_computes h) (heat_computes (R := R.inLengths s rad) h')
    (fun n v hv rho rho' hrho hx rs r r' new new' rs1 rs1' e e' hi hi' => by
      obtain rfl : rho' = rho := funext hx
      rw [hwork] at hi' ⊢
      obtain ⟨c1, c2, c3⟩ := heat_det_inLengths h hd hp hr hs hrad hnr h' hv hrho e e' hi hi'
      exact ⟨fun e => congrFun c1 e, c2, c3⟩) (files := files) (Or.inl hnr) cs
  rw [directory_rescaling] at ho'
  refine ⟨_, _, heat_run h.toHeatSound ho, heat_run h'.toHeatSound ho', h1, h2, fun hst => ?_⟩
  obtain ⟨g1, g2, g3, g4⟩ := h3 hst
  rw [directory_rescaling] at g4
  exact ⟨g1, funext g2, g4, g3⟩

/-- **C162.** The temperatures are the same in every unit of length. -/
theorem C162_same_temperatures (R : HeatSetup ι Q d nE k) (h : HeatSound R) (s : ℝ) (hs : 0 < s) (p : ℝ)
    (x : Fin nE → ℝ) (hx : ∀ e, 0 ≤ x e ∧ x e ≤ 1) :
    ∃ us, R.task.solve R.backend R.solver Material.simp R.eMinCoeff x p = .ok us ∧
      (R.task.inLengths s).solve R.backend R.solver Material.simp R.eMinCoeff x p = .ok us := by
  have := solved_alike h (R' := { R with task := R.task.inLengths s }) (inLengths_sound h hs) rfl hx hx id
    fun j u hu => warmed_inLengths_of R.task hs R.eMinCoeff p x j u hu
  simpa using this

/-! ### LogMOC -/

theorem alikeLog_inLengths (L : HeatLogSetup ι Q d nE k) (hp : ∀ q x, L.pct q x = percentile q (L.design.val.map x)) {s : ℝ} (hs : 0 < s) {rad : Config}
    (hrad : ∀ n r, Scheduled L.toCommon L.cRadius n (some r) → Scheduled L.toCommon rad n (some (s * r))) (hnr : L.restart = false)
    (hf : L.filterLagrangian = true → L.nodal = none) :
    AlikeLog (rescaling nE d s) (bareLog L.common) (bareLog (L.inLengths s rad).common) := by
  have hA := (alike_inLengths L.toCommon hp hs hrad hnr).toAlike
  have hwork := rescaling_work nE d s
  have hprice : (rescaling nE d s).price (bareLog L.common) = if L.normalizeVolumeChain then 1 else conductanceUnit d s := by
    unfold Change.price; rw [hwork]; rfl
  exact
  { toAlike := { hA with }
    gains := by rw [hprice]; exact ⟨rfl, rfl⟩
    bounds := by rw [hprice]; exact ⟨rfl, rfl⟩
    decay := ⟨rfl, rfl⟩
    clip := rfl
    percentiles := ⟨rfl, rfl⟩
    floors := by rw [hwork]; exact ⟨rfl, rfl⟩
    chain := ⟨rfl, rfl, rfl⟩
    options := ⟨rfl, rfl, rfl⟩
    filtered := fun hn => Or.inr (hf hn)
    tolKkt := rfl }

/-- A line of the LogMOC histories in the other unit of length. -/
def heatLogLine (L : HeatLogSetup ι Q d nE k) (s : ℝ) (r : LogRec) : LogRec :=
  { r with
    compliance := objectiveUnit L.task s * r.compliance
    lambdaV := (if L.normalizeVolumeChain then 1 else conductanceUnit d s) * r.lambdaV
    coeff := (if L.normalizeVolumeChain then 1 else conductanceUnit d s) * r.coeff }

theorem heatLog_det_inLengths {L : HeatLogSetup ι Q d nE k} (h : HeatLogWellPosed L) (hd : d ≤ 3)
    (hp : ∀ q x, L.pct q x = percentile q (L.design.val.map x)) (hr : L.task.robin = none ∨ L.task.objective = .averagedTemp) {s : ℝ} (hs : 0 < s) {rad : Config}
    (hrad : ∀ n r, Scheduled L.toCommon L.cRadius n (some r) → Scheduled L.toCommon rad n (some (s * r))) (hnr : L.restart = false)
    (hf : L.filterLagrangian = true → L.nodal = none)
    (h' : HeatLogWellPosed (L.inLengths s rad)) {n : ℕ} {v : Vals} (hv : ValsOk L.toCommon n v) {rho : Fin nE → ℝ}
    (hrho : ∀ e, 0 ≤ rho e ∧ rho e ≤ 1) {lam rs : ℝ} {r r' : LogRec} {new new' : Fin nE → ℝ} {rs1 rs1' : ℝ} (e : r.iter = n) (e' : r'.iter = n)
    (hi : HeatLogIteration L rho lam rs r new rs1)
    (hi' : HeatLogIteration (L.inLengths s rad) rho ((rescaling nE d s).price (bareLog L.common) * lam) (conductanceUnit d s * rs) r' new' rs1') :
    new' = new ∧ rs1' = conductanceUnit d s * rs1 ∧ r' = heatLogLine L s r := by
  have hb : Sound (bareLog L.common).toSetup := bare_sound h.toBasics h.percentages hd h.material.2
  have hb' : Sound (bareLog (L.inLengths s rad).common).toSetup := bare_sound h'.toBasics h'.percentages hd h'.material.2
  have hA := alikeLog_inLengths L hp hs hrad hnr hf
  have hwork := rescaling_work nE d s
  obtain ⟨v1, u, a1, a2, a3, a4, a5⟩ := hi
  obtain ⟨v2, w, b1, b2, b3, b4, b5⟩ := hi'
  rw [e] at a1
  rw [e'] at b1
  obtain rfl : v1 = v := allScheduled_eq hv.all a1
  have hall : AllScheduled (L.inLengths s rad).toCommon n (other (rescaling nE d s) v1) := allScheduled_alike hA.toAlike (R := bare L.toCommon) a1
  obtain rfl : v2 = other (rescaling nE d s) v1 := allScheduled_eq hall b1
  have hph : physical (L.inLengths s rad).toCommon (other (rescaling nE d s) v1) rho = physical L.toCommon v1 rho := by
    funext e
    exact physical_alike (rho := rho) (rho' := rho) hA.toAlike hb hb' (v := v1) hv.radius (fun _ => rfl) e
  have hrange := fun e => physical_range h.toBasics hv hrho e
  have hw : w = u := funext fun j => by
    refine warmed_unique h'.toHeatSound hrange (warmed_inLengths_of L.task hs L.eMinCoeff v1.p _ j (u j) (a2 j)) ?_
    have := b2 j
    rw [hph] at this
    exact this
  subst hw
  have hcol : ∀ j e, heatColumn (L.task.inLengths s) L.eMinCoeff v1.p (physical (L.inLengths s rad).toCommon (other (rescaling nE d s) v1) rho) (w j) e =
      (rescaling nE d s).work * heatColumn L.task L.eMinCoeff v1.p (physical L.toCommon v1 rho) (w j) e := by
    intro j e
    rw [hwork, hph]
    exact heatColumn_inLengths L.task hr s _ _ _ _ _
  have hchain := chained_alike hA.toAlike hb hb' (v := v1) hv.radius (rho := rho) (rho' := rho) (fun _ => rfl)
    (g := fun j => heatColumn L.task L.eMinCoeff v1.p (physical L.toCommon v1 rho) (w j))
    (g' := fun j => heatColumn (L.task.inLengths s) L.eMinCoeff v1.p (physical (L.inLengths s rad).toCommon (other (rescaling nE d s) v1) rho) (w j)) hcol
  rw [← hwork] at b5
  obtain ⟨c1, c2, c3⟩ := logStep_alike (rho := rho) (rho' := rho) hA hb hb' (v := v1) hv.radius (fun _ => rfl) hchain (e'.trans e.symm) a5 b5
  refine ⟨funext c1, by rw [c2, hwork], ?_⟩
  have hc : r'.compliance = objectiveUnit L.task s * r.compliance := by
    rw [a3, b3, hph]
    exact heatObjective_inLengths L.task hr s _ _ _ _
  have hprice : (rescaling nE d s).price (bareLog L.common) = if L.normalizeVolumeChain then 1 else conductanceUnit d s := by
    unfold Change.price; rw [hwork]; rfl
  rw [c3, hc, b4, show (other (rescaling nE d s) v1).neumannScale = v1.neumannScale from rfl, ← a4]
  unfold heatLogLine Change.logLine
  rw [hprice]

/-- **C162.** The same for new LogMOC runs. With `filter_lagrangian` the spatial filter is needed: the nodal one holds the value 1, in whatever
unit, on non-design elements. -/
theorem C162_length_units_logmoc (L : HeatLogSetup ι Q d nE k) (h : HeatLogWellPosed L) (hd : d ≤ 3)
    (hp : ∀ q x, L.pct q x = percentile q (L.design.val.map x)) (hr : L.task.robin = none ∨ L.task.objective = .averagedTemp) (s : ℝ) (hs : 0 < s) (rad : Config)
    (hrad : ∀ n r, Scheduled L.toCommon L.cRadius n (some r) → Scheduled L.toCommon rad n (some (s * r))) (hnr : L.restart = false)
    (hf : L.filterLagrangian = true → L.nodal = none) (h' : HeatLogWellPosed (L.inLengths s rad))
    (files : List (Snapshot.Name × (Fin nE → ℝ))) (cs : List Call) :
    ∃ o o', runCalls (heatLogSys L) cs (newHeatLogRun L files) = (o, .ok ()) ∧
      runCalls (heatLogSys (L.inLengths s rad)) cs (newHeatLogRun (L.inLengths s rad) files) = (o', .ok ()) ∧
      o'.started = o.started ∧ o'.completed = o.completed ∧
      (o.started = true → o'.iterNext = o.iterNext ∧ o'.world.rho = o.world.rho ∧ o'.world.files = o.world.files ∧
        o'.world.aux.1.log = o.world.aux.1.log.map (heatLogLine L s)) := by
  have hA := alikeLog_inLengths L hp hs hrad hnr hf
  have hwork := rescaling_work nE d s
  have hprice : (rescaling nE d s).price (bareLog L.common) = if L.normalizeVolumeChain then 1 else conductanceUnit d s := by
    unfold Change.price; rw [hwork]; rfl
  obtain ⟨o, o', ho, ho', h1, h2, h3⟩ := log_relabelled_by (heatLogLine L s) (fun r => ⟨rfl, rfl, by rw [hprice]; rfl⟩) hA h.toBasics h'.toBasics
    (heatLog_computes h) (heatLog_computes (L := L.inLengths s rad) h')
    (fun n v hv rho rho' hrho hx lam rs r r' new new' rs1 rs1' e e' hi hi' => by
      obtain rfl : rho' = rho := funext hx
      rw [hwork] at hi' ⊢
      obtain ⟨c1, c2, c3⟩ := heatLog_det_inLengths h hd hp hr hs hrad hnr hf h' hv hrho e e' hi hi'
      exact ⟨fun e => congrFun c1 e, c2, c3⟩) hnr files cs
  rw [directory_rescaling] at ho'
  refine ⟨_, _, heatLog_run h.toHeatSound ho, heatLog_run h'.toHeatSound ho', h1, h2, fun hst => ?_⟩
  obtain ⟨g1, g2, g3, g4⟩ := h3 hst
  rw [directory_rescaling] at g4
  exact ⟨g1, funext g2, g4, g3⟩

theorem inLengths_logWellPosed {L : HeatLogSetup ι Q d nE k} (h : HeatLogWellPosed L) (hN : L.nodal = none) {s : ℝ}
    (hs : 0 < s) {rad : Config} (hg : GoodSchedule rad (Set.Ioi 0)) : HeatLogWellPosed (L.inLengths s rad) :=
  have hκ : 0 < (if L.normalizeVolumeChain then 1 else conductanceUnit d s : ℝ) := by split_ifs; exacts [one_pos, conductanceUnit_pos d hs]
  { inLengths_sound h.toHeatSound hs with
    radius := hg
    volume := fun e => mul_pos (pow_pos hs d) (h.volume e)
    nodal := fun N hN' => by
      have : L.nodal.map _ = some N := hN'
      rw [hN] at this
      cases this
    percentages := h.percentages
    positive := h.positive
    range := mul_le_mul_of_nonneg_left h.range hκ.le
    floor := mul_pos (conductanceUnit_pos d hs) h.floor
    lagPercentile := h.lagPercentile
    chainPercentile := h.chainPercentile }

/-! ### A concrete case: metres and millimetres -/

/-- The filter radius of `coldRodsP` in millimetres. -/
def inMillimetres : Config := { initValue := some 1200, targetValue := some 1200 }

theorem millimetres_good : GoodSchedule inMillimetres (Set.Ioi 0) :=
  ⟨⟨inMillimetres, rfl⟩, by simp [inMillimetres], by simp [inMillimetres], by simp [inMillimetres], by
    simp only [inMillimetres]; rintro x (h | h) <;> simp only [Option.some.injEq] at h <;> subst h <;> simp⟩

theorem millimetres_radius (n : ℕ) (r : ℝ) (h : Scheduled coldRodsP.toCommon coldRodsP.cRadius n (some r)) :
    Scheduled coldRodsP.toCommon inMillimetres n (some (1000 * r)) := by
  have h0 : Scheduled coldRodsP.toCommon coldRodsP.cRadius n (some 1.2) := rfl
  have h1 : Scheduled coldRodsP.toCommon inMillimetres n (some 1200) := rfl
  unfold Scheduled at h h0
  rw [h0] at h
  injection h with h
  injection h with h
  subst h
  rw [show (1000 : ℝ) * 1.2 = 1200 by norm_num]
  exact h1

example := C162_length_units coldRodsP coldRodsP_wellPosed (by norm_num) (fun _ _ => rfl) (Or.inl rfl) 1000 (by norm_num) inMillimetres millimetres_radius rfl
  (inLengths_wellPosed coldRodsP_wellPosed (Or.inl rfl) rfl (by norm_num) millimetres_good) [] [.steps 2, .optimize]
/-- With Robin boundaries. -/
example := C162_length_units (rodsNumpy .averagedTemp) (rodsNumpy_wellPosed _ (by simp)) (by norm_num) (fun _ _ => rfl) (Or.inr rfl) 1000 (by norm_num)
  inMillimetres millimetres_radius rfl
  (inLengths_wellPosed (rodsNumpy_wellPosed _ (by simp)) (Or.inr rfl) rfl (by norm_num) millimetres_good) [] [.steps 2, .optimize]
example := C162_same_temperatures (rodsRun .compliance) (rodsRun_sound _) 1000 (by norm_num) 3 ![0, 1] (by intro e; fin_cases e <;> norm_num)
example := C162_length_units_logmoc (heatLogOf coldRodsP) coldLogP_wellPosed (by norm_num) (fun _ _ => rfl) (Or.inl rfl) 1000 (by norm_num) inMillimetres
  millimetres_radius rfl (fun _ => rfl) (inLengths_logWellPosed coldLogP_wellPosed rfl (by norm_num) millimetres_good) [] [.steps 2, .optimize]

end
end Verif.Run
