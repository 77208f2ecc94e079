import Verif.Lemmas.TwinScaled
import Verif.Props.HeatShift
import Verif.Spec.Percentile

/-!
C157: the units of temperature and power of a heat task. A user may give temperatures in another unit (any factor) and conductivity and film
coefficient in another one; nothing physical depends on it.
-/
namespace Verif.Run
open Verif Verif.Sched Verif.Spec Verif.Driver Verif.Heat

variable {ι Q : Type} [Fintype ι] [Fintype Q] {d nE k : ℕ}

noncomputable section
open Classical

/-- The same task with every temperature times `t` and conductivity and film coefficient times `b`: what `from_facets` (task_heat.py 171–249)
makes of the arguments in the new units. -/
def _root_.Verif.Heat.Task.inUnits (T : Task ι Q d nE k) (t b : ℝ) : Task ι Q d nE k where
  fe := T.fe
  t := T.t
  dirichlet := T.dirichlet
  values := T.values.map (t * ·)
  robin := T.robin.map fun r => (b * r.1, t * r.2)
  regions := T.regions
  bilinear := match T.robin with
    | none => T.bilinear
    | some (h, _) => T.regions.map fun G => robinForm G (b * h) none 0
  linear := match T.robin with
    | none => T.linear
    | some (h, Tenv) => T.regions.map fun G => robinLoad G (b * h) (t * Tenv) none 0
  designRobin := T.designRobin
  objective := T.objective
  avgWeight := T.avgWeight
  k := b * T.k
  q := T.q

/-- The same run in the new units; `scale_floor` and `tol_kkt` have the unit of the sensitivities (power times temperature). -/
abbrev HeatSetup.inUnits (R : HeatSetup ι Q d nE k) (t b : ℝ) : HeatSetup ι Q d nE k :=
  { R with
    task := R.task.inUnits t b
    scaleFloor := b * t ^ 2 * R.scaleFloor
    tolKkt := b * t ^ 2 * R.tolKkt }

theorem inUnits_length (T : Task ι Q d nE k) (t b : ℝ) : (T.inUnits t b).values.length = T.values.length := by simp [Task.inUnits]

theorem inUnits_built {T : Task ι Q d nE k} (t b : ℝ) (h : ∃ T0 : Task ι Q d nE k, T0.build = .ok T) :
    ∃ T0 : Task ι Q d nE k, T0.build = .ok (T.inUnits t b) := by
  obtain ⟨T0, h0⟩ := h
  refine ⟨T.inUnits t b, ?_⟩
  unfold Task.build at h0 ⊢
  rcases hr : T0.robin with _ | ⟨hh, Te⟩
  · rw [hr] at h0
    injection h0 with h0
    subst h0
    simp [Task.inUnits, hr]
  · rw [hr] at h0
    simp only [assembleRobin_one, Except.map] at h0
    injection h0 with h0
    subst h0
    simp [Task.inUnits, hr, assembleRobin_one, Except.map]

theorem inUnits_sound {R : HeatSetup ι Q d nE k} (h : HeatSound R) (t : ℝ) {b : ℝ} (hb : 0 < b) : HeatSound (R.inUnits t b) :=
  { h with
    built := inUnits_built t b h.built
    film := fun hh Te e => by
      have e' : R.task.robin.map (fun r => (b * r.1, t * r.2)) = some (hh, Te) := e
      rcases hr : R.task.robin with _ | ⟨h1, T1⟩
      · rw [hr] at e'; cases e'
      · rw [hr] at e'
        simp only [Option.map_some, Option.some.injEq, Prod.mk.injEq] at e'
        rw [← e'.1]; exact mul_nonneg hb.le (h.film _ _ hr)
    material := ⟨mul_pos hb h.material.1, h.material.2⟩
    loadCases := by
      have := h.loadCases
      simpa [Task.inUnits] using this
    regions := by
      have := h.regions
      simpa [Task.inUnits] using this
    robin := fun ho e => h.robin ho (by simpa [Task.inUnits] using e)
    nodal := fun N hN => by
      have := h.nodal N hN
      exact ⟨this.1, this.2, this.3, this.4, this.5, this.6⟩ }

omit [Fintype Q] in
theorem field_smul {B : FE ι (Fin nE) Q d} (u : ι → ℝ) (t : ℝ) (e : Fin nE) (q : Q) :
    Spec.Heat.field B (fun i => t * u i) e q = t * Spec.Heat.field B u e q := by
  unfold Spec.Heat.field
  simp only [mul_assoc, ← Finset.mul_sum]

omit [Fintype Q] in
theorem slope_smul {B : FE ι (Fin nE) Q d} (u : ι → ℝ) (t : ℝ) (e : Fin nE) (q : Q) (a : Fin d) :
    Spec.Heat.slope B (fun i => t * u i) e q a = t * Spec.Heat.slope B u e q a := by
  unfold Spec.Heat.slope
  simp only [mul_assoc, ← Finset.mul_sum]

omit [Fintype Q] in
theorem conductivity_inUnits (T : Task ι Q d nE k) (t b c p x : ℝ) : conductivity (T.inUnits t b) c p x = b * conductivity T c p x := by
  unfold conductivity
  show b * T.k * c + (b * T.k - b * T.k * c) * x ^ p = _
  ring

theorem conducted_inUnits (B : FE ι (Fin nE) Q d) (ke : Fin nE → ℝ) (t b : ℝ) (u : ι → ℝ) (i : ι) :
    Spec.Heat.conducted B (fun e => b * ke e) (fun i => t * u i) i = b * t * Spec.Heat.conducted B ke u i := by
  unfold Spec.Heat.conducted
  rw [Finset.mul_sum]
  refine Finset.sum_congr rfl fun e _ => ?_
  rw [Finset.mul_sum]
  refine Finset.sum_congr rfl fun q _ => ?_
  simp only [slope_smul, mul_assoc, ← Finset.mul_sum]
  ring

theorem losses_inUnits (B : FE ι (Fin nE) Q d) (robin : Option (ℝ × ℝ)) (regions : List (Region ι)) (p : ℝ) (m : ℕ) (t b : ℝ) (rn u : ι → ℝ) (i : ι) :
    Spec.Heat.losses B (robin.map fun r => (b * r.1, t * r.2)) regions p m rn (fun i => t * u i) i =
      b * t * Spec.Heat.losses B robin regions p m rn u i := by
  unfold Spec.Heat.losses
  rcases robin with _ | ⟨hh, Te⟩
  · exact (mul_zero _).symm
  · show (regions.map fun G => Spec.Heat.surfaceLoss G (b * hh) (t * Te) (fun i => t * u i) i).sum +
      Spec.Heat.interfaceLoss B (b * hh) (t * Te) p m rn (fun i => t * u i) i = _
    rw [mul_add]
    congr 1
    · rw [← List.sum_map_mul_left]
      congr 1
      refine List.map_congr_left fun G hG => ?_
      unfold Spec.Heat.surfaceLoss
      rw [Finset.mul_sum]
      refine Finset.sum_congr rfl fun q _ => ?_
      simp only [mul_assoc, ← Finset.mul_sum]
      ring
    · unfold Spec.Heat.interfaceLoss
      rw [Finset.mul_sum]
      refine Finset.sum_congr rfl fun e _ => ?_
      rw [Finset.mul_sum]
      refine Finset.sum_congr rfl fun q _ => ?_
      rw [field_smul]
      ring

/-- If `u` is the temperature of a load case, then `t u` is the one in the new units. -/
theorem warmed_inUnits_of (T : Task ι Q d nE k) (t b Ec p : ℝ) (x : Fin nE → ℝ) (j : Fin T.values.length) (u : ι → ℝ)
    (h : Warmed T Ec p x j u) : Warmed (T.inUnits t b) Ec p x (Fin.cast (inUnits_length T t b).symm j) (fun i => t * u i) := by
  obtain ⟨h1, h2⟩ := h
  have hv : (T.inUnits t b).values.get (Fin.cast (inUnits_length T t b).symm j) = t * T.values.get j := by
    simp only [Task.inUnits, List.get_eq_getElem, List.getElem_map]
    rfl
  refine ⟨fun i hi => ?_, fun i hi => ?_⟩
  · show t * u i = _
    rw [hv, h1 i hi]
  · have hc : (fun e => conductivity (T.inUnits t b) Ec p (x e)) = fun e => b * conductivity T Ec p (x e) := funext fun e => conductivity_inUnits T t b Ec p _
    rw [hc]
    show Spec.Heat.conducted T.fe _ (fun i => t * u i) i +
      Spec.Heat.losses T.fe (T.robin.map fun r => (b * r.1, t * r.2)) T.regions p T.q (gathered T x) (fun i => t * u i) i = 0
    rw [conducted_inUnits, losses_inUnits, ← mul_add, h2 i hi, mul_zero]

theorem warmed_inUnits {R : HeatSetup ι Q d nE k} (h : HeatSound R) (t : ℝ) {b : ℝ} (hb : 0 < b) {p : ℝ} {x : Fin nE → ℝ} (hx : ∀ e, 0 ≤ x e ∧ x e ≤ 1)
    {j : Fin R.task.values.length} {u w : ι → ℝ} (hu : Warmed R.task R.eMinCoeff p x j u)
    (hw : Warmed (R.task.inUnits t b) R.eMinCoeff p x (Fin.cast (inUnits_length R.task t b).symm j) w) : w = fun i => t * u i :=
  warmed_unique (inUnits_sound h t hb) hx (warmed_inUnits_of R.task t b R.eMinCoeff p x j u hu) hw

/-- **C157.** The temperatures change with the unit of temperature only: the analysis of any admissible densities in the new units computes
`t` times the temperatures, whatever the factor of conductivity and film coefficient. -/
theorem C157_temperature_scales (R : HeatSetup ι Q d nE k) (h : HeatSound R) (t b : ℝ) (hb : 0 < b) (p : ℝ) (x : Fin nE → ℝ) (hx : ∀ e, 0 ≤ x e ∧ x e ≤ 1) :
    ∃ us, R.task.solve R.backend R.solver Material.simp R.eMinCoeff x p = .ok us ∧
      (R.task.inUnits t b).solve R.backend R.solver Material.simp R.eMinCoeff x p = .ok (us.map fun u i => t * u i) :=
  solved_alike h (R' := R.inUnits t b) (inUnits_sound h t hb) (inUnits_length R.task t b) hx hx _ fun j u hu => warmed_inUnits_of R.task t b R.eMinCoeff p x j u hu

theorem slopeOf_inUnits {K c p x U b s : ℝ} (hK : 0 < K) (hc : c ≤ 1) (hb : 0 < b) (h1 : 1 / 10 ^ 12 ≤ K * c) (h2 : 1 / 10 ^ 12 ≤ b * K * c) :
    slopeOf (b * K) c p x (s * U) = s * slopeOf K c p x U := by
  have hx0 : 0 ≤ max x (1 / 10 ^ 6) ^ p := Real.rpow_nonneg (le_max_of_le_right (by norm_num)) _
  unfold slopeOf
  have g : 0 ≤ (K - K * c) * max x (1 / 10 ^ 6) ^ p := mul_nonneg (by nlinarith) hx0
  have g1 : 1 / 10 ^ 12 ≤ K * c + (K - K * c) * max x (1 / 10 ^ 6) ^ p := by linarith
  have e : b * K * c + (b * K - b * K * c) * max x (1 / 10 ^ 6) ^ p = b * (K * c + (K - K * c) * max x (1 / 10 ^ 6) ^ p) := by ring
  have g2 : 1 / 10 ^ 12 ≤ b * (K * c + (K - K * c) * max x (1 / 10 ^ 6) ^ p) := by
    have := mul_nonneg hb.le g
    rw [mul_add]
    linarith
  rw [e, max_eq_left g1, max_eq_left g2]
  obtain ⟨D, hD⟩ : ∃ D, D = K * c + (K - K * c) * max x (1 / 10 ^ 6) ^ p := ⟨_, rfl⟩
  rw [← hD] at g1 ⊢
  have hD0 : D ≠ 0 := by
    have : (0 : ℝ) < 1 / 10 ^ 12 := by norm_num
    linarith
  field_simp

theorem heatColumn_inUnits {T : Task ι Q d nE k} {t b Ec : ℝ} (hk : 0 < T.k) (hc : Ec ≤ 1) (hb : 0 < b) (h1 : 1 / 10 ^ 12 ≤ T.k * Ec)
    (h2 : 1 / 10 ^ 12 ≤ b * T.k * Ec) (p : ℝ) (x : Fin nE → ℝ) (u : ι → ℝ) (e : Fin nE) :
    heatColumn (T.inUnits t b) Ec p x (fun i => t * u i) e = b * t ^ 2 * heatColumn T Ec p x u e := by
  unfold heatColumn
  rw [mul_add]
  congr 1
  · rw [conductivity_inUnits]
    show slopeOf (b * T.k) Ec p (x e) ((∑ y, b * conductivity T Ec p (x e) * (∑ a, Spec.Heat.slope T.fe (fun i => t * u i) e y a ^ 2) * T.fe.dx e y) / 2) = _
    have : (∑ y, b * conductivity T Ec p (x e) * (∑ a, Spec.Heat.slope T.fe (fun i => t * u i) e y a ^ 2) * T.fe.dx e y) / 2 =
        b * t ^ 2 * ((∑ y, conductivity T Ec p (x e) * (∑ a, Spec.Heat.slope T.fe u e y a ^ 2) * T.fe.dx e y) / 2) := by
      rw [← mul_div_assoc, Finset.mul_sum]
      congr 1
      refine Finset.sum_congr rfl fun y _ => ?_
      simp only [slope_smul, mul_pow, ← Finset.mul_sum]
      ring
    rw [this, slopeOf_inUnits hk hc hb h1 h2]
  · have ho : (T.inUnits t b).objective = T.objective := rfl
    have hr' : (T.inUnits t b).robin = T.robin.map fun r => (b * r.1, t * r.2) := rfl
    rw [ho, hr']
    rcases T.objective <;> rcases T.robin with _ | ⟨hh, Te⟩ <;> simp only [Option.map_some, Option.map_none, mul_zero]
    rw [Finset.mul_sum]
    refine Finset.sum_congr rfl fun a _ => ?_
    show interfaceSlope (T.inUnits t b) (b * hh) (t * Te) p x (fun i => t * u i) (T.t a e) / valence T (T.t a e) = _
    have key : ∀ i, interfaceSlope (T.inUnits t b) (b * hh) (t * Te) p x (fun i => t * u i) i = b * t ^ 2 * interfaceSlope T hh Te p x u i := by
      intro i
      unfold interfaceSlope
      rw [Finset.mul_sum]
      refine Finset.sum_congr rfl fun e _ => ?_
      rw [Finset.mul_sum]
      refine Finset.sum_congr rfl fun y _ => ?_
      rw [show (T.inUnits t b).fe = T.fe from rfl, show (T.inUnits t b).q = T.q from rfl, show gathered (T.inUnits t b) x = gathered T x from rfl, field_smul]
      ring
    rw [key]
    ring

/-- The sensitivities of a load case change with the unit of power times temperature. -/
theorem C157_sensitivity_scales (T : Task ι Q d nE k) (hc : ∀ e, Function.Injective fun a => T.t a e) (h1 : ∀ e q, ∑ i, T.fe.val i e q = 1)
    (hk : 0 < T.k) (t b Ec : ℝ) (hE : Ec ≤ 1) (hb : 0 < b) (hfl : 1 / 10 ^ 12 ≤ T.k * Ec ∧ 1 / 10 ^ 12 ≤ b * T.k * Ec) (p : ℝ) (x : Fin nE → ℝ)
    (u : ι → ℝ) (e : Fin nE) :
    (T.inUnits t b).sensitivity Material.simp Ec x p (fun i => t * u i) e = b * t ^ 2 * T.sensitivity Material.simp Ec x p u e := by
  rw [heatColumn_eq T hc h1, heatColumn_eq (T.inUnits t b) hc h1, heatColumn_inUnits hk hE hb hfl.1 hfl.2]

theorem meanOf_mul {n : ℕ} (f : Fin n → ℝ) (c : ℝ) : meanOf (fun j => c * f j) = c * meanOf f := by
  unfold meanOf
  rw [← Finset.mul_sum, mul_div_assoc]

/-- How the recorded objective changes. -/
theorem heatObjective_inUnits {T : Task ι Q d nE k} (t b Ec p : ℝ) (x : Fin nE → ℝ)
    (u : Fin T.values.length → ι → ℝ) (w : Fin (T.inUnits t b).values.length → ι → ℝ)
    (hw : ∀ j, w (Fin.cast (inUnits_length T t b).symm j) = fun i => t * u j i) :
    (T.objective = .averagedTemp → heatObjective (T.inUnits t b) Ec p x w = t * heatObjective T Ec p x u) ∧
    (T.objective = .compliance ∨ T.objective = .heatExchange ∧ T.avgWeight = 0 →
      heatObjective (T.inUnits t b) Ec p x w = b * t ^ 2 * heatObjective T Ec p x u) := by
  have ho' : (T.inUnits t b).objective = T.objective := rfl
  have hr' : (T.inUnits t b).robin = T.robin.map fun r => (b * r.1, t * r.2) := rfl
  have hg : gathered (T.inUnits t b) x = gathered T x := rfl
  have hfe : (T.inUnits t b).fe = T.fe := rfl
  refine ⟨fun ho => ?_, ?_⟩
  · unfold heatObjective
    simp only [ho', ho]
    rw [sum_cast (inUnits_length T t b).symm (fun j => t * ∑ i, u j i) _ fun j => ?_, meanOf_mul]
    rw [hw j, Finset.mul_sum]
  · rintro (ho | ⟨ho, hz⟩)
    · unfold heatObjective
      simp only [ho', ho]
      rw [← meanOf_mul]
      refine sum_cast (inUnits_length T t b).symm _ _ fun j => ?_
      rw [hw j]
      unfold Spec.Heat.dissipated
      rw [mul_add]
      congr 1
      · rw [Finset.mul_sum]
        refine Finset.sum_congr rfl fun e _ => ?_
        rw [Finset.mul_sum]
        refine Finset.sum_congr rfl fun q _ => ?_
        simp only [conductivity_inUnits, hfe]
        simp only [slope_smul, mul_pow, ← Finset.mul_sum]
        ring
      · rw [hr', hg, hfe]
        rcases T.robin with _ | ⟨hh, Te⟩
        · exact (mul_zero _).symm
        · show (T.regions.map fun R => ∑ q, b * hh * (∑ l, t * u j l * R.val l q) ^ 2 * R.dx q).sum +
            ∑ e, ∑ q, (b * hh * Spec.Heat.field T.fe (gathered T x) e q ^ p * (1 - Spec.Heat.field T.fe (gathered T x) e q) ^ T.q) *
              Spec.Heat.steepness T.fe (gathered T x) e q * Spec.Heat.field T.fe (fun i => t * u j i) e q ^ 2 * T.fe.dx e q = _
          simp only
          rw [mul_add]
          congr 1
          · rw [← List.sum_map_mul_left]
            congr 1
            refine List.map_congr_left fun G hG => ?_
            rw [Finset.mul_sum]
            refine Finset.sum_congr rfl fun q _ => ?_
            simp only [mul_assoc, ← Finset.mul_sum]
            ring
          · rw [Finset.mul_sum]
            refine Finset.sum_congr rfl fun e _ => ?_
            rw [Finset.mul_sum]
            refine Finset.sum_congr rfl fun q _ => ?_
            rw [field_smul]
            ring
    · unfold heatObjective
      rw [ho', ho, hr', hg, hfe]
      rcases T.robin with _ | ⟨hh, Te⟩
      · exact (mul_zero _).symm
      · simp only [Option.map_some]
        have hz' : (T.inUnits t b).avgWeight = 0 := hz
        rw [if_pos hz, if_pos hz']
        split_ifs
        · exact (mul_zero _).symm
        · rw [← meanOf_mul]
          refine sum_cast (inUnits_length T t b).symm _ _ fun j => ?_
          rw [hw j]
          unfold Spec.Heat.exchanged
          rw [← mul_div_assoc]
          congr 1
          rw [Finset.mul_sum]
          refine Finset.sum_congr rfl fun e _ => ?_
          rw [Finset.mul_sum]
          refine Finset.sum_congr rfl fun q _ => ?_
          rw [field_smul]
          ring

/-- Two lines of the histories in the two systems of units: the mean sum of the temperatures has the unit of temperature; compliance,
unweighted heat exchange and KKT residual have that of power times temperature; everything else is a number. -/
def HeatInUnits (T : Task ι Q d nE k) (t b : ℝ) (r r' : Rec) : Prop :=
  r' = { r with compliance := r'.compliance, kkt := b * t ^ 2 * r.kkt } ∧
    (T.objective = .averagedTemp → r'.compliance = t * r.compliance) ∧
    (T.objective = .compliance ∨ T.objective = .heatExchange ∧ T.avgWeight = 0 → r'.compliance = b * t ^ 2 * r.compliance)

/-- The statistic used to scale sensitivities is `np.percentile` of the values on the design elements. -/
def TakesPercentile {E : Type} (R : Common E d) : Prop := ∀ q x, R.pct q x = percentile q (R.design.val.map x)

theorem _root_.Verif.Run.TakesPercentile.mul {E : Type} {R : Common E d} (h : TakesPercentile R) {w : ℝ} (hw : 0 < w) (q : ℝ) (x : E → ℝ) :
    R.pct q (fun e => w * x e) = w * R.pct q x := by
  rw [h, h, ← percentile_map hw, Multiset.map_map]
  rfl

theorem inUnits_wellPosed {R : HeatSetup ι Q d nE k} (h : HeatWellPosed R) {t b : ℝ} (ht : t ≠ 0) (hb : 0 < b) : HeatWellPosed (R.inUnits t b) :=
  { h with
    toHeatSound := inUnits_sound h.toHeatSound t hb
    percentages := h.percentages
    scaleFloor := by
      have := h.scaleFloor
      show 0 < b * t ^ 2 * R.scaleFloor
      positivity
    sign := fun ho e => h.sign ho (by simpa [Task.inUnits] using e) }

theorem heat_det_inUnits {R : HeatSetup ι Q d nE k} {t b : ℝ} (ht : t ≠ 0) (hb : 0 < b) (h : HeatSound R) (hp : TakesPercentile R.toCommon)
    (hfl : 1 / 10 ^ 12 ≤ R.task.k * R.eMinCoeff ∧ 1 / 10 ^ 12 ≤ b * R.task.k * R.eMinCoeff) {n : ℕ} {v : Vals} (hv : ValsOk R.toCommon n v)
    {rho : Fin nE → ℝ} (hrho : ∀ e, 0 ≤ rho e ∧ rho e ≤ 1) {rs : ℝ} {r r' : Rec} {new new' : Fin nE → ℝ} {rs1 rs1' : ℝ} (e : r.iter = n) (e' : r'.iter = n)
    (hi : HeatIteration R rho rs r new rs1) (hi' : HeatIteration (R.inUnits t b) rho (b * t ^ 2 * rs) r' new' rs1') :
    new' = new ∧ rs1' = b * t ^ 2 * rs1 ∧ HeatInUnits R.task t b r r' := by
  obtain ⟨v1, u, a1, a2, a3, a4, a5⟩ := hi
  obtain ⟨v2, w, b1, b2, b3, b4, b5⟩ := hi'
  rw [e] at a1
  rw [e'] at b1
  obtain rfl : v1 = v := allScheduled_eq hv.all a1
  obtain rfl : v2 = v1 := allScheduled_eq (R := R.toCommon) a1 ⟨b1.1, b1.2, b1.3, b1.4, b1.5, b1.6, b1.7, b1.8, b1.9⟩
  have hw0 : 0 < b * t ^ 2 := by positivity
  have hx := fun e => physical_range h.toBasics hv hrho e
  have hw : ∀ j, w (Fin.cast (inUnits_length R.task t b).symm j) = fun i => t * u j i := fun j => warmed_inUnits h t hb hx (a2 j) (b2 _)
  have hcol : chained (R.inUnits t b).toCommon v2 rho (fun j => heatColumn (R.inUnits t b).task R.eMinCoeff v2.p (physical (R.inUnits t b).toCommon v2 rho) (w j)) =
      fun e => b * t ^ 2 * chained R.toCommon v2 rho (fun j => heatColumn R.task R.eMinCoeff v2.p (physical R.toCommon v2 rho) (u j)) e := by
    have hsf : R.sensFilter = true → R.nodal = none := fun hf => by
      cases hN : R.nodal with
      | none => rfl
      | some N => have := (h.nodal N hN).noSensFilter; rw [hf] at this; simp at this
    rw [← chained_smul (List.length_pos_iff.mpr h.loadCases) R.toCommon hsf v2 rho hw0.le]
    refine chained_cast (R := R.toCommon) (inUnits_length R.task t b).symm _ _ fun j => ?_
    funext e
    rw [hw j]
    exact heatColumn_inUnits h.material.1 h.material.2.2 hb hfl.1 hfl.2 _ _ _ _
  have b5' : OCStep (R.toCommon.inWork (b * t ^ 2)) v2
      (chained (R.inUnits t b).toCommon v2 rho (fun j => heatColumn (R.inUnits t b).task R.eMinCoeff v2.p (physical (R.inUnits t b).toCommon v2 rho) (w j)))
      rho (b * t ^ 2 * rs) r' new' rs1' := b5
  rw [hcol] at b5'
  obtain ⟨c1, c2, c3⟩ := ocStep_inWork_unique hw0 (fun q x => hp.mul hw0 q x) (e'.trans e.symm) a5 b5'
  have hob := heatObjective_inUnits t b R.eMinCoeff v2.p (physical R.toCommon v2 rho) u w hw
  have b3' : r'.compliance = heatObjective (R.task.inUnits t b) R.eMinCoeff v2.p (physical R.toCommon v2 rho) w := b3
  refine ⟨c1, c2, by rw [c3, b4, ← a4], fun ho => ?_, fun ho => ?_⟩
  · rw [b3', a3]; exact hob.1 ho
  · rw [b3', a3]; exact hob.2 ho

/-- **C157.** A new well-posed OC run on a heat task in other units of temperature (factor `t`) and power (factor `b`), with `scale_floor` and
`tol_kkt` in the new unit: the same calls do the same iterations and stop at the same one, with the same densities and snapshots; the histories
have the same lines in the new units. -/
theorem C157_same_run (R : HeatSetup ι Q d nE k) (t b : ℝ) (ht : t ≠ 0) (hb : 0 < b) (h : HeatWellPosed R) (hp : TakesPercentile R.toCommon)
    (hfl : 1 / 10 ^ 12 ≤ R.task.k * R.eMinCoeff ∧ 1 / 10 ^ 12 ≤ b * R.task.k * R.eMinCoeff) (hnr : R.restart = false)
    (files : List (Snapshot.Name × (Fin nE → ℝ))) (cs : List Call) :
    ∃ o o', runCalls (heatSys R) cs (newHeatRun R files) = (o, .ok ()) ∧
      runCalls (heatSys (R.inUnits t b)) cs (newHeatRun (R.inUnits t b) files) = (o', .ok ()) ∧
      o'.started = o.started ∧ o'.completed = o.completed ∧
      (o.started = true → o'.iterNext = o.iterNext ∧ o'.world.rho = o.world.rho ∧ o'.world.files = o.world.files ∧
        List.Forall₂ (HeatInUnits R.task t b) o.world.aux.1.log o'.world.aux.1.log) := by
  have h' := inUnits_wellPosed h ht hb
  have hw0 : 0 < b * t ^ 2 := by positivity
  obtain ⟨o, o', ho, ho', h1, h2, h3⟩ := twin_inWork (w := b * t ^ 2) hw0 h.toBasics h'.toBasics (heat_computes h) (heat_computes (R := R.inUnits t b) h')
    (HeatInUnits R.task t b) (fun r r' hr => by rw [hr.1]; exact ⟨rfl, rfl⟩)
    (fun n v hv rho hrho rs r r' new new' rs1 rs1' e e' hi hi' => heat_det_inUnits ht hb h.toHeatSound hp hfl hv hrho e e' hi hi') hnr files cs
  exact ⟨_, _, heat_run h.toHeatSound ho, heat_run h'.toHeatSound ho', h1, h2, fun hs => ⟨(h3 hs).1, (h3 hs).2.1, (h3 hs).2.2.2, (h3 hs).2.2.1⟩⟩

/-! ### LogMOC -/

/-- The same LogMOC run in the new units: the scale floor has the unit of the sensitivities, and so have the gains and bounds of the
multiplier unless the volume term is normalized. -/
abbrev HeatLogSetup.inUnits (L : HeatLogSetup ι Q d nE k) (t b : ℝ) : HeatLogSetup ι Q d nE k :=
  { L with
    task := L.task.inUnits t b
    lagScaleFloor := b * t ^ 2 * L.lagScaleFloor
    muP := (if L.normalizeVolumeChain then 1 else b * t ^ 2) * L.muP
    alMu := (if L.normalizeVolumeChain then 1 else b * t ^ 2) * L.alMu
    lambdaLower := (if L.normalizeVolumeChain then 1 else b * t ^ 2) * L.lambdaLower
    lambdaUpper := (if L.normalizeVolumeChain then 1 else b * t ^ 2) * L.lambdaUpper }

theorem inUnits_logSound {L : HeatLogSetup ι Q d nE k} (h : HeatSound L.toHeatSetup) (t : ℝ) {b : ℝ} (hb : 0 < b) :
    HeatSound (L.inUnits t b).toHeatSetup :=
  { inUnits_sound h t hb with
    nodal := fun N hN => by
      have := h.nodal N hN
      exact ⟨this.1, this.2, this.3, this.4, this.5, this.6⟩ }

theorem inUnits_logWellPosed {L : HeatLogSetup ι Q d nE k} (h : HeatLogWellPosed L) {t b : ℝ} (ht : t ≠ 0) (hb : 0 < b) :
    HeatLogWellPosed (L.inUnits t b) :=
  have hw0 : 0 < b * t ^ 2 := by positivity
  { h with
    toHeatSound := inUnits_logSound h.toHeatSound t hb
    percentages := h.percentages
    range := mul_le_mul_of_nonneg_left h.range (price_inWork_pos L.common hw0).le
    floor := mul_pos hw0 h.floor }

/-- Two lines of the LogMOC histories in the two systems of units. -/
def HeatLogInUnits (L : HeatLogSetup ι Q d nE k) (t b : ℝ) (r r' : LogRec) : Prop :=
  r' = { r with
    compliance := r'.compliance
    lambdaV := (if L.normalizeVolumeChain then 1 else b * t ^ 2) * r.lambdaV
    coeff := (if L.normalizeVolumeChain then 1 else b * t ^ 2) * r.coeff } ∧
    (L.task.objective = .averagedTemp → r'.compliance = t * r.compliance) ∧
    (L.task.objective = .compliance ∨ L.task.objective = .heatExchange ∧ L.task.avgWeight = 0 → r'.compliance = b * t ^ 2 * r.compliance)

theorem heatLog_det_inUnits {L : HeatLogSetup ι Q d nE k} {t b : ℝ} (ht : t ≠ 0) (hb : 0 < b) (h : HeatSound L.toHeatSetup) (hp : TakesPercentile L.toCommon)
    (hf : L.filterLagrangian = true → L.nodal = none)
    (hfl : 1 / 10 ^ 12 ≤ L.task.k * L.eMinCoeff ∧ 1 / 10 ^ 12 ≤ b * L.task.k * L.eMinCoeff) {n : ℕ} {v : Vals} (hv : ValsOk L.toCommon n v)
    {rho : Fin nE → ℝ} (hrho : ∀ e, 0 ≤ rho e ∧ rho e ≤ 1) {lam rs : ℝ} {r r' : LogRec} {new new' : Fin nE → ℝ} {rs1 rs1' : ℝ} (e : r.iter = n) (e' : r'.iter = n)
    (hi : HeatLogIteration L rho lam rs r new rs1)
    (hi' : HeatLogIteration (L.inUnits t b) rho (L.common.price (b * t ^ 2) * lam) (b * t ^ 2 * rs) r' new' rs1') :
    new' = new ∧ rs1' = b * t ^ 2 * rs1 ∧ HeatLogInUnits L t b r r' := by
  obtain ⟨v1, u, a1, a2, a3, a4, a5⟩ := hi
  obtain ⟨v2, w, b1, b2, b3, b4, b5⟩ := hi'
  rw [e] at a1
  rw [e'] at b1
  obtain rfl : v1 = v := allScheduled_eq hv.all a1
  obtain rfl : v2 = v1 := allScheduled_eq (R := L.toCommon) a1 ⟨b1.1, b1.2, b1.3, b1.4, b1.5, b1.6, b1.7, b1.8, b1.9⟩
  have hw0 : 0 < b * t ^ 2 := by positivity
  have hx := fun e => physical_range h.toBasics hv hrho e
  have hw : ∀ j, w (Fin.cast (inUnits_length L.task t b).symm j) = fun i => t * u j i := fun j =>
    warmed_inUnits (R := L.toHeatSetup) h t hb hx (a2 j) (b2 _)
  have hcol : chained (L.inUnits t b).toCommon v2 rho (fun j => heatColumn (L.inUnits t b).task L.eMinCoeff v2.p (physical (L.inUnits t b).toCommon v2 rho) (w j)) =
      fun e => b * t ^ 2 * chained L.toCommon v2 rho (fun j => heatColumn L.task L.eMinCoeff v2.p (physical L.toCommon v2 rho) (u j)) e := by
    have hsf : L.sensFilter = true → L.nodal = none := fun hf => by
      cases hN : L.nodal with
      | none => rfl
      | some N => have := (h.nodal N hN).noSensFilter; rw [hf] at this; simp at this
    rw [← chained_smul (List.length_pos_iff.mpr h.loadCases) L.toCommon hsf v2 rho hw0.le]
    refine chained_cast (R := L.toCommon) (inUnits_length L.task t b).symm _ _ fun j => ?_
    funext e
    rw [hw j]
    exact heatColumn_inUnits h.material.1 h.material.2.2 hb hfl.1 hfl.2 _ _ _ _
  have b5' : LogStep (L.common.inWork (b * t ^ 2)) v2
      (chained (L.inUnits t b).toCommon v2 rho (fun j => heatColumn (L.inUnits t b).task L.eMinCoeff v2.p (physical (L.inUnits t b).toCommon v2 rho) (w j)))
      rho (L.common.price (b * t ^ 2) * lam) (b * t ^ 2 * rs) r' new' rs1' := b5
  rw [hcol] at b5'
  have a5' := logStep_inWork (L := L.common) hw0 (fun q x => hp.mul hw0 q x) hf a5
  obtain ⟨c1, c2, c3⟩ := logStep_unique (r := { r with
    lambdaV := L.common.price (b * t ^ 2) * r.lambdaV, coeff := L.common.price (b * t ^ 2) * r.coeff }) (e'.trans e.symm) a5' b5'
  have hob := heatObjective_inUnits t b L.eMinCoeff v2.p (physical L.toCommon v2 rho) u w hw
  have b3' : r'.compliance = heatObjective (L.task.inUnits t b) L.eMinCoeff v2.p (physical L.toCommon v2 rho) w := b3
  refine ⟨c1, c2, by rw [c3, b4, ← a4]; rfl, fun ho => ?_, fun ho => ?_⟩
  · rw [b3', a3]; exact hob.1 ho
  · rw [b3', a3]; exact hob.2 ho

/-- **C157.** The same for new LogMOC runs. With `filter_lagrangian` the spatial filter is needed: the nodal one holds the value 1, in whatever
unit, on non-design elements. -/
theorem C157_same_run_logmoc (L : HeatLogSetup ι Q d nE k) (t b : ℝ) (ht : t ≠ 0) (hb : 0 < b) (h : HeatLogWellPosed L) (hp : TakesPercentile L.toCommon)
    (hf : L.filterLagrangian = true → L.nodal = none)
    (hfl : 1 / 10 ^ 12 ≤ L.task.k * L.eMinCoeff ∧ 1 / 10 ^ 12 ≤ b * L.task.k * L.eMinCoeff) (hnr : L.restart = false)
    (files : List (Snapshot.Name × (Fin nE → ℝ))) (cs : List Call) :
    ∃ o o', runCalls (heatLogSys L) cs (newHeatLogRun L files) = (o, .ok ()) ∧
      runCalls (heatLogSys (L.inUnits t b)) cs (newHeatLogRun (L.inUnits t b) files) = (o', .ok ()) ∧
      o'.started = o.started ∧ o'.completed = o.completed ∧
      (o.started = true → o'.iterNext = o.iterNext ∧ o'.world.rho = o.world.rho ∧ o'.world.files = o.world.files ∧
        List.Forall₂ (HeatLogInUnits L t b) o.world.aux.1.log o'.world.aux.1.log) := by
  have h' := inUnits_logWellPosed h ht hb
  obtain ⟨o, o', ho, ho', h1, h2, h3⟩ := log_twin_inWork (L := L.common) (w := b * t ^ 2) h.toBasics h'.toBasics (heatLog_computes h)
    (heatLog_computes (L := L.inUnits t b) h') (HeatLogInUnits L t b) (fun r r' hr => by rw [hr.1]; exact ⟨rfl, rfl, rfl⟩)
    (fun n v hv rho hrho lam rs r r' new new' rs1 rs1' e e' hi hi' => heatLog_det_inUnits ht hb h.toHeatSound hp hf hfl hv hrho e e' hi hi') hnr files cs
  exact ⟨_, _, heatLog_run h.toHeatSound ho, heatLog_run h'.toHeatSound ho', h1, h2,
    fun hs => ⟨(h3 hs).1, (h3 hs).2.1, (h3 hs).2.2.2, (h3 hs).2.2.1⟩⟩

/-! ### Concrete cases -/

/-- The two rods with the statistic of NumPy. -/
def rodsNumpy (obj : Objective) : HeatSetup (Fin 3) (Fin 1) 1 2 2 :=
  { rodsRun obj with pct := fun q x => percentile q ((rodsRun obj).design.val.map x) }

theorem rodsNumpy_takes (obj : Objective) : TakesPercentile (rodsNumpy obj).toCommon := fun _ _ => rfl

theorem rodsNumpy_wellPosed (obj : Objective) (ho : obj ≠ .compliance) : HeatWellPosed (rodsNumpy obj) :=
  let h := rodsRun_wellPosed obj ho
  { h with
    nodal := by simp [rodsNumpy, rodsRun]
    percentages := h.percentages
    sign := fun e => absurd e ho }

example := C157_temperature_scales (rodsRun .compliance) (rodsRun_sound _) 1000 1000 (by norm_num) 3 ![0, 1] (by intro e; fin_cases e <;> norm_num)
/-- Millidegrees and milliwatts. -/
example := C157_same_run (rodsNumpy .averagedTemp) 1000 1000 (by norm_num) (by norm_num) (rodsNumpy_wellPosed _ (by simp)) (rodsNumpy_takes _)
  (by norm_num [rodsNumpy, rodsRun, rodsTask]) rfl [] [.steps 2, .optimize]
example := C157_same_run_logmoc (heatLogOf (rodsNumpy .averagedTemp)) 1000 1000 (by norm_num) (by norm_num)
  (let h := rodsLog_wellPosed .averagedTemp
   { h with
     nodal := by simp [heatLogOf, rodsNumpy, rodsRun]
     percentages := h.percentages }) (rodsNumpy_takes _) (fun _ => rfl)
  (by norm_num [heatLogOf, rodsNumpy, rodsRun, rodsTask]) rfl [] [.steps 2, .optimize]

end
end Verif.Run
