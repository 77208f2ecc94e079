import Verif.Lemmas.RunScaled
import Verif.Props.Alike
import Verif.Props.RunRamp
import Verif.Props.FinalMesh

/-! C110: `scaling=True`, "for improved numerical conditioning", should only change the units. -/
namespace Verif.Run
open Verif Verif.Sched Verif.Spec Verif.Driver

variable {ι E Q : Type} [Fintype ι] [Fintype E] [Fintype Q] {d m : ℕ}

noncomputable section
open Classical

/-- **C110.** An OC run with `scaling=True` whose scaled problem is well-posed works as in C78: no call raises, densities stay admissible.
It computes what the documented algorithm computes for the problem the user posed, with the filter radius multiplied by the
largest edge `L` of the bounding box, and with compliance and sensitivities in other units (for one load case, the sensitivities are also
divided by the number of degrees of freedom). Missing from the English claim: that the filter radius is the configured one, which
`C110_scaling_changes_the_filter` shows to be false. -/
theorem C110_scaled_run_partial [Nonempty ι] (R : Setup ι E Q d m) (L : ℝ) (hL : 0 < L) (h : WellPosed (scaledSetup R L)) (hnr : R.restart = false)
    (files : List (Snapshot.Name × (E → ℝ))) (cs : List Call) :
    ∃ o, runCalls (scaledSys R L) cs (newRun (scaledSetup R L).toCommon files) = (o, .ok ()) ∧
      (o.started = true →
        (∀ e ∈ R.design, R.rhoMin ≤ o.world.rho e ∧ ((∃ s, R.pinned = some s ∧ e ∉ s) → o.world.rho e ≤ R.rhoMax)) ∧
        (∀ s, R.pinned = some s → ∀ e ∈ s, o.world.rho e = 1) ∧
        1 ≤ o.iterNext ∧ o.iterNext ≤ R.maxIters + 1 ∧
        o.world.aux.log.map Rec.iter = List.range' 1 (o.iterNext - 1) ∧
        (∀ r ∈ o.world.aux.log, 0 ≤ r.compliance ∧
          ∃ ml, valueOf (.ok { R.cMoveLimit with itersMax := some (R.maxIters : ℤ) }) r.iter = .ok (some ml) ∧
            0 ≤ r.rhoChange ∧ r.rhoChange ≤ ml) ∧
        ∃ rho0 rs, InitialDensities R.toCommon rho0 ∧ Reached (ScaledIteration R L) rho0 0 [] o.world.rho rs o.world.aux.log) ∧
      (o.completed = true → o.iterNext = R.maxIters + 1 ∨
        (R.checkConvergence = true ∧ ∃ r, o.world.aux.log.getLast? = some r ∧ r.rhoChange < R.tolRho ∧ |r.kkt| < R.tolKkt)) := by
  obtain ⟨o, h1, h2, h3⟩ := well_posed_by h.toBasics (scaled_computes hL h) hnr files cs
  obtain ⟨o', h4, h5⟩ := refines_by h.toBasics (scaled_computes hL h) hnr files cs
  have : o' = o := by rw [h1] at h4; exact (Prod.mk.inj h4).1.symm
  subst this
  refine ⟨o', h1, fun hst => ?_, h3⟩
  obtain ⟨a1, a2, a3, a4, a5, a6⟩ := h2 hst
  exact ⟨a1, a2, a3, a4, a5, a6, (h5 hst).2⟩

/-- **C110.** `optimize` completes such a run. -/
theorem C110_optimize_completes [Nonempty ι] (R : Setup ι E Q d m) (L : ℝ) (hL : 0 < L) (h : WellPosed (scaledSetup R L)) (hnr : R.restart = false)
    (files : List (Snapshot.Name × (E → ℝ))) :
    ∃ o, optimize (scaledSys R L) (newRun (scaledSetup R L).toCommon files) = (o, .ok ()) ∧ o.completed = true ∧
      (R.checkConvergence = false → o.world.aux.log.map Rec.iter = List.range' 1 R.maxIters) :=
  optimize_by h.toBasics (scaled_computes hL h) hnr files

/-! ### The same run without scaling -/

/-- A line of the histories of a run with scaling, in the units of the problem. -/
def unscaledLine (R : Setup ι E Q d m) (L : ℝ) (r : Rec) : Rec :=
  { r with
    compliance := r.compliance / scaledWork d L
    kkt := r.kkt / scaledSens d m (Fintype.card ι) L }

/-- The configuration without scaling that gives the same designs: another filter radius, and the two absolute tolerances (and the
histories to be continued) in the units of the problem. -/
def withoutScaling (R : Setup ι E Q d m) (L : ℝ) (radius : Config) : Setup ι E Q d m :=
  { R with
    cRadius := radius
    scaleFloor := R.scaleFloor / scaledSens d m (Fintype.card ι) L
    tolKkt := R.tolKkt / scaledSens d m (Fintype.card ι) L
    saved := R.saved.map (List.map (unscaledLine R L)) }

theorem greatest_div {S : Set E} {f g : E → ℝ} {x a : ℝ} (ha : 0 < a) (hf : ∀ e, f e = a * g e) (h : IsGreatest (f '' S) x) :
    IsGreatest (g '' S) (x / a) := by
  obtain ⟨⟨e, he, rfl⟩, h2⟩ := h
  refine ⟨⟨e, he, by rw [hf]; field_simp⟩, ?_⟩
  rintro y ⟨e', he', rfl⟩
  have := h2 ⟨e', he', rfl⟩
  rw [hf e', hf e] at this
  rw [hf e, mul_div_cancel_left₀ _ ha.ne']
  exact le_of_mul_le_mul_left this ha

theorem bracket_without (R : Setup ι E Q d m) (L : ℝ) (radius : Config) (F : ℝ → ℝ) :
    ∀ n, bracket (withoutScaling R L radius).toCommon F n = bracket R.toCommon F n
  | 0 => rfl
  | n + 1 => by unfold bracket; rw [bracket_without R L radius F n]

theorem bisected_without {R : Setup ι E Q d m} {L : ℝ} {radius : Config} {F : ℝ → ℝ} {l : ℝ} (h : Bisected R.toCommon F l) :
    Bisected (withoutScaling R L radius).toCommon F l := by
  unfold Bisected Enough middle at h ⊢
  simp only [bracket_without]
  exact h

/-- An iteration with scaling is one without, with a larger filter radius. -/
theorem iteration_unscaled [Nonempty ι] {R : Setup ι E Q d m} (hp : UsesPercentile R) {L : ℝ} (hL : 0 < L) {radius : Config}
    (hrad : ∀ k r, Scheduled R.toCommon R.cRadius k (some r) → Scheduled R.toCommon radius k (some (L * r)))
    {rho : E → ℝ} {rs : ℝ} {r : Rec} {rho' : E → ℝ} {rs' : ℝ} (h : ScaledIteration R L rho rs r rho' rs') :
    Iteration (withoutScaling R L radius) rho (rs / scaledSens d m (Fintype.card ι) L) (unscaledLine R L r) rho'
      (rs' / scaledSens d m (Fintype.card ι) L) := by
  obtain ⟨v, u, i1, i2, i3, i4, s, i5, i6, i7, i8, i9, i10, i11, i12, i13⟩ := h
  have hw := scaledWork_pos (d := d) hL
  obtain ⟨a, ha⟩ : ∃ a, a = scaledSens d m (Fintype.card ι) L := ⟨_, rfl⟩
  have ha0 : 0 < a := ha ▸ scaledSens_pos hL
  obtain ⟨g, hg⟩ : ∃ g, g = gradient R (widened L v) rho u := ⟨_, rfl⟩
  rw [← ha, ← hg] at i5 i6 i8 i9 i10 i12 i13
  rw [← ha]
  have hgr : gradient (withoutScaling R L radius) (widened L v) rho u = g := hg.symm ▸ rfl
  have hq : ∀ e, a * g e / rs' = g e / (rs' / a) := by
    intro e
    rw [div_div_eq_mul_div, mul_comm]
  simp only [hq] at i8 i9 i10 i12 i13
  refine ⟨widened L v, u, ⟨i1.p, i1.volFrac, i1.moveLimit, i1.beta, i1.percentile, hrad _ _ i1.radius, i1.neumannScale, i1.eta, i1.etaConst⟩, i2, ?_, i4,
    s / a, fun hn => ?_, fun q hq => ?_, ?_, ?_, ?_, ?_, i11, fun he => ?_, fun he => ?_⟩
  · show r.compliance / scaledWork d L = _
    rw [i3, mul_div_cancel_left₀ _ hw.ne']
    rfl
  · rw [hgr]
    exact greatest_div ha0 (fun e => by rw [abs_mul, abs_of_pos ha0]) (i5 hn)
  · rw [hgr, i6 q hq]
    show R.pct q _ / a = R.pct q _
    have := percentile_alike hp q a (fun e => |g e|) (fun e => |a * g e|) ha0 fun e _ => by rw [abs_mul, abs_of_pos ha0]
    rw [this, mul_div_cancel_left₀ _ ha0.ne']
  · show rs' / a = if r.iter ≤ 1 then max (s / a) (R.scaleFloor / scaledSens d m (Fintype.card ι) L) else
      0.6 * (rs / a) + 0.4 * max (s / a) (R.scaleFloor / scaledSens d m (Fintype.card ι) L)
    rw [← ha, max_div_div_right ha0.le, i7]
    split_ifs
    · rfl
    · ring
  · rw [hgr]
    exact bisected_without i8
  · rw [hgr]
    exact i9
  · rw [hgr]
    exact i10
  · rw [hgr] at he
    show r.kkt / _ = 0
    rw [i12 he, zero_div]
  · rw [hgr] at he ⊢
    show IsGreatest _ (r.kkt / scaledSens d m (Fintype.card ι) L)
    rw [← ha]
    refine greatest_div ha0 (fun e => ?_) (i13 he)
    show |a * g e + r.lmid * rs' * (R.volume e / ∑ e' ∈ R.design, R.volume e')| = a * |g e + r.lmid * (rs' / a) * (R.volume e / ∑ e' ∈ R.design, R.volume e')|
    rw [← abs_of_pos ha0, ← abs_mul, abs_of_pos ha0]
    congr 1
    field_simp

/-- The relation between the run with scaling and the run without. -/
structure InUnits (R : Setup ι E Q d m) (L : ℝ) (radius : Config) (rho0 : E → ℝ) (log0 log0' : List Rec)
    (w w' : World E ℝ (State E d)) : Prop where
  inv : InvBy (scaledSetup R L).toCommon (ScaledIteration R L) (0 ≤ ·) rho0 log0 w
  inv' : InvBy (withoutScaling R L radius).toCommon (Iteration (withoutScaling R L radius)) (0 ≤ ·) rho0 log0' w'
  rho : w'.rho = w.rho
  scale : w'.aux.runningScale = w.aux.runningScale / scaledSens d m (Fintype.card ι) L
  log : w'.aux.log = w.aux.log.map (unscaledLine R L)
  files : w'.files = w.files

theorem iteration_unique {R : Setup ι E Q d m} (hp : UsesPercentile R) (hw : WellPosed R) {k : ℕ} {v0 : Vals} (hv0 : ValsOk R.toCommon k v0)
    {rho : E → ℝ} (hrho : ∀ e, 0 ≤ rho e ∧ rho e ≤ 1) {rs : ℝ} {r r' : Rec} {new new' : E → ℝ} {rs1 rs1' : ℝ} (hk : r.iter = k) (hk' : r'.iter = k)
    (hi : Iteration R rho rs r new rs1) (hi' : Iteration R rho rs r' new' rs1') : new' = new ∧ rs1' = rs1 ∧ r' = r := by
  have hA := alike_same_mesh (R := R) hp (Equiv.refl _) (fun _ => 1) (a := 1) (b := 1) (fun _ => Or.inl rfl) one_ne_zero one_pos (Or.inl rfl)
    R.loads (fun j i => by simp) (E1 := R.E0) (sf := R.scaleFloor) (tk := R.tolKkt) (by simp) (by simp) (by simp) (Or.inl ⟨rfl, rfl⟩)
  have hwork : (1 : ℝ) ^ 2 / (1 * 1) = 1 := by norm_num
  obtain ⟨h1, h2, h3⟩ := iteration_alike hA hw.toSound hw.toSound hv0 hrho (rho' := rho) (fun e => rfl) hk hk' hi (rs1' := rs1') (by
    unfold Change.work
    rw [hwork, one_mul]
    exact hi')
  refine ⟨funext h1, ?_, ?_⟩
  · rw [h2]
    unfold Change.work
    rw [hwork, one_mul]
  · rw [h3, line_id (by unfold Change.work; exact hwork)]
    rfl

theorem sim_units [Nonempty ι] {R : Setup ι E Q d m} (hp : UsesPercentile R) {L : ℝ} (hL : 0 < L) {radius : Config}
    (hrad : ∀ k r, Scheduled R.toCommon R.cRadius k (some r) → Scheduled R.toCommon radius k (some (L * r)))
    (hw : WellPosed (scaledSetup R L)) (hw' : WellPosed (withoutScaling R L radius)) {files : List (Snapshot.Name × (E → ℝ))} {k0 : ℕ}
    {rho0 : E → ℝ} (hok : RhoOk (scaledSetup R L).toCommon rho0) (hok' : RhoOk (withoutScaling R L radius).toCommon rho0)
    (hz : initializeDensity (scaledSys R L) files = .ok (rho0, k0 + 1))
    (hz' : initializeDensity (sys (withoutScaling R L radius)) files = .ok (rho0, k0 + 1)) :
    Sim (scaledSys R L) (sys (withoutScaling R L radius))
      (fun w w' => Inv0 (scaledSetup R L).toCommon files w ∧ Inv0 (withoutScaling R L radius).toCommon files w')
      (fun _ => InUnits R L radius rho0 (if R.restart then R.saved.getD [] else [])
        (if R.restart then (R.saved.map (List.map (unscaledLine R L))).getD [] else [])) := by
  obtain ⟨a, ha⟩ : ∃ a, a = scaledSens d m (Fintype.card ι) L := ⟨_, rfl⟩
  have ha0 : 0 < a := ha ▸ scaledSens_pos hL
  refine ⟨rfl, ?_, ?_, fun k w w' hW => ⟨⟨hW.1.1, hW.1.2, hW.1.3, hW.1.4, hW.1.5, hW.1.6⟩,
    ⟨hW.2.1, hW.2.2, hW.2.3, hW.2.4, hW.2.5, hW.2.6⟩, hW.3, hW.4, hW.5, hW.6⟩⟩
  · rintro o o' hs hs' ⟨hN, hN'⟩
    obtain ⟨x, e, e1, e2, e3⟩ := run_init_by hw.toBasics _ (ScaledIteration R L) (0 ≤ ·) rfl hz hok o hs hN
    obtain ⟨x', e', e1', e2', e3'⟩ := run_init_by hw'.toBasics _ (Iteration (withoutScaling R L radius)) (0 ≤ ·) rfl hz' hok' o' hs' hN'
    refine ⟨_, _, e, e', rfl, ⟨e3, e3', rfl, ?_, ?_, rfl⟩, by show 1 ≤ k0 + 1; omega⟩
    · show x'.runningScale = x.runningScale / _
      rw [e2, e2', zero_div]
    · show x'.log = x.log.map (unscaledLine R L)
      rw [e1, e1']
      show (if R.restart then (R.saved.map (List.map (unscaledLine R L))).getD [] else []) = List.map _ (if R.restart then R.saved.getD [] else [])
      by_cases hr : R.restart = true
      · rw [if_pos hr, if_pos hr]
        cases R.saved <;> rfl
      · rw [if_neg hr, if_neg hr]; rfl
  · intro b k w w' hk1 hk2 hW
    obtain ⟨r, new, x, fs, cv, e1, e2, e3, e4, e5, e6, e7⟩ := run_iteration_by hw.toBasics (scaled_computes hL hw) b k w hW.inv
    obtain ⟨r', new', x', fs', cv', f1, f2, f3, f4, f5, f6, f7⟩ := run_iteration_by hw'.toBasics (step_computes hw') b k w' hW.inv'
    obtain ⟨v, -, hv⟩ := hW.inv'.ready w'.aux rfl k
    have e5' := iteration_unscaled hp hL hrad e5
    rw [hW.scale, hW.rho] at f5
    have hp' : UsesPercentile (withoutScaling R L radius) := hp
    obtain ⟨g1, g2, g3⟩ := iteration_unique hp' hw' hv (hW.rho ▸ hW.inv'.rho.unit) (r := unscaledLine R L r) e3 f3 e5' f5
    have hcv : cv' = cv := by
      have : cv' = true ↔ cv = true := by
        rw [e6, f6, g3]
        show _ ∧ r.rhoChange < R.tolRho ∧ |r.kkt / scaledSens d m (Fintype.card ι) L| < R.tolKkt / scaledSens d m (Fintype.card ι) L ↔ _
        rw [← ha, abs_div, abs_of_pos ha0, div_lt_div_iff_of_pos_right ha0]
        rfl
      cases cv <;> cases cv' <;> simp_all
    refine ⟨_, _, cv, e1, hcv ▸ f1, e2, f2, g1, g2, ?_, ?_⟩
    · show x'.log = x.log.map _
      rw [e4, f4, hW.log, g3, List.map_append]; rfl
    · show fs' = fs
      rw [e7, f7, hcv, hW.files, g1]
      rfl

/-- **C110.** Running with `scaling=True` is running the problem the user posed, with another filter: whatever calls of `optimize` and
`optimize_steps` a program makes on the two, started from the same directory, they do the same iterations, stop at the same one, and have
the same densities and snapshots; the recorded histories are the same in the respective units. The run without scaling has the two absolute
constants `scale_floor` and `tol_kkt` in its units, and a filter radius `L` times as large. -/
theorem C110_same_designs [Nonempty ι] (R : Setup ι E Q d m) (hp : UsesPercentile R) (L : ℝ) (hL : 0 < L) (radius : Config)
    (hrad : ∀ k r, Scheduled R.toCommon R.cRadius k (some r) → Scheduled R.toCommon radius k (some (L * r)))
    (hw : WellPosed (scaledSetup R L)) (hw' : WellPosed (withoutScaling R L radius)) (files : List (Snapshot.Name × (E → ℝ)))
    (hst : CanStart R.toCommon files) (cs : List Call) :
    ∃ o o', runCalls (scaledSys R L) cs (newRun (scaledSetup R L).toCommon files) = (o, .ok ()) ∧
      runCalls (sys (withoutScaling R L radius)) cs (newRun (withoutScaling R L radius).toCommon files) = (o', .ok ()) ∧
      o'.started = o.started ∧ o'.completed = o.completed ∧
      (o.started = true → o'.iterNext = o.iterNext ∧ o'.world.rho = o.world.rho ∧
        o'.world.aux.log = o.world.aux.log.map (unscaledLine R L) ∧ o'.world.files = o.world.files) := by
  obtain ⟨k0, rho0, hok, hok', hz, hz'⟩ : ∃ k0 rho0, RhoOk (scaledSetup R L).toCommon rho0 ∧ RhoOk (withoutScaling R L radius).toCommon rho0 ∧
      initializeDensity (scaledSys R L) files = .ok (rho0, k0 + 1) ∧
      initializeDensity (sys (withoutScaling R L radius)) files = .ok (rho0, k0 + 1) := by
    rcases hst with hn | ⟨k, data, hr, hk, hd⟩
    · obtain ⟨rho0, -, hok, hz⟩ := init_new hw.toBasics hn _ files
      exact ⟨0, rho0, hok, ⟨hok.1, hok.2, hok.3, hok.4⟩, hz, hz⟩
    · obtain ⟨hok, hz⟩ := init_resumed hw.toBasics _ hr hd
      exact ⟨k, _, hok, ⟨hok.1, hok.2, hok.3, hok.4⟩, hz, hz⟩
  obtain ⟨o, o', ho, ho', h1, h2, -, h4⟩ := (sim_units hp hL hrad hw hw' hok hok' hz hz').calls cs (newRun (scaledSetup R L).toCommon files)
    (newRun (withoutScaling R L radius).toCommon files)
    ⟨rfl, rfl, fun _ => ⟨⟨rfl, rfl, fits_filter0 _, rfl, rfl, rfl, rfl⟩, ⟨rfl, rfl, fits_filter0 _, rfl, rfl, rfl, rfl⟩⟩,
      fun hf => by simp [newRun, fresh] at hf⟩
  refine ⟨o, o', ho, ho', h1, h2, fun hs => ?_⟩
  obtain ⟨h5, h6, -⟩ := h4 hs
  exact ⟨h5, h6.rho, h6.log, h6.files⟩

/-- With the spatial filter, scaling keeps a problem well-posed. -/
theorem wellPosed_scaled {R : Setup ι E Q d m} (h : WellPosed R) (hN : R.nodal = none) {L : ℝ} (hL : 0 < L) : WellPosed (scaledSetup R L) :=
  { h with
    weights := fun e q => by
      have := h.weights e q
      show 0 < (1 / L) ^ d * R.fe.dx e q
      positivity
    supports := fun u hu hs => h.supports u hu fun e q => by
      have h1 : Elastic.sym (Elastic.gradOf (scaledSetup R L).fe u e q) = L • Elastic.sym (Elastic.gradOf R.fe u e q) := by
        have : Elastic.gradOf (scaledSetup R L).fe u e q = L • Elastic.gradOf R.fe u e q := by
          unfold Elastic.gradOf
          rw [Finset.smul_sum]
          exact Finset.sum_congr rfl fun i _ => smul_comm _ _ _
        rw [this]
        unfold Elastic.sym
        rw [Matrix.transpose_smul, ← smul_add, smul_comm]
      have h2 := hs e q
      rw [h1] at h2
      exact (smul_eq_zero.1 h2).resolve_left hL.ne'
    nodal := fun N hN' => by
      have : (scaledSetup R L).toCommon.nodal = none := by
        show R.nodal.map _ = none
        rw [hN]; rfl
      rw [this] at hN'
      cases hN' }

/-! ### The filter radius is not converted -/

theorem first_line_by {R : Common E d} (h : Basics R) {st : ℕ → (E → ℝ) → State E d → State E d × Res (E → ℝ)}
    {It : (E → ℝ) → ℝ → Rec → (E → ℝ) → ℝ → Prop} {G : ℝ → Prop} (hst : Computes R st It G) (hnr : R.restart = false) (h1 : R.maxIters = 1)
    (hcc : R.checkConvergence = false) (files : List (Snapshot.Name × (E → ℝ))) :
    ∃ o, optimize (sysWith R st) (newRun R files) = (o, .ok ()) ∧ ∃ r rho0 rho' rs', o.world.aux.log = [r] ∧ r.iter = 1 ∧
      InitialDensities R rho0 ∧ It rho0 0 r rho' rs' := by
  obtain ⟨o, ho, hc, hlog⟩ := optimize_by h hst hnr files
  have hrun : runCalls (sysWith R st) [.optimize] (newRun R files) = (o, .ok ()) := by
    simp only [runCalls, Call.run]
    rw [ho]
  have hr : Reachable (sysWith R st) o := by
    have := Reachable.call .optimize (Reachable.fresh (S := sysWith R st) (newRun R files).world.rho (newRun R files).world.aux files)
    simp only [Call.run] at this
    have h2 : optimize (sysWith R st) (fresh (newRun R files).world.rho (newRun R files).world.aux files) = (o, .ok ()) := ho
    rw [h2] at this
    exact this
  have hs := completed_started hr hc
  obtain ⟨o2, h4, h5⟩ := refines_by h hst hnr files [.optimize]
  have e2 : o2 = o := by rw [h4] at hrun; exact (Prod.mk.inj hrun).1
  subst e2
  obtain ⟨-, rho0, rs, hinit, hcont⟩ := h5 hs
  have hlog := hlog hcc
  rw [h1] at hlog
  refine ⟨o2, ho, ?_⟩
  obtain ⟨log, hl⟩ : ∃ l, l = o2.world.aux.log := ⟨_, rfl⟩
  rw [← hl] at hlog hcont ⊢
  generalize o2.world.rho = rho1 at hcont
  cases hcont with
  | refl => simp at hlog
  | @next rho rs1 log1 h r rho' rs' hi =>
    cases h with
    | refl => exact ⟨r, rho0, _, _, rfl, by simpa using hlog, hinit, hi⟩
    | next h' hi' =>
      have := congrArg List.length hlog
      simp at this

/-- The chain 0–1–2–3 of one-metre elements; the piece between 2 and 3 is pinned, the load acts where it begins; the filter radius is half a
metre, less than the distance between two elements. -/
def chainNarrow : Setup (Fin 4) (Fin 3) (Fin 1) 1 2 := { chainRun with
  maxIters := 1
  recordTimes := 1
  cP := { initValue := some 3, targetValue := some 3 }
  cBeta := { initValue := some 2, targetValue := some 2 }
  cRadius := { initValue := some (1 / 2), targetValue := some (1 / 2) }
  design := Finset.univ
  loads := fun j i => if i = 2 then (if j = 0 then 1 else 2) else 0
  pct := fun q x => percentile q ((Finset.univ : Finset (Fin 3)).val.map x)
  checkConvergence := false }

theorem chainNarrow_wellPosed : WellPosed chainNarrow :=
  let h := chainRun_wellPosed
  { h with
    record := by simp [chainNarrow]
    p := ⟨⟨chainNarrow.cP, rfl⟩, by simp [chainNarrow], by simp [chainNarrow], by simp [chainNarrow], by
      simp only [chainNarrow]; rintro x (h | h) <;> simp only [Option.some.injEq] at h <;> subst h <;> simp⟩
    beta := ⟨⟨chainNarrow.cBeta, rfl⟩, by simp [chainNarrow], by simp [chainNarrow], by simp [chainNarrow], by
      simp only [chainNarrow]; rintro x (h | h) <;> simp only [Option.some.injEq] at h <;> subst h <;> simp⟩
    radius := ⟨⟨chainNarrow.cRadius, rfl⟩, by simp [chainNarrow], by simp [chainNarrow], by simp [chainNarrow], by
      simp only [chainNarrow]; rintro x (h | h) <;> simp only [Option.some.injEq] at h <;> subst h <;> simp <;> norm_num⟩
    percentages := by
      intro k q hq
      have h0 : Scheduled chainNarrow.toCommon chainNarrow.cPercentile k none := rfl
      unfold Scheduled at hq h0
      rw [h0] at hq
      injection hq with h1
      cases h1
    design := ⟨0, by simp [chainNarrow]⟩
    separate := by simp [chainNarrow, chainRun]
    nodal := by simp [chainNarrow, chainRun] }

theorem chainNarrow_percentile : UsesPercentile chainNarrow := fun _ _ => rfl

/-- How far the loaded node moves. -/
theorem chain_pulled {Em : Fin 3 → ℝ} (hE : ∀ e, 0 < Em e) {F : ℝ} {f u : Fin 4 → ℝ} (hf : ∀ i, f i = if i = 2 then F else 0)
    (hu : Displaced chainNarrow Em f u) : u 2 = F / (0.3 / (1.3 * 0.4) + 1 / 1.3) * (1 / Em 0 + 1 / Em 1) := by
  have hd : chainNarrow.dirichlet = {0} := rfl
  have hwork : ∀ u w e, innerWork chainNarrow Em u w e = innerWork chainSolid Em u w e := fun _ _ _ => rfl
  have h0 : u 0 = 0 := hu.1 0 (by rw [hd]; simp)
  have e0 := hu.2 (fun i => if i = 0 then 0 else 1) (by rw [hd]; simp)
  have e1 := hu.2 (fun i => if i = 0 ∨ i = 1 then 0 else 1) (by rw [hd]; simp)
  simp only [hwork, chain_work, Fin.sum_univ_three, Fin.sum_univ_four, hf] at e0 e1
  simp [Fin.ext_iff] at e0 e1
  have c0 := hE 0
  have c1 := hE 1
  rw [h0] at e0
  norm_num at e0 e1 ⊢
  field_simp at e0 e1 ⊢
  nlinarith

theorem chainNarrow_dist (i j : Fin 3) : dist (chainNarrow.toCommon.centers j) (chainNarrow.toCommon.centers i) = |((j : ℕ) : ℝ) - ((i : ℕ) : ℝ)| := by
  show dist (WithLp.toLp 2 fun _ : Fin 1 => ((j : ℕ) : ℝ)) (WithLp.toLp 2 fun _ : Fin 1 => ((i : ℕ) : ℝ)) = _
  rw [EuclideanSpace.dist_eq]
  simp [Real.dist_eq, Real.sqrt_sq_eq_abs]

theorem chainNarrow_blur (x : Fin 3 → ℝ) (r : ℝ) (i : Fin 3) : blur chainNarrow.toCommon r x i =
    (bell chainNarrow.toCommon r i 0 * x 0 + bell chainNarrow.toCommon r i 1 * x 1 + bell chainNarrow.toCommon r i 2 * x 2) /
      (bell chainNarrow.toCommon r i 0 + bell chainNarrow.toCommon r i 1 + bell chainNarrow.toCommon r i 2) := by
  unfold blur share
  have h1 : chainNarrow.toCommon.nodal = none := rfl
  have h2 : chainNarrow.toCommon.design = Finset.univ := rfl
  rw [h1, h2]
  simp only [Finset.mem_univ, if_true, Fin.sum_univ_three]
  ring

theorem chainNarrow_blur_nonneg {x : Fin 3 → ℝ} {r : ℝ} (h0 : 0 ≤ x 0 ∧ x 0 ≤ 1) (h1 : 0 ≤ x 1 ∧ x 1 ≤ 1) (h2 : 0 ≤ x 2 ∧ x 2 ≤ 1) (i : Fin 3) :
    0 ≤ blur chainNarrow.toCommon r x i ∧ blur chainNarrow.toCommon r x i ≤ 1 := by
  have hb : ∀ j, 0 ≤ bell chainNarrow.toCommon r i j := by
    intro j
    unfold bell
    split_ifs
    exacts [(Real.exp_pos _).le, le_rfl]
  have g0 := hb 0
  have g1 := hb 1
  have g2 := hb 2
  rw [chainNarrow_blur]
  obtain ⟨p0, q0⟩ := h0
  obtain ⟨p1, q1⟩ := h1
  obtain ⟨p2, q2⟩ := h2
  refine ⟨by positivity, div_le_one_of_le₀ ?_ (by positivity)⟩
  have := mul_le_of_le_one_right g0 q0
  have := mul_le_of_le_one_right g1 q1
  have := mul_le_of_le_one_right g2 q2
  linarith

theorem threshold_nonneg {b h x : ℝ} (hb : 0 < b) (hx : 0 ≤ x ∧ x ≤ 1) : 0 ≤ threshold b h x := by
  rw [← threshold_eq, (Props.C23_inplace_agree _ _ _).1]
  exact ((Props.C22_heaviside_range_and_monotone b h hb).1 _ hx.1 hx.2).1

theorem chainNarrow_initial {rho0 : Fin 3 → ℝ} (h : InitialDensities chainNarrow.toCommon rho0) : rho0 0 = 0.4 ∧ rho0 1 = 0.4 ∧ rho0 2 = 1 := by
  obtain ⟨x, hx, h⟩ := h
  have hx' : (0.4 : ℝ) = x := by
    have : InitialValue chainNarrow.cVolFrac x := hx
    unfold InitialValue at this
    rw [if_pos (Or.inl (show chainNarrow.cVolFrac.schedType = "Constant" from rfl))] at this
    injection this
  have hn : ∀ e : Fin 3, e ≠ 2 → ¬ (Pinned chainNarrow.toCommon e ∨ e ∈ chainNarrow.fixed) := by
    rintro e he (hp | hp)
    · have := hp {2} rfl
      simp at this
      exact he this
    · simp [chainNarrow, chainRun] at hp
  have hy : Pinned chainNarrow.toCommon 2 := by
    intro s hs
    have : s = {2} := by
      have : (some {2} : Option (Finset (Fin 3))) = some s := hs
      injection this with this
      exact this.symm
    rw [this]; simp
  refine ⟨?_, ?_, ?_⟩
  · rw [h, if_neg (hn 0 (by decide)), ← hx']
    norm_num [chainNarrow, chainRun]
  · rw [h, if_neg (hn 1 (by decide)), ← hx']
    norm_num [chainNarrow, chainRun]
  · rw [h, if_pos (Or.inl hy)]

/-- **C110.** Scaling does change more than units: a well-posed run (spatial filter, radius half a metre on a three-metre bar of one-metre
elements, so that the filter does nothing) that records, with `scaling=True`, a compliance strictly smaller than without, in the same
units: the radius is taken to be half the length of the bar's box instead. -/
theorem C110_scaling_changes_the_filter (files : List (Snapshot.Name × (Fin 3 → ℝ))) :
    WellPosed chainNarrow ∧ WellPosed (scaledSetup chainNarrow 3) ∧
      ∃ o o' r r', optimize (sys chainNarrow) (newRun chainNarrow.toCommon files) = (o, .ok ()) ∧
        optimize (scaledSys chainNarrow 3) (newRun (scaledSetup chainNarrow 3).toCommon files) = (o', .ok ()) ∧
        o.world.aux.log = [r] ∧ o'.world.aux.log = [r'] ∧ r'.compliance / scaledWork 1 3 < r.compliance := by
  have hw' : WellPosed (scaledSetup chainNarrow 3) := wellPosed_scaled chainNarrow_wellPosed rfl (by norm_num)
  refine ⟨chainNarrow_wellPosed, hw', ?_⟩
  have hinst : instDecidableEqFin 3 = fun a b => propDecidable (a = b) := Subsingleton.elim _ _
  rw [hinst]
  obtain ⟨o, ho, r, rho0, rho1, rs1, hl, hk, hinit, v, u, i1, i2, i3, -⟩ :=
    first_line_by chainNarrow_wellPosed.toBasics (step_computes chainNarrow_wellPosed) rfl rfl rfl files
  obtain ⟨o', ho', r', rho0', rho1', rs1', hl', hk', hinit', v', u', j1, j2, j3, -⟩ :=
    first_line_by hw'.toBasics (scaled_computes (by norm_num) hw') rfl rfl rfl files
  refine ⟨o, o', r, r', ho, ho', hl, hl', ?_⟩
  have key : ∀ {x y : ℝ}, (Except.ok (some x) : Res (Option ℝ)) = .ok (some y) → x = y := by
    intro x y h
    injection h with h
    injection h
  have hp : (3 : ℝ) = v.p := key i1.p
  have hb : (2 : ℝ) = v.beta := key i1.beta
  have hr : (1 / 2 : ℝ) = v.radius := key i1.radius
  have hns : (1 : ℝ) = v.neumannScale := key i1.neumannScale
  have hp' : (3 : ℝ) = v'.p := key j1.p
  have hb' : (2 : ℝ) = v'.beta := key j1.beta
  have hr' : (1 / 2 : ℝ) = v'.radius := key j1.radius
  have hns' : (1 : ℝ) = v'.neumannScale := key j1.neumannScale
  obtain ⟨a0, a1, a2⟩ := chainNarrow_initial hinit
  obtain ⟨b0, b1, b2⟩ := chainNarrow_initial hinit'
  -- the filtered densities
  have hw3 := scaledWork_pos (d := 1) (L := 3) (by norm_num)
  have bellv : ∀ (ρ : ℝ) (i j : Fin 3), bell chainNarrow.toCommon ρ i j =
      if |((j : ℕ) : ℝ) - ((i : ℕ) : ℝ)| ≤ ρ then Real.exp (-(3 * |((j : ℕ) : ℝ) - ((i : ℕ) : ℝ)| / ρ) ^ 2 / 2) else 0 := by
    intro ρ i j
    unfold bell
    rw [chainNarrow_dist]
  have hx0 : blur chainNarrow.toCommon v.radius rho0 0 = 0.4 := by
    rw [chainNarrow_blur, ← hr, a0, a1, a2]
    simp only [bellv]
    norm_num
  have hx1 : blur chainNarrow.toCommon v.radius rho0 1 = 0.4 := by
    rw [chainNarrow_blur, ← hr, a0, a1, a2]
    simp only [bellv]
    norm_num
  have hy0 : blur chainNarrow.toCommon (widened 3 v').radius rho0' 0 = 0.4 := by
    rw [chainNarrow_blur, show (widened 3 v').radius = 3 * v'.radius from rfl, ← hr', b0, b1, b2]
    simp only [bellv]
    norm_num
    have := Real.exp_pos (-2)
    field_simp
  have hy1 : 0.4 < blur chainNarrow.toCommon (widened 3 v').radius rho0' 1 := by
    rw [chainNarrow_blur, show (widened 3 v').radius = 3 * v'.radius from rfl, ← hr', b0, b1, b2]
    simp only [bellv]
    norm_num
    have := Real.exp_pos (-2)
    rw [lt_div_iff₀ (by positivity)]
    linarith
  have hq0 : physical chainNarrow.toCommon (widened 3 v') rho0' 0 = physical chainNarrow.toCommon v rho0 0 := by
    unfold physical
    rw [hx0, hy0, show (widened 3 v').beta = v'.beta from rfl, ← hb, ← hb']
  have hq1 : physical chainNarrow.toCommon v rho0 1 < physical chainNarrow.toCommon (widened 3 v') rho0' 1 := by
    unfold physical threshold
    rw [hx1, show (widened 3 v').beta = v'.beta from rfl, ← hb, ← hb', show chainNarrow.toCommon.betaEta = 1 / 2 from rfl]
    have ht := half_lt_tanh (x := 2 * (1 / 2)) (by norm_num)
    have ht' := half_lt_tanh (x := 2 * (1 - 1 / 2)) (by norm_num)
    refine div_lt_div_of_pos_right ?_ (by positivity)
    have := Projection.tanh_strictMono (show 2 * (0.4 - 1 / 2) < 2 * (blur chainNarrow.toCommon (widened 3 v').radius rho0' 1 - 1 / 2) by linarith)
    linarith
  have hq : ∀ e, 0 ≤ physical chainNarrow.toCommon v rho0 e := fun e => by
    have hbr := chainNarrow_blur_nonneg (r := v.radius) (x := rho0) (by rw [a0]; norm_num) (by rw [a1]; norm_num) (by rw [a2]; norm_num) e
    unfold physical
    exact threshold_nonneg (by rw [← hb]; norm_num) hbr
  have hq' : ∀ e, 0 ≤ physical chainNarrow.toCommon (widened 3 v') rho0' e := fun e => by
    have hbr := chainNarrow_blur_nonneg (r := (widened 3 v').radius) (x := rho0') (by rw [b0]; norm_num) (by rw [b1]; norm_num) (by rw [b2]; norm_num) e
    unfold physical
    exact threshold_nonneg (by rw [show (widened 3 v').beta = v'.beta from rfl, ← hb']; norm_num) hbr
  have hyp : ∀ x : ℝ, 0 ≤ x → 0 < young chainNarrow 3 x := by
    intro x hx
    unfold young
    have : (0 : ℝ) ≤ x ^ (3 : ℝ) := Real.rpow_nonneg hx _
    have h1 : chainNarrow.E0 = 210 := rfl
    have h2 : chainNarrow.eMinCoeff = 1 / 1000 := rfl
    rw [h1, h2]
    norm_num
    positivity
  have hym : ∀ x y : ℝ, 0 ≤ x → x < y → young chainNarrow 3 x < young chainNarrow 3 y := by
    intro x y hx hxy
    unfold young
    have : x ^ (3 : ℝ) < y ^ (3 : ℝ) := Real.rpow_lt_rpow hx hxy (by norm_num)
    have h1 : chainNarrow.E0 = 210 := rfl
    have h2 : chainNarrow.eMinCoeff = 1 / 1000 := rfl
    rw [h1, h2]
    linarith
  have hload : ∀ (ns : ℝ) (_ : 1 = ns) (u : Fin 2 → Fin 4 → ℝ), ∑ j, ∑ i, chainNarrow.loads j i * ns * u j i = u 0 2 + 2 * u 1 2 := by
    rintro ns rfl u
    have hl : ∀ j i, chainNarrow.loads j i = if i = 2 then (if j = 0 then 1 else 2) else 0 := fun _ _ => rfl
    simp [hl, Fin.sum_univ_two, Fin.sum_univ_four]
  rw [j3, mul_div_cancel_left₀ _ hw3.ne', i3, hload _ hns, hload _ hns']
  have hu : ∀ j : Fin 2, u j 2 = (if j = 0 then 1 else 2) / (0.3 / (1.3 * 0.4) + 1 / 1.3) *
      (1 / young chainNarrow v.p (physical chainNarrow.toCommon v rho0 0) + 1 / young chainNarrow v.p (physical chainNarrow.toCommon v rho0 1)) := by
    intro j
    exact chain_pulled (fun e => by rw [← hp]; exact hyp _ (hq e)) (fun i => by
      rw [← hns]
      show (if i = 2 then (if j = 0 then (1 : ℝ) else 2) else 0) * 1 = _
      rw [mul_one]) (i2 j)
  have hu' : ∀ j : Fin 2, u' j 2 = (if j = 0 then 1 else 2) / (0.3 / (1.3 * 0.4) + 1 / 1.3) *
      (1 / young chainNarrow v'.p (physical chainNarrow.toCommon (widened 3 v') rho0' 0) +
        1 / young chainNarrow v'.p (physical chainNarrow.toCommon (widened 3 v') rho0' 1)) := by
    intro j
    exact chain_pulled (fun e => by rw [← hp']; exact hyp _ (hq' e)) (fun i => by
      rw [← hns']
      show (if i = 2 then (if j = 0 then (1 : ℝ) else 2) else 0) * 1 = _
      rw [mul_one]) (j2 j)
  rw [hu 0, hu 1, hu' 0, hu' 1, hq0, ← hp, ← hp']
  have h1 := one_div_lt_one_div_of_lt (hyp _ (hq 1)) (hym _ _ (hq 1) hq1)
  simp only [if_true, show (1 : Fin 2) ≠ 0 by decide, if_false]
  norm_num
  norm_num at h1
  linarith

/-- Non-vacuity of the other theorems of C110: this bar with scaling, and with the radius three times as large without. -/
example := C110_scaled_run_partial chainNarrow 3 (by norm_num) (wellPosed_scaled chainNarrow_wellPosed rfl (by norm_num)) rfl [] [.steps 3, .optimize]

theorem chainWide_wellPosed :
    WellPosed (withoutScaling chainNarrow 3 { initValue := some (3 * (1 / 2)), targetValue := some (3 * (1 / 2)) }) :=
  let h := chainNarrow_wellPosed
  { h with
    scaleFloor := by
      have := scaledSens_pos (ι := Fin 4) (d := 1) (m := 2) (L := 3) (by norm_num)
      have := h.scaleFloor
      show 0 < chainNarrow.scaleFloor / _
      positivity
    radius := ⟨⟨{ initValue := some (3 * (1 / 2)), targetValue := some (3 * (1 / 2)) }, rfl⟩, by simp [withoutScaling], by simp [withoutScaling], by simp [withoutScaling], by
      simp only [withoutScaling]; rintro x (h | h) <;> simp only [Option.some.injEq] at h <;> subst h <;> norm_num⟩
    nodal := by simp [withoutScaling, chainNarrow, chainRun] }

example := C110_same_designs chainNarrow chainNarrow_percentile 3 (by norm_num) { initValue := some (3 * (1 / 2)), targetValue := some (3 * (1 / 2)) }
  (fun k r h => by
    have h0 : Scheduled chainNarrow.toCommon chainNarrow.cRadius k (some (1 / 2)) := rfl
    have := scheduled_unique h0 h
    injection this with this
    rw [← this]
    rfl) (wellPosed_scaled chainNarrow_wellPosed rfl (by norm_num)) chainWide_wellPosed [] (Or.inl rfl) [.steps 3, .optimize]

end
end Verif.Run
