import Verif.Lemmas.AlikeLog
import Verif.Props.Alike

/-!
C99: what a complete LogMOC run computes does not depend on how the problem is described, and symmetric problems give symmetric designs.
-/
namespace Verif.Run
open Verif Verif.Sched Verif.Spec Verif.Driver

noncomputable section
open Classical

variable {ι E Q ι' E' Q' : Type} [Fintype ι] [Fintype E] [Fintype Q] [Fintype ι'] [Fintype E'] [Fintype Q'] {d d' m : ℕ}
variable {c : Change ι E ι' E' m} {L : LogSetup ι E Q d m} {L' : LogSetup ι' E' Q' d' m}

/-- The relation between the two runs before iteration `k`. -/
structure LogTogether (c : Change ι E ι' E' m) (L : LogSetup ι E Q d m) (L' : LogSetup ι' E' Q' d' m) (rho0 : E → ℝ) (rho0' : E' → ℝ)
    (k : ℕ) (w : World E ℝ (LogState E d)) (w' : World E' ℝ (LogState E' d')) : Prop where
  inv : LogInv L.common (LogIteration L) (0 ≤ ·) rho0 0 0 k w
  inv' : LogInv L'.common (LogIteration L') (0 ≤ ·) rho0' 0 0 k w'
  rho : ∀ e, w'.rho (c.element e) = w.rho e
  memory : 1 < k → w'.aux.st.lambdaV = c.price L * w.aux.st.lambdaV ∧
    ∃ rs, w.aux.st.runningScale = some rs ∧ w'.aux.st.runningScale = some (c.work * rs)
  log : w'.aux.log = w.aux.log.map (c.logLine L)
  files : w'.files = c.directory w.files

theorem sim_log (h : AlikeLog c L L') (hw : LogWellPosed L) (hw' : LogWellPosed L') (hnr : L.restart = false)
    {files : List (Snapshot.Name × (E → ℝ))} {rho0 : E → ℝ} {rho0' : E' → ℝ} (hok : RhoOk L.toCommon rho0) (hok' : RhoOk L'.toCommon rho0')
    (hz : initializeDensity (logSys L) files = .ok (rho0, 0 + 1))
    (hz' : initializeDensity (logSys L') (c.directory files) = .ok (rho0', 0 + 1)) (hx : ∀ e, rho0' (c.element e) = rho0 e) :
    Sim (logSys L) (logSys L') (fun w w' => LogInv0 L.common files w ∧ LogInv0 L'.common (c.directory files) w') (LogTogether c L L' rho0 rho0') := by
  have hA := h.toAlike
  refine ⟨hA.iters.1, ?_, ?_, fun k w w' hW => ⟨⟨hW.1.1, hW.1.2, hW.1.3, hW.1.4, hW.1.5, hW.1.6, hW.1.7⟩,
    ⟨hW.2.1, hW.2.2, hW.2.3, hW.2.4, hW.2.5, hW.2.6, hW.2.7⟩, hW.3, hW.4, hW.5, hW.6⟩⟩
  · rintro o o' hs hs' ⟨hN, hN'⟩
    obtain ⟨x, e, e1, e2⟩ := log_init hw.toBasics (logStep_computes hw) hnr hz hok 0 0 o hs hN
    obtain ⟨x', e', e1', e2'⟩ := log_init hw'.toBasics (logStep_computes hw') (by rw [hA.restart.1]; exact hnr) hz' hok' 0 0 o' hs' hN'
    refine ⟨_, _, e, e', rfl, ⟨e2, e2', hx, fun hk => by simp at hk, ?_, rfl⟩, by show 1 ≤ 0 + 1; omega⟩
    show x'.log = x.log.map _
    rw [e1, e1']; rfl
  · intro b k w w' hk1 hk2 hW
    obtain ⟨r, new, x, fs, cv, rs, e1, e2, e3, e4, e5, e6, e7, e8, e9⟩ := log_iteration hw.toBasics (logStep_computes hw) b k w hW.inv
    obtain ⟨r', new', x', fs', cv', rs', f1, f2, f3, f4, f5, f6, f7, f8, f9⟩ := log_iteration hw'.toBasics (logStep_computes hw') b k w' hW.inv'
    obtain ⟨v, -, hv⟩ := hW.inv.ready w.aux.base rfl k
    have hmem : ∃ lam r0, (1 < k → lam = w.aux.st.lambdaV ∧ w.aux.st.runningScale = some r0) ∧
        (1 < k → c.price L * lam = w'.aux.st.lambdaV ∧ w'.aux.st.runningScale = some (c.work * r0)) := by
      by_cases hk : 1 < k
      · obtain ⟨m1, r0, m2, m3⟩ := hW.memory hk
        exact ⟨w.aux.st.lambdaV, r0, fun _ => ⟨rfl, m2⟩, fun _ => ⟨m1.symm, m3⟩⟩
      · exact ⟨0, 0, fun hn => absurd hn hk, fun hn => absurd hn hk⟩
    obtain ⟨lam, r0, m1, m2⟩ := hmem
    obtain ⟨g1, g2, g3⟩ := logIteration_alike h hw.toSound hw'.toSound hv hW.inv.rho.unit hW.rho e3 f3 (e5 lam r0 m1)
      (f5 (c.price L * lam) (c.work * r0) m2)
    have hcv : cv' = cv := by
      have : cv' = true ↔ cv = true := by
        rw [e8, f8, g3, hA.convergence.1, hA.convergence.2, h.tolKkt]
        rfl
      cases cv <;> cases cv' <;> simp_all
    refine ⟨_, _, cv, e1, hcv ▸ f1, e2, f2, g1, fun _ => ⟨?_, rs, e7, ?_⟩, ?_, ?_⟩
    · show x'.st.lambdaV = _ * x.st.lambdaV
      rw [e6, f6, g3]; rfl
    · show x'.st.runningScale = _
      rw [f7, g2]
    · show x'.log = x.log.map _
      rw [e4, f4, hW.log, g3, List.map_append]; rfl
    · show fs' = c.directory fs
      rw [e9, f9, hcv, hA.iters.1, hA.iters.2]
      split_ifs
      · rw [save_directory, hW.files, designPart_alike hA g1]
      · exact hW.files

/-- **C99.** Two descriptions of the same well-posed LogMOC problem (see `Verif.Spec.Alike`): whatever calls of `optimize` and
`optimize_steps` a program makes in a new run, none raises in either description; both runs do the same iterations and stop at the same
one, with the same density for corresponding elements and the same lines in the histories, in the respective units. -/
theorem C99_same_run (c : Change ι E ι' E' m) (L : LogSetup ι E Q d m) (L' : LogSetup ι' E' Q' d' m) (h : AlikeLog c L L')
    (hw : LogWellPosed L) (hw' : LogWellPosed L') (hnr : L.restart = false) (files : List (Snapshot.Name × (E → ℝ))) (cs : List Call) :
    ∃ o o', runCalls (logSys L) cs (newLogRun L.common files) = (o, .ok ()) ∧
      runCalls (logSys L') cs (newLogRun L'.common (c.directory files)) = (o', .ok ()) ∧
      o'.started = o.started ∧ o'.completed = o.completed ∧
      (o.started = true → o'.iterNext = o.iterNext ∧ (∀ e, o'.world.rho (c.element e) = o.world.rho e) ∧
        o'.world.aux.log = o.world.aux.log.map (c.logLine L) ∧ o'.world.files = c.directory o.world.files) := by
  obtain ⟨rho0, ⟨y, hy, hi⟩, hok, hz⟩ := init_new hw.toBasics hnr (fun _ _ x => (x, .error .valueError)) files
  obtain ⟨rho0', ⟨y', hy', hi'⟩, hok', hz'⟩ := init_new hw'.toBasics (by rw [h.restart.1]; exact hnr) (fun _ _ x => (x, .error .valueError)) (c.directory files)
  have hx : ∀ e, rho0' (c.element e) = rho0 e := by
    intro e
    rw [h.volFrac] at hy'
    have := initialValue_unique hy hy'
    subst this
    rw [hi, hi', h.box.1, h.box.2]
    simp only [h.pinned, h.fixed]
  obtain ⟨o, o', ho, ho', h1, h2, -, h4⟩ := (sim_log h hw hw' hnr hok hok' hz hz' hx).calls cs (newLogRun L.common files)
    (newLogRun L'.common (c.directory files))
    ⟨rfl, rfl, fun _ => ⟨⟨rfl, rfl, fits_filter0 L.toCommon, rfl, rfl, rfl⟩, ⟨rfl, rfl, fits_filter0 L'.toCommon, rfl, rfl, rfl⟩⟩,
      fun hf => by simp [newLogRun, fresh] at hf⟩
  refine ⟨o, o', ho, ho', h1, h2, fun hs => ?_⟩
  obtain ⟨h5, h6, -⟩ := h4 hs
  exact ⟨h5, h6.rho, h6.log, h6.files⟩

/-- **C99, symmetry.** A symmetric problem gives a symmetric design. -/
theorem C99_symmetric_design (c : Change ι E ι E m) (L : LogSetup ι E Q d m) (h : AlikeLog c L L) (hw : LogWellPosed L)
    (hnr : L.restart = false) (files : List (Snapshot.Name × (E → ℝ))) (hfiles : c.directory files = files) (cs : List Call) :
    ∃ o, runCalls (logSys L) cs (newLogRun L.common files) = (o, .ok ()) ∧ (o.started = true → ∀ e, o.world.rho (c.element e) = o.world.rho e) := by
  obtain ⟨o, o', ho, ho', -, -, h1⟩ := C99_same_run c L L h hw hw hnr files cs
  rw [hfiles, ho] at ho'
  simp only [Prod.mk.injEq, and_true] at ho'
  subst ho'
  exact ⟨o, ho, fun hs => (h1 hs).2.1⟩

/-! ### Special cases -/

theorem alikeLog_unit {c : Change ι E ι E m} {L : LogSetup ι E Q d m} {R' : Setup ι E Q d m} (h : Alike c L.toSetup R') (hc : c.work = 1)
    (hb : R'.lambdaLower = L.lambdaLower ∧ R'.lambdaUpper = L.lambdaUpper) (ht : R'.tolKkt = L.tolKkt) :
    AlikeLog c L { L with toSetup := R' } := by
  have hp : c.price L = 1 := by unfold Change.price; rw [hc, ite_self]
  exact
  { toAlike := h
    gains := by rw [hp, one_mul, one_mul]; exact ⟨rfl, rfl⟩
    bounds := by rw [hp, one_mul, one_mul]; exact hb
    decay := ⟨rfl, rfl⟩
    clip := rfl
    percentiles := ⟨rfl, rfl⟩
    floors := by rw [hc, one_mul]; exact ⟨rfl, rfl⟩
    chain := ⟨rfl, rfl, rfl⟩
    options := ⟨rfl, rfl, rfl⟩
    filtered := fun _ => Or.inl hc
    tolKkt := ht }

theorem logLine_id {c : Change ι E ι' E' m} {L : LogSetup ι E Q d m} (h : c.work = 1) : c.logLine L = id := by
  funext r
  simp [Change.logLine, Change.price, h]

/-- **C99, load cases.** Whatever the order and the directions in which the load cases are given, the run is the same. -/
theorem C99_load_cases (L : LogSetup ι E Q d m) (h : LogWellPosed L) (hp : UsesPercentile L.toSetup) (hnr : L.restart = false)
    (order : Equiv.Perm (Fin m)) (back : Finset (Fin m)) (files : List (Snapshot.Name × (E → ℝ))) (cs : List Call) :
    ∃ o o', runCalls (logSys L) cs (newLogRun L.common files) = (o, .ok ()) ∧
      runCalls (logSys { L with toSetup := reversed (reordered L.toSetup order) back }) cs
        (newLogRun { L with toSetup := reversed (reordered L.toSetup order) back : LogSetup ι E Q d m }.common files) = (o', .ok ()) ∧
      o'.started = o.started ∧ o'.completed = o.completed ∧
      (o.started = true → o'.iterNext = o.iterNext ∧ o'.world.rho = o.world.rho ∧ o'.world.aux.log = o.world.aux.log ∧
        o'.world.files = o.world.files) := by
  have hA := alike_same_mesh hp order.symm (fun j => if order.symm j ∈ back then -1 else 1)
    (fun j => by by_cases hj : order.symm j ∈ back <;> simp [hj]) one_ne_zero one_pos (Or.inl rfl)
    (fun j i => if j ∈ back then -L.loads (order j) i else L.loads (order j) i)
    (fun j i => by by_cases hj : order.symm j ∈ back <;> simp [hj]) (E1 := L.E0) (sf := L.scaleFloor) (tk := L.tolKkt) (by simp) (by simp)
    (by simp) (Or.inl ⟨rfl, rfl⟩)
  obtain ⟨c, hc⟩ : ∃ c : Change ι E ι E m, c = {
      element := Equiv.refl E
      motion := LinearEquiv.refl ℝ (ι → ℝ)
      case := order.symm
      sign := fun j => if order.symm j ∈ back then -1 else 1 } := ⟨_, rfl⟩
  have hA' : Alike c L.toSetup (reversed (reordered L.toSetup order) back) := by
    rw [hc]
    exact hA.toAlike
  have hc1 : c.work = 1 := by rw [hc]; simp [Change.work]
  have hce : c.element = Equiv.refl E := by rw [hc]
  have hw' : LogWellPosed { L with toSetup := reversed (reordered L.toSetup order) back } :=
    { h with toSound := { h.toSound with nodal := fun N hN => { h.nodal N hN with } } }
  obtain ⟨o, o', h1, h2, h3, h4, h5⟩ := C99_same_run c L _ (alikeLog_unit hA' hc1 ⟨rfl, rfl⟩ rfl) h hw' hnr files cs
  rw [directory_refl hce] at h2
  refine ⟨o, o', h1, h2, h3, h4, fun hs => ?_⟩
  obtain ⟨h6, h7, h8, h9⟩ := h5 hs
  rw [directory_refl hce] at h9
  rw [hce] at h7
  rw [logLine_id hc1, List.map_id] at h8
  exact ⟨h6, funext h7, h8, h9⟩

/-- **C99, units.** In other units of force and modulus the designs and snapshots are the same; the convergence tolerance needs no
translation. -/
theorem C99_units (L : LogSetup ι E Q d m) (h : LogWellPosed L) (hp : UsesPercentile L.toSetup) (hnr : L.restart = false) (a b : ℝ)
    (ha : a ≠ 0) (hb : 0 < b) (hfl : 1 / 10 ^ 12 ≤ L.E0 * L.eMinCoeff ∧ 1 / 10 ^ 12 ≤ b * L.E0 * L.eMinCoeff)
    (hf : L.filterLagrangian = true → L.nodal = none) (files : List (Snapshot.Name × (E → ℝ))) (cs : List Call) :
    ∃ o o', runCalls (logSys L) cs (newLogRun L.common files) = (o, .ok ()) ∧
      runCalls (logSys (logInUnits L a b)) cs (newLogRun (logInUnits L a b).common files) = (o', .ok ()) ∧
      o'.started = o.started ∧ o'.completed = o.completed ∧
      (o.started = true → o'.iterNext = o.iterNext ∧ o'.world.rho = o.world.rho ∧
        o'.world.aux.log = o.world.aux.log.map (fun r => { r with
          compliance := a ^ 2 / b * r.compliance
          lambdaV := (if L.normalizeVolumeChain then 1 else a ^ 2 / b) * r.lambdaV
          coeff := (if L.normalizeVolumeChain then 1 else a ^ 2 / b) * r.coeff }) ∧
        o'.world.files = o.world.files) := by
  have hk : 0 < a ^ 2 / b := div_pos (by positivity) hb
  have hpr : 0 < (if L.normalizeVolumeChain then 1 else a ^ 2 / b : ℝ) := by split_ifs; exacts [one_pos, hk]
  have hA := alike_same_mesh hp (Equiv.refl _) (fun _ => 1) (fun _ => Or.inl rfl) ha hb (Or.inr hfl) (fun j i => a * L.loads j i)
    (fun j i => by simp) rfl rfl rfl (Or.inr hnr)
  obtain ⟨c, hc⟩ : ∃ c : Change ι E ι E m, c = {
      element := Equiv.refl E
      motion := LinearEquiv.refl ℝ (ι → ℝ)
      case := Equiv.refl _
      sign := fun _ => 1
      load := a
      modulus := b } := ⟨_, rfl⟩
  have hcw : c.work = a ^ 2 / b := by rw [hc]; simp [Change.work]
  have hcp : c.price L = if L.normalizeVolumeChain then 1 else a ^ 2 / b := by unfold Change.price; rw [hcw]
  have hce : c.element = Equiv.refl E := by rw [hc]
  rw [← hc] at hA
  have hA' : AlikeLog c L (logInUnits L a b) :=
    { toAlike := { hA.toAlike with }
      gains := by rw [hcp]; exact ⟨rfl, rfl⟩
      bounds := by rw [hcp]; exact ⟨rfl, rfl⟩
      decay := ⟨rfl, rfl⟩
      clip := rfl
      percentiles := ⟨rfl, rfl⟩
      floors := by rw [hcw]; exact ⟨rfl, rfl⟩
      chain := ⟨rfl, rfl, rfl⟩
      options := ⟨rfl, rfl, rfl⟩
      filtered := fun hn => Or.inr (hf hn)
      tolKkt := rfl }
  have hw' : LogWellPosed (logInUnits L a b) :=
    { h with
      toSound := { h.toSound with
        modulus := ⟨mul_pos hb h.modulus.1, h.modulus.2⟩
        nodal := fun N hN => { h.nodal N hN with } }
      range := mul_le_mul_of_nonneg_left h.range hpr.le
      floor := mul_pos hk h.floor }
  obtain ⟨o, o', h1, h2, h3, h4, h5⟩ := C99_same_run c L _ hA' h hw' hnr files cs
  rw [directory_refl hce] at h2
  refine ⟨o, o', h1, h2, h3, h4, fun hs => ?_⟩
  obtain ⟨h6, h7, h8, h9⟩ := h5 hs
  rw [directory_refl hce] at h9
  rw [hce] at h7
  refine ⟨h6, funext h7, ?_, h9⟩
  rw [h8]
  congr 1
  funext r
  simp only [Change.logLine, hcw, hcp]

/-! ### Witnesses -/

theorem symmetricLog_wellPosed : LogWellPosed (logOf symmetricRun) :=
  let h := symmetricRun_wellPosed
  { h with
    toSound := h.toSound
    positive := by norm_num [logOf, symmetricRun, chainRun]
    range := by norm_num [logOf, symmetricRun, chainRun]
    floor := by norm_num [logOf]
    lagPercentile := by norm_num [logOf]
    chainPercentile := by norm_num [logOf] }

/-- Non-vacuity of C99. -/
example := C99_load_cases (logOf symmetricRun) symmetricLog_wellPosed symmetricRun_percentile rfl (Equiv.swap 0 1) {0} [] [.steps 3, .optimize]
example := C99_units (logOf symmetricRun) symmetricLog_wellPosed symmetricRun_percentile rfl 1000 (1 / 10) (by norm_num) (by norm_num)
  (by norm_num [logOf, symmetricRun, chainRun]) (fun _ => rfl) [] [.steps 3, .optimize]
example := C99_symmetric_design mirror (logOf symmetricRun) (alikeLog_unit (L := logOf symmetricRun) mirror_alike.toAlike
  (by simp [Change.work, mirror]) ⟨rfl, rfl⟩ rfl) symmetricLog_wellPosed rfl [] rfl [.steps 3, .optimize]

end
end Verif.Run
