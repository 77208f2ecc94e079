import Verif.Lemmas.Alike
import Verif.Lemmas.Simulate
import Verif.Props.Run
import Verif.Props.RunLog

/-!
C97: what a complete OC run computes does not depend on how the problem is described: on the numbering of elements, nodes, degrees of
freedom and load cases, on the direction of loads and axes, and on the units of length, force and modulus.
C98: symmetric problems give symmetric designs.
-/
namespace Verif.Run
open Verif Verif.Sched Verif.Spec Verif.Driver

noncomputable section
open Classical

variable {ι E Q ι' E' Q' : Type} [Fintype ι] [Fintype E] [Fintype Q] [Fintype ι'] [Fintype E'] [Fintype Q'] {d d' m : ℕ}
variable {c : Change ι E ι' E' m} {R : Setup ι E Q d m} {R' : Setup ι' E' Q' d' m}

/-! ### Files -/

theorem load_directory (c : Change ι E ι' E' m) (files : List (Snapshot.Name × (E → ℝ))) (n : Snapshot.Name) :
    Snapshot.load (c.directory files) n = (Snapshot.load files n).map c.move := by
  induction files with
  | nil => rfl
  | cons f fs ih =>
    unfold Snapshot.load Change.directory at ih ⊢
    by_cases hn : f.1 = n
    · simp [hn]
    · simpa [hn] using ih

theorem save_directory (c : Change ι E ι' E' m) (files : List (Snapshot.Name × (E → ℝ))) (n : Snapshot.Name) (x : E → ℝ) :
    c.directory (Snapshot.save files n x) = Snapshot.save (c.directory files) n (c.move x) := by
  unfold Snapshot.save Change.directory
  simp [List.filter_map, Function.comp_def]

theorem names_directory (c : Change ι E ι' E' m) (files : List (Snapshot.Name × (E → ℝ))) :
    (c.directory files).map Prod.fst = files.map Prod.fst := by
  unfold Change.directory
  simp [Function.comp_def]

theorem designPart_alike (h : Alike c R R') {x : E → ℝ} {x' : E' → ℝ} (hx : ∀ e, x' (c.element e) = x e) :
    designPart R'.design x' = c.move (designPart R.design x) := by
  funext e
  obtain ⟨e, rfl⟩ := c.element.surjective e
  show (if c.element e ∈ R'.design then x' (c.element e) else 0) =
    if c.element.symm (c.element e) ∈ R.design then x (c.element.symm (c.element e)) else 0
  rw [Equiv.symm_apply_apply, hx]
  by_cases he : e ∈ R.design
  · rw [if_pos he, if_pos ((h.design e).2 he)]
  · rw [if_neg he, if_neg (fun hn => he ((h.design e).1 hn))]

/-! ### Start -/

theorem initialValue_unique {cfg : Config} {x y : ℝ} (h1 : InitialValue cfg x) (h2 : InitialValue cfg y) : x = y := by
  unfold InitialValue at h1 h2
  split_ifs at h1 h2 <;> exact Option.some.inj (h1.symm.trans h2)

theorem resumes_alike (h : Alike c R R') {files : List (Snapshot.Name × (E → ℝ))} {k : ℕ} {data : E → ℝ} (hr : Resumes R.toCommon files k data) :
    Resumes R'.toCommon (c.directory files) k (c.move data) := by
  obtain ⟨h1, h2, h3⟩ := hr
  refine ⟨by rw [h.restart.1]; exact h1, by rw [load_directory, h2]; rfl, ?_⟩
  rw [h.restart.2, names_directory]
  exact h3

/-- Both descriptions start from the same densities at the same iteration. -/
theorem start_alike (h : Alike c R R') (hS : Sound R) (hS' : Sound R') {files : List (Snapshot.Name × (E → ℝ))} (hst : Startable R files) :
    ∃ k0 rho0 rho0', k0 ≤ R.maxIters ∧ RhoOk R.toCommon rho0 ∧ RhoOk R'.toCommon rho0' ∧ initializeDensity (sys R) files = .ok (rho0, k0 + 1) ∧
      initializeDensity (sys R') (c.directory files) = .ok (rho0', k0 + 1) ∧ ∀ e, rho0' (c.element e) = rho0 e := by
  rcases hst with hn | ⟨k, data, hr, hk, hd⟩
  · obtain ⟨rho0, ⟨x, hx, hi⟩, hok, hz⟩ := init_new hS.toBasics hn (step R) files
    obtain ⟨rho0', ⟨x', hx', hi'⟩, hok', hz'⟩ := init_new hS'.toBasics (by rw [h.restart.1]; exact hn) (step R') (c.directory files)
    refine ⟨0, rho0, rho0', Nat.zero_le _, hok, hok', hz, hz', fun e => ?_⟩
    rw [h.volFrac] at hx'
    have := initialValue_unique hx hx'
    subst this
    rw [hi, hi', h.box.1, h.box.2]
    simp only [h.pinned, h.fixed]
  · obtain ⟨hok, hz⟩ := init_resumed hS.toBasics (step R) hr hd
    obtain ⟨hok', hz'⟩ := init_resumed hS'.toBasics (step R') (resumes_alike h hr) (fun e he => by
      obtain ⟨e, rfl⟩ := c.element.surjective e
      rw [h.pinned, h.box.1, h.box.2]
      simpa [Change.move] using hd e ((h.design e).1 he))
    refine ⟨k, _, _, hk, hok, hok', hz, hz', fun e => ?_⟩
    unfold resumed
    simp only [h.pinned, h.fixed, h.design, Change.move, Equiv.symm_apply_apply]

/-! ### OC runs -/

/-- The relation between the two runs. -/
structure Together (c : Change ι E ι' E' m) (R : Setup ι E Q d m) (R' : Setup ι' E' Q' d' m) (rho0 : E → ℝ) (rho0' : E' → ℝ)
    (log0 log0' : List Rec) (w : World E ℝ (State E d)) (w' : World E' ℝ (State E' d')) : Prop where
  inv : InvBy R.toCommon (Iteration R) (0 ≤ ·) rho0 log0 w
  inv' : InvBy R'.toCommon (Iteration R') (0 ≤ ·) rho0' log0' w'
  rho : ∀ e, w'.rho (c.element e) = w.rho e
  scale : w'.aux.runningScale = c.work * w.aux.runningScale
  log : w'.aux.log = w.aux.log.map c.line
  files : w'.files = c.directory w.files

theorem sim_oc (h : AlikeOC c R R') (hw : WellPosed R) (hw' : WellPosed R') {files : List (Snapshot.Name × (E → ℝ))} {k0 : ℕ}
    {rho0 : E → ℝ} {rho0' : E' → ℝ} (hok : RhoOk R.toCommon rho0) (hok' : RhoOk R'.toCommon rho0')
    (hz : initializeDensity (sys R) files = .ok (rho0, k0 + 1))
    (hz' : initializeDensity (sys R') (c.directory files) = .ok (rho0', k0 + 1)) (hx : ∀ e, rho0' (c.element e) = rho0 e) :
    Sim (sys R) (sys R') (fun w w' => Inv0 R.toCommon files w ∧ Inv0 R'.toCommon (c.directory files) w')
      (fun _ => Together c R R' rho0 rho0' (if R.restart then R.saved.getD [] else []) (if R'.restart then R'.saved.getD [] else [])) := by
  have hA := h.toAlike
  have hκ := work_pos hA
  refine ⟨h.iters.1, ?_, ?_, fun k w w' hW => ⟨⟨hW.1.1, hW.1.2, hW.1.3, hW.1.4, hW.1.5, hW.1.6⟩,
    ⟨hW.2.1, hW.2.2, hW.2.3, hW.2.4, hW.2.5, hW.2.6⟩, hW.3, hW.4, hW.5, hW.6⟩⟩
  · rintro o o' hs hs' ⟨hN, hN'⟩
    obtain ⟨x, e, e1, e2, e3⟩ := run_init_by hw.toBasics (step R) (Iteration R) (0 ≤ ·) rfl hz hok o hs hN
    obtain ⟨x', e', e1', e2', e3'⟩ := run_init_by hw'.toBasics (step R') (Iteration R') (0 ≤ ·) rfl hz' hok' o' hs' hN'
    refine ⟨_, _, e, e', rfl, ⟨e3, e3', hx, ?_, ?_, rfl⟩, by show 1 ≤ k0 + 1; omega⟩
    · show x'.runningScale = _ * x.runningScale
      rw [e2, e2', mul_zero]
    · show x'.log = x.log.map c.line
      rw [e1, e1', h.restart.1]
      by_cases hr : R.restart = true
      · rw [if_pos hr, if_pos hr, h.saved hr]
        cases R.saved <;> rfl
      · rw [if_neg hr, if_neg hr]; rfl
  · intro b k w w' hk1 hk2 hW
    obtain ⟨r, new, x, fs, cv, e1, e2, e3, e4, e5, e6, e7⟩ := run_iteration_by hw.toBasics (step_computes hw) b k w hW.inv
    obtain ⟨r', new', x', fs', cv', f1, f2, f3, f4, f5, f6, f7⟩ := run_iteration_by hw'.toBasics (step_computes hw') b k w' hW.inv'
    obtain ⟨v, -, hv⟩ := hW.inv.ready w.aux rfl k
    rw [hW.scale] at f5
    obtain ⟨g1, g2, g3⟩ := iteration_alike h hw.toSound hw'.toSound hv hW.inv.rho.unit hW.rho e3 f3 e5 f5
    have hcv : cv' = cv := by
      have : cv' = true ↔ cv = true := by
        rw [e6, f6, g3, h.convergence.1, h.convergence.2, h.tolKkt]
        show _ ∧ r.rhoChange < _ ∧ |c.work * r.kkt| < _ ↔ _
        rw [abs_mul, abs_of_pos hκ, mul_lt_mul_iff_right₀ hκ]
      cases cv <;> cases cv' <;> simp_all
    refine ⟨_, _, cv, e1, hcv ▸ f1, e2, f2, g1, g2, ?_, ?_⟩
    · show x'.log = x.log.map c.line
      rw [e4, f4, hW.log, g3, List.map_append]; rfl
    · show fs' = c.directory fs
      rw [e7, f7, hcv, h.iters.1, h.iters.2]
      split_ifs
      · rw [save_directory, hW.files, designPart_alike hA g1]
      · exact hW.files

/-- **C97.** Two descriptions of the same well-posed problem (see `Verif.Spec.Alike`): whatever calls of `optimize` and `optimize_steps`
a program makes, none raises in either description; both runs do the same iterations and stop at the same one, with the same
density for corresponding elements and the same lines in the histories, in the respective units; the snapshots are the same too. -/
theorem C97_same_run (c : Change ι E ι' E' m) (R : Setup ι E Q d m) (R' : Setup ι' E' Q' d' m) (h : AlikeOC c R R')
    (hw : WellPosed R) (hw' : WellPosed R') (files : List (Snapshot.Name × (E → ℝ))) (hst : Startable R files) (cs : List Call) :
    ∃ o o', runCalls (sys R) cs (newRun R.toCommon files) = (o, .ok ()) ∧
      runCalls (sys R') cs (newRun R'.toCommon (c.directory files)) = (o', .ok ()) ∧
      o'.started = o.started ∧ o'.completed = o.completed ∧
      (o.started = true → o'.iterNext = o.iterNext ∧ (∀ e, o'.world.rho (c.element e) = o.world.rho e) ∧
        o'.world.aux.log = o.world.aux.log.map c.line ∧ o'.world.files = c.directory o.world.files) := by
  obtain ⟨k0, rho0, rho0', hk0, hok, hok', hz, hz', hx⟩ := start_alike h.toAlike hw.toSound hw'.toSound hst
  obtain ⟨o, o', ho, ho', h1, h2, -, h4⟩ := (sim_oc h hw hw' hok hok' hz hz' hx).calls cs (newRun R.toCommon files) (newRun R'.toCommon (c.directory files))
    ⟨rfl, rfl, fun _ => ⟨⟨rfl, rfl, fits_filter0 R.toCommon, rfl, rfl, rfl, rfl⟩, ⟨rfl, rfl, fits_filter0 R'.toCommon, rfl, rfl, rfl, rfl⟩⟩,
      fun hf => by simp [newRun, fresh] at hf⟩
  refine ⟨o, o', ho, ho', h1, h2, fun hs => ?_⟩
  obtain ⟨h5, h6, -⟩ := h4 hs
  exact ⟨h5, h6.rho, h6.log, h6.files⟩

/-! ### Special cases -/

theorem percentile_alike {R : Setup ι E Q d m} (hp : UsesPercentile R) (q s : ℝ) (x x' : E → ℝ) (hs : 0 < s)
    (h : ∀ e ∈ R.design, x' e = s * x e) : R.pct q x' = s * R.pct q x := by
  rw [hp, hp, ← percentile_map hs, Multiset.map_map]
  exact congrArg _ (Multiset.map_congr rfl h)

theorem line_id {c : Change ι E ι' E' m} (h : c.work = 1) : c.line = id := by
  funext r
  simp [Change.line, h]

theorem directory_refl {c : Change ι E ι' E m} (h : c.element = Equiv.refl E) (files : List (Snapshot.Name × (E → ℝ))) :
    c.directory files = files := by
  unfold Change.directory Change.move
  simp [h]

/-- Other loads on the same structure, in other units. -/
theorem alike_same_mesh {R : Setup ι E Q d m} (hp : UsesPercentile R) (case : Equiv.Perm (Fin m)) (sign : Fin m → ℝ) {a b : ℝ}
    (hsign : ∀ j, sign j = 1 ∨ sign j = -1) (ha : a ≠ 0) (hb : 0 < b)
    (hfl : b = 1 ∨ 1 / 10 ^ 12 ≤ R.E0 * R.eMinCoeff ∧ 1 / 10 ^ 12 ≤ b * R.E0 * R.eMinCoeff)
    (L' : Fin m → ι → ℝ) (hL : ∀ j i, L' (case j) i = sign j * a * R.loads j i)
    {E1 sf tk : ℝ} (hE1 : E1 = b * R.E0) (hsf : sf = a ^ 2 / b * R.scaleFloor) (htk : tk = a ^ 2 / b * R.tolKkt) (hs : b = 1 ∧ a = 1 ∨ R.restart = false) :
    AlikeOC { element := Equiv.refl E, motion := LinearEquiv.refl ℝ (ι → ℝ), case := case, sign := sign, load := a, modulus := b }
      R { R with loads := L', E0 := E1, scaleFloor := sf, tolKkt := tk } := by
  subst hE1 hsf htk
  exact
  { factors := ⟨one_pos, one_pos, ha, hb, one_pos⟩
    signs := hsign
    p := rfl
    volFrac := rfl
    moveLimit := rfl
    beta := rfl
    percentile := rfl
    neumannScale := rfl
    eta := ⟨rfl, rfl⟩
    iters := ⟨rfl, rfl⟩
    restart := ⟨rfl, rfl⟩
    box := ⟨rfl, rfl⟩
    betaEta := rfl
    eMinCoeff := rfl
    sensFilter := rfl
    convergence := ⟨rfl, rfl⟩
    radius := fun k r h => by rw [one_mul]; exact h
    statistic := fun q s x x' hs h => percentile_alike hp q s x x' hs h
    volume := fun e => (one_mul _).symm
    design := fun e => Iff.rfl
    pinned := fun e => Iff.rfl
    fixed := fun e => Iff.rfl
    centers := fun e f => (one_mul _).symm
    spacial := fun h => h
    helmholtz := fun N h => ⟨N, h, rfl, Equiv.refl _, 1, one_pos, fun e => ⟨Equiv.refl _, fun i => rfl⟩, fun i j => (one_mul _).symm,
      fun i j => by simp⟩
    modulus := rfl
    modulusFloor := hfl
    supports := fun u => Iff.rfl
    energy := fun u w e => (one_mul _).symm
    loads := fun j w _ => by
      show ∑ i, L' (case j) i * w i = _
      rw [Finset.mul_sum]
      exact Finset.sum_congr rfl fun i _ => by rw [hL]; ring
    bounds := ⟨rfl, rfl⟩
    rates := ⟨rfl, rfl⟩
    scaleFloor := by simp [Change.work]
    tolKkt := by simp [Change.work]
    saved := fun hr => by
      rcases hs with ⟨rfl, rfl⟩ | hs
      · show R.saved = _
        rw [line_id (by simp [Change.work])]
        simp
      · rw [hs] at hr; simp at hr }

theorem wellPosed_loads {R : Setup ι E Q d m} (h : WellPosed R) (L' : Fin m → ι → ℝ) {E1 sf tk : ℝ} (hE : 0 < E1) (hsf : 0 < sf) :
    WellPosed { R with loads := L', E0 := E1, scaleFloor := sf, tolKkt := tk } :=
  { h with
    modulus := ⟨hE, h.modulus.2⟩
    scaleFloor := hsf
    nodal := fun N hN => { h.nodal N hN with } }

/-- C97 if the elements keep their numbers. -/
theorem same_run_mesh {c : Change ι E ι' E m} {R : Setup ι E Q d m} {R' : Setup ι' E Q' d' m} (h : AlikeOC c R R')
    (hel : c.element = Equiv.refl E) (hw : WellPosed R) (hw' : WellPosed R') (files : List (Snapshot.Name × (E → ℝ)))
    (hst : Startable R files) (cs : List Call) :
    ∃ o o', runCalls (sys R) cs (newRun R.toCommon files) = (o, .ok ()) ∧ runCalls (sys R') cs (newRun R'.toCommon files) = (o', .ok ()) ∧
      o'.started = o.started ∧ o'.completed = o.completed ∧
      (o.started = true → o'.iterNext = o.iterNext ∧ o'.world.rho = o.world.rho ∧ o'.world.aux.log = o.world.aux.log.map c.line ∧
        o'.world.files = o.world.files) := by
  obtain ⟨o, o', h1, h2, h3, h4, h5⟩ := C97_same_run c R R' h hw hw' files hst cs
  rw [directory_refl hel] at h2
  refine ⟨o, o', h1, h2, h3, h4, fun hs => ?_⟩
  obtain ⟨h6, h7, h8, h9⟩ := h5 hs
  rw [directory_refl hel] at h9
  rw [hel] at h7
  exact ⟨h6, funext h7, h8, h9⟩

/-- … and the unit of work is the same. -/
theorem same_run_mesh_unit {c : Change ι E ι' E m} {R : Setup ι E Q d m} {R' : Setup ι' E Q' d' m} (h : AlikeOC c R R')
    (hel : c.element = Equiv.refl E) (hc : c.work = 1) (hw : WellPosed R) (hw' : WellPosed R') (files : List (Snapshot.Name × (E → ℝ)))
    (hst : Startable R files) (cs : List Call) :
    ∃ o o', runCalls (sys R) cs (newRun R.toCommon files) = (o, .ok ()) ∧ runCalls (sys R') cs (newRun R'.toCommon files) = (o', .ok ()) ∧
      o'.started = o.started ∧ o'.completed = o.completed ∧
      (o.started = true → o'.iterNext = o.iterNext ∧ o'.world.rho = o.world.rho ∧ o'.world.aux.log = o.world.aux.log ∧
        o'.world.files = o.world.files) := by
  obtain ⟨o, o', h1, h2, h3, h4, h5⟩ := same_run_mesh h hel hw hw' files hst cs
  rw [line_id hc, List.map_id] at h5
  exact ⟨o, o', h1, h2, h3, h4, h5⟩

/-- **C97, order of the load cases.** Whatever the order in which the load cases are given, the run is the same. -/
theorem C97_load_case_order (R : Setup ι E Q d m) (h : WellPosed R) (hp : UsesPercentile R) (order : Equiv.Perm (Fin m))
    (files : List (Snapshot.Name × (E → ℝ))) (hst : Startable R files) (cs : List Call) :
    ∃ o o', runCalls (sys R) cs (newRun R.toCommon files) = (o, .ok ()) ∧
      runCalls (sys (reordered R order)) cs (newRun (reordered R order).toCommon files) = (o', .ok ()) ∧
      o'.started = o.started ∧ o'.completed = o.completed ∧
      (o.started = true → o'.iterNext = o.iterNext ∧ o'.world.rho = o.world.rho ∧ o'.world.aux.log = o.world.aux.log ∧
        o'.world.files = o.world.files) := by
  have hA := alike_same_mesh hp order.symm (fun _ => 1) (fun _ => Or.inl rfl) one_ne_zero one_pos (Or.inl rfl) (fun j => R.loads (order j))
    (fun j i => by simp) (E1 := R.E0) (sf := R.scaleFloor) (tk := R.tolKkt) (by simp) (by simp) (by simp) (Or.inl ⟨rfl, rfl⟩)
  exact same_run_mesh_unit hA rfl (by simp [Change.work]) h (wellPosed_loads h _ h.modulus.1 h.scaleFloor) files hst cs

/-- **C97, directions of the loads.** Reversing any of the load cases (pulling instead of pushing) changes nothing. -/
theorem C97_load_direction (R : Setup ι E Q d m) (h : WellPosed R) (hp : UsesPercentile R) (back : Finset (Fin m))
    (files : List (Snapshot.Name × (E → ℝ))) (hst : Startable R files) (cs : List Call) :
    ∃ o o', runCalls (sys R) cs (newRun R.toCommon files) = (o, .ok ()) ∧
      runCalls (sys (reversed R back)) cs (newRun (reversed R back).toCommon files) = (o', .ok ()) ∧
      o'.started = o.started ∧ o'.completed = o.completed ∧
      (o.started = true → o'.iterNext = o.iterNext ∧ o'.world.rho = o.world.rho ∧ o'.world.aux.log = o.world.aux.log ∧
        o'.world.files = o.world.files) := by
  have hA := alike_same_mesh hp (Equiv.refl _) (fun j => if j ∈ back then -1 else 1)
    (fun j => by by_cases hj : j ∈ back <;> simp [hj]) one_ne_zero one_pos (Or.inl rfl)
    (fun j i => if j ∈ back then -R.loads j i else R.loads j i)
    (fun j i => by by_cases hj : j ∈ back <;> simp [hj]) (E1 := R.E0) (sf := R.scaleFloor) (tk := R.tolKkt) (by simp) (by simp) (by simp)
    (Or.inl ⟨rfl, rfl⟩)
  exact same_run_mesh_unit hA rfl (by simp [Change.work]) h (wellPosed_loads h _ h.modulus.1 h.scaleFloor) files hst cs

/-- **C97, units.** In other units of force and modulus the designs and snapshots are the same and the compliances are in the unit
of work — provided the two absolute tolerances `scale_floor` and `tol_kkt` are given in the other unit too, and the hard-coded floor
`1e-12` under the modulus is not reached. -/
theorem C97_units (R : Setup ι E Q d m) (h : WellPosed R) (hp : UsesPercentile R) (a b : ℝ) (ha : a ≠ 0) (hb : 0 < b)
    (hfl : 1 / 10 ^ 12 ≤ R.E0 * R.eMinCoeff ∧ 1 / 10 ^ 12 ≤ b * R.E0 * R.eMinCoeff) (hnr : R.restart = false)
    (files : List (Snapshot.Name × (E → ℝ))) (cs : List Call) :
    ∃ o o', runCalls (sys R) cs (newRun R.toCommon files) = (o, .ok ()) ∧
      runCalls (sys (inUnits R a b)) cs (newRun (inUnits R a b).toCommon files) = (o', .ok ()) ∧
      o'.started = o.started ∧ o'.completed = o.completed ∧
      (o.started = true → o'.iterNext = o.iterNext ∧ o'.world.rho = o.world.rho ∧
        o'.world.aux.log = o.world.aux.log.map (fun r => { r with compliance := a ^ 2 / b * r.compliance, kkt := a ^ 2 / b * r.kkt }) ∧
        o'.world.files = o.world.files) := by
  have hA := alike_same_mesh hp (Equiv.refl _) (fun _ => 1) (fun _ => Or.inl rfl) ha hb (Or.inr hfl) (fun j i => a * R.loads j i)
    (fun j i => by simp) rfl rfl rfl (Or.inr hnr)
  have hb0 : 0 < a ^ 2 / b := div_pos (by positivity) hb
  obtain ⟨o, o', h1, h2, h3, h4, h5⟩ := same_run_mesh hA rfl h (wellPosed_loads h _ (mul_pos hb h.modulus.1) (mul_pos hb0 h.scaleFloor))
    files (Or.inl hnr) cs
  refine ⟨o, o', h1, h2, h3, h4, fun hs => ⟨(h5 hs).1, (h5 hs).2.1, ?_, (h5 hs).2.2.2⟩⟩
  rw [(h5 hs).2.2.1]
  congr 1
  funext r
  simp [Change.line, Change.work]

/-- The translation into other numbers. -/
def renumbering (el : E ≃ E') (dof : ι ≃ ι') : Change ι E ι' E' m where
  element := el
  motion := LinearEquiv.funCongrLeft ℝ ℝ dof.symm
  case := Equiv.refl _

theorem strain_renumbered (R : Setup ι E Q d m) (el : E ≃ E') (dof : ι ≃ ι') (B : Solver.Backend ℝ (Matrix ι' ι' ℝ) (ι' → ℝ)) (u : ι → ℝ)
    (e : E) (q : Q) : strain (renumbered R el dof B) (fun i => u (dof.symm i)) (el e) q = strain R u e q := by
  ext a b
  have h : ∀ a b, ∑ i, u (dof.symm i) * (renumbered R el dof B).fe.grad i (el e) q a b = ∑ i, u i * R.fe.grad i e q a b := by
    intro a b
    rw [← Equiv.sum_comp dof.symm]
    exact Finset.sum_congr rfl fun i _ => by simp [renumbered]
  unfold strain
  rw [Matrix.of_apply, Matrix.of_apply, h, h]

theorem alike_renumbered (R : Setup ι E Q d m) (hp : UsesPercentile R) (el : E ≃ E') (dof : ι ≃ ι')
    (B : Solver.Backend ℝ (Matrix ι' ι' ℝ) (ι' → ℝ)) : AlikeOC (renumbering el dof) R (renumbered R el dof B) where
  factors := ⟨one_pos, one_pos, one_ne_zero, one_pos, one_pos⟩
  signs := fun _ => Or.inl rfl
  p := rfl
  volFrac := rfl
  moveLimit := rfl
  beta := rfl
  percentile := rfl
  neumannScale := rfl
  eta := ⟨rfl, rfl⟩
  iters := ⟨rfl, rfl⟩
  restart := ⟨rfl, rfl⟩
  box := ⟨rfl, rfl⟩
  betaEta := rfl
  eMinCoeff := rfl
  sensFilter := rfl
  convergence := ⟨rfl, rfl⟩
  radius := fun k r h => by
    have : (renumbering (m := m) el dof).length * r = r := one_mul r
    rw [this]; exact h
  statistic := fun q s x x' hs h => percentile_alike hp q s x (fun e => x' (el e)) hs h
  volume := fun e => by
    show R.volume (el.symm (el e)) = 1 * R.volume e
    rw [Equiv.symm_apply_apply, one_mul]
  design := fun e => by
    show el e ∈ R.design.map el.toEmbedding ↔ _
    simp
  pinned := fun e => by
    unfold Pinned
    show (∀ s, R.pinned.map (fun s => s.map el.toEmbedding) = some s → el e ∈ s) ↔ _
    cases R.pinned with
    | none => simp
    | some s => simp
  fixed := fun e => by
    show el e ∈ R.fixed.map el.toEmbedding ↔ _
    simp
  centers := fun e f => by
    show dist (R.centers (el.symm (el e))) (R.centers (el.symm (el f))) = 1 * _
    rw [Equiv.symm_apply_apply, Equiv.symm_apply_apply, one_mul]
  spacial := fun h => by
    show R.nodal.map _ = none
    rw [h]; rfl
  helmholtz := fun N h => by
    refine ⟨{ N with t := fun e => N.t (el.symm e) }, by show R.nodal.map _ = _; rw [h]; rfl, rfl, Equiv.refl _, 1, one_pos,
      fun e => ⟨Equiv.refl _, fun i => ?_⟩, fun i j => (one_mul _).symm, fun i j => ?_⟩
    · show N.t (el.symm (el e)) i = N.t e i
      rw [Equiv.symm_apply_apply]
    · show (1 : ℝ) ^ 2 * N.stiff i j = 1 * N.stiff i j
      rw [one_pow]
  modulus := (one_mul _).symm
  modulusFloor := Or.inl rfl
  supports := fun u => by
    show (∀ i ∈ R.dirichlet.map dof.toEmbedding, u (dof.symm i) = 0) ↔ _
    exact ⟨fun h i hi => by simpa using h (dof i) (by simpa using hi), fun h i hi => h _ (by simpa using hi)⟩
  energy := fun u w e => by
    show ∑ q, stressWork R 1 (strain (renumbered R el dof B) (fun i => u (dof.symm i)) (el e) q)
      (strain (renumbered R el dof B) (fun i => w (dof.symm i)) (el e) q) * R.fe.dx (el.symm (el e)) q =
        1 * ∑ q, stressWork R 1 (strain R u e q) (strain R w e q) * R.fe.dx e q
    simp only [strain_renumbered, Equiv.symm_apply_apply, one_mul]
  loads := fun j w _ => by
    show ∑ i, R.loads j (dof.symm i) * w (dof.symm i) = 1 * 1 * ∑ i, R.loads j i * w i
    rw [Equiv.sum_comp dof.symm (fun i => R.loads j i * w i), one_mul, one_mul]
  bounds := ⟨rfl, rfl⟩
  rates := ⟨rfl, rfl⟩
  scaleFloor := by
    have : (renumbering (m := m) el dof).work = 1 := by simp [Change.work, renumbering]
    rw [this, one_mul]; rfl
  tolKkt := by
    have : (renumbering (m := m) el dof).work = 1 := by simp [Change.work, renumbering]
    rw [this, one_mul]; rfl
  saved := fun hr => by
    rw [line_id (by simp [Change.work, renumbering])]
    simp [renumbered]

theorem wellPosed_renumbered (R : Setup ι E Q d m) (h : WellPosed R) (el : E ≃ E') (dof : ι ≃ ι')
    (B : Solver.Backend ℝ (Matrix ι' ι' ℝ) (ι' → ℝ)) (hB : Direct B) : WellPosed (renumbered R el dof B) where
  record := h.record
  p := h.p
  volFrac := h.volFrac
  moveLimit := h.moveLimit
  beta := h.beta
  percentile := h.percentile
  radius := h.radius
  neumannScale := h.neumannScale
  neumannType := h.neumannType
  eta := h.eta
  box := h.box
  design := h.design.map
  separate := (Finset.disjoint_map _).2 h.separate
  volume := fun e => h.volume _
  dim := h.dim
  weights := fun e q => h.weights _ q
  poisson := h.poisson
  modulus := h.modulus
  supports := fun u hu hs => by
    have hg : ∀ e q, Elastic.gradOf R.fe (fun i => u (dof i)) e q = Elastic.gradOf (renumbered R el dof B).fe u (el e) q := by
      intro e q
      unfold Elastic.gradOf
      rw [← Equiv.sum_comp dof.symm]
      exact Finset.sum_congr rfl fun i _ => by simp [renumbered]
    have := h.supports (fun i => u (dof i)) (fun i hi => hu _ (Finset.mem_map_of_mem dof.toEmbedding hi))
      (fun e q => by rw [hg]; exact hs _ q)
    funext i
    have h1 := congrFun this (dof.symm i)
    simpa using h1
  loadCases := h.loadCases
  direct := hB
  solver := by
    rcases h.solver with h1 | ⟨h1, h2⟩
    · exact Or.inl h1
    · exact Or.inr ⟨h1, by rw [← Fintype.card_congr dof]; exact h2⟩
  nodal := fun N' hN' => by
    have hN2 : R.nodal.map (fun N => ({ N with t := fun e => N.t (el.symm e) } : Nodal E')) = some N' := hN'
    obtain ⟨N, hN, rfl⟩ := Option.map_eq_some_iff.1 hN2
    have hk := h.nodal N hN
    have hh : held (renumbered R el dof B).toCommon { N with t := fun e => N.t (el.symm e) } = held R.toCommon N := by
      unfold held
      ext n
      simp only [Finset.mem_filter, Finset.mem_univ, true_and]
      constructor
      · rintro ⟨e, he, i, hi⟩
        exact ⟨el.symm e, fun hd => he (by
          show e ∈ R.design.map el.toEmbedding
          simpa using hd), i, hi⟩
      · rintro ⟨e, he, i, hi⟩
        exact ⟨el e, fun hd => he (by
          have hd' : el e ∈ R.design.map el.toEmbedding := hd
          simpa using hd'), i, by show N.t (el.symm (el e)) i = n; rw [Equiv.symm_apply_apply]; exact hi⟩
    exact
    { corners := hk.corners
      covered := fun n => by
        obtain ⟨e, i, hi⟩ := hk.covered n
        exact ⟨el e, i, by show N.t (el.symm (el e)) i = n; rw [Equiv.symm_apply_apply]; exact hi⟩
      coercive := hk.coercive
      solves := hk.solves
      maximum := fun k r hr => by
        rw [hh]
        exact hk.maximum k r hr
      noSensFilter := hk.noSensFilter }
  percentages := h.percentages
  bracket := h.bracket
  scaleFloor := h.scaleFloor

/-- **C97, numbering.** With other numbers for the elements and the degrees of freedom (another mesh generator or node ordering),
corresponding elements get the same densities and the histories are the same. -/
theorem C97_numbering (R : Setup ι E Q d m) (h : WellPosed R) (hp : UsesPercentile R) (el : E ≃ E') (dof : ι ≃ ι')
    (B : Solver.Backend ℝ (Matrix ι' ι' ℝ) (ι' → ℝ)) (hB : Direct B) (files : List (Snapshot.Name × (E → ℝ))) (hst : Startable R files)
    (cs : List Call) :
    ∃ o o', runCalls (sys R) cs (newRun R.toCommon files) = (o, .ok ()) ∧
      runCalls (sys (renumbered R el dof B)) cs (newRun (renumbered R el dof B).toCommon (files.map fun f => (f.1, fun e => f.2 (el.symm e)))) =
        (o', .ok ()) ∧
      o'.started = o.started ∧ o'.completed = o.completed ∧
      (o.started = true → o'.iterNext = o.iterNext ∧ (∀ e, o'.world.rho (el e) = o.world.rho e) ∧
        o'.world.aux.log = o.world.aux.log ∧ o'.world.files = o.world.files.map fun f => (f.1, fun e => f.2 (el.symm e))) := by
  obtain ⟨o, o', h1, h2, h3, h4, h5⟩ := C97_same_run (renumbering el dof) R _ (alike_renumbered R hp el dof B) h
    (wellPosed_renumbered R h el dof B hB) files hst cs
  rw [line_id (by simp [Change.work, renumbering]), List.map_id] at h5
  exact ⟨o, o', h1, h2, h3, h4, h5⟩

/-- **C98.** A symmetric problem gives a symmetric design: if `c` describes the problem in terms of itself (in the same unit of work),
corresponding elements have the same density after any calls, in particular in all final designs. -/
theorem C98_symmetric_design (c : Change ι E ι E m) (R : Setup ι E Q d m) (h : AlikeOC c R R) (hw : WellPosed R)
    (files : List (Snapshot.Name × (E → ℝ))) (hfiles : c.directory files = files) (hst : Startable R files) (cs : List Call) :
    ∃ o, runCalls (sys R) cs (newRun R.toCommon files) = (o, .ok ()) ∧ (o.started = true → ∀ e, o.world.rho (c.element e) = o.world.rho e) := by
  obtain ⟨o, o', ho, ho', -, -, h1⟩ := C97_same_run c R R h hw hw files hst cs
  rw [hfiles, ho] at ho'
  simp only [Prod.mk.injEq, and_true] at ho'
  subst ho'
  exact ⟨o, ho, fun hs => (h1 hs).2.1⟩

/-! ### Witnesses -/

/-- The chain of bars with both ends held, one load case pulling at each inner node, and a scheduled percentile. -/
def symmetricRun : Setup (Fin 4) (Fin 3) (Fin 1) 1 2 :=
  { chainRun with
    cPercentile := { initValue := some 90, targetValue := some 90 }
    design := Finset.univ
    pinned := some ∅
    dirichlet := {0, 3}
    loads := fun j i => if i = (if j = 0 then 1 else 2) then 1 else 0
    pct := fun q x => percentile q ((Finset.univ : Finset (Fin 3)).val.map x) }

theorem symmetricRun_wellPosed : WellPosed symmetricRun :=
  let h := chainRun_wellPosed
  { h with
    percentile := Or.inl ⟨⟨symmetricRun.cPercentile, rfl⟩, by simp [symmetricRun], by simp [symmetricRun], by simp [symmetricRun], by simp⟩
    percentages := fun k q hq => by
      have h0 : valueOf (.ok { symmetricRun.cPercentile with itersMax := some (symmetricRun.maxIters : ℤ) }) (k : ℤ) = .ok (some 90) := rfl
      have h1 : (Except.ok (some 90) : Res (Option ℝ)) = .ok (some q) := h0.symm.trans hq
      injection h1 with h1
      injection h1 with h1
      rw [← h1]; norm_num
    design := ⟨0, Finset.mem_univ _⟩
    separate := Finset.disjoint_empty_right _
    supports := fun u hu hs => chain_rigid u (fun i hi => hu i (by
      rw [Finset.mem_singleton] at hi
      simp [symmetricRun, hi])) hs
    nodal := by simp [symmetricRun, chainRun] }

theorem symmetricRun_percentile : UsesPercentile symmetricRun := fun _ _ => rfl

/-- Non-vacuity of C97. -/
example := C97_load_case_order symmetricRun symmetricRun_wellPosed symmetricRun_percentile (Equiv.swap 0 1) [] (Or.inl rfl) [.steps 3, .optimize]
example := C97_load_direction symmetricRun symmetricRun_wellPosed symmetricRun_percentile {1} [] (Or.inl rfl) [.steps 3, .optimize]
example := C97_units symmetricRun symmetricRun_wellPosed symmetricRun_percentile 1000 (1 / 10) (by norm_num) (by norm_num)
  (by norm_num [symmetricRun, chainRun]) rfl [] [.steps 3, .optimize]
example := C97_numbering symmetricRun symmetricRun_wellPosed symmetricRun_percentile (finRotate 3) (Equiv.swap 1 2) chainRun.backend
  chainRun_wellPosed.direct [] (Or.inl rfl) [.steps 3, .optimize]

/-- The mirror image: elements and nodes in reverse order, displacements change sign, the load cases change places and directions. -/
def mirror : Change (Fin 4) (Fin 3) (Fin 4) (Fin 3) 2 where
  element := Fin.revPerm
  motion := (LinearEquiv.funCongrLeft ℝ ℝ Fin.revPerm).trans (LinearEquiv.neg ℝ)
  case := Equiv.swap 0 1
  sign _ := -1

theorem mirror_motion (u : Fin 4 → ℝ) (i : Fin 4) : mirror.motion u i = -u i.rev := rfl

theorem mirror_strain (u : Fin 4 → ℝ) (e : Fin 3) (q : Fin 1) :
    strain symmetricRun (mirror.motion u) (mirror.element e) q = strain symmetricRun u e q := by
  have h : ∀ (v : Fin 4 → ℝ) (f : Fin 3), strain symmetricRun v f q = Matrix.of fun _ _ => v f.succ - v f.castSucc := by
    intro v f
    ext a b
    unfold strain
    simp only [symmetricRun, chainRun, chain, Matrix.of_apply]
    fin_cases f <;> simp [Fin.sum_univ_four] <;> ring
  rw [h, h]
  ext a b
  simp only [Matrix.of_apply, mirror_motion]
  fin_cases e <;> simp [mirror] <;> ring

theorem mirror_alike : AlikeOC mirror symmetricRun symmetricRun where
  factors := ⟨one_pos, one_pos, one_ne_zero, one_pos, one_pos⟩
  signs := fun _ => Or.inr rfl
  p := rfl
  volFrac := rfl
  moveLimit := rfl
  beta := rfl
  percentile := rfl
  neumannScale := rfl
  eta := ⟨rfl, rfl⟩
  iters := ⟨rfl, rfl⟩
  restart := ⟨rfl, rfl⟩
  box := ⟨rfl, rfl⟩
  betaEta := rfl
  eMinCoeff := rfl
  sensFilter := rfl
  convergence := ⟨rfl, rfl⟩
  radius := fun k r h => by
    have : mirror.length * r = r := one_mul r
    rw [this]; exact h
  statistic := fun q s x x' hs h => by
    have hx : x' = fun e => s * x e.rev := funext fun e => by
      have := h e.rev (Finset.mem_univ _)
      simpa [mirror] using this
    have h1 : (Finset.univ : Finset (Fin 3)).val.map x' = ((Finset.univ : Finset (Fin 3)).val.map x).map (s * ·) := by
      rw [hx, Multiset.map_map]
      have h2 : ∀ f : Fin 3 → ℝ, (Finset.univ : Finset (Fin 3)).val.map f = {f 0, f 1, f 2} := fun f => rfl
      rw [h2, h2]
      show ({s * x (Fin.rev 0), s * x (Fin.rev 1), s * x (Fin.rev 2)} : Multiset ℝ) = {s * x 0, s * x 1, s * x 2}
      have r0 : Fin.rev (0 : Fin 3) = 2 := rfl
      have r1 : Fin.rev (1 : Fin 3) = 1 := rfl
      have r2 : Fin.rev (2 : Fin 3) = 0 := rfl
      rw [r0, r1, r2]
      simp only [Multiset.insert_eq_cons, ← Multiset.singleton_add]
      abel
    show percentile q _ = s * percentile q _
    rw [h1, percentile_map hs]
  volume := fun e => (one_mul _).symm
  design := fun e => by simp [symmetricRun]
  pinned := fun e => by simp [Pinned, symmetricRun]
  fixed := fun e => by simp [symmetricRun, chainRun]
  centers := fun e f => by
    have : mirror.length = 1 := rfl
    rw [this, one_mul]
    fin_cases e <;> fin_cases f <;> simp [mirror, symmetricRun, chainRun, EuclideanSpace.dist_eq, Real.dist_eq] <;> norm_num
  spacial := fun h => h
  helmholtz := fun N h => by simp [symmetricRun, chainRun] at h
  modulus := (one_mul _).symm
  modulusFloor := Or.inl rfl
  supports := fun u => by
    simp only [mirror_motion, symmetricRun, Finset.mem_insert, Finset.mem_singleton, forall_eq_or_imp, forall_eq, neg_eq_zero]
    exact and_comm
  energy := fun u w e => by
    unfold innerWork
    simp only [mirror_strain]
    exact (one_mul _).symm
  loads := fun j w _ => by
    simp only [mirror_motion]
    fin_cases j <;> simp [mirror, symmetricRun] <;> rfl
  bounds := ⟨rfl, rfl⟩
  rates := ⟨rfl, rfl⟩
  scaleFloor := by simp [Change.work, mirror]
  tolKkt := by simp [Change.work, mirror]
  saved := fun hr => by simp [symmetricRun, chainRun] at hr

/-- Non-vacuity of C98: the two outer bars always get the same density. -/
example := C98_symmetric_design mirror symmetricRun mirror_alike symmetricRun_wellPosed [] rfl (Or.inl rfl) [.steps 3, .optimize]

end
end Verif.Run
