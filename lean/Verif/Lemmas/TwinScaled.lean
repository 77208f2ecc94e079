import Verif.Lemmas.Twin
import Verif.Lemmas.RunScaled

/-!
Two runs whose sensitivities differ by a constant factor: if the absolute tolerances differ by the same factor, the runs are the same.
-/
namespace Verif.Run
open Verif Verif.Sched Verif.Spec Verif.Driver

noncomputable section
open Classical

variable {E : Type} [Fintype E] {d : ℕ}

/-- The same configuration with the two absolute tolerances of OC in another unit of work. -/
abbrev Common.inWork (R : Common E d) (w : ℝ) : Common E d := { R with scaleFloor := w * R.scaleFloor, tolKkt := w * R.tolKkt }

theorem chained_smul {n : ℕ} (hn : 0 < n) (R : Common E d) (hsf : R.sensFilter = true → R.nodal = none) (v : Vals) (rho : E → ℝ) {s : ℝ}
    (hs : 0 ≤ s) (cols : Fin n → E → ℝ) : chained R v rho (fun j e => s * cols j e) = fun e => s * chained R v rho cols e := by
  have h := chained_few (le_refl n) hn R hsf v rho hs cols (fun j e => s * cols j e) (fun j hj => rfl) (fun j hj => absurd j.2 (not_lt.2 hj))
  have hn' : (n : ℝ) ≠ 0 := by positivity
  rw [h, div_self hn', mul_one]

theorem grown_inWork (R : Common E d) (w : ℝ) (v : Vals) (rho g : E → ℝ) : grown (R.inWork w) v rho g = grown R v rho g := rfl

theorem excess_inWork (R : Common E d) (w : ℝ) (v : Vals) (rho : E → ℝ) : excess (R.inWork w) v rho = excess R v rho := rfl

theorem bracket_inWork (R : Common E d) (w : ℝ) (F : ℝ → ℝ) : ∀ n, bracket (R.inWork w) F n = bracket R F n
  | 0 => rfl
  | n + 1 => by unfold bracket; rw [bracket_inWork R w F n]

theorem bisected_inWork (R : Common E d) (w : ℝ) (F : ℝ → ℝ) (l : ℝ) : Bisected (R.inWork w) F l ↔ Bisected R F l := by
  unfold Bisected Enough middle
  simp only [bracket_inWork]

theorem isGreatest_mul {S : Set E} {f : E → ℝ} {a w : ℝ} (hw : 0 ≤ w) (h : IsGreatest (f '' S) a) : IsGreatest ((fun e => w * f e) '' S) (w * a) := by
  obtain ⟨⟨e, he, rfl⟩, h2⟩ := h
  refine ⟨⟨e, he, rfl⟩, ?_⟩
  rintro _ ⟨x, hx, rfl⟩
  exact mul_le_mul_of_nonneg_left (h2 ⟨x, hx, rfl⟩) hw

/-- The OC update in another unit of work. -/
theorem ocStep_inWork {R : Common E d} {w : ℝ} (hw : 0 < w) (hp : ∀ q x, R.pct q (fun e => w * x e) = w * R.pct q x) {v : Vals} {g rho : E → ℝ}
    {rs : ℝ} {r : Rec} {new : E → ℝ} {rs1 : ℝ} (h : OCStep R v g rho rs r new rs1) (cpl : ℝ) :
    OCStep (R.inWork w) v (fun e => w * g e) rho (w * rs) { r with compliance := cpl, kkt := w * r.kkt } new (w * rs1) := by
  obtain ⟨s, i5, i6, i7, i8, i9, i10, i11, i12, i13⟩ := h
  have habs : ∀ x : ℝ, |w * x| = w * |x| := fun x => by rw [abs_mul, abs_of_pos hw]
  have hdiv : ∀ e, w * g e / (w * rs1) = g e / rs1 := fun e => mul_div_mul_left _ _ hw.ne'
  refine ⟨w * s, fun hq => ?_, fun q hq => ?_, ?_, ?_, ?_, ?_, i11, ?_, ?_⟩
  · simp only [habs]
    exact isGreatest_mul hw.le (i5 hq)
  · simp only [habs]
    rw [hp, i6 q hq]
  · show w * rs1 = if r.iter ≤ 1 then max (w * s) (w * R.scaleFloor) else 0.6 * (w * rs) + 0.4 * max (w * s) (w * R.scaleFloor)
    rw [i7, ← mul_max_of_nonneg _ _ hw.le]
    split_ifs <;> ring
  · simp only [hdiv, bisected_inWork, excess_inWork, grown_inWork]
    exact i8
  · simp only [hdiv, grown_inWork]
    exact i9
  · simp only [hdiv, grown_inWork, excess_inWork]
    exact i10
  · simp only [hdiv, grown_inWork]
    intro hem
    rw [i12 hem, mul_zero]
  · simp only [hdiv, grown_inWork]
    intro hne
    have h1 : ∀ e, w * g e + r.lmid * (w * rs1) * (R.volume e / ∑ e' ∈ R.design, R.volume e') =
        w * (g e + r.lmid * rs1 * (R.volume e / ∑ e' ∈ R.design, R.volume e')) := fun e => by ring
    simp only [h1, habs]
    exact isGreatest_mul hw.le (i13 hne)

/-- The OC update is determined, up to the unit of work. -/
theorem ocStep_inWork_unique {R : Common E d} {w : ℝ} (hw : 0 < w) (hp : ∀ q x, R.pct q (fun e => w * x e) = w * R.pct q x) {v : Vals} {g rho : E → ℝ}
    {rs : ℝ} {r r' : Rec} {new new' : E → ℝ} {rs1 rs1' : ℝ} (hk : r'.iter = r.iter) (h : OCStep R v g rho rs r new rs1)
    (h' : OCStep (R.inWork w) v (fun e => w * g e) rho (w * rs) r' new' rs1') :
    new' = new ∧ rs1' = w * rs1 ∧ r' = { r with compliance := r'.compliance, neumannScale := r'.neumannScale, kkt := w * r.kkt } :=
  ocStep_unique (r := { r with compliance := 0, kkt := w * r.kkt }) hk (ocStep_inWork hw hp h 0) h'

/-- The two runs so far. -/
structure WorkInv (R : Common E d) (w : ℝ) (It It' : (E → ℝ) → ℝ → Rec → (E → ℝ) → ℝ → Prop) (G G' : ℝ → Prop) (line : Rec → Rec → Prop)
    (rho0 : E → ℝ) (log0 : List Rec) (x x' : World E ℝ (State E d)) : Prop where
  inv : InvBy R It G rho0 log0 x
  inv' : InvBy (R.inWork w) It' G' rho0 log0 x'
  rho : x'.rho = x.rho
  scale : x'.aux.runningScale = w * x.aux.runningScale
  log : List.Forall₂ line x.aux.log x'.aux.log
  files : x'.files = x.files

/-- Two new OC runs whose iterations agree up to the unit of work are the same run. -/
theorem twin_inWork {R : Common E d} {w : ℝ} (hw : 0 < w) (h : Basics R) (h' : Basics (R.inWork w))
    {st st' : ℕ → (E → ℝ) → State E d → State E d × Res (E → ℝ)} {It It' : (E → ℝ) → ℝ → Rec → (E → ℝ) → ℝ → Prop} {G G' : ℝ → Prop}
    (hst : Computes R st It G) (hst' : Computes (R.inWork w) st' It' G') (line : Rec → Rec → Prop)
    (hline : ∀ r r', line r r' → r'.rhoChange = r.rhoChange ∧ r'.kkt = w * r.kkt)
    (hdet : ∀ k v, ValsOk R k v → ∀ rho, (∀ e, 0 ≤ rho e ∧ rho e ≤ 1) → ∀ rs r r' new new' rs1 rs1', r.iter = k → r'.iter = k →
      It rho rs r new rs1 → It' rho (w * rs) r' new' rs1' → new' = new ∧ rs1' = w * rs1 ∧ line r r')
    (hnr : R.restart = false) (files : List (Snapshot.Name × (E → ℝ))) (cs : List Call) :
    ∃ o o', runCalls (sysWith R st) cs (newRun R files) = (o, .ok ()) ∧
      runCalls (sysWith (R.inWork w) st') cs (newRun (R.inWork w) files) = (o', .ok ()) ∧
      o'.started = o.started ∧ o'.completed = o.completed ∧
      (o.started = true → o'.iterNext = o.iterNext ∧ o'.world.rho = o.world.rho ∧ List.Forall₂ line o.world.aux.log o'.world.aux.log ∧
        o'.world.files = o.world.files) := by
  obtain ⟨rho0, -, hok, hz⟩ := init_new h hnr st files
  obtain ⟨rho0', -, hok', hz'⟩ := init_new h' hnr st' files
  have hsame : initializeDensity (sysWith (R.inWork w) st') files = initializeDensity (sysWith R st) files := rfl
  have : rho0' = rho0 := by
    have := hz'.symm.trans (hsame.trans hz)
    simp only [Except.ok.injEq, Prod.mk.injEq, and_true] at this
    exact this
  subst this
  have hlog0 : ([] : List Rec) = if R.restart then R.saved.getD [] else [] := by rw [hnr]; rfl
  have sim : Sim (sysWith R st) (sysWith (R.inWork w) st')
      (fun x x' => Inv0 R files x ∧ Inv0 (R.inWork w) files x') (fun _ => WorkInv R w It It' G G' line rho0' []) := by
    refine ⟨rfl, ?_, ?_, fun k x x' hW => ⟨⟨hW.1.1, hW.1.2, hW.1.3, hW.1.4, hW.1.5, hW.1.6⟩,
      ⟨hW.2.1, hW.2.2, hW.2.3, hW.2.4, hW.2.5, hW.2.6⟩, hW.3, hW.4, hW.5, hW.6⟩⟩
    · rintro o o' hs hs' ⟨hN, hN'⟩
      obtain ⟨x, e, e1, e2, e3⟩ := run_init_by h st It G hlog0 hz hok o hs hN
      obtain ⟨x', e', e1', e2', e3'⟩ := run_init_by h' st' It' G' (log0 := []) hlog0 hz' hok' o' hs' hN'
      refine ⟨_, _, e, e', rfl, ⟨e3, e3', rfl, ?_, ?_, rfl⟩, by show 1 ≤ 0 + 1; omega⟩
      · show x'.runningScale = w * x.runningScale
        rw [e2, e2', mul_zero]
      · show List.Forall₂ line x.log x'.log
        rw [e1, e1']
        exact .nil
    · intro b k x x' hk1 hk2 hW
      obtain ⟨r, new, y, fs, cv, e1, e2, e3, e4, e5, e6, e7⟩ := run_iteration_by h hst b k x hW.inv
      obtain ⟨r', new', y', fs', cv', f1, f2, f3, f4, f5, f6, f7⟩ := run_iteration_by h' hst' b k x' hW.inv'
      obtain ⟨v, -, hv⟩ := hW.inv.ready x.aux rfl k
      rw [hW.scale, hW.rho] at f5
      obtain ⟨g1, g2, g3⟩ := hdet k v hv x.rho hW.inv.rho.unit _ _ _ _ _ _ _ e3 f3 e5 f5
      have hcv : cv' = cv := by
        have : cv' = true ↔ cv = true := by
          rw [e6, f6, (hline _ _ g3).1, (hline _ _ g3).2]
          show _ ∧ _ ∧ |w * r.kkt| < w * R.tolKkt ↔ _
          rw [abs_mul, abs_of_pos hw, mul_lt_mul_iff_right₀ hw]
        cases cv <;> cases cv' <;> simp_all
      refine ⟨_, _, cv, e1, hcv ▸ f1, e2, f2, g1, g2, ?_, ?_⟩
      · show List.Forall₂ line y.log y'.log
        rw [e4, f4]
        exact forall₂_append_one hW.log g3
      · show fs' = fs
        rw [e7, f7, hcv, hW.files, g1]
  obtain ⟨o, o', ho, ho', h1, h2, -, h4⟩ := sim.calls cs (newRun R files) (newRun (R.inWork w) files)
    ⟨rfl, rfl, fun _ => ⟨⟨rfl, rfl, fits_filter0 R, rfl, rfl, rfl, rfl⟩, ⟨rfl, rfl, fits_filter0 (R.inWork w), rfl, rfl, rfl, rfl⟩⟩,
      fun hf => by simp [newRun, fresh] at hf⟩
  refine ⟨o, o', ho, ho', h1, h2, fun hs => ?_⟩
  obtain ⟨h5, h6, -⟩ := h4 hs
  exact ⟨h5, h6.rho, h6.log, h6.files⟩

/-! ### LogMOC runs -/

/-- The unit of the multiplier of the volume constraint: that of the sensitivities, unless the volume term is normalized. -/
def LogCommon.price (L : LogCommon E d) (w : ℝ) : ℝ := if L.normalizeVolumeChain then 1 else w

/-- The same LogMOC configuration in another unit of work. -/
abbrev LogCommon.inWork (L : LogCommon E d) (w : ℝ) : LogCommon E d :=
  { L with
    lagScaleFloor := w * L.lagScaleFloor
    muP := L.price w * L.muP
    alMu := L.price w * L.alMu
    lambdaLower := L.price w * L.lambdaLower
    lambdaUpper := L.price w * L.lambdaUpper }

theorem price_inWork_pos (L : LogCommon E d) {w : ℝ} (hw : 0 < w) : 0 < L.price w := by
  unfold LogCommon.price
  split_ifs
  · exact one_pos
  · exact hw

theorem designMean_mul (R : Common E d) (w : ℝ) (x : E → ℝ) : designMean R (fun e => w * x e) = w * designMean R x := by
  unfold designMean
  simp only [mul_assoc, ← Finset.mul_sum, mul_div_assoc]

theorem objectivePart_inWork (L : LogCommon E d) (w : ℝ) (g : E → ℝ) (e : E) :
    objectivePart (L.inWork w) (fun e => w * g e) e = w * objectivePart L g e := by
  unfold objectivePart
  show (if L.centerObjective then w * g e - designMean L.toCommon (fun e => w * g e) else w * g e) = _
  rw [designMean_mul]
  split_ifs <;> ring

theorem volumePart_inWork {L : LogCommon E d} {w : ℝ} (hw : 0 < w) (hp : ∀ q x, L.pct q (fun e => w * x e) = w * L.pct q x) (v : Vals) (rho g : E → ℝ) (e : E) :
    L.price w * volumePart (L.inWork w) v rho (fun e => w * g e) e = w * volumePart L v rho g e := by
  have hvg : volumeGradient (L.inWork w).toCommon v rho = volumeGradient L.toCommon v rho := rfl
  have hex : excess (L.inWork w).toCommon v rho = excess L.toCommon v rho := rfl
  unfold volumePart LogCommon.price
  rw [hvg, hex]
  by_cases hn : L.normalizeVolumeChain = true
  · simp only [hn, if_true]
    have h1 : (fun e => |objectivePart (L.inWork w) (fun e => w * g e) e|) = fun e => w * |objectivePart L g e| := by
      funext e
      rw [objectivePart_inWork, abs_mul, abs_of_pos hw]
    have h2 : max (L.pct L.lagPercentile fun e => |objectivePart (L.inWork w) (fun e => w * g e) e|) (w * L.lagScaleFloor) =
        w * max (L.pct L.lagPercentile fun e => |objectivePart L g e|) L.lagScaleFloor := by
      rw [h1, hp, mul_max_of_nonneg _ _ hw.le]
    rw [h2]
    ring
  · simp only [hn, Bool.false_eq_true, if_false]

theorem lagrangianSlope_inWork {L : LogCommon E d} {w : ℝ} (hw : 0 < w) (hp : ∀ q x, L.pct q (fun e => w * x e) = w * L.pct q x)
    (hf : L.filterLagrangian = true → L.nodal = none) (v : Vals) (rho g : E → ℝ) (co : ℝ) (e : E) :
    lagrangianSlope (L.inWork w) v rho (fun e => w * g e) (L.price w * co) e = w * lagrangianSlope L v rho g co e := by
  have hsum : ∀ e, objectivePart (L.inWork w) (fun e => w * g e) e + L.price w * co * volumePart (L.inWork w) v rho (fun e => w * g e) e =
      w * (objectivePart L g e + co * volumePart L v rho g e) := by
    intro e
    rw [objectivePart_inWork, mul_right_comm, volumePart_inWork hw hp]
    ring
  have hcomb : combined (L.inWork w) v rho (fun e => w * g e) (L.price w * co) = fun e => w * combined L v rho g co e := by
    funext e
    unfold combined
    simp only [hsum]
    by_cases hfl : L.filterLagrangian = true
    · simp only [hfl, if_true]
      show blur L.toCommon v.radius (fun e => if e ∈ L.design then w * (objectivePart L g e + co * volumePart L v rho g e) else 0) e = _
      rw [← blur_smul L.toCommon (hf hfl)]
      congr 1
      funext e
      split_ifs <;> ring
    · simp only [hfl, Bool.false_eq_true, if_false]
  unfold lagrangianSlope
  rw [hcomb]
  show (if L.centerLagrangian then w * combined L v rho g co e - designMean L.toCommon (fun e => w * combined L v rho g co e) else w * combined L v rho g co e) = _
  rw [designMean_mul]
  split_ifs <;> ring

/-- The LogMOC update in another unit of work. -/
theorem logStep_inWork {L : LogCommon E d} {w : ℝ} (hw : 0 < w) (hp : ∀ q x, L.pct q (fun e => w * x e) = w * L.pct q x)
    (hf : L.filterLagrangian = true → L.nodal = none) {v : Vals} {g rho : E → ℝ}
    {lam rs : ℝ} {r : LogRec} {new : E → ℝ} {rs1 : ℝ} (h : LogStep L v g rho lam rs r new rs1) :
    LogStep (L.inWork w) v (fun e => w * g e) rho (L.price w * lam) (w * rs)
      { r with lambdaV := L.price w * r.lambdaV, coeff := L.price w * r.coeff } new (w * rs1) := by
  obtain ⟨s, i1, i2, i3, i4, i5, i6, i7, i8, i9⟩ := h
  have hpr := (price_inWork_pos L hw).le
  have hsl := lagrangianSlope_inWork hw hp hf v rho g r.coeff
  have hdiv : ∀ x, w * x / (w * rs1) = x / rs1 := fun x => mul_div_mul_left _ _ hw.ne'
  refine ⟨w * s, i1, ?_, ?_, ?_, ?_, ?_, i7, i8, ?_⟩
  · show L.price w * r.lambdaV = min (max (multiplier (L.inWork w) r.iter (L.price w * lam) r.volError) (L.price w * L.lambdaLower)) (L.price w * L.lambdaUpper)
    have : multiplier (L.inWork w) r.iter (L.price w * lam) r.volError = L.price w * multiplier L r.iter lam r.volError := by
      unfold multiplier
      simp only
      split_ifs <;> ring
    rw [this, ← mul_max_of_nonneg _ _ hpr, ← mul_min_of_nonneg _ _ hpr, i2]
  · show L.price w * r.coeff = L.price w * r.lambdaV + L.price w * L.alMu * r.volError
    rw [i3]; ring
  · show w * s = max (L.pct (v.percentile.getD L.lagPercentile) fun e => |lagrangianSlope (L.inWork w) v rho (fun e => w * g e) (L.price w * r.coeff) e|) (w * L.lagScaleFloor)
    simp only [hsl, abs_mul, abs_of_pos hw]
    rw [hp, ← mul_max_of_nonneg _ _ hw.le, i4]
  · show w * rs1 = if r.iter ≤ 1 then w * s else 0.2 * (w * rs) + 0.8 * (w * s)
    rw [i5]
    split_ifs <;> ring
  · intro e
    simp only [hsl, hdiv]
    exact i6 e
  · simp only [hsl, hdiv]
    exact i9

/-- The two runs so far. -/
structure LogWorkInv (L : LogCommon E d) (w : ℝ) (It It' : (E → ℝ) → ℝ → ℝ → LogRec → (E → ℝ) → ℝ → Prop) (G G' : ℝ → Prop)
    (line : LogRec → LogRec → Prop) (rho0 : E → ℝ) (k : ℕ) (x x' : World E ℝ (LogState E d)) : Prop where
  inv : LogInv L It G rho0 0 0 k x
  inv' : LogInv (L.inWork w) It' G' rho0 0 0 k x'
  rho : x'.rho = x.rho
  memory : 1 < k → x'.aux.st.lambdaV = L.price w * x.aux.st.lambdaV ∧ x'.aux.st.runningScale = x.aux.st.runningScale.map (w * ·)
  log : List.Forall₂ line x.aux.log x'.aux.log
  files : x'.files = x.files

/-- Two new LogMOC runs whose iterations agree up to the unit of work are the same run. -/
theorem log_twin_inWork {L : LogCommon E d} {w : ℝ} (h : Basics L.toCommon) (h' : Basics (L.inWork w).toCommon)
    {st st' : ℕ → (E → ℝ) → LogState E d → LogState E d × Res (E → ℝ)} {It It' : (E → ℝ) → ℝ → ℝ → LogRec → (E → ℝ) → ℝ → Prop} {G G' : ℝ → Prop}
    (hst : LogComputes L st It G) (hst' : LogComputes (L.inWork w) st' It' G') (line : LogRec → LogRec → Prop)
    (hline : ∀ r r', line r r' → r'.rhoChange = r.rhoChange ∧ r'.kkt = r.kkt ∧ r'.lambdaV = L.price w * r.lambdaV)
    (hdet : ∀ k v, ValsOk L.toCommon k v → ∀ rho, (∀ e, 0 ≤ rho e ∧ rho e ≤ 1) → ∀ lam rs r r' new new' rs1 rs1', r.iter = k → r'.iter = k →
      It rho lam rs r new rs1 → It' rho (L.price w * lam) (w * rs) r' new' rs1' → new' = new ∧ rs1' = w * rs1 ∧ line r r')
    (hnr : L.restart = false) (files : List (Snapshot.Name × (E → ℝ))) (cs : List Call) :
    ∃ o o', runCalls (logSysWith L st) cs (newLogRun L files) = (o, .ok ()) ∧
      runCalls (logSysWith (L.inWork w) st') cs (newLogRun (L.inWork w) files) = (o', .ok ()) ∧
      o'.started = o.started ∧ o'.completed = o.completed ∧
      (o.started = true → o'.iterNext = o.iterNext ∧ o'.world.rho = o.world.rho ∧ List.Forall₂ line o.world.aux.log o'.world.aux.log ∧
        o'.world.files = o.world.files) := by
  obtain ⟨rho0, -, hok, hz⟩ := init_new h hnr (fun _ _ x => (x, .error .valueError)) files
  obtain ⟨rho0', -, hok', hz'⟩ := init_new h' hnr (fun _ _ x => (x, .error .valueError)) files
  have : rho0' = rho0 := by
    have := hz'.symm.trans hz
    simp only [Except.ok.injEq, Prod.mk.injEq, and_true] at this
    exact this
  subst this
  have sim : Sim (logSysWith L st) (logSysWith (L.inWork w) st')
      (fun x x' => LogInv0 L files x ∧ LogInv0 (L.inWork w) files x') (LogWorkInv L w It It' G G' line rho0') := by
    refine ⟨rfl, ?_, ?_, fun k x x' hW => ⟨⟨hW.1.1, hW.1.2, hW.1.3, hW.1.4, hW.1.5, hW.1.6, hW.1.7⟩,
      ⟨hW.2.1, hW.2.2, hW.2.3, hW.2.4, hW.2.5, hW.2.6, hW.2.7⟩, hW.3, hW.4, hW.5, hW.6⟩⟩
    · rintro o o' hs hs' ⟨hN, hN'⟩
      obtain ⟨x, e, e1, e2⟩ := log_init h hst hnr (show initializeDensity (logSysWith L st) files = _ from hz) hok 0 0 o hs hN
      obtain ⟨x', e', e1', e2'⟩ := log_init h' hst' hnr
        (show initializeDensity (logSysWith (L.inWork w) st') files = _ from hz') hok' 0 0 o' hs' hN'
      refine ⟨_, _, e, e', rfl, ⟨e2, e2', rfl, fun hk => by simp at hk, ?_, rfl⟩, by show 1 ≤ 0 + 1; omega⟩
      show List.Forall₂ line x.log x'.log
      rw [e1, e1']; exact .nil
    · intro b k x x' hk1 hk2 hW
      obtain ⟨r, new, y, fs, cv, rs, e1, e2, e3, e4, e5, e6, e7, e8, e9⟩ := log_iteration h hst b k x hW.inv
      obtain ⟨r', new', y', fs', cv', rs', f1, f2, f3, f4, f5, f6, f7, f8, f9⟩ := log_iteration h' hst' b k x' hW.inv'
      obtain ⟨v, -, hv⟩ := hW.inv.ready x.aux.base rfl k
      have hmem : ∃ lam r0, (1 < k → lam = x.aux.st.lambdaV ∧ x.aux.st.runningScale = some r0) ∧
          (1 < k → L.price w * lam = x'.aux.st.lambdaV ∧ x'.aux.st.runningScale = some (w * r0)) := by
        by_cases hk : 1 < k
        · obtain ⟨m1, m2⟩ := hW.memory hk
          obtain ⟨r0, hr0, -⟩ := hW.inv.scale hk
          exact ⟨x.aux.st.lambdaV, r0, fun _ => ⟨rfl, hr0⟩, fun _ => ⟨m1.symm, by rw [m2, hr0]; rfl⟩⟩
        · exact ⟨0, 0, fun hn => absurd hn hk, fun hn => absurd hn hk⟩
      obtain ⟨lam, r0, m1, m2⟩ := hmem
      have f5' := f5 _ _ m2
      rw [hW.rho] at f5'
      obtain ⟨g1, g2, g3⟩ := hdet k v hv x.rho hW.inv.rho.unit _ _ _ _ _ _ _ _ e3 f3 (e5 lam r0 m1) f5'
      obtain ⟨l1, l2, l3⟩ := hline _ _ g3
      have hcv : cv' = cv := by
        have : cv' = true ↔ cv = true := by rw [e8, f8, l1, l2]
        cases cv <;> cases cv' <;> simp_all
      refine ⟨_, _, cv, e1, hcv ▸ f1, e2, f2, g1, fun _ => ⟨?_, ?_⟩, ?_, ?_⟩
      · show y'.st.lambdaV = L.price w * y.st.lambdaV
        rw [e6, f6, l3]
      · show y'.st.runningScale = y.st.runningScale.map (w * ·)
        rw [e7, f7, g2]; rfl
      · show List.Forall₂ line y.log y'.log
        rw [e4, f4]
        exact forall₂_append_one hW.log g3
      · show fs' = fs
        rw [e9, f9, hcv, hW.files, g1]
  obtain ⟨o, o', ho, ho', h1, h2, -, h4⟩ := sim.calls cs (newLogRun L files) (newLogRun (L.inWork w) files)
    ⟨rfl, rfl, fun _ => ⟨⟨rfl, rfl, fits_filter0 L.toCommon, rfl, rfl, rfl⟩,
      ⟨rfl, rfl, fits_filter0 (L.inWork w).toCommon, rfl, rfl, rfl⟩⟩,
      fun hf => by simp [newLogRun, fresh] at hf⟩
  refine ⟨o, o', ho, ho', h1, h2, fun hs => ?_⟩
  obtain ⟨h5, h6, -⟩ := h4 hs
  exact ⟨h5, h6.rho, h6.log, h6.files⟩

end
end Verif.Run
