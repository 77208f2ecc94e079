import Verif.Props.AlikeLog
import Verif.Lemmas.Relabel
import Verif.Lemmas.Twin

/-! What the LogMOC update does with relabelled elements, whatever the physics. -/
namespace Verif.Run
open Verif Verif.Sched Verif.Spec Verif.Driver

noncomputable section
open Classical

variable {ι E Q ι' E' Q' : Type} [Fintype ι] [Fintype E] [Fintype Q] [Fintype ι'] [Fintype E'] [Fintype Q'] {d d' m : ℕ}
variable {c : Change ι E ι' E' m} {L : LogSetup ι E Q d m} {L' : LogSetup ι' E' Q' d' m}

theorem logStep_alike (h : AlikeLog c L L') (hS : Sound L.toSetup) (hS' : Sound L'.toSetup) {v : Vals} (hr : 0 < v.radius)
    {rho : E → ℝ} {rho' : E' → ℝ} (hx : ∀ e, rho' (c.element e) = rho e) {lam rs : ℝ} {a : E → ℝ} {a' : E' → ℝ}
    (hgr : ∀ e, a' (c.element e) = c.work * a e) {r r' : LogRec} {new : E → ℝ} {new' : E' → ℝ} {rs1 rs1' : ℝ} (hk : r'.iter = r.iter)
    (hi : LogStep L.common v a rho lam rs r new rs1) (hi' : LogStep L'.common (other c v) a' rho' (c.price L * lam) (c.work * rs) r' new' rs1') :
    (∀ e, new' (c.element e) = new e) ∧ rs1' = c.work * rs1 ∧
      r' = { c.logLine L r with compliance := r'.compliance, neumannScale := r'.neumannScale } := by
  have hA := h.toAlike
  have hκ := work_pos hA
  have hω := price_pos h
  obtain ⟨s, i5, i6, i7, i8, i9, i10, i11, i12, i13⟩ := hi
  obtain ⟨s', j5, j6, j7, j8, j9, j10, j11, j12, j13⟩ := hi'
  rw [hk] at j6 j9
  have hve : r'.volError = r.volError := by rw [i5, j5, excess_alike hA hS hS' hr hx]
  have hlam : r'.lambdaV = c.price L * r.lambdaV := by
    have hmul : multiplier L'.common r.iter (c.price L * lam) r.volError = c.price L * multiplier L.common r.iter lam r.volError := by
      unfold multiplier
      rw [h.gains.1, h.decay.1, h.decay.2]
      split_ifs <;> ring
    rw [j6, i6, hve, hmul, h.bounds.1, h.bounds.2, ← mul_max_of_nonneg _ _ hω.le, ← mul_min_of_nonneg _ _ hω.le]
  have hco : r'.coeff = c.price L * r.coeff := by
    rw [j7, i7, hve, hlam, h.gains.2]; ring
  have hsl : ∀ e, lagrangianSlope L'.common (other c v) rho' a' r'.coeff (c.element e) =
      c.work * lagrangianSlope L.common v rho a r.coeff e := by
    intro e
    rw [hco]
    exact lagrangianSlope_alike h hS hS' hr hx hgr e
  have hs : s' = c.work * s := by
    rw [i8, j8, h.floors.1, h.percentiles.1]
    rw [show (other c v).percentile = v.percentile from rfl]
    rw [h.statistic _ c.work (fun e => |lagrangianSlope L.common v rho a r.coeff e|) _ hκ
      (fun e _ => by rw [hsl, abs_mul, abs_of_pos hκ]), mul_max_of_nonneg _ _ hκ.le]
  have hrs : rs1' = c.work * rs1 := by
    rw [i9, j9, hs]
    split_ifs <;> ring
  have hq : ∀ e, lagrangianSlope L'.common (other c v) rho' a' r'.coeff (c.element e) / rs1' =
      lagrangianSlope L.common v rho a r.coeff e / rs1 := fun e => by
    rw [hsl, hrs, mul_div_mul_left _ _ hκ.ne']
  have hnew : ∀ e, new' (c.element e) = new e := by
    intro e
    rw [i10, j10, hq, moved_alike h, hx]
    simp only [hA.pinned, hA.design]
  have hchange : r'.rhoChange = r.rhoChange := by
    have := greatest_alike (c := c) (s := 1) (fun e => hA.design e) zero_le_one (f := fun e => |new e - rho e|)
      (f' := fun e => |new' e - rho' e|) (fun e _ => by simp only [hnew, hx, one_mul]) i11 j11
    rw [this, one_mul]
  have hin : ∀ e, c.element e ∈ {e | e ∈ L'.design ∧ L'.rhoMin + 1 / 10 ^ 6 < rho' e ∧ rho' e < L'.rhoMax - 1 / 10 ^ 6} ↔
      e ∈ {e | e ∈ L.design ∧ L.rhoMin + 1 / 10 ^ 6 < rho e ∧ rho e < L.rhoMax - 1 / 10 ^ 6} := by
    intro e
    show (_ ∧ _ ∧ _) ↔ (_ ∧ _ ∧ _)
    rw [hx, hA.design, hA.box.1, hA.box.2]
  have hkkt : r'.kkt = r.kkt := by
    by_cases hne : {e | e ∈ L.design ∧ L.rhoMin + 1 / 10 ^ 6 < rho e ∧ rho e < L.rhoMax - 1 / 10 ^ 6}.Nonempty
    · have hne' : {e | e ∈ L'.design ∧ L'.rhoMin + 1 / 10 ^ 6 < rho' e ∧ rho' e < L'.rhoMax - 1 / 10 ^ 6}.Nonempty := by
        obtain ⟨e, he⟩ := hne
        exact ⟨c.element e, (hin e).2 he⟩
      have := greatest_alike (c := c) (s := 1) hin zero_le_one (fun e _ => by rw [hq, one_mul]) (i13 hne) (j13 hne')
      rw [this, one_mul]
    · have hem := Set.not_nonempty_iff_eq_empty.mp hne
      have hem' : {e | e ∈ L'.design ∧ L'.rhoMin + 1 / 10 ^ 6 < rho' e ∧ rho' e < L'.rhoMax - 1 / 10 ^ 6} = ∅ := by
        apply Set.not_nonempty_iff_eq_empty.mp
        rintro ⟨e, he⟩
        obtain ⟨e, rfl⟩ := c.element.surjective e
        exact hne ⟨e, (hin e).1 he⟩
      rw [i12 hem, j12 hem']
  refine ⟨hnew, hrs, ?_⟩
  obtain ⟨a1, a2, a3, a4, a5, a6, a7, a8⟩ := r
  obtain ⟨b1, b2, b3, b4, b5, b6, b7, b8⟩ := r'
  simp only at hk hchange hve hlam hco hkkt
  subst hk hchange hve hlam hco hkkt
  rfl

/-- The relation between the two runs before iteration `k`. -/
structure LogRelabelled (c : Change ι E ι' E' m) (ln : LogRec → LogRec) (L : LogSetup ι E Q d m) (L' : LogSetup ι' E' Q' d' m)
    (It : (E → ℝ) → ℝ → ℝ → LogRec → (E → ℝ) → ℝ → Prop) (It' : (E' → ℝ) → ℝ → ℝ → LogRec → (E' → ℝ) → ℝ → Prop) (G G' : ℝ → Prop)
    (rho0 : E → ℝ) (rho0' : E' → ℝ) (k : ℕ) (w : World E ℝ (LogState E d)) (w' : World E' ℝ (LogState E' d')) : Prop where
  inv : LogInv L.common It G rho0 0 0 k w
  inv' : LogInv L'.common It' G' rho0' 0 0 k w'
  rho : ∀ e, w'.rho (c.element e) = w.rho e
  memory : 1 < k → w'.aux.st.lambdaV = c.price L * w.aux.st.lambdaV ∧
    ∃ rs, w.aux.st.runningScale = some rs ∧ w'.aux.st.runningScale = some (c.work * rs)
  log : w'.aux.log = w.aux.log.map ln
  files : w'.files = c.directory w.files

/-- If every LogMOC iteration does the same with relabelled elements, up to the units `ln` of the recorded numbers, so does every new run. -/
theorem log_relabelled_by (ln : LogRec → LogRec)
    (hln : ∀ r, (ln r).rhoChange = r.rhoChange ∧ (ln r).kkt = r.kkt ∧ (ln r).lambdaV = c.price L * r.lambdaV) (h : AlikeLog c L L') (hB : Basics L.toCommon) (hB' : Basics L'.toCommon)
    {st : ℕ → (E → ℝ) → LogState E d → LogState E d × Res (E → ℝ)} {st' : ℕ → (E' → ℝ) → LogState E' d' → LogState E' d' × Res (E' → ℝ)}
    {It : (E → ℝ) → ℝ → ℝ → LogRec → (E → ℝ) → ℝ → Prop} {It' : (E' → ℝ) → ℝ → ℝ → LogRec → (E' → ℝ) → ℝ → Prop} {G G' : ℝ → Prop}
    (hst : LogComputes L.common st It G) (hst' : LogComputes L'.common st' It' G')
    (hdet : ∀ k v, ValsOk L.toCommon k v → ∀ rho rho', (∀ e, 0 ≤ rho e ∧ rho e ≤ 1) → (∀ e, rho' (c.element e) = rho e) →
      ∀ lam rs r r' new new' rs1 rs1', r.iter = k → r'.iter = k → It rho lam rs r new rs1 →
      It' rho' (c.price L * lam) (c.work * rs) r' new' rs1' →
      (∀ e, new' (c.element e) = new e) ∧ rs1' = c.work * rs1 ∧ r' = ln r)
    (hnr : L.restart = false) (files : List (Snapshot.Name × (E → ℝ))) (cs : List Call) :
    ∃ o o', runCalls (logSysWith L.common st) cs (newLogRun L.common files) = (o, .ok ()) ∧
      runCalls (logSysWith L'.common st') cs (newLogRun L'.common (c.directory files)) = (o', .ok ()) ∧
      o'.started = o.started ∧ o'.completed = o.completed ∧
      (o.started = true → o'.iterNext = o.iterNext ∧ (∀ e, o'.world.rho (c.element e) = o.world.rho e) ∧
        o'.world.aux.log = o.world.aux.log.map ln ∧ o'.world.files = c.directory o.world.files) := by
  have hA := h.toAlike
  obtain ⟨rho0, ⟨y, hy, hi⟩, hok, hz⟩ := init_new hB hnr (fun _ _ x => (x, .error .valueError)) files
  obtain ⟨rho0', ⟨y', hy', hi'⟩, hok', hz'⟩ := init_new hB' (by rw [h.restart.1]; exact hnr) (fun _ _ x => (x, .error .valueError)) (c.directory files)
  have hx : ∀ e, rho0' (c.element e) = rho0 e := by
    intro e
    rw [h.volFrac] at hy'
    have := initialValue_unique hy hy'
    subst this
    rw [hi, hi', h.box.1, h.box.2]
    simp only [h.pinned, h.fixed]
  have sim : Sim (logSysWith L.common st) (logSysWith L'.common st')
      (fun w w' => LogInv0 L.common files w ∧ LogInv0 L'.common (c.directory files) w') (LogRelabelled c ln L L' It It' G G' rho0 rho0') := by
    refine ⟨hA.iters.1, ?_, ?_, fun k w w' hW => ⟨⟨hW.1.1, hW.1.2, hW.1.3, hW.1.4, hW.1.5, hW.1.6, hW.1.7⟩,
      ⟨hW.2.1, hW.2.2, hW.2.3, hW.2.4, hW.2.5, hW.2.6, hW.2.7⟩, hW.3, hW.4, hW.5, hW.6⟩⟩
    · rintro o o' hs hs' ⟨hN, hN'⟩
      obtain ⟨x, e, e1, e2⟩ := log_init hB hst hnr (show initializeDensity (logSysWith L.common st) files = _ from hz) hok 0 0 o hs hN
      obtain ⟨x', e', e1', e2'⟩ := log_init hB' hst' (by rw [hA.restart.1]; exact hnr)
        (show initializeDensity (logSysWith L'.common st') (c.directory files) = _ from hz') hok' 0 0 o' hs' hN'
      refine ⟨_, _, e, e', rfl, ⟨e2, e2', hx, fun hk => by simp at hk, ?_, rfl⟩, by show 1 ≤ 0 + 1; omega⟩
      show x'.log = x.log.map _
      rw [e1, e1']; rfl
    · intro b k w w' hk1 hk2 hW
      obtain ⟨r, new, x, fs, cv, rs, e1, e2, e3, e4, e5, e6, e7, e8, e9⟩ := log_iteration hB hst b k w hW.inv
      obtain ⟨r', new', x', fs', cv', rs', f1, f2, f3, f4, f5, f6, f7, f8, f9⟩ := log_iteration hB' hst' b k w' hW.inv'
      obtain ⟨v, -, hv⟩ := hW.inv.ready w.aux.base rfl k
      have hmem : ∃ lam r0, (1 < k → lam = w.aux.st.lambdaV ∧ w.aux.st.runningScale = some r0) ∧
          (1 < k → c.price L * lam = w'.aux.st.lambdaV ∧ w'.aux.st.runningScale = some (c.work * r0)) := by
        by_cases hk : 1 < k
        · obtain ⟨m1, r0, m2, m3⟩ := hW.memory hk
          exact ⟨w.aux.st.lambdaV, r0, fun _ => ⟨rfl, m2⟩, fun _ => ⟨m1.symm, m3⟩⟩
        · exact ⟨0, 0, fun hn => absurd hn hk, fun hn => absurd hn hk⟩
      obtain ⟨lam, r0, m1, m2⟩ := hmem
      obtain ⟨g1, g2, g3⟩ := hdet k v hv _ _ hW.inv.rho.unit hW.rho _ _ _ _ _ _ _ _ e3 f3 (e5 lam r0 m1)
        (f5 (c.price L * lam) (c.work * r0) m2)
      have hcv : cv' = cv := by
        have : cv' = true ↔ cv = true := by
          rw [e8, f8, g3, hA.convergence.1, hA.convergence.2, h.tolKkt, (hln r).1, (hln r).2.1]
        cases cv <;> cases cv' <;> simp_all
      refine ⟨_, _, cv, e1, hcv ▸ f1, e2, f2, g1, fun _ => ⟨?_, rs, e7, ?_⟩, ?_, ?_⟩
      · show x'.st.lambdaV = _ * x.st.lambdaV
        rw [e6, f6, g3, (hln r).2.2]
      · show x'.st.runningScale = _
        rw [f7, g2]
      · show x'.log = x.log.map _
        rw [e4, f4, hW.log, g3, List.map_append]; rfl
      · show fs' = c.directory fs
        rw [e9, f9, hcv, hA.iters.1, hA.iters.2]
        split_ifs
        · rw [save_directory, hW.files, designPart_alike hA g1]
        · exact hW.files
  obtain ⟨o, o', ho, ho', h1, h2, -, h4⟩ := sim.calls cs (newLogRun L.common files) (newLogRun L'.common (c.directory files))
    ⟨rfl, rfl, fun _ => ⟨⟨rfl, rfl, fits_filter0 L.toCommon, rfl, rfl, rfl⟩, ⟨rfl, rfl, fits_filter0 L'.toCommon, rfl, rfl, rfl⟩⟩,
      fun hf => by simp [newLogRun, fresh] at hf⟩
  refine ⟨o, o', ho, ho', h1, h2, fun hs => ?_⟩
  obtain ⟨h5, h6, -⟩ := h4 hs
  exact ⟨h5, h6.rho, h6.log, h6.files⟩

end
end Verif.Run
