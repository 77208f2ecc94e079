import Verif.Props.Alike
import Verif.Lemmas.RunBy

/-!
What filter, threshold and OC update do with relabelled elements, whatever the physics. The facts are those of `Verif.Lemmas.Alike`, used on an
elasticity problem without degrees of freedom, which has nothing but the common part.
-/
namespace Verif.Run
open Verif Verif.Sched Verif.Spec Verif.Driver

noncomputable section
open Classical

variable {ι E Q ι' E' Q' : Type} [Fintype ι] [Fintype E] [Fintype Q] [Fintype ι'] [Fintype E'] [Fintype Q'] {d d' m : ℕ}
variable {c : Change ι E ι' E' m} {R : Setup ι E Q d m} {R' : Setup ι' E' Q' d' m}

/-! ### One update -/

theorem chained_alike (h : Alike c R R') (hS : Sound R) (hS' : Sound R') {v : Vals} (hr : 0 < v.radius) {rho : E → ℝ} {rho' : E' → ℝ}
    (hx : ∀ e, rho' (c.element e) = rho e) {n : ℕ} {g : Fin n → E → ℝ} {g' : Fin n → E' → ℝ} (hg : ∀ j e, g' j (c.element e) = c.work * g j e) (e : E) :
    chained R'.toCommon (other c v) rho' g' (c.element e) = c.work * chained R.toCommon v rho g e := by
  have hw := work_pos h
  have hone : ∀ j e, blurT R'.toCommon (other c v).radius (fun e => g' j e * thresholdSlope v.beta R'.betaEta (blur R'.toCommon (other c v).radius rho' e))
      (c.element e) = c.work * blurT R.toCommon v.radius (fun e => g j e * thresholdSlope v.beta R.betaEta (blur R.toCommon v.radius rho e)) e := by
    intro j e
    refine blurT_alike h hS hS' hr hw (fun e => ?_) e
    have hbl := blur_alike h hS hS' hr (Or.inl rfl) (s := 1) (x := rho) (x' := rho') (by simpa using hx) e
    rw [one_mul] at hbl
    show _ * thresholdSlope v.beta R'.betaEta (blur R'.toCommon (c.length * v.radius) rho' (c.element e)) = _
    rw [hbl, h.betaEta, hg]
    ring
  have hmean : ∀ e, (∑ j, blurT R'.toCommon (other c v).radius (fun e => g' j e *
      thresholdSlope v.beta R'.betaEta (blur R'.toCommon (other c v).radius rho' e)) (c.element e)) / n =
      c.work * ((∑ j, blurT R.toCommon v.radius (fun e => g j e * thresholdSlope v.beta R.betaEta (blur R.toCommon v.radius rho e)) e) / n) := by
    intro e
    rw [← mul_div_assoc, Finset.mul_sum]
    congr 1
    exact Finset.sum_congr rfl fun j _ => hone j e
  unfold chained
  simp only [h.sensFilter]
  by_cases hsf : R.sensFilter = true
  · rw [if_pos hsf, if_pos hsf]
    refine blur_alike h hS hS' hr (Or.inr ?_) hmean e
    cases hN : R.nodal with
    | none => rfl
    | some N => have := (hS.nodal N hN).noSensFilter; rw [hsf] at this; simp at this
  · rw [if_neg hsf, if_neg hsf]
    exact hmean e

theorem ocStep_alike (h : AlikeOC c R R') (hS : Sound R) (hS' : Sound R') {v : Vals} (hr : 0 < v.radius)
    {rho : E → ℝ} {rho' : E' → ℝ} (hx : ∀ e, rho' (c.element e) = rho e) {rs : ℝ} {a : E → ℝ} {a' : E' → ℝ}
    (hgr : ∀ e, a' (c.element e) = c.work * a e) {r r' : Rec} {new : E → ℝ} {new' : E' → ℝ} {rs1 rs1' : ℝ} (hk : r'.iter = r.iter)
    (hi : OCStep R.toCommon v a rho rs r new rs1) (hi' : OCStep R'.toCommon (other c v) a' rho' (c.work * rs) r' new' rs1') :
    (∀ e, new' (c.element e) = new e) ∧ rs1' = c.work * rs1 ∧
      r' = { c.line r with compliance := r'.compliance, neumannScale := r'.neumannScale } := by
  have hA := h.toAlike
  have hκ := work_pos hA
  obtain ⟨s, i5, i6, i7, i8, i9, i10, i11, i12, i13⟩ := hi
  obtain ⟨s', j5, j6, j7, j8, j9, j10, j11, j12, j13⟩ := hi'
  rw [hk] at j7
  have hab : ∀ e, |a' (c.element e)| = c.work * |a e| := fun e => by
    rw [hgr, abs_mul, abs_of_pos hκ]
  have hs : s' = c.work * s := by
    cases hq : v.percentile with
    | none => exact greatest_alike (fun e => h.design e) hκ.le (fun e _ => hab e) (i5 hq) (j5 hq)
    | some q =>
      rw [i6 q hq, j6 q hq]
      exact h.statistic q c.work _ _ hκ fun e _ => hab e
  have hm : max s' R'.scaleFloor = c.work * max s R.scaleFloor := by
    rw [hs, h.scaleFloor, mul_max_of_nonneg _ _ hκ.le]
  have hrs : rs1' = c.work * rs1 := by
    rw [i7, j7, hm]
    split_ifs <;> ring
  have hg : ∀ e, a' (c.element e) / rs1' = a e / rs1 := fun e => by
    rw [hgr, hrs, mul_div_mul_left _ _ hκ.ne']
  have hgrown := grown_alike h (v := v) hx (g := fun e => a e / rs1) (g' := fun e => a' e / rs1') hg
  have hex : ∀ l, excess R'.toCommon (other c v) (grown R'.toCommon (other c v) rho' (fun e => a' e / rs1') l) =
      excess R.toCommon v (grown R.toCommon v rho (fun e => a e / rs1) l) := fun l => excess_alike hA hS hS' hr (hgrown l)
  have hl : r'.lmid = r.lmid := by
    simp only [hex] at j8
    exact bisected_unique (bisected_alike h j8) i8
  have hnew : ∀ e, new' (c.element e) = new e := by
    intro e
    rw [i9, j9, hl, hgrown]
    simp only [hA.pinned]
  have hchange : r'.rhoChange = r.rhoChange := by
    have := greatest_alike (c := c) (s := 1) (fun e => h.design e) zero_le_one (f := fun e => |new e - rho e|)
      (f' := fun e => |new' e - rho' e|) (fun e _ => by simp only [hnew, hx, one_mul]) i11 j11
    rw [this, one_mul]
  have hin : ∀ e, (c.element e ∈ R'.design ∧ R'.rhoMin + 1 / 10 ^ 6 <
      grown R'.toCommon (other c v) rho' (fun e => a' e / rs1') r'.lmid (c.element e) ∧
      grown R'.toCommon (other c v) rho' (fun e => a' e / rs1') r'.lmid (c.element e) < R'.rhoMax - 1 / 10 ^ 6) ↔
      (e ∈ R.design ∧ R.rhoMin + 1 / 10 ^ 6 < grown R.toCommon v rho (fun e => a e / rs1) r.lmid e ∧
      grown R.toCommon v rho (fun e => a e / rs1) r.lmid e < R.rhoMax - 1 / 10 ^ 6) := by
    intro e
    rw [hl, hgrown, h.design, h.box.1, h.box.2]
  have hkkt : r'.kkt = c.work * r.kkt := by
    by_cases hne : {e | e ∈ R.design ∧ R.rhoMin + 1 / 10 ^ 6 < grown R.toCommon v rho (fun e => a e / rs1) r.lmid e ∧
        grown R.toCommon v rho (fun e => a e / rs1) r.lmid e < R.rhoMax - 1 / 10 ^ 6}.Nonempty
    · have hne' : {e | e ∈ R'.design ∧ R'.rhoMin + 1 / 10 ^ 6 <
          grown R'.toCommon (other c v) rho' (fun e => a' e / rs1') r'.lmid e ∧
          grown R'.toCommon (other c v) rho' (fun e => a' e / rs1') r'.lmid e < R'.rhoMax - 1 / 10 ^ 6}.Nonempty := by
        obtain ⟨e, he⟩ := hne
        exact ⟨c.element e, (hin e).2 he⟩
      refine greatest_alike hin hκ.le (fun e _ => ?_) (i13 hne) (j13 hne')
      rw [hgr, hl, hrs, h.volume, volume_sum hA, mul_div_mul_left _ _ h.factors.2.1.ne']
      rw [← abs_of_pos hκ, ← abs_mul, abs_of_pos hκ]
      congr 1; ring
    · have hem := Set.not_nonempty_iff_eq_empty.mp hne
      have hem' : {e | e ∈ R'.design ∧ R'.rhoMin + 1 / 10 ^ 6 <
          grown R'.toCommon (other c v) rho' (fun e => a' e / rs1') r'.lmid e ∧
          grown R'.toCommon (other c v) rho' (fun e => a' e / rs1') r'.lmid e < R'.rhoMax - 1 / 10 ^ 6} = ∅ := by
        apply Set.not_nonempty_iff_eq_empty.mp
        rintro ⟨e, he⟩
        obtain ⟨e, rfl⟩ := c.element.surjective e
        exact hne ⟨e, (hin e).1 he⟩
      rw [i12 hem, j12 hem', mul_zero]
  refine ⟨hnew, hrs, ?_⟩
  have hve : r'.volError = r.volError := by rw [i10, j10, hl, hex]
  obtain ⟨a1, a2, a3, a4, a5, a6, a7⟩ := r
  obtain ⟨b1, b2, b3, b4, b5, b6, b7⟩ := r'
  simp only at hk hchange hve hl hkkt
  subst hk hchange hve hl hkkt
  rfl

/-! ### Runs -/

theorem start_relabelled (h : Alike c R R') (hS : Basics R.toCommon) (hS' : Basics R'.toCommon) (st : ℕ → (E → ℝ) → State E d → State E d × Res (E → ℝ))
    (st' : ℕ → (E' → ℝ) → State E' d' → State E' d' × Res (E' → ℝ)) {files : List (Snapshot.Name × (E → ℝ))} (hst : CanStart R.toCommon files) :
    ∃ k0 rho0 rho0', k0 ≤ R.maxIters ∧ RhoOk R.toCommon rho0 ∧ RhoOk R'.toCommon rho0' ∧
      initializeDensity (sysWith R.toCommon st) files = .ok (rho0, k0 + 1) ∧
      initializeDensity (sysWith R'.toCommon st') (c.directory files) = .ok (rho0', k0 + 1) ∧ ∀ e, rho0' (c.element e) = rho0 e := by
  rcases hst with hn | ⟨k, data, hr, hk, hd⟩
  · obtain ⟨rho0, ⟨x, hx, hi⟩, hok, hz⟩ := init_new hS hn st files
    obtain ⟨rho0', ⟨x', hx', hi'⟩, hok', hz'⟩ := init_new hS' (by rw [h.restart.1]; exact hn) st' (c.directory files)
    refine ⟨0, rho0, rho0', Nat.zero_le _, hok, hok', hz, hz', fun e => ?_⟩
    rw [h.volFrac] at hx'
    have := initialValue_unique hx hx'
    subst this
    rw [hi, hi', h.box.1, h.box.2]
    simp only [h.pinned, h.fixed]
  · obtain ⟨hok, hz⟩ := init_resumed hS st hr hd
    obtain ⟨hok', hz'⟩ := init_resumed hS' st' (resumes_alike h hr) (fun e he => by
      obtain ⟨e, rfl⟩ := c.element.surjective e
      rw [h.pinned, h.box.1, h.box.2]
      simpa [Change.move] using hd e ((h.design e).1 he))
    refine ⟨k, _, _, hk, hok, hok', hz, hz', fun e => ?_⟩
    unfold resumed
    simp only [h.pinned, h.fixed, h.design, Change.move, Equiv.symm_apply_apply]

/-- The relation between the two runs. -/
structure Relabelled (c : Change ι E ι' E' m) (ln : Rec → Rec) (R : Common E d) (R' : Common E' d') (It : (E → ℝ) → ℝ → Rec → (E → ℝ) → ℝ → Prop)
    (It' : (E' → ℝ) → ℝ → Rec → (E' → ℝ) → ℝ → Prop) (G G' : ℝ → Prop) (rho0 : E → ℝ) (rho0' : E' → ℝ)
    (log0 log0' : List Rec) (w : World E ℝ (State E d)) (w' : World E' ℝ (State E' d')) : Prop where
  inv : InvBy R It G rho0 log0 w
  inv' : InvBy R' It' G' rho0' log0' w'
  rho : ∀ e, w'.rho (c.element e) = w.rho e
  scale : w'.aux.runningScale = c.work * w.aux.runningScale
  log : w'.aux.log = w.aux.log.map ln
  files : w'.files = c.directory w.files

/-- If every iteration does the same with relabelled elements, up to the units `ln` of the recorded numbers, so does every run. -/
theorem relabelled_by (ln : Rec → Rec) (hln : ∀ r, (ln r).rhoChange = r.rhoChange ∧ (ln r).kkt = c.work * r.kkt) (h : AlikeOC c R R')
    (hsv : R.restart = true → R'.saved = R.saved.map (List.map ln)) (hB : Basics R.toCommon) (hB' : Basics R'.toCommon)
    {st : ℕ → (E → ℝ) → State E d → State E d × Res (E → ℝ)} {st' : ℕ → (E' → ℝ) → State E' d' → State E' d' × Res (E' → ℝ)}
    {It : (E → ℝ) → ℝ → Rec → (E → ℝ) → ℝ → Prop} {It' : (E' → ℝ) → ℝ → Rec → (E' → ℝ) → ℝ → Prop} {G G' : ℝ → Prop}
    (hst : Computes R.toCommon st It G) (hst' : Computes R'.toCommon st' It' G')
    (hdet : ∀ k v, ValsOk R.toCommon k v → ∀ rho rho', (∀ e, 0 ≤ rho e ∧ rho e ≤ 1) → (∀ e, rho' (c.element e) = rho e) →
      ∀ rs r r' new new' rs1 rs1', r.iter = k → r'.iter = k → It rho rs r new rs1 → It' rho' (c.work * rs) r' new' rs1' →
      (∀ e, new' (c.element e) = new e) ∧ rs1' = c.work * rs1 ∧ r' = ln r)
    {files : List (Snapshot.Name × (E → ℝ))} (hs : CanStart R.toCommon files) (cs : List Call) :
    ∃ o o', runCalls (sysWith R.toCommon st) cs (newRun R.toCommon files) = (o, .ok ()) ∧
      runCalls (sysWith R'.toCommon st') cs (newRun R'.toCommon (c.directory files)) = (o', .ok ()) ∧
      o'.started = o.started ∧ o'.completed = o.completed ∧
      (o.started = true → o'.iterNext = o.iterNext ∧ (∀ e, o'.world.rho (c.element e) = o.world.rho e) ∧
        o'.world.aux.log = o.world.aux.log.map ln ∧ o'.world.files = c.directory o.world.files) := by
  have hA := h.toAlike
  have hκ := work_pos hA
  obtain ⟨k0, rho0, rho0', hk0, hok, hok', hz, hz', hx⟩ := start_relabelled hA hB hB' st st' hs
  have sim : Sim (sysWith R.toCommon st) (sysWith R'.toCommon st')
      (fun w w' => Inv0 R.toCommon files w ∧ Inv0 R'.toCommon (c.directory files) w')
      (fun _ => Relabelled c ln R.toCommon R'.toCommon It It' G G' rho0 rho0' (if R.restart then R.saved.getD [] else [])
        (if R'.restart then R'.saved.getD [] else [])) := by
    refine ⟨h.iters.1, ?_, ?_, fun k w w' hW => ⟨⟨hW.1.1, hW.1.2, hW.1.3, hW.1.4, hW.1.5, hW.1.6⟩,
      ⟨hW.2.1, hW.2.2, hW.2.3, hW.2.4, hW.2.5, hW.2.6⟩, hW.3, hW.4, hW.5, hW.6⟩⟩
    · rintro o o' hs hs' ⟨hN, hN'⟩
      obtain ⟨x, e, e1, e2, e3⟩ := run_init_by hB st It G rfl hz hok o hs hN
      obtain ⟨x', e', e1', e2', e3'⟩ := run_init_by hB' st' It' G' rfl hz' hok' o' hs' hN'
      refine ⟨_, _, e, e', rfl, ⟨e3, e3', hx, ?_, ?_, rfl⟩, by show 1 ≤ k0 + 1; omega⟩
      · show x'.runningScale = _ * x.runningScale
        rw [e2, e2', mul_zero]
      · show x'.log = x.log.map ln
        rw [e1, e1', h.restart.1]
        by_cases hr : R.restart = true
        · rw [if_pos hr, if_pos hr, hsv hr]
          cases R.saved <;> rfl
        · rw [if_neg hr, if_neg hr]; rfl
    · intro b k w w' hk1 hk2 hW
      obtain ⟨r, new, x, fs, cv, e1, e2, e3, e4, e5, e6, e7⟩ := run_iteration_by hB hst b k w hW.inv
      obtain ⟨r', new', x', fs', cv', f1, f2, f3, f4, f5, f6, f7⟩ := run_iteration_by hB' hst' b k w' hW.inv'
      obtain ⟨v, -, hv⟩ := hW.inv.ready w.aux rfl k
      rw [hW.scale] at f5
      obtain ⟨g1, g2, g3⟩ := hdet k v hv _ _ hW.inv.rho.unit hW.rho _ _ _ _ _ _ _ e3 f3 e5 f5
      have hcv : cv' = cv := by
        have : cv' = true ↔ cv = true := by
          rw [e6, f6, g3, h.convergence.1, h.convergence.2, h.tolKkt, (hln r).1, (hln r).2, abs_mul, abs_of_pos hκ, mul_lt_mul_iff_right₀ hκ]
        cases cv <;> cases cv' <;> simp_all
      refine ⟨_, _, cv, e1, hcv ▸ f1, e2, f2, g1, g2, ?_, ?_⟩
      · show x'.log = x.log.map ln
        rw [e4, f4, hW.log, g3, List.map_append]; rfl
      · show fs' = c.directory fs
        rw [e7, f7, hcv, h.iters.1, h.iters.2]
        split_ifs
        · rw [save_directory, hW.files, designPart_alike hA g1]
        · exact hW.files
  obtain ⟨o, o', ho, ho', h1, h2, -, h4⟩ := sim.calls cs (newRun R.toCommon files) (newRun R'.toCommon (c.directory files))
    ⟨rfl, rfl, fun _ => ⟨⟨rfl, rfl, fits_filter0 R.toCommon, rfl, rfl, rfl, rfl⟩, ⟨rfl, rfl, fits_filter0 R'.toCommon, rfl, rfl, rfl, rfl⟩⟩,
      fun hf => by simp [newRun, fresh] at hf⟩
  refine ⟨o, o', ho, ho', h1, h2, fun hs => ?_⟩
  obtain ⟨h5, h6, -⟩ := h4 hs
  exact ⟨h5, h6.rho, h6.log, h6.files⟩

end
end Verif.Run
