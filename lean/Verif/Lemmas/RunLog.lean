import Verif.Spec.RunLog
import Verif.Lemmas.Run
import Verif.Props.LogMOC

/-! Lemmas for `Verif.Props.RunLog`: one iteration of a LogMOC run. -/
namespace Verif.Run
open Verif Verif.Sched Verif.Spec

variable {ι E Q : Type} [Fintype ι] [Fintype E] [Fintype Q] {d m : ℕ}

noncomputable section
open Classical

/-- The pieces of an update in the terms of the specification. -/
theorem logUpdate_spec {L : LogCommon E d} {F : Filt E d} {k : ℕ} {v : Vals} {s : LogMOC.St} {rho g : E → ℝ}
    {out : LogMOC.UpdateOut E} (hF : fwdOf L.toCommon F = blur L.toCommon v.radius) (hG : gradOf L.toCommon F = blurT L.toCommon v.radius)
    (h : LogMOC.rhoUpdate (logCfg L F) (logArgs k v) s rho (blur L.toCommon v.radius rho) (physical L.toCommon v rho) g = .ok out) :
    out.vErr = excess L.toCommon v rho ∧
    out.st.lambdaV = min (max (multiplier L k s.lambdaV out.vErr) L.lambdaLower) L.lambdaUpper ∧
    out.coeff = out.st.lambdaV + L.alMu * out.vErr ∧
    (∃ sc rs', sc = max (L.pct (v.percentile.getD L.lagPercentile) fun e => |lagrangianSlope L v rho g out.coeff e|) L.lagScaleFloor ∧
      LogMOC.scaleUpdate k s.runningScale sc = .ok rs' ∧ out.st.runningScale = some rs' ∧
      (∀ e, out.dL e = lagrangianSlope L v rho g out.coeff e / rs')) ∧
    let inside := {e | e ∈ L.design ∧ L.rhoMin + 1 / 10 ^ 6 < rho e ∧ rho e < L.rhoMax - 1 / 10 ^ 6}
    (inside = ∅ → out.kkt = 0) ∧ (inside.Nonempty → IsGreatest ((fun e => |out.dL e|) '' inside) out.kkt) := by
  have hgrad : LogMOC.dVChain (logCfg L F) v.beta (blur L.toCommon v.radius rho) = volumeGradient L.toCommon v rho := by
    have h1 : LogMOC.dVFiltered (logCfg L F) v.beta (blur L.toCommon v.radius rho) = volumeSlope L.toCommon v rho := by
      funext e
      unfold LogMOC.dVFiltered volumeSlope
      rw [thresholdSlope_eq]
      rfl
    unfold LogMOC.dVChain volumeGradient
    simp only [h1, gt_iff_lt]
    simp only [logCfg, hF, hG]
  have hobj : LogMOC.dCraw (logCfg L F) g = objectivePart L g := by
    funext e
    unfold LogMOC.dCraw objectivePart
    by_cases hc : L.centerObjective = true
    · rw [if_pos hc, if_pos (show (logCfg L F).centerObjective = true from hc)]; rfl
    · rw [if_neg hc, if_neg (show ¬ (logCfg L F).centerObjective = true from hc)]
  have herr : LogMOC.volError (logCfg L F) v.volFrac (physical L.toCommon v rho) = excess L.toCommon v rho := rfl
  have hvol : (fun e => if L.normalizeVolumeChain = true then volumeGradient L.toCommon v rho e *
        LogMOC.chainScale (logCfg L F) (objectivePart L g) (volumeGradient L.toCommon v rho) (excess L.toCommon v rho)
      else volumeGradient L.toCommon v rho e) = volumePart L v rho g := by
    funext e
    unfold volumePart LogMOC.chainScale
    simp only [logCfg]
    by_cases hn : L.normalizeVolumeChain = true
    · simp only [hn, if_true]
      cases L.volumeChainGainUnder with
      | none => simp
      | some x => simp
    · rw [if_neg hn, if_neg hn]
  have hcomb : ∀ coeff, LogMOC.lagrangian (logCfg L F) (objectivePart L g) (volumePart L v rho g) coeff = lagrangianSlope L v rho g coeff := by
    intro coeff
    have h1 : (if (logCfg L F).filterLagrangian = true then (logCfg L F).forward (fun e => if e ∈ (logCfg L F).design then
        (fun e => objectivePart L g e + coeff * volumePart L v rho g e) e else 0)
        else fun e => objectivePart L g e + coeff * volumePart L v rho g e) = combined L v rho g coeff := by
      unfold combined
      simp only [logCfg, hF]
    funext e
    unfold LogMOC.lagrangian lagrangianSlope
    simp only at h1 ⊢
    rw [h1]
    by_cases hc : L.centerLagrangian = true
    · rw [if_pos hc, if_pos (show (logCfg L F).centerLagrangian = true from hc)]; rfl
    · rw [if_neg hc, if_neg (show ¬ (logCfg L F).centerLagrangian = true from hc)]
  unfold LogMOC.rhoUpdate at h
  simp only [bind, Except.bind] at h
  simp only [hobj, logArgs, hgrad, herr] at h
  simp only [show (logCfg L F).normalizeVolumeChain = L.normalizeVolumeChain from rfl, hvol, hcomb] at h
  split at h
  · cases h
  · rename_i rs' hrs
    simp only [pure, Except.pure, Except.ok.injEq] at h
    rw [← h]
    refine ⟨rfl, ?_, rfl, ⟨_, rs', rfl, hrs, rfl, fun e => rfl⟩, ?_⟩
    · show LogMOC.lambdaUpdate _ _ _ _ = _
      unfold LogMOC.lambdaUpdate OC.clip multiplier
      simp only [logCfg]
      by_cases hk : k ≤ 1
      · simp [hk, not_lt.mpr hk]
      · simp only [hk, not_le.mp hk, gt_iff_lt, if_true, if_false]
    · intro inside
      have hmem : ∀ e, e ∈ inside ↔ e ∈ L.design.filter fun e => rho e > L.rhoMin + 1 / 10 ^ 6 ∧ rho e < L.rhoMax - 1 / 10 ^ 6 := by
        intro e
        simp only [inside, Finset.mem_filter]
        exact Iff.rfl
      simp only [show (logCfg L F).design = L.design from rfl, show (logCfg L F).rhoMin = L.rhoMin from rfl,
        show (logCfg L F).rhoMax = L.rhoMax from rfl]
      constructor
      · intro he
        rw [dif_neg]
        rintro ⟨e, hm⟩
        have := (hmem e).2 hm
        rw [he] at this
        exact this
      · rintro ⟨e0, he0⟩
        rw [dif_pos ⟨e0, (hmem e0).1 he0⟩]
        constructor
        · obtain ⟨e, he, hs⟩ := Finset.exists_mem_eq_sup' ⟨e0, (hmem e0).1 he0⟩ fun e => |lagrangianSlope L v rho g
            (LogMOC.lambdaUpdate (logCfg L F) k s.lambdaV (excess L.toCommon v rho) + (logCfg L F).alMu * excess L.toCommon v rho) e / rs'|
          exact ⟨e, (hmem e).2 he, hs.symm⟩
        · rintro _ ⟨e, he, rfl⟩
          exact Finset.le_sup' (fun e => |lagrangianSlope L v rho g
            (LogMOC.lambdaUpdate (logCfg L F) k s.lambdaV (excess L.toCommon v rho) + (logCfg L F).alMu * excess L.toCommon v rho) e / rs'|)
            ((hmem e).1 he)

/-- The LogMOC update after the analysis: it does not raise if `running_scale` is there when it is read, and it computes what the
specification says. -/
theorem logUpdate_ok {L : LogCommon E d} (hB : Basics L.toCommon) (h : LogRules L) (k : ℕ) (v : Vals) (hv : ValsOk L.toCommon k v) (rho : E → ℝ)
    (hbox : ∀ e ∈ L.design, ¬ Pinned L.toCommon e → L.rhoMin ≤ rho e ∧ rho e ≤ L.rhoMax)
    (x : LogState E d) (hrs : 1 < k → ∃ rs, x.st.runningScale = some rs ∧ 0 ≤ rs) (y : State E d) (A : Analysis E d)
    (hfB : fwdOf L.toCommon A.F = blur L.toCommon v.radius) (hfB1 : fwdOf L.toCommon A.F1 = blur L.toCommon v.radius)
    (hgB : gradOf L.toCommon A.F1 = blurT L.toCommon v.radius) (hpp : A.proj = physical L.toCommon v rho) :
    ∃ x' new rs', logUpdate L k v rho x y A = (x', .ok new) ∧ x'.base.filter = y.filter ∧ x'.st.runningScale = some rs' ∧ 0 ≤ rs' ∧
      x'.base.scheds = y.scheds ∧ x'.log = x.log ∧ (∃ kk, x'.base.kkt = some kk) ∧ x'.base.compliance = y.compliance ∧
      x'.base.neumannScale = y.neumannScale ∧ x'.coeff = x'.st.lambdaV + L.alMu * x'.vErr ∧
      (L.lambdaLower ≤ x'.st.lambdaV ∧ x'.st.lambdaV ≤ L.lambdaUpper) ∧
      (∀ e ∈ L.design, (L.rhoMin ≤ new e ∧ new e ≤ L.rhoMax) ∧ (¬ Pinned L.toCommon e → |new e - rho e| ≤ v.moveLimit)) ∧
      ∀ lam rs r rho', (1 < k → lam = x.st.lambdaV ∧ x.st.runningScale = some rs) → r.iter = k → r.volError = x'.vErr →
        r.lambdaV = x'.st.lambdaV → r.coeff = x'.coeff → x'.base.kkt = some r.kkt →
        (∀ e, rho' e = if Pinned L.toCommon e then 1 else if e ∈ L.design then new e else rho e) →
        IsGreatest ((fun e => |rho' e - rho e|) '' L.design) r.rhoChange →
        LogStep L v A.dC rho lam rs r rho' rs' := by
  obtain ⟨F, F1, proj, dC⟩ := A
  simp only at hfB hfB1 hgB hpp
  unfold logUpdate
  simp only
  have hlp := h.lagPercentile
  have hcp := h.chainPercentile
  rw [if_neg (by rintro ⟨-, (h1 | h1) | h1 | h1⟩ <;> linarith), if_neg (by
    cases hq : v.percentile with
    | none => simp only [Option.getD_none]; rintro (h1 | h1) <;> linarith
    | some q => simp only [Option.getD_some]; have := h.percentages k q (hq ▸ hv.all.percentile); rintro (h1 | h1) <;> linarith)]
  rw [hfB, hpp]
  have hsome : k ≤ 1 ∨ x.st.runningScale.isSome := by
    by_cases hk : 1 < k
    · obtain ⟨rs, hr, -⟩ := hrs hk
      right; rw [hr]; rfl
    · left; omega
  obtain ⟨out, hout, -⟩ := Props.C54_consecutive_updates_succeed_partial (logCfg L F1) (logArgs k v) x.st rho (blur L.toCommon v.radius rho)
    (physical L.toCommon v rho) dC hsome
  rw [hout]
  obtain ⟨u1, u2, u3, ⟨sc, rs', w1, w2, w3, w4⟩, u5, u6⟩ := logUpdate_spec hfB1 hgB hout
  have hsc : 0 < sc := by rw [w1]; exact lt_max_of_lt_right h.floor
  have hpos : 0 ≤ rs' := by
    unfold LogMOC.scaleUpdate at w2
    split_ifs at w2 with hk
    · obtain ⟨rs, hr, h0⟩ := hrs hk
      rw [hr] at w2
      simp only [Except.ok.injEq] at w2
      rw [← w2]
      have : (0 : ℝ) ≤ 1 - 0.2 := by norm_num
      positivity
    · simp only [Except.ok.injEq] at w2
      rw [← w2]; exact hsc.le
  have hmove : ∀ e ∈ L.design, ¬ Pinned L.toCommon e → out.rho e =
      moved L v (rho e) (lagrangianSlope L v rho dC out.coeff e / rs') := by
    intro e he hp
    rw [(Props.logmoc_out hout).1 e, w4 e]
    have hb := hbox e he hp
    show LogMOC.logUpdate _ _ v.eta v.moveLimit L.rhoMin L.rhoMax L.lagClip = _
    rw [LogMOC.logUpdate_eq h.positive hb.1 hb.2 hv.moveLimit]
    rfl
  refine ⟨_, _, rs', rfl, rfl, w3, hpos, rfl, rfl, ⟨_, rfl⟩, rfl, rfl, u3, ?_, ?_, ?_⟩
  · exact Props.C21_multiplier_in_range (logCfg L F1) _ _ _ _ _ _ _ hout h.range
  · intro e he
    refine ⟨Props.C19_logmoc_box (logCfg L F1) _ _ _ _ _ _ _ hout hB.box.2.1 e, fun hp => ?_⟩
    exact Props.C19_logmoc_move_limit (logCfg L F1) (logArgs k v) _ _ _ _ _ _ hout h.positive hv.moveLimit e (hbox e he hp)
  · intro lam rs r rho' e0 e1 e4 e5 e6 e7 e8 e9
    simp only [Option.some.injEq] at e4 e5 e6 e7
    have hlam : multiplier L k x.st.lambdaV out.vErr = multiplier L k lam out.vErr := by
      unfold multiplier
      split_ifs with hk
      · rfl
      all_goals rw [(e0 (not_le.mp hk)).1]
    refine ⟨sc, by rw [e4, u1], by rw [e1, e5, e4, u2, hlam], by rw [e6, e5, e4, u3],
      by rw [e6]; exact w1, ?_, fun e => ?_, e9, ?_, ?_⟩
    · rw [e1]
      unfold LogMOC.scaleUpdate at w2
      split_ifs at w2 with hk
      · rw [(e0 hk).2] at w2
        simp only [Except.ok.injEq] at w2
        rw [if_neg (not_le.mpr hk), ← w2]
        norm_num
      · simp only [Except.ok.injEq] at w2
        rw [if_pos (not_lt.mp hk), w2]
    · rw [e8 e, e6]
      split_ifs with hp he
      · rfl
      · exact hmove e he hp
      · rfl
    · rw [← e7]; exact u5
    · rw [← e7, e6]
      intro hne
      have := u6 hne
      simp only [w4] at this
      exact this

/-- What one iteration has to deliver for the driver to go on. -/
def LogComputes (L : LogCommon E d) (step : ℕ → (E → ℝ) → LogState E d → LogState E d × Res (E → ℝ))
    (It : (E → ℝ) → ℝ → ℝ → LogRec → (E → ℝ) → ℝ → Prop) (G : ℝ → Prop) : Prop :=
  ∀ (k : ℕ) (v : Vals), ValsOk L.toCommon k v → ∀ (rho : E → ℝ), (∀ e, 0 ≤ rho e ∧ rho e ≤ 1) →
    (∀ e ∈ L.design, ¬ Pinned L.toCommon e → L.rhoMin ≤ rho e ∧ rho e ≤ L.rhoMax) →
    ∀ x : LogState E d, readVals x.base k = .ok v → Fits L.toCommon x.base.filter →
    (1 < k → ∃ rs, x.st.runningScale = some rs ∧ 0 ≤ rs) →
    ∃ x' new rs', step k rho x = (x', .ok new) ∧ Fits L.toCommon x'.base.filter ∧ x'.st.runningScale = some rs' ∧ 0 ≤ rs' ∧
      x'.base.scheds = x.base.scheds ∧ x'.log = x.log ∧ (∃ kk, x'.base.kkt = some kk) ∧ G x'.base.compliance ∧
      x'.coeff = x'.st.lambdaV + L.alMu * x'.vErr ∧
      (L.lambdaLower ≤ x'.st.lambdaV ∧ x'.st.lambdaV ≤ L.lambdaUpper) ∧
      (∀ e ∈ L.design, (L.rhoMin ≤ new e ∧ new e ≤ L.rhoMax) ∧ (¬ Pinned L.toCommon e → |new e - rho e| ≤ v.moveLimit)) ∧
      ∀ lam rs r rho', (1 < k → lam = x.st.lambdaV ∧ x.st.runningScale = some rs) → r.iter = k → r.compliance = x'.base.compliance →
        r.neumannScale = x'.base.neumannScale → r.volError = x'.vErr → r.lambdaV = x'.st.lambdaV → r.coeff = x'.coeff →
        x'.base.kkt = some r.kkt →
        (∀ e, rho' e = if Pinned L.toCommon e then 1 else if e ∈ L.design then new e else rho e) →
        IsGreatest ((fun e => |rho' e - rho e|) '' L.design) r.rhoChange →
        It rho lam rs r rho' rs'

/-- An iteration whose finite element part does not raise. -/
theorem logStepWith_ok {n : ℕ} {L : LogCommon E d} (hB : Basics L.toCommon) (h : LogRules L)
    (response : Vals → (E → ℝ) → Res (ℝ × (Fin n → E → ℝ))) (It : (E → ℝ) → ℝ → ℝ → LogRec → (E → ℝ) → ℝ → Prop) (G : ℝ → Prop)
    (hr : ∀ k v, ValsOk L.toCommon k v → ∀ rho : E → ℝ, (∀ e, 0 ≤ rho e ∧ rho e ≤ 1) → ∃ c cols,
      response v (physical L.toCommon v rho) = .ok (c, cols) ∧ G c ∧
      ∀ lam rs r rho' rs', r.iter = k → r.compliance = c → r.neumannScale = v.neumannScale →
        LogStep L v (chained L.toCommon v rho cols) rho lam rs r rho' rs' → It rho lam rs r rho' rs') :
    LogComputes L (logStepWith L response) It G := by
  intro k v hv rho hrho hbox x hread hfit hrs
  obtain ⟨c, cols, h1, h2, h3⟩ := hr k v hv rho hrho
  obtain ⟨F, F1, ha, g1, g2, g3, g4⟩ := analyseWith_ok hB hv rho x.base hfit (response v) h1
  obtain ⟨x', new, rs', u1, u2, u3, u4, u5, u6, u7, u8, u9, u10, u11, u12, u13⟩ := logUpdate_ok hB h k v hv rho hbox x hrs
    { x.base with filter := F1, compliance := c, neumannScale := v.neumannScale } ⟨F, F1, _, chained L.toCommon v rho cols⟩ g2 g3 g4 rfl
  refine ⟨x', new, rs', ?_, by rw [u2]; exact g1, u3, u4, u5, u6, u7, by rw [u8]; exact h2, u10, u11, u12, ?_⟩
  · unfold logStepWith logComputeWith
    rw [hread]
    simp only
    rw [ha]
    exact u1
  · intro lam rs r rho' e0 e1 e2 e3 e4 e5 e6 e7 e8 e9
    exact h3 lam rs r rho' rs' e1 (by rw [e2, u8]) (by rw [e3, u9]) (u13 lam rs r rho' e0 e1 e4 e5 e6 e7 e8 e9)

theorem logStep_computes {L : LogSetup ι E Q d m} (h : LogWellPosed L) : LogComputes L.common (logStep L) (LogIteration L) (0 ≤ ·) := by
  refine logStepWith_ok h.toBasics h.toLogRules _ _ _ fun k v hv rho hrho => ?_
  obtain ⟨c, cols, h1, h2, -, u, u1, u2, u3⟩ := response_ok h.toSound hv.p (physical L.toCommon v rho)
    fun e => (physical_range h.toBasics hv hrho e).1
  refine ⟨c, cols, h1, h2, fun lam rs r rho' rs' e1 e2 e3 hs => ⟨v, u, e1 ▸ hv.all, u1, by rw [e2, u2], e3, ?_⟩⟩
  rw [u3] at hs
  exact hs

end
end Verif.Run
