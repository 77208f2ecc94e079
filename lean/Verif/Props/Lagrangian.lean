import Verif.Props.LogMOC
import Verif.Props.OC

/-!
Property theorems C75 (volume error, multiplier and Lagrangian of LogMOC) and C76 (the KKT residual certifies stationarity).
-/
namespace Verif.Props
open Verif Verif.OC Verif.LogMOC

variable {E : Type} [Fintype E]

/-- Specification: the volume fraction of a physical density over the design elements. -/
noncomputable def volumeFraction (design : Finset E) (volume rho : E → ℝ) : ℝ :=
  (∑ e ∈ design, rho e * volume e) / ∑ e ∈ design, volume e

/-- **C75 (a)** The recorded volume error of a LogMOC update is the volume fraction of the physical (filtered and projected) density minus
the scheduled volume fraction. -/
theorem C75_volume_error (c : LogMOC.Cfg E) (a : LogMOC.StepArgs) (s : St) (rho rf rp dC : E → ℝ)
    (out : LogMOC.UpdateOut E) (h : LogMOC.rhoUpdate c a s rho rf rp dC = .ok out) :
    out.vErr = volumeFraction c.design c.volume rp - a.volFrac := (logmoc_out h).2.2.1

/-- A history of consecutive LogMOC updates from iteration 1 on: update `k` (counted from 0) has iteration number `k + 1` and starts from the
attributes its predecessor left; everything else is arbitrary. -/
structure UpdateHistory (c : LogMOC.Cfg E) (out : ℕ → LogMOC.UpdateOut E) : Prop where
  ok : ∀ k, ∃ (a : LogMOC.StepArgs) (s : St) (rho rf rp dC : E → ℝ), a.iterNum = k + 1 ∧
    (∀ j, k = j + 1 → s = (out j).st) ∧ LogMOC.rhoUpdate c a s rho rf rp dC = .ok (out k)

private theorem history_step {c : LogMOC.Cfg E} {out : ℕ → LogMOC.UpdateOut E} (h : UpdateHistory c out) :
    (out 0).st.lambdaV = clip (c.muP * (out 0).vErr) c.lambdaLower c.lambdaUpper ∧
    ∀ k, (out (k + 1)).st.lambdaV = clip (if c.augmented then (out k).st.lambdaV + c.muP * (out (k + 1)).vErr
      else c.lambdaDecay * (out k).st.lambdaV + (1 - c.lambdaDecay) * (c.muP * (out (k + 1)).vErr)) c.lambdaLower c.lambdaUpper := by
  constructor
  · obtain ⟨a, s, rho, rf, rp, dC, ha, -, hu⟩ := h.ok 0
    exact C21_first_multiplier_partial c a s rho rf rp dC _ hu (by omega)
  · intro k
    obtain ⟨a, s, rho, rf, rp, dC, ha, hs, hu⟩ := h.ok (k + 1)
    rw [(logmoc_out hu).2.1, hs k rfl]
    unfold lambdaUpdate
    have : a.iterNum > 1 := by omega
    simp only [this, if_true]

/-- **C75 (b)** Over any history of updates, as long as the range never clips it, the multiplier of the default `ema` mode is `mu_p` times the
exponentially discounted sum of the volume errors seen so far, and that of the `augmented` mode is `mu_p` times their plain sum. -/
theorem C75_multiplier_accumulates_errors (c : LogMOC.Cfg E) (out : ℕ → LogMOC.UpdateOut E) (h : UpdateHistory c out)
    (hin : ∀ k, c.lambdaLower < (out k).st.lambdaV ∧ (out k).st.lambdaV < c.lambdaUpper) (k : ℕ) :
    (c.augmented = true → (out k).st.lambdaV = c.muP * ∑ j ∈ Finset.range (k + 1), (out j).vErr) ∧
    (c.augmented = false → (out k).st.lambdaV = c.muP * (c.lambdaDecay ^ k * (out 0).vErr +
      (1 - c.lambdaDecay) * ∑ j ∈ Finset.range k, c.lambdaDecay ^ (k - 1 - j) * (out (j + 1)).vErr)) := by
  obtain ⟨h0, hs⟩ := history_step h
  have hclip : ∀ {x : ℝ} {k : ℕ}, (out k).st.lambdaV = clip x c.lambdaLower c.lambdaUpper → (out k).st.lambdaV = x := by
    intro x k hx
    have hk := hin k
    rw [hx] at hk ⊢
    unfold clip at hk ⊢
    rcases min_choice (max x c.lambdaLower) c.lambdaUpper with h1 | h1
    · rw [h1] at hk ⊢
      rcases max_choice x c.lambdaLower with h2 | h2
      · exact h2
      · rw [h2] at hk; exact absurd hk.1 (lt_irrefl _)
    · rw [h1] at hk; exact absurd hk.2 (lt_irrefl _)
  induction k with
  | zero => rw [hclip h0]; simp
  | succ k ih =>
    have hk := hclip (hs k)
    constructor
    · intro ha
      rw [hk, if_pos ha, ih.1 ha, Finset.sum_range_succ _ (k + 1)]; ring
    · intro ha
      rw [hk, ha, if_neg (by simp), ih.2 ha, Finset.sum_range_succ _ k]
      have : ∑ j ∈ Finset.range k, c.lambdaDecay ^ (k + 1 - 1 - j) * (out (j + 1)).vErr =
          c.lambdaDecay * ∑ j ∈ Finset.range k, c.lambdaDecay ^ (k - 1 - j) * (out (j + 1)).vErr := by
        rw [Finset.mul_sum]
        apply Finset.sum_congr rfl
        intro j hj
        rw [Finset.mem_range] at hj
        rw [show k + 1 - 1 - j = (k - 1 - j) + 1 by omega, pow_succ]; ring
      rw [this, show k + 1 - 1 - k = 0 by omega, pow_zero, pow_succ]
      ring

/-- **C75 (c)** As long as the design has been too heavy at every iteration the multiplier penalises material, and it rewards material as
long as the design has been too light (both modes, decay in `[0,1]`, a range containing 0). -/
theorem C75_multiplier_sign (c : LogMOC.Cfg E) (out : ℕ → LogMOC.UpdateOut E) (h : UpdateHistory c out) (hmu : 0 ≤ c.muP)
    (hd0 : 0 ≤ c.lambdaDecay) (hd1 : c.lambdaDecay ≤ 1) (hl : c.lambdaLower ≤ 0) (hu : 0 ≤ c.lambdaUpper) (k : ℕ) :
    ((∀ j ≤ k, 0 ≤ (out j).vErr) → 0 ≤ (out k).st.lambdaV) ∧ ((∀ j ≤ k, (out j).vErr ≤ 0) → (out k).st.lambdaV ≤ 0) := by
  obtain ⟨h0, hs⟩ := history_step h
  have hc0 : ∀ x : ℝ, 0 ≤ x → 0 ≤ clip x c.lambdaLower c.lambdaUpper := fun x hx => le_min (le_max_of_le_left hx) hu
  have hc1 : ∀ x : ℝ, x ≤ 0 → clip x c.lambdaLower c.lambdaUpper ≤ 0 := fun x hx => (min_le_left _ _).trans (max_le hx hl)
  induction k with
  | zero =>
    rw [h0]
    exact ⟨fun he => hc0 _ (mul_nonneg hmu (he 0 le_rfl)), fun he => hc1 _ (mul_nonpos_of_nonneg_of_nonpos hmu (he 0 le_rfl))⟩
  | succ k ih =>
    rw [hs k]
    constructor
    · intro he
      have h1 := ih.1 fun j hj => he j (by omega)
      have h2 := mul_nonneg hmu (he (k + 1) le_rfl)
      apply hc0
      split_ifs
      · linarith
      · have := mul_nonneg hd0 h1
        have := mul_nonneg (sub_nonneg.mpr hd1) h2
        linarith
    · intro he
      have h1 := ih.2 fun j hj => he j (by omega)
      have h2 := mul_nonpos_of_nonneg_of_nonpos hmu (he (k + 1) le_rfl)
      apply hc1
      split_ifs
      · linarith
      · have := mul_nonpos_of_nonneg_of_nonpos hd0 h1
        have := mul_nonpos_of_nonneg_of_nonpos (sub_nonneg.mpr hd1) h2
        linarith

/-- **C75 (d)** The recorded derivative of an update, times the recorded scale, is the derivative of the Lagrangian "objective plus
constraint coefficient times volume fraction of the physical density": for every objective `J` whose derivative in direction `d` is the
inner product with the sensitivities handed to the update. `G` is the linear part of the filter, `gradient` its adjoint (C28 proves this
for the spatial filter). The case where all back-propagated volume derivatives are below `1e-8`, in which the code substitutes something
else, is excluded by `hbig`. -/
theorem C75_recorded_derivative_is_lagrangian_gradient (c : LogMOC.Cfg E) (a : LogMOC.StepArgs) (s : St) (x rp dC : E → ℝ)
    (out : LogMOC.UpdateOut E) (h : LogMOC.rhoUpdate c a s x (c.forward x) rp dC = .ok out) (hfloor : 0 < c.lagScaleFloor)
    (hrs : ∀ r, s.runningScale = some r → 0 ≤ r) (h1 : c.centerObjective = false) (h2 : c.centerLagrangian = false)
    (h3 : c.filterLagrangian = false) (h4 : c.normalizeVolumeChain = false)
    (d : E → ℝ) (G : (E → ℝ) → (E → ℝ))
    (hlin : ∀ t : ℝ, c.forward (fun e => x e + t * d e) = fun e => c.forward x e + t * G d e)
    (hadj : ∀ v : E → ℝ, ∑ e, c.gradient v e * d e = ∑ e, v e * G d e)
    (hd : ∀ e, e ∉ c.design → d e = 0)
    (hbig : ∃ e, 1 / 10 ^ 8 < |c.gradient (dVFiltered c a.beta (c.forward x)) e|)
    (J : ℝ → ℝ) (hJ : HasDerivAt J (∑ e ∈ c.design, dC e * d e) 0) :
    ∃ k, out.st.runningScale = some k ∧ 0 < k ∧
      HasDerivAt (fun t => J t + out.coeff * volumeFraction c.design c.volume
          fun e => Projection.heaviside (c.forward (fun e' => x e' + t * d e') e) a.beta c.betaEta)
        (∑ e ∈ c.design, k * out.dL e * d e) 0 := by
  obtain ⟨k, hk, hst, hdL⟩ := C20_recorded_derivative c a s x (c.forward x) rp dC out h hfloor hrs h1 h2 h3 h4
  refine ⟨k, hst, hk, ?_⟩
  have hv := C55_volume_gradient_partial c a.beta x d G hlin hadj hd hbig
  refine (hJ.add (hv.const_mul out.coeff)).congr_deriv ?_
  rw [Finset.mul_sum, ← Finset.sum_add_distrib]
  apply Finset.sum_congr rfl
  intro e _
  rw [hdL e]
  field_simp

/-- **C75 (e)** With `center_lagrangian` the recorded derivative has zero volume-weighted sum over the design elements, so to first order the
update exchanges material instead of adding or removing it. -/
theorem C75_centered (c : LogMOC.Cfg E) (a : LogMOC.StepArgs) (s : St) (rho rf rp dC : E → ℝ)
    (out : LogMOC.UpdateOut E) (h : LogMOC.rhoUpdate c a s rho rf rp dC = .ok out) (hc : c.centerLagrangian = true)
    (hv : ∑ e ∈ c.design, c.volume e ≠ 0) : ∑ e ∈ c.design, out.dL e * c.volume e = 0 := by
  unfold LogMOC.rhoUpdate at h
  simp only [bind, Except.bind] at h
  split at h
  · cases h
  · rename_i k hk
    simp only [pure, Except.pure, Except.ok.injEq] at h
    subst h
    simp only [lagrangian, hc, if_true]
    have key : ∀ g : E → ℝ, ∑ e ∈ c.design, (g e - volMean c g) / k * c.volume e = 0 := by
      intro g
      have : ∀ e, (g e - volMean c g) / k * c.volume e = (g e * c.volume e - volMean c g * c.volume e) / k := fun e => by ring
      simp only [this]
      rw [← Finset.sum_div, Finset.sum_sub_distrib, ← Finset.mul_sum]
      unfold volMean volSum
      rw [div_mul_cancel₀ _ hv, sub_self, zero_div]
    exact key _

/-! ### C76 -/

/-- Specification: stationarity up to `eps` of a design `rho` for objective sensitivities `dC`, constraint sensitivities `dV` and a multiplier
`lam`, at the elements of `S` away from the bounds. -/
def StationaryUpTo (eps : ℝ) (S : Finset E) (rhoMin rhoMax : ℝ) (rho dC dV : E → ℝ) (lam : ℝ) : Prop :=
  ∀ e ∈ S, rhoMin + 1 / 10 ^ 6 < rho e → rho e < rhoMax - 1 / 10 ^ 6 → |dC e + lam * dV e| ≤ eps

private theorem sup'_le_zero {S : Finset E} {f : E → ℝ} {eps : ℝ} (heps : 0 ≤ eps) :
    ((if h : S.Nonempty then S.sup' h f else 0) ≤ eps ↔ ∀ e ∈ S, f e ≤ eps) := by
  split_ifs with h
  · rw [Finset.sup'_le_iff]
  · rw [Finset.not_nonempty_iff_eq_empty.mp h]; simpa using heps

private theorem sup'_abs_nonneg {S : Finset E} {f : E → ℝ} : 0 ≤ (if h : S.Nonempty then S.sup' h fun e => |f e| else 0) := by
  split_ifs with hne
  · obtain ⟨e, he⟩ := hne
    exact le_trans (abs_nonneg _) (Finset.le_sup' (fun e => |f e|) he)
  · exact le_rfl

/-- **C76 (a)** The KKT residual an OC update reports is at most `eps` exactly if the new design is stationary up to `eps` at all design
elements off the bounds, for the sensitivities the update was given and the single multiplier `lmid * running_scale`. -/
theorem C76_oc_residual_certifies (c : OC.Cfg E) (a : OC.StepArgs E) (rs : ℝ) (rhoState rho dC : E → ℝ) (out : OC.UpdateOut E)
    (h : OC.rhoUpdate c a rs rhoState rho dC = .ok out) (new : E → ℝ) (hnew : ∀ e, out.rho e = some (new e)) (eps : ℝ)
    (heps : 0 ≤ eps) :
    out.kkt ≤ eps ↔ StationaryUpTo eps c.design c.rhoMin c.rhoMax new dC c.dV (out.lmid * out.runningScale) := by
  unfold OC.rhoUpdate at h
  simp only [bind, Except.bind] at h
  split at h
  · cases h
  · simp only [pure, Except.pure, Except.ok.injEq] at h
    subst h
    simp only at hnew ⊢
    unfold OC.kktResidual
    simp only
    rw [sup'_le_zero heps]
    unfold StationaryUpTo
    simp only [Finset.mem_filter, hnew, Option.some.injEq, exists_eq_left', gt_iff_lt, and_imp]

/-- **C76 (b)** The KKT residual a LogMOC update reports is at most `eps` exactly if the design *before* the update was stationary up to
`eps * running_scale` at all design elements off the bounds, for the recorded constraint coefficient (without centring, filtering and
normalisation). -/
theorem C76_logmoc_residual_certifies (c : LogMOC.Cfg E) (a : LogMOC.StepArgs) (s : St) (rho rf rp dC : E → ℝ)
    (out : LogMOC.UpdateOut E) (h : LogMOC.rhoUpdate c a s rho rf rp dC = .ok out) (hfloor : 0 < c.lagScaleFloor)
    (hrs : ∀ r, s.runningScale = some r → 0 ≤ r) (h1 : c.centerObjective = false) (h2 : c.centerLagrangian = false)
    (h3 : c.filterLagrangian = false) (h4 : c.normalizeVolumeChain = false) (eps : ℝ) (heps : 0 ≤ eps) :
    ∃ k, out.st.runningScale = some k ∧ 0 < k ∧
      (out.kkt ≤ eps ↔ StationaryUpTo (eps * k) c.design c.rhoMin c.rhoMax rho dC (dVChain c a.beta rf) out.coeff) := by
  obtain ⟨k, hk, hst, hdL⟩ := C20_recorded_derivative c a s rho rf rp dC out h hfloor hrs h1 h2 h3 h4
  refine ⟨k, hst, hk, ?_⟩
  have hkkt : (out.kkt ≤ eps ↔ ∀ e ∈ c.design.filter fun e => rho e > c.rhoMin + 1 / 10 ^ 6 ∧ rho e < c.rhoMax - 1 / 10 ^ 6,
      |out.dL e| ≤ eps) := by
    unfold LogMOC.rhoUpdate at h
    simp only [bind, Except.bind] at h
    split at h
    · cases h
    · simp only [pure, Except.pure, Except.ok.injEq] at h
      subst h
      simp only
      rw [sup'_le_zero heps]
  rw [hkkt]
  unfold StationaryUpTo
  simp only [Finset.mem_filter, and_imp, gt_iff_lt]
  have : ∀ e, (|out.dL e| ≤ eps ↔ |dC e + out.coeff * dVChain c a.beta rf e| ≤ eps * k) := by
    intro e
    rw [hdL e, abs_div, abs_of_pos hk, div_le_iff₀ hk]
  simp only [this]

/-- **C76 (c)** Residuals are never negative (LogMOC). -/
theorem C76_logmoc_residual_nonneg (c : LogMOC.Cfg E) (a : LogMOC.StepArgs) (s : St) (rho rf rp dC : E → ℝ)
    (out : LogMOC.UpdateOut E) (h : LogMOC.rhoUpdate c a s rho rf rp dC = .ok out) : 0 ≤ out.kkt := by
  unfold LogMOC.rhoUpdate at h
  simp only [bind, Except.bind] at h
  split at h
  · cases h
  · simp only [pure, Except.pure, Except.ok.injEq] at h
    subst h
    exact sup'_abs_nonneg

/-- **C76 (c)** Residuals are never negative (OC). -/
theorem C76_residual_nonneg (c : OC.Cfg E) (a : OC.StepArgs E) (rs : ℝ) (rhoState rho dC : E → ℝ) (out : OC.UpdateOut E)
    (h : OC.rhoUpdate c a rs rhoState rho dC = .ok out) : 0 ≤ out.kkt := by
  unfold OC.rhoUpdate at h
  simp only [bind, Except.bind] at h
  split at h
  · cases h
  · simp only [pure, Except.pure, Except.ok.injEq] at h
    subst h
    simp only
    exact sup'_abs_nonneg

/-- **C76 (d)** Finding: a LogMOC update that moves the design reports residual 0 if the design it *started* from was on the bounds; the
residual says nothing about the design that is saved and tested for convergence. -/
theorem C76_logmoc_residual_of_old_design_partial :
    ∃ (c : LogMOC.Cfg (Fin 1)) (a : LogMOC.StepArgs) (rho dC : Fin 1 → ℝ) (out : LogMOC.UpdateOut (Fin 1)),
      LogMOC.rhoUpdate c a (initSt c) rho rho rho dC = .ok out ∧ out.kkt = 0 ∧
        c.rhoMin + 1 / 10 ^ 6 < out.rho 0 ∧ out.rho 0 < c.rhoMax - 1 / 10 ^ 6 := by
  let c : LogMOC.Cfg (Fin 1) := { rhoMin := 0.01, rhoMax := 1, betaEta := 0.5, design := {0}, volume := fun _ => 1, forward := id, gradient := id, pct := fun _ x => x 0, muP := 0 }
  let a : LogMOC.StepArgs := { iterNum := 1, moveLimit := 0.2, eta := 0.5, beta := 2, volFrac := 0.4 }
  obtain ⟨out, h, -⟩ := C54_consecutive_updates_succeed_partial c a (initSt c) (fun _ => 1) (fun _ => 1) (fun _ => 1)
    (fun _ => 1) (Or.inl le_rfl)
  have hlam : out.st.lambdaV = 0 := by
    rw [C21_first_multiplier_partial c a _ _ _ _ _ out h le_rfl]
    simp only [c, zero_mul]
    unfold clip
    norm_num
  have hcoeff : out.coeff = 0 := by rw [(logmoc_out h).2.2.2, hlam]; simp [c]
  have hdL : out.dL 0 = 1 := by
    have hd : ∀ {out' : LogMOC.UpdateOut (Fin 1)}, LogMOC.rhoUpdate c a (initSt c) (fun _ => 1) (fun _ => 1) (fun _ => 1)
        (fun _ => 1) = .ok out' → out'.dL 0 = (1 + out'.coeff * dVChain c 2 (fun _ => 1) 0) /
          max |1 + out'.coeff * dVChain c 2 (fun _ => 1) 0| (1 / 10 ^ 8) := by
      intro out' h'
      unfold LogMOC.rhoUpdate at h'
      simp only [bind, Except.bind] at h'
      split at h'
      · cases h'
      · rename_i k hk
        simp only [scaleUpdate, a, Except.ok.injEq, gt_iff_lt, lt_irrefl, if_false] at hk
        simp only [pure, Except.pure, Except.ok.injEq] at h'
        subst h'
        simp only
        rw [← hk]
        simp [lagrangian, dCraw, c, a]
    rw [hd h, hcoeff]
    norm_num
  have hrho : out.rho 0 = logUpdate 1 1 0.5 0.2 0.01 1 1 := by rw [(logmoc_out h).1 0, hdL]
  have hval : logUpdate 1 1 0.5 0.2 0.01 1 1 = max (Real.exp (-(1 / 2))) (5 / 6) := by
    have he : Real.exp (-(1 / 2 : ℝ)) ≤ 1 := Real.exp_le_one_iff.mpr (by norm_num)
    rw [logUpdate_eq (by norm_num) (by norm_num) (by norm_num) (by norm_num)]
    unfold clip
    norm_num
    linarith
  refine ⟨c, a, fun _ => 1, fun _ => 1, out, h, ?_, ?_, ?_⟩
  · obtain ⟨k, -, -, hk⟩ := C76_logmoc_residual_certifies c a _ _ _ _ _ out h (by norm_num [c])
      (fun r hr => by simp [initSt] at hr) rfl rfl rfl rfl 0 le_rfl
    refine le_antisymm (hk.mpr fun e _ _ h2 => ?_) ?_
    · exact absurd h2 (by norm_num [c])
    · exact C76_logmoc_residual_nonneg _ _ _ _ _ _ _ _ h
  · rw [hrho, hval]
    exact lt_of_lt_of_le (by norm_num [c]) (le_max_right _ _)
  · rw [hrho, hval]
    have h1 := Real.add_one_le_exp (1 / 2 : ℝ)
    have h2 : Real.exp (-(1 / 2 : ℝ)) ≤ 2 / 3 := by
      rw [Real.exp_neg, inv_le_comm₀ (Real.exp_pos _) (by norm_num)]; norm_num at h1 ⊢; linarith
    refine max_lt (lt_of_le_of_lt h2 ?_) ?_ <;> norm_num [c]

/-! ### Concrete instances -/

/-- The arguments of update `k` of the example history. -/
noncomputable def exampleArgs (k : ℕ) : LogMOC.StepArgs := { iterNum := k + 1, moveLimit := 0.2, eta := 0.5, beta := 2, volFrac := 0.4 }

/-- A history of updates exists, its volume errors are all 0.1, and its multipliers are never clipped: the hypotheses of C75 (b), (c) hold. -/
example : ∃ out, UpdateHistory logmocExample out ∧ (∀ k, (out k).vErr = 0.1) ∧
    ∀ k, logmocExample.lambdaLower < (out k).st.lambdaV ∧ (out k).st.lambdaV < logmocExample.lambdaUpper := by
  have hex : ∀ (k : ℕ) (s : St), (k = 0 ∨ s.runningScale.isSome) → ∃ out, LogMOC.rhoUpdate logmocExample (exampleArgs k) s
      (fun _ => 0.5) (fun _ => 0.5) (fun _ => 0.5) (fun e => -(e : ℝ)) = .ok out ∧ out.st.runningScale.isSome := by
    intro k s h
    apply C54_consecutive_updates_succeed_partial
    rcases h with rfl | h
    · exact Or.inl le_rfl
    · exact Or.inr h
  haveI : Nonempty (LogMOC.UpdateOut (Fin 3)) := ⟨(hex 0 (initSt logmocExample) (Or.inl rfl)).choose⟩
  choose! f hf using hex
  let out : ℕ → LogMOC.UpdateOut (Fin 3) := fun k => Nat.rec (f 0 (initSt logmocExample)) (fun k o => f (k + 1) o.st) k
  have hok : ∀ k, (out k).st.runningScale.isSome := by
    intro k
    induction k with
    | zero => exact (hf 0 _ (Or.inl rfl)).2
    | succ k ih => exact (hf (k + 1) _ (Or.inr ih)).2
  have hhist : UpdateHistory logmocExample out := by
    refine ⟨fun k => ?_⟩
    cases k with
    | zero => exact ⟨_, _, _, _, _, _, rfl, fun j hj => absurd hj (by omega), (hf 0 _ (Or.inl rfl)).1⟩
    | succ k =>
      exact ⟨_, _, _, _, _, _, rfl, fun j hj => by rw [Nat.succ_injective hj], (hf (k + 1) (out k).st (Or.inr (hok k))).1⟩
  have herr : ∀ k, (out k).vErr = 0.1 := by
    intro k
    have : ∃ s, LogMOC.rhoUpdate logmocExample (exampleArgs k) s (fun _ => 0.5) (fun _ => 0.5) (fun _ => 0.5)
        (fun e => -(e : ℝ)) = .ok (out k) := by
      cases k with
      | zero => exact ⟨_, (hf 0 _ (Or.inl rfl)).1⟩
      | succ k => exact ⟨_, (hf (k + 1) (out k).st (Or.inr (hok k))).1⟩
    obtain ⟨s, hs⟩ := this
    rw [C75_volume_error _ _ _ _ _ _ _ _ hs]
    norm_num [volumeFraction, logmocExample, exampleArgs]
  clear_value out
  refine ⟨out, hhist, herr, fun k => ?_⟩
  have hb : ∀ k, (out k).st.lambdaV ≤ 1 := by
    intro k
    obtain ⟨h0, hs⟩ := history_step hhist
    induction k with
    | zero =>
      rw [h0, herr]
      exact (min_le_left _ _).trans (max_le (by norm_num [logmocExample]) (by norm_num [logmocExample]))
    | succ k ih =>
      rw [hs k, herr]
      refine (min_le_left _ _).trans (max_le ?_ (by norm_num [logmocExample]))
      norm_num [logmocExample]
      linarith
  have h0 := (C75_multiplier_sign _ out hhist (by norm_num [logmocExample]) (by norm_num [logmocExample])
    (by norm_num [logmocExample]) (by norm_num [logmocExample]) (by norm_num [logmocExample]) k).1
    (fun j _ => by rw [herr]; norm_num)
  have h1 := hb k
  norm_num [logmocExample]
  constructor <;> linarith

end Verif.Props
