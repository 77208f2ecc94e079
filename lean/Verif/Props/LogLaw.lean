import Verif.Props.LogMOC
import Verif.Props.Spacial
import Verif.Props.Projection
import Verif.Spec.OCLaw
import Mathlib.LinearAlgebra.Matrix.DotProduct

/-! C19-C21 and C55 in terms of a closed formula for the logarithmic update, of the physical volume share and of the history of volume
errors, for any sequence of updates. -/
namespace Verif.Props
open Verif Verif.LogMOC
open Verif.Spec (pulled logDensity emaMultiplier summedMultiplier solidShare)

variable {E : Type} [Fintype E]

theorem clip_eq_pulled (x lo hi : ℝ) : OC.clip x lo hi = pulled lo x hi := by
  unfold OC.clip pulled
  rw [max_comm]

/-- **C20 (d)** What a LogMOC update returns: every element gets the density of the closed formula for the recorded scaled Lagrangian
derivative. (The code computes it with logarithms and exponentials of intermediate bounds.) -/
theorem C20_update_is_log_law (c : LogMOC.Cfg E) (a : LogMOC.StepArgs) (s : St) (rho rf rp dC : E → ℝ)
    (out : LogMOC.UpdateOut E) (h : LogMOC.rhoUpdate c a s rho rf rp dC = .ok out) (hmin : 0 < c.rhoMin)
    (hm : 0 ≤ a.moveLimit) (e : E) (he : c.rhoMin ≤ rho e ∧ rho e ≤ c.rhoMax) :
    out.rho e = logDensity c.rhoMin c.rhoMax a.moveLimit a.eta c.lagClip (rho e) (out.dL e) := by
  have hr : 0 < rho e := hmin.trans_le he.1
  have hq : 0 < 1 + a.moveLimit / rho e := by have : 0 ≤ a.moveLimit / rho e := by positivity
                                              linarith
  rw [(logmoc_out h).1 e, logUpdate_eq hmin he.1 he.2 hm]
  simp only [clip_eq_pulled]
  unfold logDensity
  congr 1
  unfold pulled
  rw [mul_min_of_nonneg _ _ hr.le, mul_max_of_nonneg _ _ hr.le, neg_mul]
  congr 2
  rw [mul_one_div]

/-- **C21 (e)** Over any sequence of LogMOC updates that starts with iteration 1 (whatever the densities, sensitivities, schedules and
the initial state) the multiplier is the one determined by the history of volume errors alone. -/
theorem C21_multiplier_of_history (c : LogMOC.Cfg E) (a : ℕ → LogMOC.StepArgs) (hit : ∀ k, (a k).iterNum = k)
    (rho rf rp dC : ℕ → E → ℝ) (s0 : St) (outs : ℕ → LogMOC.UpdateOut E) (n : ℕ)
    (h1 : LogMOC.rhoUpdate c (a 1) s0 (rho 1) (rf 1) (rp 1) (dC 1) = .ok (outs 1))
    (hs : ∀ k, 1 ≤ k → k < n → LogMOC.rhoUpdate c (a (k + 1)) (outs k).st (rho (k + 1)) (rf (k + 1)) (rp (k + 1)) (dC (k + 1)) =
      .ok (outs (k + 1))) :
    ∀ k, 1 ≤ k → k ≤ n →
      (outs k).vErr = (∑ e ∈ c.design, rp k e * c.volume e) / (∑ e ∈ c.design, c.volume e) - (a k).volFrac ∧
      (outs k).st.lambdaV = (if c.augmented then summedMultiplier c.muP c.lambdaLower c.lambdaUpper (fun j => (outs j).vErr) k
        else emaMultiplier c.muP c.lambdaDecay c.lambdaLower c.lambdaUpper (fun j => (outs j).vErr) k) ∧
      (outs k).coeff = (outs k).st.lambdaV + c.alMu * (outs k).vErr := by
  intro k hk
  induction k, hk using Nat.le_induction with
  | base =>
    intro _
    obtain ⟨-, h2, h3, h4⟩ := logmoc_out h1
    refine ⟨h3, ?_, h4⟩
    rw [h2, hit 1]
    unfold lambdaUpdate
    simp only [clip_eq_pulled, show ¬ (1 > 1) by omega, if_false]
    by_cases ha : c.augmented = true
    · simp only [ha, if_true, summedMultiplier]
    · simp only [ha, if_false, emaMultiplier, Bool.false_eq_true]
  | succ k hk ih =>
    intro hn
    obtain ⟨-, h2, h3, h4⟩ := logmoc_out (hs k hk (by omega))
    refine ⟨h3, ?_, h4⟩
    have hi := (ih (by omega)).2.1
    rw [h2, hit (k + 1)]
    unfold lambdaUpdate
    simp only [clip_eq_pulled, show k + 1 > 1 by omega, if_true]
    obtain ⟨j, rfl⟩ : ∃ j, k = j + 1 := ⟨k - 1, by omega⟩
    by_cases ha : c.augmented = true
    · simp only [ha, if_true, summedMultiplier] at hi ⊢
      rw [hi]
    · simp only [ha, if_false, emaMultiplier, Bool.false_eq_true] at hi ⊢
      rw [hi]

open Classical in
/-- **C20 (e)** The recorded derivative is the gradient of the Lagrangian up to a positive factor: with a linear filter whose
`gradient` is the transpose of `forward` on the design elements (the spatial filter, `C28_spacial_transpose`), the default switches, densities filtered with that filter, and a
volume gradient that is not negligible (some back-propagated entry exceeds `1e-8`), the recorded derivative of a design element is
`(dC + coefficient * derivative of the solid share of the design volume) / scale` with a positive scale. -/
theorem C20_recorded_is_lagrangian_gradient (c : LogMOC.Cfg E) (a : LogMOC.StepArgs) (s : St) (rho rp dC : E → ℝ)
    (out : LogMOC.UpdateOut E) (x : E → ℝ) (W : Matrix E E ℝ) (hf : ∀ y, c.forward y = W.mulVec y)
    (hg : ∀ v, ∀ e ∈ c.design, c.gradient v e = ∑ i, W i e * v i)
    (h : LogMOC.rhoUpdate c a s rho (c.forward x) rp dC = .ok out) (hfloor : 0 < c.lagScaleFloor)
    (hrs : ∀ r, s.runningScale = some r → 0 ≤ r) (h1 : c.centerObjective = false) (h2 : c.centerLagrangian = false)
    (h3 : c.filterLagrangian = false) (h4 : c.normalizeVolumeChain = false)
    (hbig : ∃ e ∈ c.design, 1 / 10 ^ 8 < |∑ i ∈ c.design, W i e * (Projection.heavisideDeriv (c.forward x i) a.beta c.betaEta *
      (c.volume i / ∑ j ∈ c.design, c.volume j))|) :
    ∃ k : ℝ, 0 < k ∧ out.st.runningScale = some k ∧ ∀ e ∈ c.design, ∃ D : ℝ,
      HasDerivAt (fun t => solidShare c.design c.volume c.forward a.beta c.betaEta (Function.update x e t)) D (x e) ∧
      out.dL e = (dC e + out.coeff * D) / k := by
  obtain ⟨k, hk, hk1, hk2⟩ := C20_recorded_derivative c a s rho (c.forward x) rp dC out h hfloor hrs h1 h2 h3 h4
  refine ⟨k, hk, hk1, fun e he => ⟨dVChain c a.beta (c.forward x) e, ?_, hk2 e⟩⟩
  obtain ⟨δ, hδ⟩ : ∃ δ : E → ℝ, δ = fun e' => if e' = e then 1 else 0 := ⟨_, rfl⟩
  have hgrad : ∀ e' ∈ c.design, c.gradient (dVFiltered c a.beta (c.forward x)) e' = ∑ i ∈ c.design,
      W i e' * (Projection.heavisideDeriv (c.forward x i) a.beta c.betaEta * (c.volume i / ∑ j ∈ c.design, c.volume j)) := by
    intro e' he'
    rw [hg _ e' he']
    unfold dVFiltered
    rw [← Finset.sum_subset (Finset.subset_univ c.design)
      (fun i _ hi => by rw [if_neg hi, mul_zero, mul_zero])]
    refine Finset.sum_congr rfl fun i hi => ?_
    rw [if_pos hi, (C23_inplace_agree _ _ _).2]
    rfl
  have key := C55_volume_gradient_partial c a.beta x δ (fun d => W.mulVec d) (fun t => by
      rw [hf, hf]
      funext i
      simp only [Matrix.mulVec, dotProduct, mul_add, Finset.sum_add_distrib, Finset.mul_sum]
      congr 1
      refine Finset.sum_congr rfl fun j _ => by ring)
    (fun v => by
      have h1 : ∀ e', c.gradient v e' * δ e' = (∑ i, W i e' * v i) * δ e' := by
        intro e'
        by_cases hee : e' = e
        · rw [hee, hg v e he]
        · rw [hδ]
          simp [hee]
      simp only [h1, Matrix.mulVec, dotProduct, Finset.sum_mul, Finset.mul_sum]
      rw [Finset.sum_comm]
      refine Finset.sum_congr rfl fun i _ => Finset.sum_congr rfl fun j _ => by ring)
    (fun e' he' => by
      rw [hδ]
      exact if_neg (by rintro rfl; exact he' he))
    (by
      obtain ⟨e', he', hb⟩ := hbig
      exact ⟨e', by rw [hgrad e' he']; exact hb⟩)
  have hsum : ∑ e' ∈ c.design, dVChain c a.beta (c.forward x) e' * δ e' = dVChain c a.beta (c.forward x) e := by
    rw [hδ, Finset.sum_eq_single e (fun b _ hb => by simp [hb]) (fun hn => absurd he hn)]
    simp
  rw [hsum] at key
  have hshift : HasDerivAt (fun t : ℝ => t - x e) 1 (x e) := (hasDerivAt_id _).sub_const _
  have key' : HasDerivAt (fun t : ℝ => volMean c fun e_1 =>
      Projection.heaviside (c.forward (fun e' => x e' + t * δ e') e_1) a.beta c.betaEta)
      (dVChain c a.beta (c.forward x) e) (x e - x e) := by rw [sub_self]; exact key
  have hcomp := HasDerivAt.comp (h := fun t : ℝ => t - x e) (x e) key' hshift
  rw [mul_one] at hcomp
  have hfun : (fun t => solidShare c.design c.volume c.forward a.beta c.betaEta (Function.update x e t)) =
      (fun t : ℝ => volMean c fun e_1 =>
        Projection.heaviside (c.forward (fun e' => x e' + t * δ e') e_1) a.beta c.betaEta) ∘ fun t => t - x e := by
    funext t
    simp only [Function.comp]
    have hu : Function.update x e t = fun e' => x e' + (t - x e) * δ e' := by
      funext e'
      rw [hδ]
      by_cases hee : e' = e
      · subst hee; simp
      · simp [hee]
    rw [hu]
    rfl
  rw [hfun]
  exact hcomp

open Classical in
/-- **C28 (d)** The spatial filter is a matrix, its `gradient` (after any `forward`) is the transpose on the design elements. -/
theorem C28_spacial_transpose {d : ℕ} (f : Spacial.Filter E d) (hr : 0 < f.radius) (design : Finset E) (hmask : f.mask = some design)
    (hS : design.Nonempty) : ∃ W : Matrix E E ℝ, ∀ x, ∃ f1, Spacial.forward f x = .ok (W.mulVec x, f1) ∧
      ∀ v, ∃ g, Spacial.gradient f1 v = .ok g ∧ ∀ e ∈ design, g e = ∑ i, W i e * v i := by
  have hd : filterDesign f = design := by unfold filterDesign; rw [hmask]; rfl
  obtain ⟨M, hM⟩ : ∃ M, M = Spacial.matrix f.centers (Spacial.kernel .gaussian f.radius none)
    (Spacial.support .gaussian f.radius none) none design := ⟨_, rfl⟩
  refine ⟨Matrix.of fun i j => if i ∈ design then (if j ∈ design then M i j else 0) else if i = j then 1 else 0, fun x => ?_⟩
  refine ⟨{ f with W := some M }, ?_, ?_⟩
  · rw [forward_eq f hr (by rw [hd]; exact hS) x, hd, ← hM]
    refine congrArg Except.ok (Prod.ext ?_ rfl)
    funext i
    simp only [Matrix.mulVec, dotProduct, Matrix.of_apply]
    by_cases hi : i ∈ design
    · simp only [if_pos hi, ite_mul, zero_mul]
      rw [Finset.sum_ite_mem, Finset.univ_inter]
    · simp only [if_neg hi, ite_mul, one_mul, zero_mul]
      rw [Finset.sum_ite_eq]
      simp
  · intro v
    refine ⟨_, rfl, fun e he => ?_⟩
    simp only [hmask, Option.getD_some, if_pos he, Matrix.of_apply]
    rw [← Finset.sum_subset (Finset.subset_univ design) (fun i _ hi => by
      rw [if_neg hi, if_neg (by rintro rfl; exact hi he), zero_mul])]
    exact Finset.sum_congr rfl fun i hi => by rw [if_pos hi]

/-- The hypotheses above are met by the example of `Verif.Props.LogMOC`, and the gradient is not zero. -/
example : ∃ out, LogMOC.rhoUpdate logmocExample { iterNum := 1, moveLimit := 0.2, eta := 0.5, beta := 2, volFrac := 0.4 }
    (initSt logmocExample) (fun _ => 0.5) (logmocExample.forward fun _ => 0.5) (fun _ => 0.5) (fun e => -(e : ℝ)) = .ok out ∧
    (∀ e, out.rho e = logDensity 0.01 1 0.2 0.5 1 0.5 (out.dL e)) ∧
    ∃ k : ℝ, 0 < k ∧ out.st.runningScale = some k := by
  obtain ⟨out, h, -⟩ := C54_consecutive_updates_succeed_partial logmocExample
    { iterNum := 1, moveLimit := 0.2, eta := 0.5, beta := 2, volFrac := 0.4 }
    (initSt logmocExample) (fun _ => 0.5) (logmocExample.forward fun _ => 0.5) (fun _ => 0.5) (fun e => -(e : ℝ))
    (Or.inl (by norm_num))
  refine ⟨out, h, fun e => C20_update_is_log_law _ _ _ _ _ _ _ _ h (by norm_num [logmocExample]) (by norm_num) e
    (by norm_num [logmocExample]), ?_⟩
  obtain ⟨k, h1, h2, -⟩ := C20_recorded_is_lagrangian_gradient logmocExample _ _ _ _ _ _ (fun _ => 0.5) 1
    (fun y => by rw [Matrix.one_mulVec]; rfl)
    (fun v e _ => by
      simp only [Matrix.one_apply, ite_mul, one_mul, zero_mul]
      rw [Finset.sum_ite_eq']
      simp [logmocExample]) h (by norm_num [logmocExample]) (fun r hr => by simp [initSt] at hr) rfl rfl rfl rfl (by
      refine ⟨0, by simp [logmocExample], ?_⟩
      have h0 : (0 : Fin 3) ∈ logmocExample.design := by simp [logmocExample]
      have hs : ∑ j ∈ logmocExample.design, logmocExample.volume j = 2 := by simp [logmocExample]
      rw [hs, Finset.sum_eq_single_of_mem (0 : Fin 3) h0 (fun b _ hb => by rw [Matrix.one_apply_ne hb, zero_mul]),
        Matrix.one_apply_eq, one_mul]
      have e1 : Projection.heavisideDeriv (logmocExample.forward (fun _ => 0.5) 0) 2 logmocExample.betaEta =
          2 / (Real.tanh 1 + Real.tanh 1 + Projection.eps12) := by
        unfold Projection.heavisideDeriv
        norm_num [logmocExample]
      have e2 : logmocExample.volume 0 = 1 := rfl
      have ht := (Real.tanh_lt_one 1).le
      have ht0 : 0 ≤ Real.tanh 1 := by
        have := Projection.tanh_strictMono.monotone (show (0 : ℝ) ≤ 1 by norm_num)
        simpa using this
      have hd : 0 < Real.tanh 1 + Real.tanh 1 + Projection.eps12 := by
        have : 0 < Projection.eps12 := by unfold Projection.eps12; positivity
        linarith
      have hd2 : Real.tanh 1 + Real.tanh 1 + Projection.eps12 ≤ 3 := by
        have : Projection.eps12 ≤ 1 := by unfold Projection.eps12; norm_num
        linarith
      show 1 / 10 ^ 8 < |Projection.heavisideDeriv (logmocExample.forward (fun _ => 0.5) 0) 2 logmocExample.betaEta *
        (logmocExample.volume 0 / 2)|
      rw [e1, e2, abs_of_pos (by positivity)]
      have : 2 / 3 ≤ 2 / (Real.tanh 1 + Real.tanh 1 + Projection.eps12) := div_le_div_of_nonneg_left (by norm_num) hd hd2
      have h6 : (1 : ℝ) / 10 ^ 8 < 1 / 3 := by norm_num
      linarith)
  exact ⟨k, h1, h2⟩

end Verif.Props
