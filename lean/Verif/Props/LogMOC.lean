import Verif.Lemmas.LogMOC
import Mathlib.Analysis.Calculus.Deriv.Add
import Mathlib.Analysis.Calculus.Deriv.Mul
import Mathlib.Analysis.Calculus.Deriv.Comp

/-! Property theorems C19-C21, C54, C55: the LogMOC update. -/
namespace Verif.Props
open Verif Verif.OC Verif.LogMOC

variable {E : Type} [Fintype E]

/-- The shape of a successful update. -/
theorem logmoc_out {c : LogMOC.Cfg E} {a : LogMOC.StepArgs} {s : St} {rho rf rp dC : E → ℝ} {out : LogMOC.UpdateOut E}
    (h : LogMOC.rhoUpdate c a s rho rf rp dC = .ok out) :
    (∀ e, out.rho e = logUpdate (rho e) (out.dL e) a.eta a.moveLimit c.rhoMin c.rhoMax c.lagClip) ∧
    out.st.lambdaV = lambdaUpdate c a.iterNum s.lambdaV out.vErr ∧
    out.vErr = LogMOC.volError c a.volFrac rp ∧ out.coeff = out.st.lambdaV + c.alMu * out.vErr := by
  unfold LogMOC.rhoUpdate at h
  simp only [bind, Except.bind] at h
  split at h
  · cases h
  · simp only [pure, Except.pure, Except.ok.injEq] at h
    subst h
    exact ⟨fun e => rfl, rfl, rfl, rfl⟩

/-- **C19 (a)** Every density a LogMOC update produces lies in `[rho_min, rho_max]` — for every gradient, state, step
size and move limit, and even for input densities outside the box. -/
theorem C19_logmoc_box (c : LogMOC.Cfg E) (a : LogMOC.StepArgs) (s : St) (rho rf rp dC : E → ℝ)
    (out : LogMOC.UpdateOut E) (h : LogMOC.rhoUpdate c a s rho rf rp dC = .ok out) (hb : c.rhoMin ≤ c.rhoMax) :
    ∀ e, c.rhoMin ≤ out.rho e ∧ out.rho e ≤ c.rhoMax := by
  intro e
  rw [(logmoc_out h).1 e]
  exact clip_mem hb

/-- **C19 (b)** No density changes by more than `move_limit`. -/
theorem C19_logmoc_move_limit (c : LogMOC.Cfg E) (a : LogMOC.StepArgs) (s : St) (rho rf rp dC : E → ℝ)
    (out : LogMOC.UpdateOut E) (h : LogMOC.rhoUpdate c a s rho rf rp dC = .ok out) (hmin : 0 < c.rhoMin)
    (hm : 0 ≤ a.moveLimit) (e : E) (he : c.rhoMin ≤ rho e ∧ rho e ≤ c.rhoMax) :
    |out.rho e - rho e| ≤ a.moveLimit := by
  rw [(logmoc_out h).1 e, logUpdate_eq hmin he.1 he.2 hm]
  have hr : 0 < rho e := by linarith
  obtain ⟨b1, b2, b3, b4⟩ := bounds hr hm
  have hc := clip_mem (x := rho e * Real.exp (-(a.eta * clip (out.dL e) (-c.lagClip) c.lagClip))) (b2.trans b3)
  set y := clip (rho e * Real.exp (-(a.eta * clip (out.dL e) (-c.lagClip) c.lagClip)))
    (rho e / (1 + a.moveLimit / rho e)) (rho e * (1 + a.moveLimit / rho e))
  unfold clip
  rw [abs_le]
  constructor
  · have : rho e - a.moveLimit ≤ min (max y c.rhoMin) c.rhoMax := le_min (le_max_of_le_left (by linarith)) (by linarith)
    linarith
  · have : min (max y c.rhoMin) c.rhoMax ≤ rho e + a.moveLimit :=
      (min_le_left _ _).trans (max_le (by linarith) (by linarith))
    linarith

/-- **C20 (a)** A LogMOC update is a descent step for the recorded Lagrangian derivative `dL`: densities with `dL > 0`
never increase, densities with `dL < 0` never decrease, densities with `dL = 0` stay. -/
theorem C20_logmoc_descent (c : LogMOC.Cfg E) (a : LogMOC.StepArgs) (s : St) (rho rf rp dC : E → ℝ)
    (out : LogMOC.UpdateOut E) (h : LogMOC.rhoUpdate c a s rho rf rp dC = .ok out) (hmin : 0 < c.rhoMin)
    (hm : 0 ≤ a.moveLimit) (heta : 0 ≤ a.eta) (hclip : 0 ≤ c.lagClip) (e : E)
    (he : c.rhoMin ≤ rho e ∧ rho e ≤ c.rhoMax) :
    (0 ≤ out.dL e → out.rho e ≤ rho e) ∧ (out.dL e ≤ 0 → rho e ≤ out.rho e) ∧
    (out.dL e = 0 → out.rho e = rho e) := by
  have hr : 0 < rho e := by linarith
  obtain ⟨b1, b2, b3, b4⟩ := bounds hr hm
  have down : 0 ≤ out.dL e → out.rho e ≤ rho e := by
    intro hd
    rw [(logmoc_out h).1 e, logUpdate_eq hmin he.1 he.2 hm]
    have h0 : 0 ≤ clip (out.dL e) (-c.lagClip) c.lagClip := le_min (le_max_of_le_left hd) hclip
    have h1 : rho e * Real.exp (-(a.eta * clip (out.dL e) (-c.lagClip) c.lagClip)) ≤ rho e :=
      mul_le_of_le_one_right hr.le (Real.exp_le_one_iff.mpr (by nlinarith))
    unfold clip at h1 ⊢
    exact (min_le_left _ _).trans (max_le ((min_le_left _ _).trans (max_le h1 b2)) he.1)
  have up : out.dL e ≤ 0 → rho e ≤ out.rho e := by
    intro hd
    rw [(logmoc_out h).1 e, logUpdate_eq hmin he.1 he.2 hm]
    have h0 : clip (out.dL e) (-c.lagClip) c.lagClip ≤ 0 := (min_le_left _ _).trans (max_le hd (by linarith))
    have h1 : rho e ≤ rho e * Real.exp (-(a.eta * clip (out.dL e) (-c.lagClip) c.lagClip)) :=
      le_mul_of_one_le_right hr.le (Real.one_le_exp (by nlinarith))
    unfold clip at h1 ⊢
    exact le_min (le_max_of_le_left (le_min (le_max_of_le_left h1) b3)) he.2
  exact ⟨down, up, fun h0 => le_antisymm (down h0.ge) (up h0.le)⟩

/-- **C20 (b)** A strict version: a density strictly inside the box really moves against a non-zero derivative
(`eta`, `move_limit` and the clip being positive). -/
theorem C20_logmoc_strict_descent (c : LogMOC.Cfg E) (a : LogMOC.StepArgs) (s : St) (rho rf rp dC : E → ℝ)
    (out : LogMOC.UpdateOut E) (h : LogMOC.rhoUpdate c a s rho rf rp dC = .ok out) (hmin : 0 < c.rhoMin)
    (hm : 0 < a.moveLimit) (heta : 0 < a.eta) (hclip : 0 < c.lagClip) (e : E)
    (he : c.rhoMin < rho e ∧ rho e < c.rhoMax) :
    (0 < out.dL e → out.rho e < rho e) ∧ (out.dL e < 0 → rho e < out.rho e) := by
  have hr : 0 < rho e := by linarith
  have hq : 0 < a.moveLimit / rho e := by positivity
  have b2 : rho e / (1 + a.moveLimit / rho e) < rho e := div_lt_self hr (by linarith)
  have b3 : rho e < rho e * (1 + a.moveLimit / rho e) := by nlinarith
  constructor
  · intro hd
    rw [(logmoc_out h).1 e, logUpdate_eq hmin he.1.le he.2.le hm.le]
    have h0 : 0 < clip (out.dL e) (-c.lagClip) c.lagClip := lt_min (lt_max_of_lt_left hd) hclip
    have h1 : rho e * Real.exp (-(a.eta * clip (out.dL e) (-c.lagClip) c.lagClip)) < rho e :=
      mul_lt_of_lt_one_right hr (Real.exp_lt_one_iff.mpr (by nlinarith [mul_pos heta h0]))
    unfold clip at h1 ⊢
    exact (min_le_left _ _).trans_lt (max_lt ((min_le_left _ _).trans_lt (max_lt h1 b2)) he.1)
  · intro hd
    rw [(logmoc_out h).1 e, logUpdate_eq hmin he.1.le he.2.le hm.le]
    have h0 : clip (out.dL e) (-c.lagClip) c.lagClip < 0 := (min_le_left _ _).trans_lt (max_lt hd (by linarith))
    have h1 : rho e < rho e * Real.exp (-(a.eta * clip (out.dL e) (-c.lagClip) c.lagClip)) :=
      lt_mul_of_one_lt_right hr (Real.one_lt_exp_iff.mpr (by nlinarith [mul_pos heta (neg_pos.mpr h0)]))
    unfold clip at h1 ⊢
    exact lt_min (lt_max_of_lt_left (lt_min (lt_max_of_lt_left h1) b3)) he.2

/-- **C20 (c)** The recorded derivative is the Lagrangian derivative `dC + coeff * dV` divided by a positive number
(without centring, filtering and normalisation), so the signs in (a) and (b) are those of the Lagrangian derivative. -/
theorem C20_recorded_derivative (c : LogMOC.Cfg E) (a : LogMOC.StepArgs) (s : St) (rho rf rp dC : E → ℝ)
    (out : LogMOC.UpdateOut E) (h : LogMOC.rhoUpdate c a s rho rf rp dC = .ok out) (hfloor : 0 < c.lagScaleFloor)
    (hrs : ∀ r, s.runningScale = some r → 0 ≤ r) (h1 : c.centerObjective = false) (h2 : c.centerLagrangian = false)
    (h3 : c.filterLagrangian = false) (h4 : c.normalizeVolumeChain = false) :
    ∃ k : ℝ, 0 < k ∧ out.st.runningScale = some k ∧
      ∀ e, out.dL e = (dC e + out.coeff * dVChain c a.beta rf e) / k := by
  unfold LogMOC.rhoUpdate at h
  simp only [bind, Except.bind] at h
  split at h
  · cases h
  · rename_i k hk
    simp only [pure, Except.pure, Except.ok.injEq] at h
    subst h
    refine ⟨k, ?_, rfl, fun e => ?_⟩
    · exact scaleUpdate_pos hk (lt_max_of_lt_right hfloor) hrs
    · simp [lagrangian, dCraw, h1, h2, h3, h4]

/-- **C21 (a)** The multiplier in force after every update lies in `[lambda_lower, lambda_upper]`, whatever the state
(so for every history of volume errors). -/
theorem C21_multiplier_in_range (c : LogMOC.Cfg E) (a : LogMOC.StepArgs) (s : St) (rho rf rp dC : E → ℝ)
    (out : LogMOC.UpdateOut E) (h : LogMOC.rhoUpdate c a s rho rf rp dC = .ok out) (hl : c.lambdaLower ≤ c.lambdaUpper) :
    c.lambdaLower ≤ out.st.lambdaV ∧ out.st.lambdaV ≤ c.lambdaUpper := by
  rw [(logmoc_out h).2.1]
  exact clip_mem hl

/-- **C21 (b)** In the default `ema` mode with decay in `[0,1]`, over any sequence of updates whose volume errors are
bounded by `B` the multiplier is bounded by `mu_p * B` from the first iteration on (no wind-up). -/
theorem C21_ema_no_windup (c : LogMOC.Cfg E) (hema : c.augmented = false) (hd0 : 0 ≤ c.lambdaDecay)
    (hd1 : c.lambdaDecay ≤ 1) (hmu : 0 ≤ c.muP) (hl : c.lambdaLower ≤ 0) (hu : 0 ≤ c.lambdaUpper) (B : ℝ)
    (errs : ℕ → ℝ) (hB : ∀ k, |errs k| ≤ B) (lam0 : ℝ) (lam : ℕ → ℝ) (h0 : lam 1 = lambdaUpdate c 1 lam0 (errs 1))
    (hstep : ∀ k, 1 ≤ k → lam (k + 1) = lambdaUpdate c (k + 1) (lam k) (errs (k + 1))) :
    ∀ k, 1 ≤ k → |lam k| ≤ c.muP * B := by
  have hclip : ∀ x : ℝ, |x| ≤ c.muP * B → |clip x c.lambdaLower c.lambdaUpper| ≤ c.muP * B := by
    intro x hx
    have hB0 : 0 ≤ c.muP * B := (abs_nonneg _).trans hx
    rw [abs_le] at hx ⊢
    unfold clip
    exact ⟨le_min (le_max_of_le_left hx.1) (by linarith), (min_le_left _ _).trans (max_le hx.2 (by linarith))⟩
  have hpen : ∀ k, |c.muP * errs k| ≤ c.muP * B := by
    intro k; rw [abs_mul, abs_of_nonneg hmu]; exact mul_le_mul_of_nonneg_left (hB k) hmu
  intro k hk
  induction k, hk using Nat.le_induction with
  | base => rw [h0]; simp only [lambdaUpdate, hema]; exact hclip _ (by simpa using hpen 1)
  | succ k hk ih =>
    rw [hstep k hk]
    simp only [lambdaUpdate, hema]
    apply hclip
    rw [if_neg (by simp), if_pos (by omega)]
    have hp := hpen (k + 1)
    rw [abs_le] at ih hp ⊢
    constructor <;> nlinarith [ih.1, ih.2, hp.1, hp.2]

/-- **C21 (c)** The configured `lambda_v` is dead: the first update (iteration number at most 1) gives the same result
whatever the initial multiplier is. (Negation of "the configured initial multiplier determines the first one".) -/
theorem C21_initial_multiplier_ignored (c : LogMOC.Cfg E) (a : LogMOC.StepArgs) (lam lam' : ℝ) (rs : Option ℝ)
    (rho rf rp dC : E → ℝ) (h : a.iterNum ≤ 1) :
    LogMOC.rhoUpdate c a ⟨lam, rs⟩ rho rf rp dC = LogMOC.rhoUpdate c a ⟨lam', rs⟩ rho rf rp dC := by
  have : ∀ x : ℝ, lambdaUpdate c a.iterNum x = lambdaUpdate c a.iterNum lam := by
    intro x; unfold lambdaUpdate; funext v; simp [show ¬ a.iterNum > 1 by omega]
  unfold LogMOC.rhoUpdate
  simp only [this lam']

/-- **C21 (d)** What the first multiplier is instead: `mu_p` times the volume error, clipped to the range. -/
theorem C21_first_multiplier_partial (c : LogMOC.Cfg E) (a : LogMOC.StepArgs) (s : St) (rho rf rp dC : E → ℝ)
    (out : LogMOC.UpdateOut E) (h : LogMOC.rhoUpdate c a s rho rf rp dC = .ok out) (hit : a.iterNum ≤ 1) :
    out.st.lambdaV = clip (c.muP * out.vErr) c.lambdaLower c.lambdaUpper := by
  rw [(logmoc_out h).2.1]
  unfold lambdaUpdate
  simp [show ¬ a.iterNum > 1 by omega]

/-- **C54 (a)** A run resumed from a snapshot cannot continue: the first update after construction fails with
AttributeError for every iteration number above 1, whatever the problem (`running_scale` is never initialised). -/
theorem C54_restart_raises (c : LogMOC.Cfg E) (a : LogMOC.StepArgs) (rho rf rp dC : E → ℝ) (h : 1 < a.iterNum) :
    LogMOC.rhoUpdate c a (initSt c) rho rf rp dC = .error .attributeError := by
  unfold LogMOC.rhoUpdate
  simp only [bind, Except.bind, initSt, scaleUpdate, if_pos h]

/-- **C54 (b)** A run started at iteration 1 never fails that way: the first update succeeds and every later one, fed
with the state left by its predecessor, succeeds too. -/
theorem C54_consecutive_updates_succeed_partial (c : LogMOC.Cfg E) (a : LogMOC.StepArgs) (s : St)
    (rho rf rp dC : E → ℝ) (h : a.iterNum ≤ 1 ∨ s.runningScale.isSome) :
    ∃ out, LogMOC.rhoUpdate c a s rho rf rp dC = .ok out ∧ out.st.runningScale.isSome := by
  unfold LogMOC.rhoUpdate
  simp only [bind, Except.bind]
  unfold scaleUpdate
  by_cases hi : a.iterNum > 1
  · rcases h with h | h
    · omega
    · obtain ⟨r, hr⟩ := Option.isSome_iff_exists.mp h
      rw [if_pos hi, hr]
      exact ⟨_, rfl, rfl⟩
  · rw [if_neg hi]
    exact ⟨_, rfl, rfl⟩

/-- **C55** The volume sensitivity LogMOC uses is the true gradient of the physical volume fraction: if the filter acts
on perturbations supported on the design elements through a map `G` and `gradient` is the adjoint of `G` (C28 proves
this for the spatial filter), then for every direction `d` supported on the design elements the derivative of the
volume fraction of `heaviside (forward (x + t d))` at `t = 0` is the inner product of the sensitivity with `d`. -/
theorem C55_volume_gradient_partial (c : LogMOC.Cfg E) (beta : ℝ) (x d : E → ℝ) (G : (E → ℝ) → (E → ℝ))
    (hlin : ∀ t : ℝ, c.forward (fun e => x e + t * d e) = fun e => c.forward x e + t * G d e)
    (hadj : ∀ v : E → ℝ, ∑ e, c.gradient v e * d e = ∑ e, v e * G d e)
    (hd : ∀ e, e ∉ c.design → d e = 0)
    (hbig : ∃ e, 1 / 10 ^ 8 < |c.gradient (dVFiltered c beta (c.forward x)) e|) :
    HasDerivAt (fun t : ℝ => volMean c fun e =>
        Projection.heaviside (c.forward (fun e' => x e' + t * d e') e) beta c.betaEta)
      (∑ e ∈ c.design, dVChain c beta (c.forward x) e * d e) 0 := by
  have hchain : dVChain c beta (c.forward x) = c.gradient (dVFiltered c beta (c.forward x)) := by
    unfold dVChain
    simp only
    rw [if_neg]
    rintro ⟨h1, -⟩
    obtain ⟨e, he⟩ := hbig
    exact absurd (h1 e) (not_le.mpr he)
  have hsum : ∑ e ∈ c.design, dVChain c beta (c.forward x) e * d e =
      ∑ e ∈ c.design, (Projection.heavisideDeriv (c.forward x e) beta c.betaEta * G d e * c.volume e) / volSum c := by
    rw [hchain]
    have : ∑ e ∈ c.design, c.gradient (dVFiltered c beta (c.forward x)) e * d e =
        ∑ e, c.gradient (dVFiltered c beta (c.forward x)) e * d e :=
      Finset.sum_subset (Finset.subset_univ _) (fun e _ he => by rw [hd e he, mul_zero])
    rw [this, hadj]
    symm
    have h2 : ∀ e, Projection.heavisideDerivInplace (c.forward x e) beta c.betaEta =
        Projection.heavisideDeriv (c.forward x e) beta c.betaEta := by
      intro e
      unfold Projection.heavisideDerivInplace Projection.heavisideDeriv
      simp only [mul_comm (c.forward x e - c.betaEta) beta, Projection.one_sub_tanh_sq]
      ring
    rw [← Finset.sum_subset (Finset.subset_univ c.design)]
    · apply Finset.sum_congr rfl
      intro e he
      simp only [dVFiltered, if_pos he, h2]
      ring
    · intro e _ he
      simp [dVFiltered, if_neg he]
  rw [hsum]
  have key : HasDerivAt (fun t : ℝ => ∑ e ∈ c.design,
      Projection.heaviside (c.forward x e + t * G d e) beta c.betaEta * c.volume e)
      (∑ e ∈ c.design, Projection.heavisideDeriv (c.forward x e) beta c.betaEta * G d e * c.volume e) 0 := by
    apply HasDerivAt.fun_sum
    intro e _
    have h1 : HasDerivAt (fun t : ℝ => c.forward x e + t * G d e) (G d e) 0 := by
      have := ((hasDerivAt_id (0 : ℝ)).mul_const (G d e)).const_add (c.forward x e)
      exact this.congr_deriv (one_mul _)
    have h2 := Projection.hasDerivAt_heaviside (c.forward x e + 0 * G d e) beta c.betaEta
    have h3 := (HasDerivAt.comp (0 : ℝ) h2 h1).mul_const (c.volume e)
    rw [zero_mul, add_zero] at h3
    exact h3
  have := key.div_const (volSum c)
  rw [← Finset.sum_div]
  unfold volMean
  simp only [hlin]
  exact this

/-! Concrete instances. -/

/-- Three elements, two of them design elements, identity filter. -/
noncomputable def logmocExample : LogMOC.Cfg (Fin 3) where
  rhoMin := 0.01
  rhoMax := 1
  betaEta := 0.5
  design := {0, 1}
  volume := fun _ => 1
  forward := id
  gradient := id
  pct := fun _ x => x 0

example : ∃ out, LogMOC.rhoUpdate logmocExample { iterNum := 1, moveLimit := 0.2, eta := 0.5, beta := 2, volFrac := 0.4 }
    (initSt logmocExample) (fun _ => 0.5) (fun _ => 0.5) (fun _ => 0.5) (fun e => -(e : ℝ)) = .ok out ∧
    ∀ e, 0.01 ≤ out.rho e ∧ |out.rho e - 0.5| ≤ 0.2 := by
  obtain ⟨out, h, -⟩ := C54_consecutive_updates_succeed_partial logmocExample
    { iterNum := 1, moveLimit := 0.2, eta := 0.5, beta := 2, volFrac := 0.4 }
    (initSt logmocExample) (fun _ => 0.5) (fun _ => 0.5) (fun _ => 0.5) (fun e => -(e : ℝ)) (Or.inl (by norm_num))
  refine ⟨out, h, fun e => ⟨?_, ?_⟩⟩
  · exact (C19_logmoc_box _ _ _ _ _ _ _ _ h (by norm_num [logmocExample]) e).1
  · exact C19_logmoc_move_limit _ _ _ _ _ _ _ _ h (by norm_num [logmocExample]) (by norm_num) e
      (by norm_num [logmocExample])

/-- The hypotheses of C55 are met by the example. -/
example : HasDerivAt (fun t : ℝ => volMean logmocExample fun e =>
        Projection.heaviside (logmocExample.forward (fun e' => 0.5 + t * (if e' = 0 then 3 else 0)) e) 2 0.5)
      (∑ e ∈ logmocExample.design, dVChain logmocExample 2 (logmocExample.forward fun _ => 0.5) e *
        (if e = 0 then 3 else 0)) 0 := by
  apply C55_volume_gradient_partial logmocExample 2 (fun _ => 0.5) (fun e => if e = 0 then 3 else 0) id
  · intro t; rfl
  · intro v; rfl
  · intro e he
    rw [if_neg]
    rintro rfl
    exact he (by simp [logmocExample])
  · refine ⟨0, ?_⟩
    have h0 : (0 : Fin 3) ∈ logmocExample.design := by simp [logmocExample]
    have hs : volSum logmocExample = 2 := by simp [volSum, logmocExample]
    have ht := (Real.tanh_lt_one 1).le
    have ht0 : 0 ≤ Real.tanh 1 := by
      have := Projection.tanh_strictMono.monotone (show (0 : ℝ) ≤ 1 by norm_num)
      simpa using this
    show 1 / 10 ^ 8 < |dVFiltered logmocExample 2 (fun _ => 0.5) 0|
    unfold dVFiltered
    rw [if_pos h0, hs]
    have e1 : Projection.heavisideDerivInplace 0.5 2 logmocExample.betaEta =
        2 / (Real.tanh 1 + Real.tanh 1 + Projection.eps12) := by
      unfold Projection.heavisideDerivInplace
      norm_num [logmocExample]
    have e2 : (logmocExample.volume 0) = 1 := rfl
    rw [e1, e2]
    have h3 : (0 : ℝ) < Real.tanh 1 + Real.tanh 1 + Projection.eps12 := by
      have := Projection.eps12_pos; linarith
    have h4 : Real.tanh 1 + Real.tanh 1 + Projection.eps12 ≤ 3 := by
      unfold Projection.eps12; norm_num; linarith
    have h5 : 2 / 3 ≤ 2 / (Real.tanh 1 + Real.tanh 1 + Projection.eps12) :=
      div_le_div_of_nonneg_left (by norm_num) h3 h4
    refine lt_of_lt_of_le ?_ (le_abs_self _)
    have h6 : (1 : ℝ) / 10 ^ 8 < 1 / 3 := by norm_num
    linarith

end Verif.Props
