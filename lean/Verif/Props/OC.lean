import Verif.Lemmas.OC

/-! Property theorems C13-C18: the OC update. The theorems are about `rhoUpdate` (one call of
`OC_Optimizer.rho_update`) or about `bisection` (the loop it runs) for arbitrary filters. -/
namespace Verif.Props
open Verif Verif.OC

variable {E : Type} [Fintype E]

/-- The running scale an update divides by is positive. -/
theorem oc_scale_pos {c : Cfg E} {a : StepArgs E} {rs : ℝ} {rhoState rho dC : E → ℝ} {out : UpdateOut E}
    (h : rhoUpdate c a rs rhoState rho dC = .ok out) (hfloor : 0 < c.scaleFloor) (hrs : 0 ≤ rs) :
    0 < out.runningScale ∧
      out.rho = (bisection (mkParams c a out.runningScale rhoState rho dC) 1000 c.lambdaLower c.lambdaUpper).rho ∧
      out.lmid = (bisection (mkParams c a out.runningScale rhoState rho dC) 1000 c.lambdaLower c.lambdaUpper).lmid ∧
      out.volError =
        (bisection (mkParams c a out.runningScale rhoState rho dC) 1000 c.lambdaLower c.lambdaUpper).volError ∧
      out.iters = (bisection (mkParams c a out.runningScale rhoState rho dC) 1000 c.lambdaLower c.lambdaUpper).iters := by
  unfold rhoUpdate at h
  cases hs : sensScale c a dC with
  | error e => rw [hs] at h; cases h
  | ok s =>
    rw [hs] at h
    simp only [bind, Except.bind, pure, Except.pure, Except.ok.injEq] at h
    subst h
    refine ⟨?_, rfl, rfl, rfl, rfl⟩
    have hspos : 0 < s := by
      unfold sensScale at hs
      split at hs
      · simp only [Except.ok.injEq] at hs; subst hs; exact lt_max_of_lt_right hfloor
      · split_ifs at hs
        simp only [Except.ok.injEq] at hs; subst hs; exact lt_max_of_lt_right hfloor
    simp only [newRunningScale]
    split_ifs
    · have : (0 : ℝ) ≤ 0.6 * rs := by positivity
      have : (0 : ℝ) < (1 - 0.6) * s := by norm_num; exact hspos
      linarith
    · exact hspos

/-- **C13 (a)** When no design sensitivity is positive, one OC update returns a number in `[rho_min, rho_max]` for every
design element, whatever the filter, projection, schedules and multiplier bracket `0 ≤ lower ≤ upper`. -/
theorem C13_oc_box (c : Cfg E) (a : StepArgs E) (rs : ℝ) (rhoState rho dC : E → ℝ) (out : UpdateOut E)
    (h : rhoUpdate c a rs rhoState rho dC = .ok out)
    (hdC : ∀ e ∈ c.design, dC e ≤ 0) (hfloor : 0 < c.scaleFloor) (hrs : 0 ≤ rs) (hmove : 0 ≤ a.moveLimit)
    (hl : 0 ≤ c.lambdaLower) (hlu : c.lambdaLower ≤ c.lambdaUpper)
    (hbox : ∀ e ∈ c.design, c.rhoMin ≤ rho e ∧ rho e ≤ c.rhoMax) :
    ∀ e ∈ c.design, ∃ r, out.rho e = some r ∧ c.rhoMin ≤ r ∧ r ≤ c.rhoMax := by
  obtain ⟨hpos, hrho, -, -, -⟩ := oc_scale_pos h hfloor hrs
  intro e he
  set P := mkParams c a out.runningScale rhoState rho dC with hP
  have hout := bisect_out P 1000 0 c.lambdaLower c.lambdaUpper
  have hn := bisect_nested P 1000 0 c.lambdaLower c.lambdaUpper hlu
  have hmid : 0 ≤ (bisect P 1000 0 c.lambdaLower c.lambdaUpper).lmid := by rw [hout.1]; linarith
  have heps : 0 < (bisect P 1000 0 c.lambdaLower c.lambdaUpper).lmid + P.eps := by
    have : 0 < P.eps := by simp only [hP, mkParams]; norm_num
    linarith
  have hd : P.dC e ≤ 0 := by
    simp only [hP, mkParams]
    exact div_nonpos_of_nonpos_of_nonneg (hdC e he) hpos.le
  obtain ⟨r, hr⟩ := candidate_some heps hd
  refine ⟨r, ?_, (candidate_box hr hmove (hbox e he).1 (hbox e he).2).1⟩
  rw [hrho]
  unfold bisection
  rw [hout.2.2]
  exact hr

/-- **C13 (b)**, for arbitrary sensitivities: every returned design density is in the box or is NaN. What is missing
from the English claim is that it is always a number, and `C13_positive_sensitivity_nan` shows that is false. -/
theorem C13_oc_box_or_nan_partial (c : Cfg E) (a : StepArgs E) (rs : ℝ) (rhoState rho dC : E → ℝ) (out : UpdateOut E)
    (h : rhoUpdate c a rs rhoState rho dC = .ok out) (hfloor : 0 < c.scaleFloor) (hrs : 0 ≤ rs)
    (hmove : 0 ≤ a.moveLimit) (hbox : ∀ e ∈ c.design, c.rhoMin ≤ rho e ∧ rho e ≤ c.rhoMax) :
    ∀ e ∈ c.design, ∀ r, out.rho e = some r → c.rhoMin ≤ r ∧ r ≤ c.rhoMax := by
  obtain ⟨-, hrho, -, -, -⟩ := oc_scale_pos h hfloor hrs
  intro e he r hr
  rw [hrho] at hr
  unfold bisection at hr
  rw [(bisect_out _ _ _ _ _).2.2] at hr
  exact (candidate_box hr hmove (hbox e he).1 (hbox e he).2).1

/-- **C13 (c)** The negation for positive sensitivities: an element with a positive sensitivity gets the density NaN
whenever the exponent `eta` is fractional (the default is 0.5) — there is no guard in the code. -/
theorem C13_positive_sensitivity_nan (c : Cfg E) (a : StepArgs E) (rs : ℝ) (rhoState rho dC : E → ℝ) (out : UpdateOut E)
    (h : rhoUpdate c a rs rhoState rho dC = .ok out) (hfloor : 0 < c.scaleFloor) (hrs : 0 ≤ rs)
    (hl : 0 ≤ c.lambdaLower) (hlu : c.lambdaLower ≤ c.lambdaUpper) (heta : ¬ ∃ k : ℤ, (k : ℝ) = a.eta)
    (e : E) (he : e ∈ c.design) (hpos : 0 < dC e) : out.rho e = none ∧ out.volError = none := by
  obtain ⟨hrs', hrho, -, hvol, -⟩ := oc_scale_pos h hfloor hrs
  set P := mkParams c a out.runningScale rhoState rho dC with hP
  have hout := bisect_out P 1000 0 c.lambdaLower c.lambdaUpper
  have hn := bisect_nested P 1000 0 c.lambdaLower c.lambdaUpper hlu
  have heps : 0 < (bisect P 1000 0 c.lambdaLower c.lambdaUpper).lmid + P.eps := by
    have : 0 < P.eps := by simp only [hP, mkParams]; norm_num
    rw [hout.1]; linarith
  have hd : 0 < P.dC e := by simp only [hP, mkParams]; exact div_pos hpos hrs'
  have hnone := candidate_none heps hd heta
  refine ⟨?_, ?_⟩
  · rw [hrho]; unfold bisection; rw [hout.2.2]; exact hnone
  · rw [hvol]; unfold bisection; rw [hout.2.1]; unfold volError; rw [if_pos ⟨e, he, hnone⟩]

/-- **C14** No design density that is a number changes by more than `move_limit` in one OC update (no hypothesis on the
sensitivities). -/
theorem C14_oc_move_limit (c : Cfg E) (a : StepArgs E) (rs : ℝ) (rhoState rho dC : E → ℝ) (out : UpdateOut E)
    (h : rhoUpdate c a rs rhoState rho dC = .ok out) (hfloor : 0 < c.scaleFloor) (hrs : 0 ≤ rs)
    (hmove : 0 ≤ a.moveLimit) (hbox : ∀ e ∈ c.design, c.rhoMin ≤ rho e ∧ rho e ≤ c.rhoMax) :
    ∀ e ∈ c.design, ∀ r, out.rho e = some r → |r - rho e| ≤ a.moveLimit := by
  obtain ⟨-, hrho, -, -, -⟩ := oc_scale_pos h hfloor hrs
  intro e he r hr
  rw [hrho] at hr
  unfold bisection at hr
  rw [(bisect_out _ _ _ _ _).2.2] at hr
  exact (candidate_box hr hmove (hbox e he).1 (hbox e he).2).2

/-- **C14 (b)** The relative change is bounded too: with rates `rateMin ≤ 1 ≤ rateMax`, an in-box density never leaves
`[rateMin * rho, rateMax * rho]` clipped to the box and the move limit; in particular a density is only ever increased
up to `rateMax * rho`. -/
theorem C14_oc_rate_limit (c : Cfg E) (a : StepArgs E) (rs : ℝ) (rhoState rho dC : E → ℝ) (out : UpdateOut E)
    (h : rhoUpdate c a rs rhoState rho dC = .ok out) (hfloor : 0 < c.scaleFloor) (hrs : 0 ≤ rs)
    (hmove : 0 ≤ a.moveLimit) (hr0 : 0 ≤ c.rhoMin) (hrate : c.rateMin ≤ 1) (hrate' : 1 ≤ c.rateMax)
    (hbox : ∀ e ∈ c.design, c.rhoMin ≤ rho e ∧ rho e ≤ c.rhoMax) :
    ∀ e ∈ c.design, ∀ r, out.rho e = some r → c.rateMin * rho e ≤ r ∧ r ≤ c.rateMax * rho e := by
  obtain ⟨-, hrho, -, -, -⟩ := oc_scale_pos h hfloor hrs
  intro e he r hr
  rw [hrho] at hr
  unfold bisection at hr
  rw [(bisect_out _ _ _ _ _).2.2] at hr
  have hb := hbox e he
  have he0 : 0 ≤ rho e := hr0.trans hb.1
  unfold candidate at hr
  cases hs : scaling (mkParams c a out.runningScale rhoState rho dC)
      (bisect (mkParams c a out.runningScale rhoState rho dC) 1000 0 c.lambdaLower c.lambdaUpper).lmid e with
  | none => rw [hs] at hr; simp at hr
  | some s =>
    have hsr : c.rateMin ≤ s ∧ s ≤ c.rateMax := by
      unfold scaling at hs
      simp only at hs
      split_ifs at hs
      · simp only [Option.some.injEq, mkParams] at hs; subst hs; exact ⟨by linarith, le_rfl⟩
      · simp only [Option.some.injEq, mkParams] at hs; subst hs; exact clip_mem (by linarith)
    rw [hs] at hr
    simp only [Option.map_some, Option.some.injEq, mkParams] at hr
    subst hr
    have h1 : c.rateMin * rho e ≤ rho e * s := by nlinarith
    have h2 : rho e * s ≤ c.rateMax * rho e := by nlinarith
    have h3 : c.rateMin * rho e ≤ rho e := by nlinarith
    have h4 : rho e ≤ c.rateMax * rho e := by nlinarith
    unfold clip
    constructor
    · refine le_min (le_max_of_le_left h1) (le_min (by linarith) (by linarith))
    · refine (min_le_left _ _).trans (max_le h2 (max_le (by linarith) (by linarith)))

/-- **C15 (a)** The bisection returns after at most `max_iter` iterations, with a multiplier inside the initial bracket;
the final bracket is nested in it and is the initial width divided by `2 ^ iterations`. -/
theorem C15_bisection_terminates (P : Params E) (maxIter : ℕ) (l1 l2 : ℝ) (h : l1 ≤ l2) :
    (bisection P maxIter l1 l2).iters ≤ maxIter ∧
    (l1 ≤ (bisection P maxIter l1 l2).lmid ∧ (bisection P maxIter l1 l2).lmid ≤ l2) ∧
    (l1 ≤ (bisection P maxIter l1 l2).l1 ∧ (bisection P maxIter l1 l2).l2 ≤ l2) ∧
    (bisection P maxIter l1 l2).l2 - (bisection P maxIter l1 l2).l1 =
      (l2 - l1) / 2 ^ (bisection P maxIter l1 l2).iters := by
  unfold bisection
  have h1 := (bisect_iters_le P maxIter 0 l1 l2).2
  have h2 := bisect_nested P maxIter 0 l1 l2 h
  have h3 := (bisect_out P maxIter 0 l1 l2).1
  have h4 := bisect_width P maxIter 0 l1 l2
  refine ⟨by omega, ⟨by rw [h3]; linarith, by rw [h3]; linarith⟩, ⟨h2.1, h2.2.2⟩, ?_⟩
  rw [Nat.sub_zero] at h4
  rw [eq_div_iff (by positivity), h4]

/-- **C15 (b)** It stops after at most `j` halvings whenever `tolerance * 2 ^ j` is at least the initial width, i.e.
after at most `ceil(log2((l2 - l1) / tolerance))` of them. -/
theorem C15_bisection_log_bound (P : Params E) (maxIter : ℕ) (l1 l2 : ℝ) (h : l1 ≤ l2) (htol : 0 < P.tolerance) :
    (bisection P maxIter l1 l2).iters ≤ Nat.clog 2 ⌈(l2 - l1) / P.tolerance⌉₊ := by
  have := bisect_iters_log P maxIter 0 l1 l2 (Nat.clog 2 ⌈(l2 - l1) / P.tolerance⌉₊) h (by
    have h1 : (⌈(l2 - l1) / P.tolerance⌉₊ : ℝ) ≤ (2 : ℝ) ^ (Nat.clog 2 ⌈(l2 - l1) / P.tolerance⌉₊) := by
      exact_mod_cast Nat.le_pow_clog (by norm_num) _
    have h2 := (Nat.le_ceil ((l2 - l1) / P.tolerance)).trans h1
    rw [div_le_iff₀ htol] at h2
    linarith)
  unfold bisection
  omega

/-- **C15 (c)** One OC update with the default bracket `[1e-7, 1e7]` needs at most 40 halvings, far below the cap. -/
theorem C15_default_bracket_40 (c : Cfg E) (a : StepArgs E) (rs : ℝ) (rhoState rho dC : E → ℝ) (out : UpdateOut E)
    (h : rhoUpdate c a rs rhoState rho dC = .ok out) (hfloor : 0 < c.scaleFloor) (hrs : 0 ≤ rs)
    (hl : c.lambdaLower = 1 / 10 ^ 7) (hu : c.lambdaUpper = 10 ^ 7) : out.iters ≤ 40 := by
  obtain ⟨-, -, -, -, hit⟩ := oc_scale_pos h hfloor hrs
  rw [hit, hl, hu]
  have := bisect_iters_log (mkParams c a out.runningScale rhoState rho dC) 1000 0 (1 / 10 ^ 7) (10 ^ 7) 40
    (by norm_num) (by simp only [mkParams]; norm_num)
  unfold bisection
  omega

/-- **C16 (a)** If on the initial bracket the volume error is a non-increasing function `v` of the multiplier with a zero
there, then the final bracket still contains a zero of `v`; hence the returned multiplier is within half the tolerance
of a feasible one, or its volume error is below `vol_tol`, or the iteration cap was hit. -/
theorem C16_bisection_finds_feasible (P : Params E) (maxIter : ℕ) (l1 l2 : ℝ) (v : ℝ → ℝ) (root : ℝ)
    (hv : ∀ l, l1 ≤ l → l ≤ l2 → volError P l = some (v l))
    (hmono : ∀ a b, l1 ≤ a → a ≤ b → b ≤ l2 → v b ≤ v a)
    (hr1 : l1 ≤ root) (hr2 : root ≤ l2) (hroot : v root = 0) :
    (∃ r, (bisection P maxIter l1 l2).l1 ≤ r ∧ r ≤ (bisection P maxIter l1 l2).l2 ∧ v r = 0) ∧
    ((∃ r, |(bisection P maxIter l1 l2).lmid - r| ≤ P.tolerance / 2 ∧ v r = 0) ∨
      |v (bisection P maxIter l1 l2).lmid| < P.volTol ∨ (bisection P maxIter l1 l2).iters = maxIter) := by
  have key : l1 ≤ (bisect P maxIter 0 l1 l2).l1 ∧ (bisect P maxIter 0 l1 l2).l2 ≤ l2 ∧
      ∃ r, (bisect P maxIter 0 l1 l2).l1 ≤ r ∧ r ≤ (bisect P maxIter 0 l1 l2).l2 ∧ v r = 0 := by
    apply bisect_invariant (fun a b => l1 ≤ a ∧ b ≤ l2 ∧ ∃ r, a ≤ r ∧ r ≤ b ∧ v r = 0)
    · rintro a b x ⟨h1, h2, r, h3, h4, h5⟩ hx hx0 _
      rw [hv _ (by linarith) (by linarith)] at hx
      simp only [Option.some.injEq] at hx
      refine ⟨by linarith, h2, r, ?_, h4, h5⟩
      by_contra hc
      push Not at hc
      have := hmono r (0.5 * (a + b)) (by linarith) hc.le (by linarith)
      linarith
    · rintro a b ⟨h1, h2, r, h3, h4, h5⟩ hx _
      have hvm := hv (0.5 * (a + b)) (by linarith) (by linarith)
      have hle : v (0.5 * (a + b)) ≤ 0 := by
        by_contra hc
        push Not at hc
        exact hx ⟨_, hvm, hc⟩
      refine ⟨h1, by linarith, ?_⟩
      by_cases hc : r ≤ 0.5 * (a + b)
      · exact ⟨r, h3, hc, h5⟩
      · push Not at hc
        refine ⟨0.5 * (a + b), by linarith, le_rfl, le_antisymm hle ?_⟩
        have := hmono (0.5 * (a + b)) r (by linarith) hc.le (by linarith)
        linarith
    · exact ⟨le_rfl, le_rfl, root, hr1, hr2, hroot⟩
  unfold bisection
  obtain ⟨k1, k2, r, k3, k4, k5⟩ := key
  refine ⟨⟨r, k3, k4, k5⟩, ?_⟩
  obtain ⟨o1, o2, -⟩ := bisect_out P maxIter 0 l1 l2
  rcases bisect_stop P maxIter 0 l1 l2 with ⟨x, hx, hx'⟩ | hs | hs
  · right; left
    rw [o2, hv _ (by rw [o1]; linarith) (by rw [o1]; linarith)] at hx
    simp only [Option.some.injEq] at hx
    rw [hx]; exact hx'
  · right; right; omega
  · left
    refine ⟨r, ?_, k5⟩
    rw [o1, abs_le]
    rw [abs_le] at hs
    constructor <;> linarith [hs.2]

/-- **C16 (b)** Without monotonicity: if the volume error is a continuous function on the bracket, non-negative at its
lower and non-positive at its upper end, the final bracket still contains a feasible multiplier. -/
theorem C16_bisection_continuous (P : Params E) (maxIter : ℕ) (l1 l2 : ℝ) (v : ℝ → ℝ) (h12 : l1 ≤ l2)
    (hv : ∀ l, l1 ≤ l → l ≤ l2 → volError P l = some (v l)) (hcont : ContinuousOn v (Set.Icc l1 l2))
    (h1 : 0 ≤ v l1) (h2 : v l2 ≤ 0) :
    ∃ r, (bisection P maxIter l1 l2).l1 ≤ r ∧ r ≤ (bisection P maxIter l1 l2).l2 ∧ v r = 0 := by
  have key : (l1 ≤ (bisect P maxIter 0 l1 l2).l1 ∧ (bisect P maxIter 0 l1 l2).l2 ≤ l2 ∧
      (bisect P maxIter 0 l1 l2).l1 ≤ (bisect P maxIter 0 l1 l2).l2) ∧
      0 ≤ v (bisect P maxIter 0 l1 l2).l1 ∧ v (bisect P maxIter 0 l1 l2).l2 ≤ 0 := by
    apply bisect_invariant (fun a b => (l1 ≤ a ∧ b ≤ l2 ∧ a ≤ b) ∧ 0 ≤ v a ∧ v b ≤ 0)
    · rintro a b x ⟨⟨g1, g2, g3⟩, g4, g5⟩ hx hx0 _
      rw [hv _ (by linarith) (by linarith)] at hx
      simp only [Option.some.injEq] at hx
      exact ⟨⟨by linarith, g2, by linarith⟩, by linarith, g5⟩
    · rintro a b ⟨⟨g1, g2, g3⟩, g4, g5⟩ hx _
      have hvm := hv (0.5 * (a + b)) (by linarith) (by linarith)
      refine ⟨⟨g1, by linarith, by linarith⟩, g4, ?_⟩
      by_contra hc
      push Not at hc
      exact hx ⟨_, hvm, hc⟩
    · exact ⟨⟨le_rfl, le_rfl, h12⟩, h1, h2⟩
  unfold bisection
  obtain ⟨⟨k1, k2, k3⟩, k4, k5⟩ := key
  have hsub : Set.Icc (bisect P maxIter 0 l1 l2).l1 (bisect P maxIter 0 l1 l2).l2 ⊆ Set.Icc l1 l2 :=
    Set.Icc_subset_Icc k1 k2
  obtain ⟨r, hr, hr0⟩ := intermediate_value_Icc' k3 (hcont.mono hsub) ⟨k5, k4⟩
  exact ⟨r, hr.1, hr.2, hr0⟩

/-- **C16 (c)** The whole update, for the filters the library documents as averaging (order preserving), non-positive
sensitivities and the default tolerances: if some multiplier in the configured bracket meets the target volume exactly,
the returned design misses the target volume by less than `1e-4`, or the returned multiplier is within `0.5e-5` of a
feasible one. The iteration cap plays no role. -/
theorem C16_update_feasible (c : Cfg E) (a : StepArgs E) (rs : ℝ) (rhoState rho dC : E → ℝ) (out : UpdateOut E)
    (h : rhoUpdate c a rs rhoState rho dC = .ok out)
    (hdC : ∀ e ∈ c.design, dC e ≤ 0) (hfloor : 0 < c.scaleFloor) (hrs : 0 ≤ rs) (heta : 0 ≤ a.eta)
    (hbeta : 0 ≤ a.beta) (hl : 0 ≤ c.lambdaLower) (hu : c.lambdaUpper ≤ 10 ^ 7)
    (hrho : ∀ e ∈ c.design, 0 ≤ rho e) (hvol : ∀ e ∈ c.design, 0 ≤ c.volume e) (hfilter : Monotone c.filter)
    (root : ℝ) (hr1 : c.lambdaLower ≤ root) (hr2 : root ≤ c.lambdaUpper)
    (hroot : volError (mkParams c a out.runningScale rhoState rho dC) root = some 0) :
    (∃ x, out.volError = some x ∧ |x| < 1 / 10 ^ 4) ∨
    ∃ l, |out.lmid - l| ≤ 1 / 10 ^ 5 / 2 ∧ c.lambdaLower ≤ l ∧ l ≤ c.lambdaUpper ∧
      volError (mkParams c a out.runningScale rhoState rho dC) l = some 0 := by
  obtain ⟨hpos, -, hlm, hve, hit⟩ := oc_scale_pos h hfloor hrs
  set P := mkParams c a out.runningScale rhoState rho dC with hP
  have heps : 0 < P.eps := by simp only [hP, mkParams]; norm_num
  have hd : ∀ e ∈ P.design, P.dC e ≤ 0 := fun e he =>
    div_nonpos_of_nonpos_of_nonneg (hdC e he) hpos.le
  have hsome : ∀ l, 0 ≤ l → volError P l = some ((volError P l).getD 0) := by
    intro l hl0
    rw [volError_some (by linarith) hd]; rfl
  have hlu : c.lambdaLower ≤ c.lambdaUpper := hr1.trans hr2
  have hmono : ∀ x y, c.lambdaLower ≤ x → x ≤ y → y ≤ c.lambdaUpper →
      (fun l => (volError P l).getD 0) y ≤ (fun l => (volError P l).getD 0) x := by
    intro x y hx hxy _
    exact volError_antitone hd heta heps hrho hvol (Finset.sum_nonneg hvol) hbeta hfilter (hl.trans hx) hxy
      (hsome x (hl.trans hx)) (hsome y (by linarith))
  have main := C16_bisection_finds_feasible P 1000 c.lambdaLower c.lambdaUpper (fun l => (volError P l).getD 0) root
    (fun l h1 _ => hsome l (hl.trans h1)) hmono hr1 hr2 (by simp only [hroot, Option.getD_some])
  have hnest := (C15_bisection_terminates P 1000 c.lambdaLower c.lambdaUpper hlu)
  have hmid0 : 0 ≤ out.lmid := by rw [hlm]; linarith [hnest.2.1.1]
  rcases main.1 with ⟨r, m1, m2, m3⟩
  have hlog := bisect_iters_log P 1000 0 c.lambdaLower c.lambdaUpper 40 hlu (by
    simp only [hP, mkParams]; norm_num at hu ⊢; linarith)
  rcases bisect_stop P 1000 0 c.lambdaLower c.lambdaUpper with ⟨x, hx, hx'⟩ | hs | hs
  · left; exact ⟨x, by rw [hve]; exact hx, by simpa [hP, mkParams] using hx'⟩
  · omega
  · right
    have o1 := (bisect_out P 1000 0 c.lambdaLower c.lambdaUpper).1
    have hr0 : 0 ≤ r := by linarith [hnest.2.2.1.1]
    refine ⟨r, ?_, by linarith [hnest.2.2.1.1], by linarith [
      (bisect_nested P 1000 0 c.lambdaLower c.lambdaUpper hlu).2.2, show (bisection P 1000 c.lambdaLower c.lambdaUpper).l2 =
      (bisect P 1000 0 c.lambdaLower c.lambdaUpper).l2 from rfl], by rw [hsome r hr0, m3]⟩
    rw [hlm]
    unfold bisection at m1 m2 ⊢
    have ht : P.tolerance = 1 / 10 ^ 5 := rfl
    rw [ht] at hs
    rw [o1, abs_le]
    rw [abs_le] at hs
    constructor <;> linarith [hs.2]

/-- **C17** The multiplier and volume error recorded in the histories are those of the density vector returned: the
densities are the OC candidate at the recorded multiplier, and the recorded error is the relative error of the physical
(filtered, projected) volume of the full field holding exactly the returned densities. -/
theorem C17_reported_error_is_of_returned_design (c : Cfg E) (a : StepArgs E) (rs : ℝ) (rhoState rho dC : E → ℝ)
    (out : UpdateOut E) (h : rhoUpdate c a rs rhoState rho dC = .ok out) (hfloor : 0 < c.scaleFloor) (hrs : 0 ≤ rs)
    (x : ℝ) (hx : out.volError = some x) (full : E → ℝ)
    (hdes : ∀ e ∈ c.design, out.rho e = some (full e)) (hrest : ∀ e, e ∉ c.design → full e = rhoState e) :
    x = (∑ e ∈ c.design, Projection.heaviside (c.filter full e) a.beta c.betaEta * c.volume e) /
      (∑ e ∈ c.design, c.volume e) - a.volFrac := by
  obtain ⟨-, hrho, hlm, hve, -⟩ := oc_scale_pos h hfloor hrs
  set P := mkParams c a out.runningScale rhoState rho dC with hP
  obtain ⟨-, o2, o3⟩ := bisect_out P 1000 0 c.lambdaLower c.lambdaUpper
  unfold bisection at hrho hve
  rw [o3] at hrho
  rw [hve, o2] at hx
  have hfull : fullCandidate P (bisect P 1000 0 c.lambdaLower c.lambdaUpper).lmid = full := by
    funext e
    unfold fullCandidate
    by_cases he : e ∈ c.design
    · have : e ∈ P.design := he
      rw [if_pos this, ← hrho, hdes e he]; rfl
    · have : e ∉ P.design := he
      rw [if_neg this, hrest e he]; rfl
  unfold volError at hx
  simp only at hx
  split_ifs at hx
  simp only [Option.some.injEq, hfull, heavisideInplace_eq] at hx
  exact hx.symm

/-- **C18 (a)** For a non-positive sensitivity the OC candidate density is a non-increasing function of the multiplier. -/
theorem C18_candidate_antitone (P : Params E) (e : E) (l l' r r' : ℝ) (hd : P.dC e ≤ 0) (heta : 0 ≤ P.eta)
    (heps : 0 < P.eps) (hr : 0 ≤ P.rhoE e) (h0 : 0 ≤ l) (hll : l ≤ l') (h : candidate P l e = some r)
    (h' : candidate P l' e = some r') : r' ≤ r :=
  candidate_antitone hd heta (by linarith) hll hr h h'

/-- **C18 (b)** With an order-preserving filter the physical volume of the candidate is non-increasing too. -/
theorem C18_volume_antitone (P : Params E) (l l' x x' : ℝ) (hd : ∀ e ∈ P.design, P.dC e ≤ 0) (heta : 0 ≤ P.eta)
    (heps : 0 < P.eps) (hr : ∀ e ∈ P.design, 0 ≤ P.rhoE e) (hvol : ∀ e ∈ P.design, 0 ≤ P.volume e)
    (hsum : 0 ≤ P.volumeSum) (hbeta : 0 ≤ P.beta) (hfilter : Monotone P.filter) (h0 : 0 ≤ l) (hll : l ≤ l')
    (h : volError P l = some x) (h' : volError P l' = some x') : x' ≤ x :=
  volError_antitone hd heta heps hr hvol hsum hbeta hfilter h0 hll h h'

/-! A concrete instance of all the hypotheses: three elements, one of them not a design element, identity filter. -/

/-- Three elements, elements 0 and 1 are design elements. -/
noncomputable def ocExampleCfg : Cfg (Fin 3) where
  rhoMin := 0.01
  rhoMax := 1
  betaEta := 0.5
  lambdaLower := 1 / 10 ^ 7
  lambdaUpper := 10 ^ 7
  design := {0, 1}
  filter := id
  volume := fun _ => 1
  dV := fun _ => 1

/-- The scheduled arguments of iteration 2. -/
noncomputable def ocExampleArgs : StepArgs (Fin 3) :=
  { iterNum := 2, moveLimit := 0.2, eta := 0.5, beta := 2, volFrac := 0.4, percentile := none }

/-- The update of the example succeeds, and all the hypotheses of C13-C17 hold of it. -/
example : ∃ out, rhoUpdate ocExampleCfg ocExampleArgs 1 (fun _ => 1) (fun _ => 0.5) (fun e => -1 - (e : ℝ)) = .ok out ∧
    out.iters ≤ 40 ∧ ∀ e ∈ ocExampleCfg.design, ∃ r, out.rho e = some r ∧ 0.01 ≤ r ∧ r ≤ 1 := by
  have hne : ocExampleCfg.design.Nonempty := ⟨0, by simp [ocExampleCfg]⟩
  have hs : ∃ s, sensScale ocExampleCfg ocExampleArgs (fun e => -1 - (e : ℝ)) = .ok s := by
    unfold sensScale
    simp only [ocExampleArgs, dif_pos hne]
    exact ⟨_, rfl⟩
  obtain ⟨s, hs⟩ := hs
  have hok : ∃ out, rhoUpdate ocExampleCfg ocExampleArgs 1 (fun _ => 1) (fun _ => 0.5) (fun e => -1 - (e : ℝ)) =
      .ok out := by
    unfold rhoUpdate
    rw [hs]
    exact ⟨_, rfl⟩
  obtain ⟨out, hout⟩ := hok
  refine ⟨out, hout, ?_, ?_⟩
  · exact C15_default_bracket_40 _ _ _ _ _ _ _ hout (by norm_num [ocExampleCfg]) (by norm_num)
      (by norm_num [ocExampleCfg]) (by norm_num [ocExampleCfg])
  · exact C13_oc_box _ _ _ _ _ _ _ hout (fun e _ => by linarith [show (0 : ℝ) ≤ (e : ℝ) by positivity])
      (by norm_num [ocExampleCfg]) (by norm_num) (by norm_num [ocExampleArgs]) (by norm_num [ocExampleCfg])
      (by norm_num [ocExampleCfg]) (by intro e _; norm_num [ocExampleCfg])

/-- The feasibility hypothesis of C16 is met: for the example configuration every multiplier `root > 0` is feasible for
exactly one scheduled volume fraction. -/
example (rs root : ℝ) (hrs : 0 < rs) (hr : 0 < root) : ∃ vf : ℝ, volError (mkParams ocExampleCfg
    { ocExampleArgs with volFrac := vf } rs (fun _ => 1) (fun _ => 0.5) (fun e => -1 - (e : ℝ))) root = some 0 := by
  have key := fun vf : ℝ => volError_some (l := root) (P := mkParams ocExampleCfg { ocExampleArgs with volFrac := vf } rs
    (fun _ => 1) (fun _ => 0.5) (fun e => -1 - (e : ℝ))) (by simp only [mkParams]; positivity)
    (fun e _ => div_nonpos_of_nonpos_of_nonneg (by linarith [show (0 : ℝ) ≤ (e : ℝ) by positivity]) hrs.le)
  refine ⟨(volError (mkParams ocExampleCfg { ocExampleArgs with volFrac := 0 } rs (fun _ => 1) (fun _ => 0.5)
    (fun e => -1 - (e : ℝ))) root).getD 0, (key _).trans ?_⟩
  rw [key 0, Option.some.injEq]
  simp only [Option.getD_some]
  rw [sub_eq_zero]
  exact (sub_zero _).symm

/-- The default exponent is fractional, so the hypothesis of `C13_positive_sensitivity_nan` is met by it. -/
example : ¬ ∃ k : ℤ, (k : ℝ) = 0.5 := by
  rintro ⟨k, hk⟩
  have : (2 * k : ℝ) = 1 := by linarith
  have : 2 * k = 1 := by exact_mod_cast this
  omega

end Verif.Props
