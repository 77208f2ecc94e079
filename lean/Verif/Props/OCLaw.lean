import Verif.Props.OC
import Mathlib.Topology.Order.Lattice
import Mathlib.Analysis.SpecialFunctions.Pow.Continuity
import Mathlib.Topology.Algebra.Order.Field
import Mathlib.Analysis.SpecialFunctions.Trigonometric.Deriv
import Verif.Spec.OCLaw

/-! C16-C18 in terms of the textbook law (`Verif.Spec.ocDensity`) instead of the loop's own buffers. -/
namespace Verif.Props
open Verif Verif.OC
open Verif.Spec (OCLimits ocDensity ocField solidShare pulled)

variable {E : Type} [Fintype E]

/-- The limits a configuration and the scheduled arguments set. -/
def limitsOf (c : Cfg E) (a : StepArgs E) : OCLimits where
  rhoMin := c.rhoMin
  rhoMax := c.rhoMax
  move := a.moveLimit
  eta := a.eta
  rateMin := c.rateMin
  rateMax := c.rateMax

theorem candidate_law {c : Cfg E} {a : StepArgs E} {rs : ℝ} {rhoState rho dC : E → ℝ} {l : ℝ} {e : E}
    (hl : 0 ≤ l) (hrs : 0 < rs) (hd : dC e ≤ 0) (heta : 0 ≤ a.eta) :
    candidate (mkParams c a rs rhoState rho dC) l e = some (ocDensity (limitsOf c a) (rho e) (-dC e / rs) l) := by
  have hle : 0 < l + (1 / 10 ^ 12 : ℝ) := by positivity
  have hb : 0 ≤ -(dC e / rs) / (l + (1 / 10 ^ 12 : ℝ)) :=
    div_nonneg (neg_nonneg.mpr (div_nonpos_of_nonpos_of_nonneg hd hrs.le)) hle.le
  have hsc : scaling (mkParams c a rs rhoState rho dC) l e =
      some (clip ((-(dC e / rs) / (l + 1 / 10 ^ 12)) ^ a.eta) c.rateMin c.rateMax) := by
    unfold scaling
    refine (if_neg hle.ne').trans ?_
    refine (if_neg (fun h => not_lt.mpr hb h.1)).trans ?_
    exact if_neg (fun h => not_lt.mpr heta h.2)
  unfold candidate
  rw [hsc]
  simp only [Option.map_some, Option.some.injEq, mkParams]
  unfold ocDensity pulled clip limitsOf
  simp only
  rw [show -dC e / rs = -(dC e / rs) from neg_div _ _]
  congr 1
  rw [max_comm]
  congr 1
  rw [max_comm]

theorem fullCandidate_law {c : Cfg E} {a : StepArgs E} {rs : ℝ} {rhoState rho dC : E → ℝ} {l : ℝ}
    (hl : 0 ≤ l) (hrs : 0 < rs) (hd : ∀ e ∈ c.design, dC e ≤ 0) (heta : 0 ≤ a.eta) :
    fullCandidate (mkParams c a rs rhoState rho dC) l =
      ocField (limitsOf c a) c.design rhoState rho (fun e => -dC e / rs) l := by
  funext e
  unfold fullCandidate ocField
  by_cases he : e ∈ c.design
  · rw [if_pos (show e ∈ (mkParams c a rs rhoState rho dC).design from he), if_pos he,
      candidate_law hl hrs (hd e he) heta]; rfl
  · rw [if_neg (show e ∉ (mkParams c a rs rhoState rho dC).design from he), if_neg he]; rfl

theorem volError_law {c : Cfg E} {a : StepArgs E} {rs : ℝ} {rhoState rho dC : E → ℝ} {l : ℝ}
    (hl : 0 ≤ l) (hrs : 0 < rs) (hd : ∀ e ∈ c.design, dC e ≤ 0) (heta : 0 ≤ a.eta) :
    volError (mkParams c a rs rhoState rho dC) l = some (solidShare c.design c.volume c.filter a.beta c.betaEta
      (ocField (limitsOf c a) c.design rhoState rho (fun e => -dC e / rs) l) - a.volFrac) := by
  have heps : 0 < l + (mkParams c a rs rhoState rho dC).eps := by simp only [mkParams]; positivity
  rw [volError_some heps (fun e he => div_nonpos_of_nonpos_of_nonneg (hd e he) hrs.le),
    fullCandidate_law hl hrs hd heta]
  simp only [heavisideInplace_eq]
  rfl

/-- **C18 (c)** What an OC update returns: with sensitivities that are not positive, every design element gets the density of the
optimality criteria law for the multiplier that is reported, and the reported volume error is that of the resulting field. -/
theorem C18_update_is_oc_law (c : Cfg E) (a : StepArgs E) (rs : ℝ) (rhoState rho dC : E → ℝ) (out : UpdateOut E)
    (h : rhoUpdate c a rs rhoState rho dC = .ok out) (hdC : ∀ e ∈ c.design, dC e ≤ 0) (hfloor : 0 < c.scaleFloor)
    (hrs : 0 ≤ rs) (heta : 0 ≤ a.eta) (hl : 0 ≤ c.lambdaLower) (hlu : c.lambdaLower ≤ c.lambdaUpper) :
    0 < out.runningScale ∧ c.lambdaLower ≤ out.lmid ∧ out.lmid ≤ c.lambdaUpper ∧
    (∀ e ∈ c.design, out.rho e = some (ocDensity (limitsOf c a) (rho e) (-dC e / out.runningScale) out.lmid)) ∧
    out.volError = some (solidShare c.design c.volume c.filter a.beta c.betaEta
      (ocField (limitsOf c a) c.design rhoState rho (fun e => -dC e / out.runningScale) out.lmid) - a.volFrac) := by
  obtain ⟨hpos, hrho, hlm, hve, -⟩ := oc_scale_pos h hfloor hrs
  obtain ⟨P, hP⟩ : ∃ P, P = mkParams c a out.runningScale rhoState rho dC := ⟨_, rfl⟩
  rw [← hP] at hrho hlm hve
  unfold bisection at hrho hlm hve
  obtain ⟨o1, o2, o3⟩ := bisect_out P 1000 0 c.lambdaLower c.lambdaUpper
  have hn := bisect_nested P 1000 0 c.lambdaLower c.lambdaUpper hlu
  have hm1 : c.lambdaLower ≤ out.lmid := by rw [hlm, o1]; linarith [hn.1, hn.2.1, hn.2.2]
  have hm2 : out.lmid ≤ c.lambdaUpper := by rw [hlm, o1]; linarith [hn.1, hn.2.1, hn.2.2]
  have hm0 := hl.trans hm1
  refine ⟨hpos, hm1, hm2, ?_, ?_⟩
  · intro e he
    rw [hrho, o3, ← hlm, hP]
    exact candidate_law hm0 hpos (hdC e he) heta
  · rw [hve, o2, ← hlm, hP]
    exact volError_law hm0 hpos hdC heta

/-- **C18 (d)** A larger multiplier never gives an element more material: the OC law itself is non-increasing in the multiplier. -/
theorem C18_law_antitone (L : OCLimits) (rho gain l l' : ℝ) (hg : 0 ≤ gain) (heta : 0 ≤ L.eta) (hr : 0 ≤ rho) (h0 : 0 ≤ l)
    (hll : l ≤ l') : ocDensity L rho gain l' ≤ ocDensity L rho gain l := by
  have hle : 0 < l + (1 / 10 ^ 12 : ℝ) := by positivity
  have hle' : 0 < l' + (1 / 10 ^ 12 : ℝ) := by linarith
  unfold ocDensity pulled
  refine min_le_min_right _ (max_le_max_left _ (mul_le_mul_of_nonneg_left ?_ hr))
  refine min_le_min_right _ (max_le_max_left _ (Real.rpow_le_rpow (div_nonneg hg hle'.le) ?_ heta))
  exact div_le_div_of_nonneg_left hg hle (by linarith)

omit [Fintype E] in
/-- **C18 (e)** With an order-preserving filter the physical volume of the field of the OC law is non-increasing too. -/
theorem C18_law_volume_antitone (L : OCLimits) (design : Finset E) (state rho gain volume : E → ℝ)
    (filter : (E → ℝ) → E → ℝ) (beta threshold l l' : ℝ) (hg : ∀ e ∈ design, 0 ≤ gain e) (heta : 0 ≤ L.eta)
    (hr : ∀ e ∈ design, 0 ≤ rho e) (hvol : ∀ e ∈ design, 0 ≤ volume e) (hfilter : Monotone filter) (hbeta : 0 ≤ beta)
    (h0 : 0 ≤ l) (hll : l ≤ l') :
    solidShare design volume filter beta threshold (ocField L design state rho gain l') ≤
      solidShare design volume filter beta threshold (ocField L design state rho gain l) := by
  have hfield : ocField L design state rho gain l' ≤ ocField L design state rho gain l := by
    intro e
    unfold ocField
    split_ifs with he
    · exact C18_law_antitone L _ _ _ _ (hg e he) heta (hr e he) h0 hll
    · exact le_rfl
  unfold solidShare
  refine div_le_div_of_nonneg_right (Finset.sum_le_sum fun e he => ?_) (Finset.sum_nonneg hvol)
  exact mul_le_mul_of_nonneg_right (Projection.heaviside_mono hbeta threshold (hfilter hfield e)) (hvol e he)

/-- **C16 (d)** The guarantee of an OC update in the user's terms: for an order-preserving filter, sensitivities that are not
positive and the default tolerances, if for some multiplier in the configured bracket the OC law meets the target volume exactly, then
the densities returned are those of the OC law at the reported multiplier, and the solid share of the design volume misses the
target by less than `1e-4`, or the reported multiplier is within `0.5e-5` of one for which the law meets the target exactly. -/
theorem C16_update_meets_volume (c : Cfg E) (a : StepArgs E) (rs : ℝ) (rhoState rho dC : E → ℝ) (out : UpdateOut E)
    (h : rhoUpdate c a rs rhoState rho dC = .ok out)
    (hdC : ∀ e ∈ c.design, dC e ≤ 0) (hfloor : 0 < c.scaleFloor) (hrs : 0 ≤ rs) (heta : 0 ≤ a.eta)
    (hbeta : 0 ≤ a.beta) (hl : 0 ≤ c.lambdaLower) (hu : c.lambdaUpper ≤ 10 ^ 7)
    (hrho : ∀ e ∈ c.design, 0 ≤ rho e) (hvol : ∀ e ∈ c.design, 0 ≤ c.volume e) (hfilter : Monotone c.filter)
    (field : ℝ → E → ℝ)
    (hfield : field = ocField (limitsOf c a) c.design rhoState rho fun e => -dC e / out.runningScale)
    (share : ℝ → ℝ) (hshare : ∀ l, share l = solidShare c.design c.volume c.filter a.beta c.betaEta (field l))
    (root : ℝ) (hr1 : c.lambdaLower ≤ root) (hr2 : root ≤ c.lambdaUpper) (hroot : share root = a.volFrac) :
    (∀ e ∈ c.design, out.rho e = some (field out.lmid e)) ∧
    (|share out.lmid - a.volFrac| < 1 / 10 ^ 4 ∨
      ∃ l, |out.lmid - l| ≤ 1 / 10 ^ 5 / 2 ∧ c.lambdaLower ≤ l ∧ l ≤ c.lambdaUpper ∧ share l = a.volFrac) := by
  subst hfield
  have hlu := hr1.trans hr2
  obtain ⟨hpos, -, -, hden, herr⟩ := C18_update_is_oc_law c a rs rhoState rho dC out h hdC hfloor hrs heta hl hlu
  have hv : ∀ l, 0 ≤ l → volError (mkParams c a out.runningScale rhoState rho dC) l = some (share l - a.volFrac) := by
    intro l hl0
    rw [volError_law hl0 hpos hdC heta, hshare]
  refine ⟨fun e he => ?_, ?_⟩
  · rw [hden e he]
    unfold ocField
    rw [if_pos he]
  · have hmain := C16_update_feasible c a rs rhoState rho dC out h hdC hfloor hrs heta hbeta hl hu hrho hvol hfilter root
      hr1 hr2 (by rw [hv root (hl.trans hr1), hroot, sub_self])
    rcases hmain with ⟨x, hx, hx'⟩ | ⟨l, h1, h0, h3, h2⟩
    · left
      rw [herr, Option.some.injEq] at hx
      rw [hshare, hx]
      exact hx'
    · right
      refine ⟨l, h1, h0, h3, ?_⟩
      rw [hv l (hl.trans h0), Option.some.injEq] at h2
      linarith

/-- A loop whose volume error is positive on the whole bracket keeps the upper end. -/
theorem bisect_keeps_upper (P : Params E) (k i : ℕ) (l1 l2 : ℝ) (h12 : l1 ≤ l2)
    (hv : ∀ l, l1 ≤ l → l ≤ l2 → ∃ x, volError P l = some x ∧ 0 < x) : (bisect P k i l1 l2).l2 = l2 := by
  refine (bisect_invariant (P := P) (fun a b => l1 ≤ a ∧ a ≤ b ∧ b = l2) ?_ ?_ k i l1 l2 ⟨le_rfl, h12, rfl⟩).2.2
  · rintro a b x ⟨h1, h2, h3⟩ _ _ _
    exact ⟨by linarith, by linarith, h3⟩
  · rintro a b ⟨h1, h2, h3⟩ hn _
    exact absurd (hv (0.5 * (a + b)) (by linarith) (by linarith)) hn

/-- A loop whose volume error is negative on the whole bracket keeps the lower end. -/
theorem bisect_keeps_lower (P : Params E) (k i : ℕ) (l1 l2 : ℝ) (h12 : l1 ≤ l2)
    (hv : ∀ l, l1 ≤ l → l ≤ l2 → ∃ x, volError P l = some x ∧ x < 0) : (bisect P k i l1 l2).l1 = l1 := by
  refine (bisect_invariant (P := P) (fun a b => a = l1 ∧ a ≤ b ∧ b ≤ l2) ?_ ?_ k i l1 l2 ⟨rfl, h12, le_rfl⟩).1
  · rintro a b x ⟨h1, h2, h3⟩ hx hx0 _
    obtain ⟨y, hy, hy0⟩ := hv (0.5 * (a + b)) (by linarith) (by linarith)
    rw [hx, Option.some.injEq] at hy
    linarith
  · rintro a b ⟨h1, h2, h3⟩ _ _
    exact ⟨h1, by linarith, by linarith⟩

omit [Fintype E] in
theorem ocField_continuousOn (L : OCLimits) (design : Finset E) (state rho gain : E → ℝ) (heta : 0 ≤ L.eta) :
    ContinuousOn (ocField L design state rho gain) (Set.Ici 0) := by
  refine continuousOn_pi.mpr fun e => ?_
  unfold ocField
  by_cases he : e ∈ design
  · simp only [if_pos he]
    unfold ocDensity pulled
    refine ContinuousOn.inf (ContinuousOn.sup continuousOn_const (ContinuousOn.mul continuousOn_const
      (ContinuousOn.inf (ContinuousOn.sup continuousOn_const ?_) continuousOn_const))) continuousOn_const
    refine ContinuousOn.rpow_const ?_ (fun x _ => Or.inr heta)
    refine ContinuousOn.div continuousOn_const (continuousOn_id.add continuousOn_const) fun x hx => ?_
    have : (0 : ℝ) ≤ x := hx
    have h2 : (0 : ℝ) < x + 1 / 10 ^ 12 := by positivity
    exact h2.ne'
  · simp only [if_neg he]
    exact continuousOn_const

omit [Fintype E] in
theorem solidShare_continuous (design : Finset E) (volume : E → ℝ) (filter : (E → ℝ) → E → ℝ) (beta threshold : ℝ)
    (hf : Continuous filter) : Continuous (solidShare design volume filter beta threshold) := by
  have ht : Continuous Real.tanh := by
    have : Real.tanh = fun x => Real.sinh x / Real.cosh x := funext Real.tanh_eq_sinh_div_cosh
    rw [this]
    exact Real.continuous_sinh.div Real.continuous_cosh fun x => (Real.cosh_pos x).ne'
  unfold solidShare Projection.heaviside
  refine Continuous.div_const (continuous_finsetSum _ fun e _ => Continuous.mul (Continuous.div_const ?_ _) continuous_const) _
  exact continuous_const.add (ht.comp (continuous_const.mul (((continuous_apply e).comp hf).sub continuous_const)))

/-- **C16 (e)** The complete guarantee, without assuming that the target can be met: for an order-preserving continuous filter and
sensitivities that are not positive an OC update with the default tolerances ends in exactly one of these ways: the target volume is
met within `1e-4`; or the multiplier is within `0.5e-5` of one that meets it exactly; or every multiplier of the bracket gives too
much material, and the one chosen is within `0.5e-5` of the largest; or every one gives too little, and the one chosen is within
`0.5e-5` of the smallest. -/
theorem C16_update_best_possible (c : Cfg E) (a : StepArgs E) (rs : ℝ) (rhoState rho dC : E → ℝ) (out : UpdateOut E)
    (h : rhoUpdate c a rs rhoState rho dC = .ok out)
    (hdC : ∀ e ∈ c.design, dC e ≤ 0) (hfloor : 0 < c.scaleFloor) (hrs : 0 ≤ rs) (heta : 0 ≤ a.eta)
    (hbeta : 0 ≤ a.beta) (hl : 0 ≤ c.lambdaLower) (hlu : c.lambdaLower ≤ c.lambdaUpper) (hu : c.lambdaUpper ≤ 10 ^ 7)
    (hrho : ∀ e ∈ c.design, 0 ≤ rho e) (hvol : ∀ e ∈ c.design, 0 ≤ c.volume e) (hfilter : Monotone c.filter)
    (hcont : Continuous c.filter) (field : ℝ → E → ℝ)
    (hfield : field = ocField (limitsOf c a) c.design rhoState rho fun e => -dC e / out.runningScale)
    (share : ℝ → ℝ) (hshare : ∀ l, share l = solidShare c.design c.volume c.filter a.beta c.betaEta (field l)) :
    (∀ e ∈ c.design, out.rho e = some (field out.lmid e)) ∧
    (|share out.lmid - a.volFrac| < 1 / 10 ^ 4 ∨
      (∃ l, |out.lmid - l| ≤ 1 / 10 ^ 5 / 2 ∧ c.lambdaLower ≤ l ∧ l ≤ c.lambdaUpper ∧ share l = a.volFrac) ∨
      (|out.lmid - c.lambdaUpper| ≤ 1 / 10 ^ 5 / 2 ∧ ∀ l, c.lambdaLower ≤ l → l ≤ c.lambdaUpper → a.volFrac < share l) ∨
      (|out.lmid - c.lambdaLower| ≤ 1 / 10 ^ 5 / 2 ∧ ∀ l, c.lambdaLower ≤ l → l ≤ c.lambdaUpper → share l < a.volFrac)) := by
  obtain ⟨hpos, -, -, hden, herr⟩ := C18_update_is_oc_law c a rs rhoState rho dC out h hdC hfloor hrs heta hl hlu
  have hdens : ∀ e ∈ c.design, out.rho e = some (field out.lmid e) := by
    intro e he
    rw [hden e he, hfield]
    unfold ocField
    rw [if_pos he]
  refine ⟨hdens, ?_⟩
  have hgain : ∀ e ∈ c.design, 0 ≤ -dC e / out.runningScale := fun e he => div_nonneg (by linarith [hdC e he]) hpos.le
  have hanti : ∀ l l', 0 ≤ l → l ≤ l' → share l' ≤ share l := by
    intro l l' h0 hll
    rw [hshare, hshare, hfield]
    exact C18_law_volume_antitone _ _ _ _ _ _ _ _ _ _ _ hgain heta hrho hvol hfilter hbeta h0 hll
  have hv : ∀ l, 0 ≤ l → volError (mkParams c a out.runningScale rhoState rho dC) l = some (share l - a.volFrac) := by
    intro l hl0
    rw [volError_law hl0 hpos hdC heta, hshare, hfield]
  have hshc : ContinuousOn share (Set.Icc c.lambdaLower c.lambdaUpper) := by
    have h1 : share = fun l => solidShare c.design c.volume c.filter a.beta c.betaEta (field l) := funext hshare
    rw [h1, hfield]
    exact (solidShare_continuous _ _ _ _ _ hcont).comp_continuousOn
      ((ocField_continuousOn _ _ _ _ _ heta).mono fun x hx => hl.trans hx.1)
  obtain ⟨-, -, hlm, hve, -⟩ := oc_scale_pos h hfloor hrs
  obtain ⟨P, hP⟩ : ∃ P, P = mkParams c a out.runningScale rhoState rho dC := ⟨_, rfl⟩
  rw [← hP] at hlm hve hv
  unfold bisection at hlm hve
  obtain ⟨o1, o2, -⟩ := bisect_out P 1000 0 c.lambdaLower c.lambdaUpper
  have hn := bisect_nested P 1000 0 c.lambdaLower c.lambdaUpper hlu
  have ht : P.tolerance = 1 / 10 ^ 5 := by rw [hP]; rfl
  have hlog := bisect_iters_log P 1000 0 c.lambdaLower c.lambdaUpper 40 hlu (by
    rw [ht]; norm_num at hu ⊢; linarith)
  rcases lt_or_ge a.volFrac (share c.lambdaUpper) with hA | hA
  · -- too much everywhere
    have hall : ∀ l, c.lambdaLower ≤ l → l ≤ c.lambdaUpper → a.volFrac < share l := fun l h1 h2 =>
      hA.trans_le (hanti l _ (hl.trans h1) h2)
    rcases bisect_stop P 1000 0 c.lambdaLower c.lambdaUpper with ⟨x, hx, hx'⟩ | hs | hs
    · left
      rw [o2, ← hlm, hv _ (by rw [hlm, o1]; linarith [hn.1, hn.2.1]), Option.some.injEq] at hx
      rw [hx]
      have : P.volTol = 1 / 10 ^ 4 := by rw [hP]; rfl
      rw [← this]; exact hx'
    · omega
    · right; right; left
      refine ⟨?_, hall⟩
      have hk := bisect_keeps_upper P 1000 0 c.lambdaLower c.lambdaUpper hlu fun l h1 h2 =>
        ⟨_, hv l (hl.trans h1), by linarith [hall l h1 h2]⟩
      rw [ht] at hs
      rw [abs_le] at hs
      rw [hlm, o1, abs_le]
      constructor <;> linarith [hs.2, hn.2.1]
  rcases lt_or_ge (share c.lambdaLower) a.volFrac with hB | hB
  · have hall : ∀ l, c.lambdaLower ≤ l → l ≤ c.lambdaUpper → share l < a.volFrac := fun l h1 _ =>
      (hanti _ l hl h1).trans_lt hB
    rcases bisect_stop P 1000 0 c.lambdaLower c.lambdaUpper with ⟨x, hx, hx'⟩ | hs | hs
    · left
      rw [o2, ← hlm, hv _ (by rw [hlm, o1]; linarith [hn.1, hn.2.1]), Option.some.injEq] at hx
      rw [hx]
      have : P.volTol = 1 / 10 ^ 4 := by rw [hP]; rfl
      rw [← this]; exact hx'
    · omega
    · right; right; right
      refine ⟨?_, hall⟩
      have hk := bisect_keeps_lower P 1000 0 c.lambdaLower c.lambdaUpper hlu fun l h1 h2 =>
        ⟨_, hv l (hl.trans h1), by linarith [hall l h1 h2]⟩
      rw [ht] at hs
      rw [abs_le] at hs
      rw [hlm, o1, abs_le]
      constructor <;> linarith [hs.2, hn.2.1]
  · obtain ⟨root, ⟨h1, h2⟩, h3⟩ := intermediate_value_Icc' hlu hshc ⟨hA, hB⟩
    rcases (C16_update_meets_volume c a rs rhoState rho dC out h hdC hfloor hrs heta hbeta hl hu hrho hvol hfilter field hfield
      share hshare root h1 h2 h3).2 with g | g
    · exact Or.inl g
    · exact Or.inr (Or.inl g)

/-- The hypotheses of the theorems above are met by the example of `Verif.Props.OC` (a continuous order-preserving filter). -/
example : ∃ out, rhoUpdate ocExampleCfg ocExampleArgs 1 (fun _ => 1) (fun _ => 0.5) (fun e => -1 - (e : ℝ)) = .ok out ∧
    Monotone ocExampleCfg.filter ∧ Continuous ocExampleCfg.filter ∧
    ∀ e ∈ ocExampleCfg.design, out.rho e = some (ocDensity (limitsOf ocExampleCfg ocExampleArgs) 0.5
      ((1 + (e : ℝ)) / out.runningScale) out.lmid) := by
  have hne : ocExampleCfg.design.Nonempty := ⟨0, by simp [ocExampleCfg]⟩
  have hs : ∃ s, sensScale ocExampleCfg ocExampleArgs (fun e => -1 - (e : ℝ)) = .ok s := by
    unfold sensScale
    simp only [ocExampleArgs, dif_pos hne]
    exact ⟨_, rfl⟩
  obtain ⟨s, hs⟩ := hs
  have hok : ∃ out, rhoUpdate ocExampleCfg ocExampleArgs 1 (fun _ => 1) (fun _ => 0.5) (fun e => -1 - (e : ℝ)) =
      .ok out := by
    unfold rhoUpdate
    rw [hs]
    exact ⟨_, rfl⟩
  obtain ⟨out, hout⟩ := hok
  refine ⟨out, hout, monotone_id, continuous_id, fun e he => ?_⟩
  have := (C18_update_is_oc_law _ _ _ _ _ _ _ hout (fun e _ => by linarith [show (0 : ℝ) ≤ (e : ℝ) by positivity])
    (by norm_num [ocExampleCfg]) (by norm_num) (by norm_num [ocExampleArgs]) (by norm_num [ocExampleCfg])
    (by norm_num [ocExampleCfg])).2.2.2.1 e he
  rw [this]
  congr 2
  ring

end Verif.Props
