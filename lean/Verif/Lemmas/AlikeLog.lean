import Verif.Lemmas.Alike
import Verif.Lemmas.RunLog

/-! Two descriptions of the same LogMOC problem. -/
namespace Verif.Run
open Verif Verif.Sched Verif.Spec

noncomputable section
open Classical

variable {ι E Q ι' E' Q' : Type} [Fintype ι] [Fintype E] [Fintype Q] [Fintype ι'] [Fintype E'] [Fintype Q'] {d d' m : ℕ}
variable {c : Change ι E ι' E' m} {L : LogSetup ι E Q d m} {L' : LogSetup ι' E' Q' d' m}

theorem designMean_alike {R : Setup ι E Q d m} {R' : Setup ι' E' Q' d' m} (h : Alike c R R') {s : ℝ} {x : E → ℝ} {x' : E' → ℝ}
    (hx : ∀ e, x' (c.element e) = s * x e) : designMean R'.toCommon x' = s * designMean R.toCommon x := by
  unfold designMean
  rw [sum_design h, volume_sum h]
  have : ∀ e, x' (c.element e) * R'.volume (c.element e) = c.volume * (s * (x e * R.volume e)) := fun e => by rw [hx, h.volume]; ring
  simp only [this]
  rw [← Finset.mul_sum, ← Finset.mul_sum, mul_div_mul_left _ _ h.factors.2.1.ne', mul_div_assoc]

theorem volumeGradient_alike {R : Setup ι E Q d m} {R' : Setup ι' E' Q' d' m} (h : Alike c R R') (hS : Sound R) (hS' : Sound R')
    {v : Vals} (hr : 0 < v.radius) {rho : E → ℝ} {rho' : E' → ℝ} (hx : ∀ e, rho' (c.element e) = rho e) (e : E) :
    volumeGradient R'.toCommon (other c v) rho' (c.element e) = volumeGradient R.toCommon v rho e := by
  have hsl : ∀ e, volumeSlope R'.toCommon (other c v) rho' (c.element e) = 1 * volumeSlope R.toCommon v rho e := by
    intro e
    unfold volumeSlope
    have hb : blur R'.toCommon (other c v).radius rho' (c.element e) = blur R.toCommon v.radius rho e := by
      have := blur_alike h hS hS' hr (s := 1) (Or.inl rfl) (x := rho) (x' := rho') (fun e => by rw [one_mul]; exact hx e) e
      rw [one_mul] at this; exact this
    rw [hb, h.betaEta, volume_sum h, h.volume, mul_div_mul_left _ _ h.factors.2.1.ne', one_mul]
    simp only [h.design]
    rfl
  have h1 := blur_alike h hS hS' hr (s := 1) (Or.inl rfl) hsl
  have h2 := blurT_alike h hS hS' hr one_pos hsl
  have hc : ((∀ e, |blurT R'.toCommon (other c v).radius (volumeSlope R'.toCommon (other c v) rho') e| ≤ 1 / 10 ^ 8) ∧
      ∃ e, 0 < volumeSlope R'.toCommon (other c v) rho' e) ↔
      ((∀ e, |blurT R.toCommon v.radius (volumeSlope R.toCommon v rho) e| ≤ 1 / 10 ^ 8) ∧ ∃ e, 0 < volumeSlope R.toCommon v rho e) := by
    refine and_congr ?_ ?_
    · rw [← c.element.forall_congr_right]
      refine forall_congr' fun e => ?_
      rw [show blurT R'.toCommon (other c v).radius _ (c.element e) = _ from h2 e, one_mul]
    · rw [← c.element.exists_congr_right]
      refine exists_congr fun e => ?_
      rw [hsl, one_mul]
  unfold volumeGradient
  by_cases hcc : (∀ e, |blurT R.toCommon v.radius (volumeSlope R.toCommon v rho) e| ≤ 1 / 10 ^ 8) ∧ ∃ e, 0 < volumeSlope R.toCommon v rho e
  · rw [if_pos (hc.2 hcc), if_pos hcc]
    exact (h1 e).trans (one_mul _)
  · rw [if_neg (fun hn => hcc (hc.1 hn)), if_neg hcc]
    exact (h2 e).trans (one_mul _)

theorem objectivePart_alike (h : AlikeLog c L L') {g : E → ℝ} {g' : E' → ℝ} (hg : ∀ e, g' (c.element e) = c.work * g e) (e : E) :
    objectivePart L'.common g' (c.element e) = c.work * objectivePart L.common g e := by
  unfold objectivePart
  rw [h.options.2.2, hg, designMean_alike h.toAlike hg]
  split_ifs <;> ring

theorem volumePart_alike (h : AlikeLog c L L') (hS : Sound L.toSetup) (hS' : Sound L'.toSetup) {v : Vals} (hr : 0 < v.radius)
    {rho : E → ℝ} {rho' : E' → ℝ} (hx : ∀ e, rho' (c.element e) = rho e) {g : E → ℝ} {g' : E' → ℝ}
    (hg : ∀ e, g' (c.element e) = c.work * g e) (e : E) :
    c.price L * volumePart L'.common (other c v) rho' g' (c.element e) = c.work * volumePart L.common v rho g e := by
  have hA := h.toAlike
  have hκ := work_pos hA
  have hv := volumeGradient_alike hA hS hS' hr hx
  unfold volumePart Change.price
  rw [h.chain.1]
  by_cases hn : L.normalizeVolumeChain = true
  · rw [if_pos hn, if_pos hn, if_pos hn, hv, excess_alike hA hS hS' hr hx, h.chain.2.1, h.chain.2.2, h.percentiles.1, h.percentiles.2,
      h.floors.1, h.floors.2]
    rw [h.statistic L.lagPercentile c.work (fun e => |objectivePart L.common g e|) (fun e => |objectivePart L'.common g' e|) hκ
      (fun e _ => by rw [objectivePart_alike h hg, abs_mul, abs_of_pos hκ])]
    rw [h.statistic L.volumeChainPercentile 1 (fun e => |volumeGradient L.toSetup.toCommon v rho e|)
      (fun e => |volumeGradient L'.toSetup.toCommon (other c v) rho' e|) one_pos (fun e _ => by rw [hv, one_mul])]
    rw [← mul_max_of_nonneg _ _ hκ.le, one_mul, one_mul]
    ring
  · rw [if_neg hn, if_neg hn, if_neg hn, hv]

theorem lagrangianSlope_alike (h : AlikeLog c L L') (hS : Sound L.toSetup) (hS' : Sound L'.toSetup) {v : Vals} (hr : 0 < v.radius)
    {rho : E → ℝ} {rho' : E' → ℝ} (hx : ∀ e, rho' (c.element e) = rho e) {g : E → ℝ} {g' : E' → ℝ}
    (hg : ∀ e, g' (c.element e) = c.work * g e) {coeff : ℝ} (e : E) :
    lagrangianSlope L'.common (other c v) rho' g' (c.price L * coeff) (c.element e) = c.work * lagrangianSlope L.common v rho g coeff e := by
  have hA := h.toAlike
  have hsum : ∀ e, objectivePart L'.common g' (c.element e) + c.price L * coeff * volumePart L'.common (other c v) rho' g' (c.element e) =
      c.work * (objectivePart L.common g e + coeff * volumePart L.common v rho g e) := by
    intro e
    rw [objectivePart_alike h hg, mul_add, mul_comm (c.price L) coeff, mul_assoc, volumePart_alike h hS hS' hr hx hg]
    ring
  have hcomb : ∀ e, combined L'.common (other c v) rho' g' (c.price L * coeff) (c.element e) = c.work * combined L.common v rho g coeff e := by
    intro e
    unfold combined
    simp only
    rw [h.options.1]
    by_cases hf : L.filterLagrangian = true
    · rw [if_pos hf, if_pos hf]
      refine blur_alike hA hS hS' hr (h.filtered hf) (fun e => ?_) e
      rw [hsum]
      simp only [hA.design, mul_ite, mul_zero]
    · rw [if_neg hf, if_neg hf]
      exact hsum e
  unfold lagrangianSlope
  rw [h.options.2.1, hcomb, designMean_alike hA hcomb]
  split_ifs <;> ring

theorem moved_alike (h : AlikeLog c L L') (v : Vals) (x s : ℝ) : moved L'.common (other c v) x s = moved L.common v x s := by
  unfold moved
  rw [h.clip, h.box.1, h.box.2]
  rfl

theorem price_pos (h : AlikeLog c L L') : 0 < c.price L := by
  unfold Change.price
  split_ifs
  · exact one_pos
  · exact work_pos h.toAlike

theorem logIteration_alike (h : AlikeLog c L L') (hS : Sound L.toSetup) (hS' : Sound L'.toSetup) {k : ℕ} {v0 : Vals}
    (hv0 : ValsOk L.toSetup.toCommon k v0) {rho : E → ℝ} {rho' : E' → ℝ} (hrho : ∀ e, 0 ≤ rho e ∧ rho e ≤ 1)
    (hx : ∀ e, rho' (c.element e) = rho e) {lam rs : ℝ} {r r' : LogRec} {new : E → ℝ} {new' : E' → ℝ} {rs1 rs1' : ℝ}
    (hk : r.iter = k) (hk' : r'.iter = k) (hi : LogIteration L rho lam rs r new rs1)
    (hi' : LogIteration L' rho' (c.price L * lam) (c.work * rs) r' new' rs1') :
    (∀ e, new' (c.element e) = new e) ∧ rs1' = c.work * rs1 ∧ r' = c.logLine L r := by
  have hA := h.toAlike
  have hκ := work_pos hA
  have hω := price_pos h
  obtain ⟨v, u, i1, i2, i3, i4, s, i5, i6, i7, i8, i9, i10, i11, i12, i13⟩ := hi
  obtain ⟨v', u', j1, j2, j3, j4, s', j5, j6, j7, j8, j9, j10, j11, j12, j13⟩ := hi'
  rw [hk] at i1 i6 i9
  rw [hk'] at j1 j6 j9
  have hv : v = v0 := allScheduled_unique i1 hv0.all
  subst hv
  have hv' : v' = other c v := allScheduled_unique j1 (allScheduled_alike hA i1)
  subst hv'
  have hr := hv0.radius
  have hph := physical_alike hA hS hS' hr hx
  have hp0 : ∀ e, 0 ≤ physical L.toSetup.toCommon v rho e := by
    intro e
    have hbr := blur_range hS.toBasics hr hv0.all.radius hrho e
    unfold physical
    rw [← threshold_eq, (Props.C23_inplace_agree _ _ _).1]
    exact ((Props.C22_heaviside_range_and_monotone v.beta L.betaEta hv0.beta).1 _ hbr.1 hbr.2).1
  have hu : ∀ j, u' (c.case j) = otherMotion c j (u j) := by
    intro j
    have h1 := displaced_alike hA (Em := fun e => young L.toSetup v.p (physical L.toSetup.toCommon v rho e))
      (Em' := fun e => young L'.toSetup v.p (physical L'.toSetup.toCommon (other c v) rho' e)) (fun e => by rw [hph, young_alike hA]) (i2 j)
    refine displaced_unique hS' (fun e => ?_) (j2 (c.case j)) h1
    obtain ⟨e, rfl⟩ := c.element.surjective e
    rw [hph]; exact hp0 e
  have hgr := gradient_alike hA hS hS' hr hx hu
  have hve : r'.volError = r.volError := by rw [i5, j5, excess_alike hA hS hS' hr hx]
  have hlam : r'.lambdaV = c.price L * r.lambdaV := by
    have hmul : multiplier L'.common k (c.price L * lam) r.volError = c.price L * multiplier L.common k lam r.volError := by
      unfold multiplier
      rw [h.gains.1, h.decay.1, h.decay.2]
      split_ifs <;> ring
    rw [j6, i6, hve, hmul, h.bounds.1, h.bounds.2, ← mul_max_of_nonneg _ _ hω.le, ← mul_min_of_nonneg _ _ hω.le]
  have hco : r'.coeff = c.price L * r.coeff := by
    rw [j7, i7, hve, hlam, h.gains.2]; ring
  have hsl : ∀ e, lagrangianSlope L'.common (other c v) rho' (gradient L'.toSetup (other c v) rho' u') r'.coeff (c.element e) =
      c.work * lagrangianSlope L.common v rho (gradient L.toSetup v rho u) r.coeff e := by
    intro e
    rw [hco]
    exact lagrangianSlope_alike h hS hS' hr hx hgr e
  have hs : s' = c.work * s := by
    rw [i8, j8, h.floors.1, h.percentiles.1]
    rw [show (other c v).percentile = v.percentile from rfl]
    rw [h.statistic _ c.work (fun e => |lagrangianSlope L.common v rho (gradient L.toSetup v rho u) r.coeff e|) _ hκ
      (fun e _ => by rw [hsl, abs_mul, abs_of_pos hκ]), mul_max_of_nonneg _ _ hκ.le]
  have hrs : rs1' = c.work * rs1 := by
    rw [i9, j9, hs]
    split_ifs <;> ring
  have hq : ∀ e, lagrangianSlope L'.common (other c v) rho' (gradient L'.toSetup (other c v) rho' u') r'.coeff (c.element e) / rs1' =
      lagrangianSlope L.common v rho (gradient L.toSetup v rho u) r.coeff e / rs1 := fun e => by
    rw [hsl, hrs, mul_div_mul_left _ _ hκ.ne']
  have hnew : ∀ e, new' (c.element e) = new e := by
    intro e
    rw [i10, j10, hq, moved_alike h, hx]
    simp only [hA.pinned, hA.design]
  have hchange : r'.rhoChange = r.rhoChange := by
    have := greatest_alike (c := c) (s := 1) (fun e => hA.design e) zero_le_one (f := fun e => |new e - rho e|)
      (f' := fun e => |new' e - rho' e|) (fun e _ => by simp only [hnew, hx, one_mul]) i11 j11
    rw [this, one_mul]
  have hin : ∀ e, c.element e ∈ {e | e ∈ L'.design ∧ L'.rhoMin + 1 / 10 ^ 6 < rho' e ∧ rho' e < L'.rhoMax - 1 / 10 ^ 6} ↔
      e ∈ {e | e ∈ L.design ∧ L.rhoMin + 1 / 10 ^ 6 < rho e ∧ rho e < L.rhoMax - 1 / 10 ^ 6} := by
    intro e
    show (_ ∧ _ ∧ _) ↔ (_ ∧ _ ∧ _)
    rw [hx, hA.design, hA.box.1, hA.box.2]
  have hkkt : r'.kkt = r.kkt := by
    by_cases hne : {e | e ∈ L.design ∧ L.rhoMin + 1 / 10 ^ 6 < rho e ∧ rho e < L.rhoMax - 1 / 10 ^ 6}.Nonempty
    · have hne' : {e | e ∈ L'.design ∧ L'.rhoMin + 1 / 10 ^ 6 < rho' e ∧ rho' e < L'.rhoMax - 1 / 10 ^ 6}.Nonempty := by
        obtain ⟨e, he⟩ := hne
        exact ⟨c.element e, (hin e).2 he⟩
      have := greatest_alike (c := c) (s := 1) hin zero_le_one (fun e _ => by rw [hq, one_mul]) (i13 hne) (j13 hne')
      rw [this, one_mul]
    · have hem := Set.not_nonempty_iff_eq_empty.mp hne
      have hem' : {e | e ∈ L'.design ∧ L'.rhoMin + 1 / 10 ^ 6 < rho' e ∧ rho' e < L'.rhoMax - 1 / 10 ^ 6} = ∅ := by
        apply Set.not_nonempty_iff_eq_empty.mp
        rintro ⟨e, he⟩
        obtain ⟨e, rfl⟩ := c.element.surjective e
        exact hne ⟨e, (hin e).1 he⟩
      rw [i12 hem, j12 hem']
  refine ⟨hnew, hrs, ?_⟩
  have hcomp : r'.compliance = c.work * r.compliance := by
    rw [i3, j3]
    exact compliance_alike hA (fun j => (i2 j).1) hu
  have hns : r'.neumannScale = r.neumannScale := by rw [i4, j4]; rfl
  obtain ⟨a1, a2, a3, a4, a5, a6, a7, a8⟩ := r
  obtain ⟨b1, b2, b3, b4, b5, b6, b7, b8⟩ := r'
  simp only at hk hk' hchange hcomp hns hve hlam hco hkkt
  subst hk hk' hchange hcomp hns hve hlam hco hkkt
  rfl

end
end Verif.Run
