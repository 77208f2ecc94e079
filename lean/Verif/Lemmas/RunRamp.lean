import Verif.Model.RunRamp
import Verif.Spec.RunRamp
import Verif.Lemmas.RunLogBy
import Verif.Lemmas.RunBy

/-! The finite element part of a run with the RAMP law. -/
namespace Verif.Run
open Verif Verif.Sched Verif.Spec Verif.Driver

variable {ι E Q : Type} [Fintype ι] [Fintype E] [Fintype Q] {d m : ℕ}

noncomputable section
open Classical

theorem rampYoung_eq (R : Setup ι E Q d m) (p x : ℝ) : Material.ramp x R.E0 (R.E0 * R.eMinCoeff) p = rampYoung R p x := rfl

theorem rampSlope_eq (R : Setup ι E Q d m) (p x U : ℝ) : Material.dCRamp x U R.E0 (R.E0 * R.eMinCoeff) p = rampSlope R p x U := by
  unfold Material.dCRamp Material.dERamp rampSlope
  have h1 : Material.eRamp x R.E0 (R.E0 * R.eMinCoeff) p = rampYoung R p x := rfl
  have h2 : Material.floor12 = 1 / 10 ^ 12 := rfl
  simp only
  rw [h1, h2]
  congr 3
  ring

theorem rampYoung_pos {R : Setup ι E Q d m} (h : Sound R) {p : ℝ} (hp : 0 ≤ p) {x : ℝ} (h0 : 0 ≤ x) (h1 : x ≤ 1) : 0 < rampYoung R p x := by
  obtain ⟨hE0, hc0, hc1⟩ := h.modulus
  have hEmin : 0 < R.E0 * R.eMinCoeff := mul_pos hE0 hc0
  have hEle : R.E0 * R.eMinCoeff ≤ R.E0 := by nlinarith
  have hd : 0 ≤ p * (1 - x) := mul_nonneg hp (by linarith)
  have : 0 ≤ x / (1 + p * (1 - x)) := div_nonneg h0 (by linarith)
  have := mul_nonneg (sub_nonneg.mpr hEle) this
  unfold rampYoung
  linarith

/-- The sign of the sensitivity. -/
theorem rampSlope_nonpos {R : Setup ι E Q d m} (h : Sound R) {p : ℝ} {x U : ℝ} (hU : 0 ≤ U) (hs : 2 * p * x ≤ 1 + p) : rampSlope R p x U ≤ 0 := by
  obtain ⟨hE0, hc0, hc1⟩ := h.modulus
  have hEle : R.E0 * R.eMinCoeff ≤ R.E0 := by nlinarith
  unfold rampSlope
  refine div_nonpos_of_nonpos_of_nonneg ?_ (le_max_of_le_right (by norm_num))
  have : 0 ≤ (R.E0 - R.E0 * R.eMinCoeff) * (1 + p - 2 * p * x) / (1 + p * (1 - x)) ^ 2 :=
    div_nonneg (mul_nonneg (by linarith) (by linarith)) (sq_nonneg _)
  nlinarith

theorem rampSlope_pos {R : Setup ι E Q d m} (h : Sound R) (hc : R.eMinCoeff < 1) {p : ℝ} (hp : 0 ≤ p) {x U : ℝ} (hU : 0 < U) (h1 : x ≤ 1)
    (hs : 1 + p < 2 * p * x) : 0 < rampSlope R p x U := by
  obtain ⟨hE0, hc0, -⟩ := h.modulus
  have hEle : R.E0 * R.eMinCoeff < R.E0 := by nlinarith
  have hd : 0 ≤ p * (1 - x) := mul_nonneg hp (by linarith)
  unfold rampSlope
  refine div_pos ?_ (lt_max_of_lt_right (by norm_num))
  have : (R.E0 - R.E0 * R.eMinCoeff) * (1 + p - 2 * p * x) / (1 + p * (1 - x)) ^ 2 < 0 :=
    div_neg_of_neg_of_pos (mul_neg_of_pos_of_neg (by linarith) (by linarith)) (by positivity)
  nlinarith

/-- The finite element part of a sound elasticity run with the RAMP law. -/
theorem rampResponse_ok {R : Setup ι E Q d m} (h : Sound R) {v : Vals} (hp : 0 ≤ v.p) (proj : E → ℝ) (hp0 : ∀ e, 0 ≤ proj e ∧ proj e ≤ 1) :
    ∃ c cols, responseWith R Material.ramp Material.dCRamp v proj = .ok (c, cols) ∧ 0 ≤ c ∧
      ∃ u : Fin m → ι → ℝ,
        (∀ j, Displaced R (fun e => rampYoung R v.p (proj e)) (fun i => R.loads j i * v.neumannScale) (u j)) ∧
        (∀ j e, 0 ≤ innerWork R (fun e => rampYoung R v.p (proj e)) (u j) (u j) e) ∧
        c = (∑ j, ∑ i, R.loads j i * v.neumannScale * u j i) / m ∧
        cols = fun j e => rampSlope R v.p (proj e) (innerWork R (fun e => rampYoung R v.p (proj e)) (u j) (u j) e / 2) := by
  unfold responseWith
  simp only [rampYoung_eq]
  have hpos := fun e => rampYoung_pos h hp (hp0 e).1 (hp0 e).2
  have hdet := (Elastic.unique_solution_of_pos R.fe h.dim h.weights R.nu h.poisson.1 h.poisson.2 _ hpos R.dirichlet h.supports).1
  have hen := fun u => Elastic.C69_energy_nonneg R.fe h.dim (fun e q => (h.weights e q).le) _ (fun e => (hpos e).le) R.nu h.poisson.1 h.poisson.2 u
  obtain ⟨cs, us, hobj, hsol, hsum⟩ := objectives_ok h _ hdet v.neumannScale
  rw [hobj]
  simp only
  refine ⟨_, _, rfl, ?_, fun j => us.getD j 0, fun j => displaced_of_solves (hsol j), fun j e => ?_, ?_, ?_⟩
  · refine div_nonneg ?_ (Nat.cast_nonneg _)
    rw [hsum]
    exact Finset.sum_nonneg fun j _ => (hen _).2 _ _ (hsol j)
  · have := (hen (us.getD j 0)).1 e
    rw [energy_eq] at this
    linarith
  · rw [hsum]
    congr 1
    refine Finset.sum_congr rfl fun j _ => ?_
    exact (Elastic.C69_compliance_is_twice_energy _ _ _ _ _ _ (hsol j)).2.2.2.1
  · simp only [rampSlope_eq, energy_eq]

theorem ramp_computes {R : Setup ι E Q d m} (h : WellPosed R) (hs : R.nodal ≠ none ∨ ∀ k p, Scheduled R.toCommon R.cP k (some p) → p ≤ 1) :
    Computes R.toCommon (stepWith R.toCommon (responseWith R Material.ramp Material.dCRamp)) (RampIteration R) (0 ≤ ·) := by
  refine stepWith_ok h.toBasics h.toOCRules _ _ _ fun k v hv rho hrho => ?_
  have hph := fun e => physical_range h.toBasics hv hrho e
  obtain ⟨c, cols, h1, h2, u, u1, u2, u3, u4⟩ := rampResponse_ok h.toSound hv.p (physical R.toCommon v rho) hph
  refine ⟨c, cols, h1, h2, ?_, fun rs r rho' rs' e1 e2 e3 hs => ⟨v, u, e1 ▸ hv.all, u1, by rw [e2, u3], e3, ?_⟩⟩
  · rcases hs with hs | hs
    · exact Or.inr hs
    · left
      intro j e
      rw [u4]
      have hp1 := hs k v.p hv.all.p
      have := hv.p
      refine rampSlope_nonpos h.toSound (by have := u2 j e; linarith) ?_
      have h3 := hph e
      nlinarith
  · rw [u4] at hs
    exact hs

theorem rampLog_computes {L : LogSetup ι E Q d m} (h : LogWellPosed L) :
    LogComputes L.common (logStepWith L.common (responseWith L.toSetup Material.ramp Material.dCRamp)) (RampLogIteration L) (0 ≤ ·) := by
  refine logStepWith_ok h.toBasics h.toLogRules _ _ _ fun k v hv rho hrho => ?_
  obtain ⟨c, cols, h1, h2, u, u1, u2, u3, u4⟩ := rampResponse_ok h.toSound hv.p (physical L.toCommon v rho)
    fun e => physical_range h.toBasics hv hrho e
  refine ⟨c, cols, h1, h2, fun lam rs r rho' rs' e1 e2 e3 hs => ⟨v, u, e1 ▸ hv.all, u1, by rw [e2, u3], e3, ?_⟩⟩
  rw [u4] at hs
  exact hs

end
end Verif.Run
