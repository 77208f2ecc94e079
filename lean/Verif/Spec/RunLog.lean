import Verif.Spec.Trajectory
import Verif.Model.RunLog

/-!
What a complete LogMOC run is documented to compute. As in `Verif.Spec.Trajectory`, only the records the user configures or reads
(`LogSetup`, `LogRec`, `Vals`) are shared with the model.
-/
namespace Verif.Spec
open Verif.Sched Verif.Run

noncomputable section
open Classical

variable {ι E Q : Type} [Fintype ι] [Fintype E] [Fintype Q] {d m : ℕ}

/-- What LogMOC needs in addition: log densities exist, the multiplier range is not upside down, the scale floor is positive and
percentages are percentages. -/
structure LogRules (L : LogCommon E d) : Prop where
  percentages : Percentages L.toCommon
  positive : 0 < L.rhoMin
  range : L.lambdaLower ≤ L.lambdaUpper
  floor : 0 < L.lagScaleFloor
  lagPercentile : 0 ≤ L.lagPercentile ∧ L.lagPercentile ≤ 100
  chainPercentile : 0 ≤ L.volumeChainPercentile ∧ L.volumeChainPercentile ≤ 100

/-- A LogMOC run on an elasticity task a user may expect to work. -/
structure LogWellPosed (L : LogSetup ι E Q d m) : Prop extends Sound L.toSetup, LogRules L.common

/-- Volume-weighted mean over the design elements. -/
def designMean (R : Common E d) (x : E → ℝ) : ℝ := (∑ e ∈ R.design, x e * R.volume e) / ∑ e ∈ R.design, R.volume e

/-- The derivative of the physical volume fraction with respect to the filtered densities. -/
def volumeSlope (R : Common E d) (v : Vals) (rho : E → ℝ) (e : E) : ℝ :=
  thresholdSlope v.beta R.betaEta (blur R v.radius rho e) * if e ∈ R.design then R.volume e / ∑ e' ∈ R.design, R.volume e' else 0

/-- … sent back through the filter; through the filter itself if the transposed one gives (almost) nothing. -/
def volumeGradient (R : Common E d) (v : Vals) (rho : E → ℝ) : E → ℝ :=
  if (∀ e, |blurT R v.radius (volumeSlope R v rho) e| ≤ 1 / 10 ^ 8) ∧ ∃ e, 0 < volumeSlope R v rho e
  then blur R v.radius (volumeSlope R v rho) else blurT R v.radius (volumeSlope R v rho)

/-- The objective part of the Lagrangian derivative: the sensitivities `g`, centred if so configured. -/
def objectivePart (L : LogCommon E d) (g : E → ℝ) (e : E) : ℝ :=
  if L.centerObjective then g e - designMean L.toCommon g else g e

/-- The volume part, brought to the magnitude of the objective part times a gain if so configured. -/
def volumePart (L : LogCommon E d) (v : Vals) (rho g : E → ℝ) (e : E) : ℝ :=
  if L.normalizeVolumeChain then
    volumeGradient L.toCommon v rho e *
      ((if excess L.toCommon v rho < 0 then L.volumeChainGainUnder.getD L.volumeChainGain else L.volumeChainGain) *
        (max (L.pct L.lagPercentile fun e => |objectivePart L g e|) L.lagScaleFloor /
          max (L.pct L.volumeChainPercentile fun e => |volumeGradient L.toCommon v rho e|) L.volumeChainScaleFloor))
  else volumeGradient L.toCommon v rho e

/-- Objective part plus coefficient times volume part, filtered if so configured. -/
def combined (L : LogCommon E d) (v : Vals) (rho g : E → ℝ) (coeff : ℝ) : E → ℝ :=
  let sum := fun e => objectivePart L g e + coeff * volumePart L v rho g e
  if L.filterLagrangian then blur L.toCommon v.radius fun e => if e ∈ L.design then sum e else 0 else sum

/-- The derivative of the Lagrangian, centred if so configured. -/
def lagrangianSlope (L : LogCommon E d) (v : Vals) (rho g : E → ℝ) (coeff : ℝ) (e : E) : ℝ :=
  if L.centerLagrangian then combined L v rho g coeff e - designMean L.toCommon (combined L v rho g coeff) else combined L v rho g coeff e

/-- The multiplicative step: a clipped exponential of the scaled slope `s`, within a factor `1 + move_limit / x` and the box. -/
def moved (L : LogCommon E d) (v : Vals) (x s : ℝ) : ℝ :=
  min (max (min (max (x * Real.exp (-(v.eta * min (max s (-L.lagClip)) L.lagClip))) (x / (1 + v.moveLimit / x)))
    (x * (1 + v.moveLimit / x))) L.rhoMin) L.rhoMax

/-- The multiplier of iteration `k` before clipping: `mu_p` times the volume error at first, then a running sum or a running mean. -/
def multiplier (L : LogCommon E d) (k : ℕ) (lam err : ℝ) : ℝ :=
  if k ≤ 1 then L.muP * err
  else if L.augmented then lam + L.muP * err else L.lambdaDecay * lam + (1 - L.lambdaDecay) * (L.muP * err)

/-- The LogMOC update for the scheduled values `v` and the sensitivities `g`: from densities `rho`, multiplier `lam` and scale `rs` to
`rho'`, `r.lambdaV`, `rs'`, recording the line `r`. -/
def LogStep (L : LogCommon E d) (v : Vals) (g : E → ℝ) (rho : E → ℝ) (lam rs : ℝ) (r : LogRec) (rho' : E → ℝ) (rs' : ℝ) : Prop :=
  ∃ s : ℝ,
    -- volume error, multiplier and constraint coefficient
    r.volError = excess L.toCommon v rho ∧
    r.lambdaV = min (max (multiplier L r.iter lam r.volError) L.lambdaLower) L.lambdaUpper ∧
    r.coeff = r.lambdaV + L.alMu * r.volError ∧
    -- scale of the Lagrangian
    s = max (L.pct (v.percentile.getD L.lagPercentile) fun e => |lagrangianSlope L v rho g r.coeff e|) L.lagScaleFloor ∧
    rs' = (if r.iter ≤ 1 then s else 0.2 * rs + 0.8 * s) ∧
    -- new densities
    (∀ e, rho' e = if Pinned L.toCommon e then 1 else if e ∈ L.design then
      moved L v (rho e) (lagrangianSlope L v rho g r.coeff e / rs') else rho e) ∧
    -- recorded numbers
    IsGreatest ((fun e => |rho' e - rho e|) '' L.design) r.rhoChange ∧
    let inside := {e | e ∈ L.design ∧ L.rhoMin + 1 / 10 ^ 6 < rho e ∧ rho e < L.rhoMax - 1 / 10 ^ 6}
    (inside = ∅ → r.kkt = 0) ∧
    (inside.Nonempty → IsGreatest ((fun e => |lagrangianSlope L v rho g r.coeff e / rs'|) '' inside) r.kkt)

/-- One iteration: from densities `rho`, multiplier `lam` and scale `rs` to `rho'`, `r.lambdaV`, `rs'`, recording the line `r`. -/
def LogIteration (L : LogSetup ι E Q d m) (rho : E → ℝ) (lam rs : ℝ) (r : LogRec) (rho' : E → ℝ) (rs' : ℝ) : Prop :=
  ∃ (v : Vals) (u : Fin m → ι → ℝ), AllScheduled L.toCommon r.iter v ∧
    -- analysis of every load case, scaled
    (∀ j, Displaced L.toSetup (fun e => young L.toSetup v.p (physical L.toCommon v rho e)) (fun i => L.loads j i * v.neumannScale) (u j)) ∧
    r.compliance = (∑ j, ∑ i, L.loads j i * v.neumannScale * u j i) / m ∧ r.neumannScale = v.neumannScale ∧
    LogStep L.common v (gradient L.toSetup v rho u) rho lam rs r rho' rs'

/-- Starting with densities `rho0`, multiplier `lam0`, scale `rs0` and histories `log0`, some iterations `It` lead to the given ones. -/
inductive LogReached (It : (E → ℝ) → ℝ → ℝ → LogRec → (E → ℝ) → ℝ → Prop) (rho0 : E → ℝ) (lam0 rs0 : ℝ) (log0 : List LogRec) :
    (E → ℝ) → ℝ → ℝ → List LogRec → Prop where
  | refl : LogReached It rho0 lam0 rs0 log0 rho0 lam0 rs0 log0
  | next {rho : E → ℝ} {lam rs : ℝ} {log : List LogRec} (h : LogReached It rho0 lam0 rs0 log0 rho lam rs log) {r : LogRec}
      {rho' : E → ℝ} {rs' : ℝ} (hi : It rho lam rs r rho' rs') : LogReached It rho0 lam0 rs0 log0 rho' r.lambdaV rs' (log ++ [r])

/-- … on an elasticity task. -/
abbrev LogContinues (L : LogSetup ι E Q d m) (rho0 : E → ℝ) (lam0 rs0 : ℝ) (log0 : List LogRec) :
    (E → ℝ) → ℝ → ℝ → List LogRec → Prop := LogReached (LogIteration L) rho0 lam0 rs0 log0

end
end Verif.Spec
