import Verif.Model.OC
import Mathlib.Analysis.SpecialFunctions.Log.Basic

/-!
Model of `/repo/scikit-topt/sktopt/core/optimizers/logmoc.py`: `lagrangian_log_update` and
`LogMOC_Optimizer.rho_update`. Elements are an arbitrary finite type `E`, the design elements a `Finset`; vectors over
the design elements are functions on `E` of which only the design entries are used. `np.percentile(np.abs(x), q)` over
the design elements is the external function `pct q x`.
-/
namespace Verif.LogMOC
open Verif Verif.OC

noncomputable section
open Classical

variable {E : Type} [Fintype E]

/-- logmoc.py:36-66 `lagrangian_log_update`, one element, statement by statement; returns the new value of `rho`.
`np.log` of a non-positive number (NaN / -inf in NumPy) is not modelled: the statements assume `rho_min > 0`. -/
def logUpdate (rho dL eta moveLimit rhoMin rhoMax lagClip : ℝ) : ℝ :=
  let scalingRate := clip dL (-lagClip) lagClip          -- 48-49
  let rho1 := clip rho rhoMin rhoMax                     -- 51
  let lower0 := Real.log rho1                            -- 52
  let upper0 := Real.exp lower0                          -- 54
  let upper1 := moveLimit / upper0                       -- 55
  let upper2 := upper1 + 1                               -- 56
  let upper3 := Real.log upper2                          -- 57
  let lower1 := lower0 - upper3                          -- 59
  let upper4 := lower1 + 2 * upper3                      -- 60
  let rho2 := Real.log rho1                              -- 62
  let rho3 := rho2 - eta * scalingRate                   -- 63
  let rho4 := clip rho3 lower1 upper4                    -- 64
  let rho5 := Real.exp rho4                              -- 65
  clip rho5 rhoMin rhoMax                                -- 66

/-- The configuration fields of `LogMOC_Config` (logmoc.py:13-33) and the task data `rho_update` reads. -/
structure Cfg (E : Type) where
  muP : ℝ := 5
  alMu : ℝ := 0
  lambdaV : ℝ := 0.1
  lambdaDecay : ℝ := 0.90
  lambdaLower : ℝ := -10 ^ 7
  lambdaUpper : ℝ := 10 ^ 7
  lagClip : ℝ := 1
  lagPercentile : ℝ := 95
  lagScaleFloor : ℝ := 1 / 10 ^ 8
  normalizeVolumeChain : Bool := false
  volumeChainPercentile : ℝ := 95
  volumeChainScaleFloor : ℝ := 1 / 10 ^ 8
  volumeChainGain : ℝ := 1
  volumeChainGainUnder : Option ℝ := none
  augmented : Bool := false          -- dual_update == "augmented"
  filterLagrangian : Bool := false
  centerLagrangian : Bool := false
  centerObjective : Bool := false
  rhoMin : ℝ
  rhoMax : ℝ
  betaEta : ℝ
  design : Finset E
  volume : E → ℝ
  forward : (E → ℝ) → (E → ℝ)
  gradient : (E → ℝ) → (E → ℝ)
  pct : ℝ → (E → ℝ) → ℝ

/-- The mutable attributes of the optimizer that `rho_update` reads: `lambda_v` (set from the configuration in
`__init__`, logmoc.py:83) and `running_scale`, which `__init__` never sets (`none` = attribute missing). -/
structure St where
  lambdaV : ℝ
  runningScale : Option ℝ

/-- logmoc.py:69-88 the state after `__init__`. -/
def initSt (c : Cfg E) : St := { lambdaV := c.lambdaV, runningScale := none }

/-- Scheduled arguments of one update (logmoc.py:90-108). -/
structure StepArgs where
  iterNum : ℕ
  moveLimit : ℝ
  eta : ℝ
  beta : ℝ
  volFrac : ℝ
  percentile : Option ℝ := none

/-- `elements_volume_design_sum`. -/
def volSum (c : Cfg E) : ℝ := ∑ e ∈ c.design, c.volume e

/-- The volume-weighted mean over the design elements (logmoc.py:130-132, 213-215). -/
def volMean (c : Cfg E) (x : E → ℝ) : ℝ := (∑ e ∈ c.design, x e * c.volume e) / volSum c

/-- logmoc.py:127-133, the (optionally centred) objective sensitivity. -/
def dCraw (c : Cfg E) (dC : E → ℝ) : E → ℝ :=
  if c.centerObjective then fun e => dC e - volMean c dC else dC

/-- logmoc.py:134-144, the derivative of the volume fraction with respect to the filtered density. -/
def dVFiltered (c : Cfg E) (beta : ℝ) (rhoFiltered : E → ℝ) (e : E) : ℝ :=
  Projection.heavisideDerivInplace (rhoFiltered e) beta c.betaEta *
    (if e ∈ c.design then c.volume e / volSum c else 0)

/-- logmoc.py:145-159, the back-propagated volume derivative, with the fall back to `forward` when the gradient is
`np.allclose` to 0 (all entries at most `1e-8` in absolute value) although some entry of the input is positive. -/
def dVChain (c : Cfg E) (beta : ℝ) (rhoFiltered : E → ℝ) : E → ℝ :=
  let g := c.gradient (dVFiltered c beta rhoFiltered)
  if (∀ e, |g e| ≤ 1 / 10 ^ 8) ∧ ∃ e, dVFiltered c beta rhoFiltered e > 0
    then c.forward (dVFiltered c beta rhoFiltered) else g

/-- logmoc.py:161-164, the volume error of the current physical density. -/
def volError (c : Cfg E) (volFrac : ℝ) (rhoProjected : E → ℝ) : ℝ := volMean c rhoProjected - volFrac

/-- logmoc.py:166-185, the factor applied to the volume chain. -/
def chainScale (c : Cfg E) (dC dV : E → ℝ) (vErr : ℝ) : ℝ :=
  if c.normalizeVolumeChain then
    let objScale := max (c.pct c.lagPercentile fun e => |dC e|) c.lagScaleFloor
    let volScale := max (c.pct c.volumeChainPercentile fun e => |dV e|) c.volumeChainScaleFloor
    let gain := match c.volumeChainGainUnder with
      | some g => if vErr < 0 then g else c.volumeChainGain
      | none => c.volumeChainGain
    gain * (objScale / volScale)
  else 1

/-- logmoc.py:187-201, the new multiplier. -/
def lambdaUpdate (c : Cfg E) (iterNum : ℕ) (lam vErr : ℝ) : ℝ :=
  let penalty := c.muP * vErr
  let raw :=
    if c.augmented then (if iterNum > 1 then lam + penalty else penalty)
    else (if iterNum > 1 then c.lambdaDecay * lam + (1 - c.lambdaDecay) * penalty else penalty)
  clip raw c.lambdaLower c.lambdaUpper

/-- logmoc.py:205-216, the Lagrangian derivative before scaling. -/
def lagrangian (c : Cfg E) (dC dV : E → ℝ) (coeff : ℝ) : E → ℝ :=
  let d0 := fun e => dC e + coeff * dV e
  let d1 := if c.filterLagrangian then c.forward (fun e => if e ∈ c.design then d0 e else 0) else d0
  if c.centerLagrangian then fun e => d1 e - volMean c d1 else d1

/-- logmoc.py:218-225: `running_scale`; reading a missing attribute raises AttributeError, but the conditional
expression evaluates it only when `iter_num > 1`. -/
def scaleUpdate (iterNum : ℕ) (rs : Option ℝ) (scale : ℝ) : Res ℝ :=
  if iterNum > 1 then
    match rs with
    | some r => .ok (0.2 * r + (1 - 0.2) * scale)
    | none => .error .attributeError
  else .ok scale

/-- What an update leaves behind: new design densities, new attributes, and the values fed to the histories. -/
structure UpdateOut (E : Type) where
  rho : E → ℝ
  st : St
  coeff : ℝ
  vErr : ℝ
  dL : E → ℝ
  kkt : ℝ

/-- logmoc.py:90-258 `LogMOC_Optimizer.rho_update`. The KKT residual (227-236) is measured at the densities *before* the
update. -/
def rhoUpdate (c : Cfg E) (a : StepArgs) (s : St) (rho rhoFiltered rhoProjected dC : E → ℝ) : Res (UpdateOut E) := do
  let dC0 := dCraw c dC
  let vErr := volError c a.volFrac rhoProjected
  let dV0 := dVChain c a.beta rhoFiltered
  let cs := chainScale c dC0 dV0 vErr
  let dV := fun e => if c.normalizeVolumeChain then dV0 e * cs else dV0 e
  let lam := lambdaUpdate c a.iterNum s.lambdaV vErr
  let coeff := lam + c.alMu * vErr
  let dL0 := lagrangian c dC0 dV coeff
  let scale := max (c.pct (a.percentile.getD c.lagPercentile) fun e => |dL0 e|) c.lagScaleFloor
  let rs ← scaleUpdate a.iterNum s.runningScale scale
  let dL := fun e => dL0 e / rs
  let mask := c.design.filter fun e => rho e > c.rhoMin + 1 / 10 ^ 6 ∧ rho e < c.rhoMax - 1 / 10 ^ 6
  let kkt := if h : mask.Nonempty then mask.sup' h fun e => |dL e| else 0
  pure { rho := fun e => logUpdate (rho e) (dL e) a.eta a.moveLimit c.rhoMin c.rhoMax c.lagClip,
         st := { lambdaV := lam, runningScale := some rs }, coeff, vErr, dL, kkt }

end
end Verif.LogMOC
