import Verif.Model.Run
import Verif.Model.LogMOC

/-!
A complete LogMOC run: the same driver, schedulers, filter, projection, finite element analysis and sensitivity as in
`Verif.Model.Run`, with the update of `/repo/scikit-topt/sktopt/core/optimizers/logmoc.py` lines 69–258 instead of the OC update.

Simplification: a scheduled percentile is a `float` (logmoc.py:219 ignores other types). Simplification: an exception inside
`rho_update` leaves behind the new multiplier (its only lasting effect besides work arrays).
-/
namespace Verif.Run
open Verif Verif.Driver

noncomputable section
open Classical

variable {ι E Q : Type} [Fintype ι] [Fintype E] [Fintype Q] {d m : ℕ}

/-- One line of the histories (common_density.py:1137–1159 and logmoc.py:238–245), scalar entries only. -/
structure LogRec where
  iter : ℕ
  rhoChange : ℝ
  compliance : ℝ
  neumannScale : ℝ
  volError : ℝ
  lambdaV : ℝ
  coeff : ℝ
  kkt : ℝ

/-- What `LogMOC_Config` (logmoc.py:13–33) adds. -/
structure LogOpts where
  muP : ℝ
  alMu : ℝ
  lambdaV : ℝ
  lambdaDecay : ℝ
  lagClip : ℝ
  lagPercentile : ℝ
  lagScaleFloor : ℝ
  normalizeVolumeChain : Bool
  volumeChainPercentile : ℝ
  volumeChainScaleFloor : ℝ
  volumeChainGain : ℝ
  volumeChainGainUnder : Option ℝ
  /-- `dual_update == "augmented"` -/
  augmented : Bool
  filterLagrangian : Bool
  centerLagrangian : Bool
  centerObjective : Bool
  /-- the lines stored in `histories.npz`, if that file exists -/
  savedLog : Option (List LogRec)

/-- Configuration and element data of a LogMOC run. The fields of `Common` that only OC reads (`scaleFloor`, `rateMin`, `rateMax`,
`saved`) are unused. -/
structure LogCommon (E : Type) (d : ℕ) extends Common E d, LogOpts

/-- A LogMOC run on an elasticity task. -/
structure LogSetup (ι E Q : Type) (d m : ℕ) extends Setup ι E Q d m, LogOpts

/-- What does not depend on the physics. -/
abbrev LogSetup.common (L : LogSetup ι E Q d m) : LogCommon E d := ⟨L.toSetup.toCommon, L.toLogOpts⟩

/-- Everything but the densities. -/
structure LogState (E : Type) (d : ℕ) where
  base : State E d
  st : LogMOC.St
  coeff : ℝ
  vErr : ℝ
  log : List LogRec

/-- logmoc.py:69–88 on top of the common constructor and `parameterize()`. -/
def logStart (L : LogCommon E d) : LogState E d :=
  { base := start L.toCommon, st := { lambdaV := L.lambdaV, runningScale := none }, coeff := 0, vErr := 0, log := [] }

/-- What `rho_update` reads; `F` is the filter object after the filtering of the iteration. -/
def logCfg (L : LogCommon E d) (F : Filt E d) : LogMOC.Cfg E where
  muP := L.muP
  alMu := L.alMu
  lambdaV := L.lambdaV
  lambdaDecay := L.lambdaDecay
  lambdaLower := L.lambdaLower
  lambdaUpper := L.lambdaUpper
  lagClip := L.lagClip
  lagPercentile := L.lagPercentile
  lagScaleFloor := L.lagScaleFloor
  normalizeVolumeChain := L.normalizeVolumeChain
  volumeChainPercentile := L.volumeChainPercentile
  volumeChainScaleFloor := L.volumeChainScaleFloor
  volumeChainGain := L.volumeChainGain
  volumeChainGainUnder := L.volumeChainGainUnder
  augmented := L.augmented
  filterLagrangian := L.filterLagrangian
  centerLagrangian := L.centerLagrangian
  centerObjective := L.centerObjective
  rhoMin := L.rhoMin
  rhoMax := L.rhoMax
  betaEta := L.betaEta
  design := L.design
  volume := L.volume
  forward := fwdOf L.toCommon F
  gradient := gradOf L.toCommon F
  pct := L.pct

/-- The scheduled arguments of `rho_update`. -/
def logArgs (k : ℕ) (v : Vals) : LogMOC.StepArgs where
  iterNum := k
  moveLimit := v.moveLimit
  eta := v.eta
  beta := v.beta
  volFrac := v.volFrac
  percentile := v.percentile

/-- `np.percentile` rejects percentages outside [0, 100]. -/
def BadPct (q : ℝ) : Prop := q < 0 ∨ 100 < q

/-- The LogMOC update after the analysis (common_density.py:1108–1130); `y` is what the analysis left behind. -/
def logUpdate (L : LogCommon E d) (k : ℕ) (v : Vals) (rho : E → ℝ) (x : LogState E d) (y : State E d) (A : Analysis E d) :
    LogState E d × Res (E → ℝ) :=
  let c := logCfg L A.F1
  -- logmoc.py:167–174
  if L.normalizeVolumeChain = true ∧ (BadPct L.lagPercentile ∨ BadPct L.volumeChainPercentile) then
    ({ x with base := y }, .error .valueError)
  else
    -- logmoc.py:187–201
    let lam := LogMOC.lambdaUpdate c k x.st.lambdaV (LogMOC.volError c v.volFrac A.proj)
    -- logmoc.py:221
    if BadPct (v.percentile.getD L.lagPercentile) then
      ({ x with base := y, st := { x.st with lambdaV := lam } }, .error .valueError)
    else
      match LogMOC.rhoUpdate c (logArgs k v) x.st rho (fwdOf L.toCommon A.F rho) A.proj A.dC with
      | .error e => ({ x with base := y, st := { x.st with lambdaV := lam } }, .error e)
      | .ok out => ({ x with base := { y with kkt := some out.kkt }, st := out.st, coeff := out.coeff, vErr := out.vErr }, .ok out.rho)

/-- common_density.py:1037–1130 with the LogMOC update. -/
def logComputeWith {n : ℕ} (L : LogCommon E d) (response : (E → ℝ) → Res (ℝ × (Fin n → E → ℝ))) (k : ℕ) (v : Vals) (rho : E → ℝ)
    (x : LogState E d) : LogState E d × Res (E → ℝ) :=
  match analyseWith L.toCommon response v rho x.base with
  | (y, .error e) => ({ x with base := y }, .error e)
  | (y, .ok A) => logUpdate L k v rho x y A

/-- common_density.py:1014–1130 for iteration `k`. -/
def logStepWith {n : ℕ} (L : LogCommon E d) (response : Vals → (E → ℝ) → Res (ℝ × (Fin n → E → ℝ))) (k : ℕ) (rho : E → ℝ)
    (x : LogState E d) : LogState E d × Res (E → ℝ) :=
  match readVals x.base k with
  | .error e => (x, .error e)
  | .ok v => logComputeWith L (response v) k v rho x

/-- … on an elasticity task. -/
def logStep (L : LogSetup ι E Q d m) : ℕ → (E → ℝ) → LogState E d → LogState E d × Res (E → ℝ) :=
  logStepWith L.common (response L.toSetup)

/-- common_density.py:1136–1184. -/
def logRecord (L : LogCommon E d) (k : ℕ) (rho rho' : E → ℝ) (x : LogState E d) : LogState E d × Res Bool :=
  if h : L.design.Nonempty then
    let change := L.design.sup' h fun e => |rho' e - rho e|
    let r : LogRec := {
      iter := k
      rhoChange := change
      compliance := x.base.compliance
      neumannScale := x.base.neumannScale
      volError := x.vErr
      lambdaV := x.st.lambdaV
      coeff := x.coeff
      kkt := x.base.kkt.getD 0 }
    let x' := { x with log := x.log ++ [r] }
    if L.checkConvergence then
      match x.base.kkt with
      | none => (x', .error .valueError)
      | some kkt => (x', .ok (decide (change < L.tolRho ∧ |kkt| < L.tolKkt)))
    else (x', .ok false)
  else (x, .error .valueError)

/-- `init_schedulers` (common_density.py:643–679). -/
def logInit (L : LogCommon E d) (x : LogState E d) : LogState E d × Res Unit :=
  match initSched L.toCommon x.base with
  | (y, r) => ({ x with base := y }, r)

/-- The whole run as an instance of the iteration driver, for a given analysis and update. -/
def logSysWith (L : LogCommon E d) (step : ℕ → (E → ℝ) → LogState E d → LogState E d × Res (E → ℝ)) : Sys E ℝ (LogState E d) where
  maxIters := L.maxIters
  recordTimes := L.recordTimes
  restart := L.restart
  restartFrom := L.restartFrom
  valInit := valInit L.toCommon
  rhoMin := L.rhoMin
  rhoMax := L.rhoMax
  design := L.design
  pinned := L.pinned
  fixed := L.fixed
  step := step
  record := logRecord L
  exportHist := id
  importHist x := match L.savedLog with
    | some l => { x with log := l }
    | none => x
  initSched := logInit L

/-- A LogMOC run on an elasticity task. -/
def logSys (L : LogSetup ι E Q d m) : Sys E ℝ (LogState E d) := logSysWith L.common (logStep L)

/-- A new LogMOC optimizer in a directory with the given snapshot files. -/
def newLogRun (L : LogCommon E d) (files : List (Snapshot.Name × (E → ℝ))) : Opt E ℝ (LogState E d) :=
  fresh (fun _ => 0) (logStart L) files

end
end Verif.Run
