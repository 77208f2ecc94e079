import Verif.Model.RoundedRun

/-!
A LogMOC run with the spatial filter and the SIMP law in floating-point arithmetic: the analysis of `Model/RoundedRun.lean` followed by
`/repo/scikit-topt/sktopt/core/optimizers/logmoc.py` lines 127–225 (`rho_update` up to the call of `lagrangian_log_update`, which is
`logUpdate`), for the design elements and `center_objective = center_lagrangian = False` (the default).

Percentiles, volume errors and normalised element volumes are given (numpy adds pairwise).
-/
namespace Verif.Rounded

noncomputable section
open Classical

variable {α : Type} [LinearOrder α] {E X : Type}

/-- What `LogMOC_Optimizer.rho_update` reads besides the analysis (logmoc.py lines 13–33). -/
structure LogSetup (α E X : Type) extends Setup α E X where
  /-- `elements_volume_design / elements_volume_design_sum` (lines 134–136) -/
  weight : E → Flt α
  /-- whether `filter.gradient` returned zeros for positive values (lines 145–154) -/
  fallback : ℕ → X → Bool
  /-- `volume - vol_frac` for the projected densities (lines 160–163) -/
  error : ℕ → X → (E → Flt α) → Flt α
  /-- `np.percentile(np.abs(values), percentile)`; the first argument tells the three calls apart (lines 167–174, 220) -/
  percentile : Fin 3 → ℕ → X → (E → Flt α) → Flt α
  normalizeChain : Bool
  gain : Flt α
  gainUnder : Option (Flt α)
  scaleFloor : Flt α
  chainFloor : Flt α
  augmented : Bool
  muP : Flt α
  decay : Flt α
  lambdaLower : Flt α
  lambdaUpper : Flt α
  augMu : Flt α
  filterLagrangian : Bool

/-- `self.lambda_v` and `self.running_scale`, `none` while that attribute does not exist. -/
structure LogState (α : Type) where
  lam : Flt α
  scale : Option (Flt α)

variable (A : Arith α) (tanh cosh : Flt α → Flt α) (S : LogSetup α E X)

/-- logmoc.py lines 133–158: derivative of the volume fraction with respect to the densities. -/
def volumeChain (k : ℕ) (x : X) (beta : Flt α) (rho : E → Flt α) : E → Flt α :=
  let dVf := fun i => A.mul (projectDeriv A tanh cosh (filtered A S.toSetup k rho i) beta S.betaEta) (S.weight i)
  if S.fallback k x = true then filterForward A (fun i => normRow A (S.rows k i)) dVf
  else filterGradient A S.ids (fun i => normRow A (S.rows k i)) dVf

/-- logmoc.py lines 165–184: `volume_chain_scale`; the multiplication by 1 without normalisation is left out. -/
def chainFactor (k : ℕ) (x : X) (dC dV : E → Flt α) (vErr : Flt α) : Flt α :=
  let obj := pyMax (S.percentile 0 k x dC) S.scaleFloor
  let vol := pyMax (S.percentile 1 k x dV) S.chainFloor
  let gain := match S.gainUnder with
    | some g => if Lt vErr (some (A.lit 0)) then g else S.gain
    | none => S.gain
  A.mul gain (A.div obj vol)

/-- logmoc.py lines 204–210: derivative of the Lagrangian before scaling. -/
def lagrangian (k : ℕ) (x : X) (beta : Flt α) (rho dC : E → Flt α) (vErr coeff : Flt α) : E → Flt α :=
  let dV := volumeChain A tanh cosh S k x beta rho
  let dV' := if S.normalizeChain = true then (fun i => A.mul (dV i) (chainFactor A S k x dC dV vErr)) else dV
  let dL := fun i => A.add (dC i) (A.mul coeff (dV' i))
  if S.filterLagrangian = true then filterForward A (fun i => normRow A (S.rows k i)) dL else dL

/-- logmoc.py lines 221–223: the new `running_scale`. -/
def logScale (k : ℕ) (old : Option (Flt α)) (scale : Flt α) : Res (Flt α) :=
  if k > 1 then
    match old with
    | none => .error .attributeError
    | some r => .ok (A.add (A.mul (some (A.lit (2 / 10))) r) (A.mul (A.sub (some (A.lit 1)) (some (A.lit (2 / 10)))) scale))
  else .ok scale

/-- common_density.py lines 1014–1129 with logmoc.py lines 127–225: what `lagrangian_log_update` is handed. -/
def logAnalyse (k : ℕ) (rho : E → Flt α) (s : X × LogState α) : (X × LogState α) × Res (LogInputs α E) :=
  match S.values k s.1 with
  | (y, .error e) => ((y, s.2), .error e)
  | (y, .ok v) =>
    match S.energies k v.p (projected A tanh S.toSetup k v.beta rho) y with
    | (z, .error e) => ((z, s.2), .error e)
    | (z, .ok Us) =>
      let dC := sensitivities A tanh cosh S.toSetup k v rho Us
      let vErr := S.error k z (projected A tanh S.toSetup k v.beta rho)
      let lam := lambdaUpdate A S.augmented S.muP S.decay S.lambdaLower S.lambdaUpper k s.2.lam vErr
      let coeff := A.add lam (A.mul S.augMu vErr)
      let dL := lagrangian A tanh cosh S k z v.beta rho dC vErr coeff
      match logScale A k s.2.scale (pyMax (S.percentile 2 k z dL) S.scaleFloor) with
      | .error e => ((z, { s.2 with lam := lam }), .error e)
      | .ok r => ((z, { lam := lam, scale := some r }), .ok { dL := fun i => A.div (dL i) r, eta := v.eta, moveLimit := v.moveLimit })

/-- The run: the driver's part of `p` with the analysis above. -/
def logPlan (p : Plan α E X (LogInputs α E)) : Plan α E (X × LogState α) (LogInputs α E) where
  maxIters := p.maxIters
  recordTimes := p.recordTimes
  restart := p.restart
  restartFrom := p.restartFrom
  valInit := p.valInit
  design := p.design
  pinned := p.pinned
  fixed := p.fixed
  analyse := logAnalyse A tanh cosh S
  record := fun k rho rho' s => match p.record k rho rho' s.1 with
    | (x, r) => ((x, s.2), r)
  exportHist := fun s => (p.exportHist s.1, s.2)
  importHist := fun s => (p.importHist s.1, s.2)
  initSched := fun s => match p.initSched s.1 with
    | (x, r) => ((x, s.2), r)

end
end Verif.Rounded
