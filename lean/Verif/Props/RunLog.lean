import Verif.Lemmas.RunLogBy
import Verif.Props.Run

/-!
C94, C95: complete LogMOC runs. C54: a restarted LogMOC run.
-/
namespace Verif.Run
open Verif Verif.Sched Verif.Spec Verif.Driver

variable {ι E Q : Type} [Fintype ι] [Fintype E] [Fintype Q] {d m : ℕ}

noncomputable section
open Classical

/-- **C94.** A well-posed LogMOC run works: whatever calls of `optimize` and `optimize_steps` a program makes, none of them raises.
The histories have one line for each of the iterations `1, …, iter_next - 1`, at most `max_iters`; design densities are in
`[rho_min, rho_max]`, unless pinned to 1; every line has a non-negative compliance, a multiplier in the configured range, the
constraint coefficient that belongs to its multiplier and volume error, and a density change at most the scheduled `move_limit`.
A run is completed only after `max_iters` iterations or when both tolerances are met. -/
theorem C94_well_posed_run (L : LogSetup ι E Q d m) (h : LogWellPosed L) (hnr : L.restart = false)
    (files : List (Snapshot.Name × (E → ℝ))) (cs : List Call) :
    ∃ o, runCalls (logSys L) cs (newLogRun L.common files) = (o, .ok ()) ∧
      (o.started = true →
        (∀ e ∈ L.design, L.rhoMin ≤ o.world.rho e ∧ ((∃ s, L.pinned = some s ∧ e ∉ s) → o.world.rho e ≤ L.rhoMax)) ∧
        (∀ s, L.pinned = some s → ∀ e ∈ s, o.world.rho e = 1) ∧
        1 ≤ o.iterNext ∧ o.iterNext ≤ L.maxIters + 1 ∧
        o.world.aux.log.map LogRec.iter = List.range' 1 (o.iterNext - 1) ∧
        ∀ r ∈ o.world.aux.log, 0 ≤ r.compliance ∧ (L.lambdaLower ≤ r.lambdaV ∧ r.lambdaV ≤ L.lambdaUpper) ∧
          r.coeff = r.lambdaV + L.alMu * r.volError ∧
          ∃ ml, valueOf (.ok { L.cMoveLimit with itersMax := some (L.maxIters : ℤ) }) r.iter = .ok (some ml) ∧
            0 ≤ r.rhoChange ∧ r.rhoChange ≤ ml) ∧
      (o.completed = true → o.iterNext = L.maxIters + 1 ∨
        (L.checkConvergence = true ∧ ∃ r, o.world.aux.log.getLast? = some r ∧ r.rhoChange < L.tolRho ∧ |r.kkt| < L.tolKkt)) :=
  log_well_posed_by h.toBasics (logStep_computes h) hnr files cs

/-- **C95.** Refinement: after any calls, the densities and the histories of a well-posed LogMOC run are those of the documented
algorithm (`Verif.Spec.RunLog`), from the initial volume fraction on, whatever multiplier and scale one takes it to start with:
the configured `lambda_v` has no influence. -/
theorem C95_run_refines_algorithm (L : LogSetup ι E Q d m) (h : LogWellPosed L) (hnr : L.restart = false)
    (files : List (Snapshot.Name × (E → ℝ))) (cs : List Call) :
    ∃ o rho0, runCalls (logSys L) cs (newLogRun L.common files) = (o, .ok ()) ∧
      (o.started = true → o.world.aux.log.map LogRec.iter = List.range' 1 (o.iterNext - 1) ∧ InitialDensities L.toCommon rho0 ∧
        ∀ lam0 rs0, ∃ lam rs, LogContinues L rho0 lam0 rs0 [] o.world.rho lam rs o.world.aux.log) :=
  log_refines_by h.toBasics (logStep_computes h) hnr files cs

/-- **C54.** No LogMOC run can be resumed: with a sound problem and a snapshot of any iteration `1 ≤ k < max_iters`, whatever its
densities, `optimize()` and every `optimize_steps(n)` with `n > 0` fail with AttributeError during the first iteration, and the
densities are those of the snapshot. -/
theorem C54_restarted_run_raises (L : LogSetup ι E Q d m) (h : LogWellPosed L) (files : List (Snapshot.Name × (E → ℝ)))
    (k : ℕ) (data : E → ℝ) (hres : Resumes L.toCommon files k data) (hk1 : 1 ≤ k) (hk : k < L.maxIters)
    (hdata : ∀ e ∈ L.design, Pinned L.toCommon e ∨ L.rhoMin ≤ data e ∧ data e ≤ L.rhoMax) (c : Call)
    (hc : ∀ n, c = .steps n → 0 < n) :
    ∃ o, c.run (logSys L) (newLogRun L.common files) = (o, .error .attributeError) ∧ o.world.rho = resumed L.toCommon data ∧
      o.world.trace = [k + 1] := by
  refine log_restarted_by h.toBasics h.toLogRules (fun k v hv rho hrho => ?_) files k data hres hk1 hk hdata c hc
  obtain ⟨c, cols, h1, -⟩ := response_ok h.toSound hv.p (physical L.toCommon v rho) fun e => (physical_range h.toBasics hv hrho e).1
  exact ⟨c, cols, h1⟩

/-- The LogMOC configuration of the witnesses: everything optional switched on. -/
def logOf (R : Setup ι E Q d m) : LogSetup ι E Q d m where
  toSetup := R
  muP := 5
  alMu := 1
  lambdaV := 0.1
  lambdaDecay := 0.9
  lagClip := 1
  lagPercentile := 95
  lagScaleFloor := 1 / 10 ^ 8
  normalizeVolumeChain := true
  volumeChainPercentile := 95
  volumeChainScaleFloor := 1 / 10 ^ 8
  volumeChainGain := 1
  volumeChainGainUnder := some 0.5
  augmented := true
  filterLagrangian := true
  centerLagrangian := true
  centerObjective := true
  savedLog := none

theorem chainLog_wellPosed : LogWellPosed (logOf chainRun) :=
  let h := chainRun_wellPosed
  { h with
    toSound := h.toSound
    positive := by norm_num [logOf, chainRun]
    range := by norm_num [logOf, chainRun]
    floor := by norm_num [logOf]
    lagPercentile := by norm_num [logOf]
    chainPercentile := by norm_num [logOf] }

theorem chainLogHelmholtz_wellPosed : LogWellPosed (logOf chainHelmholtz) :=
  let h := chainHelmholtz_wellPosed
  { h with
    toSound := h.toSound
    positive := by norm_num [logOf, chainHelmholtz, chainRun]
    range := by norm_num [logOf, chainHelmholtz, chainRun]
    floor := by norm_num [logOf]
    lagPercentile := by norm_num [logOf]
    chainPercentile := by norm_num [logOf] }

theorem chainLogRestart_wellPosed : LogWellPosed (logOf chainRestart) :=
  let h := chainRestart_wellPosed
  { h with
    toSound := h.toSound
    positive := by norm_num [logOf, chainRestart, chainRun]
    range := by norm_num [logOf, chainRestart, chainRun]
    floor := by norm_num [logOf]
    lagPercentile := by norm_num [logOf]
    chainPercentile := by norm_num [logOf] }

/-- Non-vacuity of C94 and C95, with either filter. -/
example := C94_well_posed_run (logOf chainRun) chainLog_wellPosed rfl [] [.steps 3, .optimize]
example := C95_run_refines_algorithm (logOf chainHelmholtz) chainLogHelmholtz_wellPosed rfl [] [.steps 3, .optimize]

/-- Non-vacuity of C54 (run). -/
example := C54_restarted_run_raises (logOf chainRestart) chainLogRestart_wellPosed [(Snapshot.snapshotName 4, fun _ => 0.4)] 4 (fun _ => 0.4)
  ⟨rfl, by simp [Snapshot.load], Or.inl ⟨by norm_num, rfl⟩⟩ (by norm_num) (by simp [logOf, chainRestart, chainRun])
  (fun e _ => Or.inr (by norm_num [logOf, chainRestart, chainRun])) (.steps 3) (by rintro n h; cases h; norm_num)

end
end Verif.Run
