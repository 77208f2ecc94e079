import Verif.Props.RunHeatMore
import Verif.Props.RunHeatNan

/-! Concrete cases for C101–C105. -/
namespace Verif.Run
open Verif Verif.Sched Verif.Spec Verif.Driver Verif.Heat

noncomputable section
open Classical

/-- A LogMOC run on a heat task with everything optional switched on. -/
def heatLogOf {ι Q : Type} [Fintype ι] [Fintype Q] {d nE k : ℕ} (R : HeatSetup ι Q d nE k) : HeatLogSetup ι Q d nE k where
  toHeatSetup := R
  toLogOpts := (logOf chainRun).toLogOpts

theorem rodsLog_wellPosed (obj : Objective) : HeatLogWellPosed (heatLogOf (rodsRun obj)) where
  toHeatSound := rodsRun_sound obj
  percentages := (rodsRun_rules obj).percentages
  positive := by norm_num [heatLogOf, rodsRun]
  range := by norm_num [heatLogOf, rodsRun]
  floor := by norm_num [heatLogOf, logOf]
  lagPercentile := by norm_num [heatLogOf, logOf]
  chainPercentile := by norm_num [heatLogOf, logOf]

/-- C102, also for the run on which OC computes NaN. -/
example := C102_well_posed_run (heatLogOf (rodsRun .compliance)) (rodsLog_wellPosed _) rfl [] [.steps 3, .optimize]
example := C102_run_refines_algorithm (heatLogOf (rodsRun .heatExchange)) (rodsLog_wellPosed _) rfl [] [.optimize]

theorem hotLog_wellPosed : HeatLogWellPosed (heatLogOf hotRods) where
  toHeatSound := hotRods_sound
  percentages := hotRods_rules.percentages
  positive := by norm_num [heatLogOf, rodsRun, hotRods]
  range := by norm_num [heatLogOf, rodsRun, hotRods]
  floor := by norm_num [heatLogOf, logOf]
  lagPercentile := by norm_num [heatLogOf, logOf]
  chainPercentile := by norm_num [heatLogOf, logOf]

example := C102_well_posed_run (heatLogOf hotRods) hotLog_wellPosed rfl [] [.optimize]

/-- A heat run restarted from the snapshot of iteration 4. -/
def rodsRestart (obj : Objective) : HeatSetup (Fin 3) (Fin 1) 1 2 2 :=
  { rodsRun obj with restart := true, restartFrom := 4, saved := some ([1, 2, 3, 4].map fun k => ⟨k, 0.1, 1, 1, none, 1, 0⟩) }

theorem rodsRestart_sound (obj : Objective) : HeatSound (rodsRestart obj) :=
  let h := rodsRun_sound obj
  { h with nodal := by simp [rodsRestart, rodsRun] }

theorem rodsRestart_wellPosed (obj : Objective) (ho : obj ≠ .compliance) : HeatWellPosed (rodsRestart obj) :=
  { toHeatSound := rodsRestart_sound obj
    toOCRules := { rodsRun_rules obj with }
    sign := fun h => absurd h ho }

example := C101_restarted_run (rodsRestart .averagedTemp) (rodsRestart_wellPosed _ (by simp)) [(Snapshot.snapshotName 4, fun _ => 0.4)] 4 (fun _ => 0.4)
  ⟨rfl, by simp [Snapshot.load], Or.inl ⟨by norm_num, rfl⟩⟩ (by simp [rodsRestart, rodsRun])
  (fun e _ => Or.inr (by norm_num [rodsRestart, rodsRun])) [.steps 3, .optimize]

example := C102_restarted_run_raises { heatLogOf (rodsRestart .compliance) with savedLog := some [] }
  { rodsLog_wellPosed .compliance with
    toHeatSound := rodsRestart_sound .compliance }
  [(Snapshot.snapshotName 4, fun _ => 0.4)] 4 (fun _ => 0.4)
  ⟨rfl, by simp [Snapshot.load], Or.inl ⟨by norm_num, rfl⟩⟩ (by norm_num) (by simp [rodsRestart, rodsRun, heatLogOf])
  (fun e _ => Or.inr (by norm_num [rodsRestart, rodsRun, heatLogOf])) .optimize (by simp)

/-- A load scale that grows to 1 in four steps. -/
def grows : Config := { initValue := some (1 / ((4 : ℤ) : ℝ)), targetValue := some 1, numSteps := some 4, schedType := "StepToOne" }

theorem rodsAim_sound (obj obj' : Objective) (w : ℝ) : HeatSound ((rodsRun obj).aim grows obj' w) :=
  let h := rodsRun_sound obj
  { h with
    neumannScale := ⟨⟨{ grows with initValue := none, targetValue := none }, by simp [fromDefaults, toOneBranch, grows]⟩, by simp [grows], by simp [grows], by simp [grows], by simp⟩
    neumannType := by simp [grows]
    built := ⟨((rodsRun obj).aim grows obj' w).task, by
      unfold Task.build HeatSetup.aim Task.aim rodsRun rodsTask
      simp only [assembleRobin_one, Except.map]
      rfl⟩
    robin := by simp [rodsRun, rodsTask]
    nodal := by simp [rodsRun] }

theorem rodsAim_wellPosed (obj obj' : Objective) (ho : obj' ≠ .compliance) (w : ℝ) : HeatWellPosed ((rodsRun obj).aim grows obj' w) :=
  { toHeatSound := rodsAim_sound obj obj' w
    toOCRules := { rodsRun_rules obj with }
    sign := fun h => absurd h ho }

example := C104_same_designs (rodsRun .heatExchange) grows .averagedTemp 7 (rodsRun_wellPosed _ (by simp)) (rodsAim_wellPosed _ _ (by simp) 7)
  (Or.inl (by simp [rodsRun])) [] (Or.inl rfl) [.optimize]

theorem rodsAimLog_wellPosed (obj obj' : Objective) (w : ℝ) : HeatLogWellPosed ((heatLogOf (rodsRun obj)).aim grows obj' w) :=
  { rodsLog_wellPosed obj with
    toHeatSound := rodsAim_sound obj obj' w }

example := C104_same_designs_logmoc (heatLogOf (rodsRun .heatExchange)) grows .averagedTemp 7 (rodsLog_wellPosed _) (rodsAimLog_wellPosed _ _ 7)
  (Or.inl (by simp [rodsRun, heatLogOf])) rfl [] [.optimize]

/-- No Robin boundaries. -/
def coldRods : HeatSetup (Fin 3) (Fin 1) 1 2 2 := { rodsRun .compliance with
  task := { rodsTask with
    objective := .compliance
    robin := none } }

theorem coldRods_wellPosed : HeatWellPosed coldRods :=
  let h := rodsRun_sound .compliance
  { h with
    toOCRules := { rodsRun_rules .compliance with }
    built := ⟨coldRods.task, by
      unfold Task.build coldRods rodsTask
      rfl⟩
    film := by simp [coldRods]
    robin := by simp [coldRods, rodsTask]
    nodal := by simp [coldRods, rodsRun]
    sign := by simp [coldRods] }

example := C105_no_robin_no_design coldRods coldRods_wellPosed rfl rfl
  (fun e q a => by fin_cases e <;> simp [coldRods, rodsTask, rods, Fin.sum_univ_three, twoRods])
  (by norm_num [coldRods, rodsRun])
  (fun n v hv => by
    have he : (Except.ok (some (0.6 : ℝ)) : Res (Option ℝ)) = .ok (some v.eta) := hv.eta rfl
    injection he with he
    injection he with he
    rw [← he]; norm_num) [] [.steps 2, .optimize]

example := C103_no_nan_partial (rodsRun .heatExchange) (rodsRun_sound _) (rodsRun_rules _) rfl (Or.inr (Or.inl (by simp [rodsRun]))) [] [.optimize]

end
end Verif.Run
