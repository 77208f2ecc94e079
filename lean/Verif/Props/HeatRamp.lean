import Verif.Lemmas.RunHeatRamp
import Verif.Lemmas.HeatDeriv
import Verif.Props.RunHeat
import Verif.Props.RunHeatEx

/-! C159: whole runs on a heat task with `interpolation="RAMP"`. -/
namespace Verif.Run
open Verif Verif.Sched Verif.Spec Verif.Driver Verif.Heat

variable {ι Q : Type} [Fintype ι] [Fintype Q] {d nE k : ℕ}

noncomputable section
open Classical

/-- **C159.** The configured name selects the law: "SIMP" gives the runs of C100–C102, any name but "SIMP" and "RAMP" is rejected when the
optimizer is built. -/
theorem C159_law_selected (R : HeatSetup ι Q d nE k) (L : HeatLogSetup ι Q d nE k) :
    heatSysFor R "SIMP" = .ok (heatSys R) ∧ heatLogSysFor L "SIMP" = .ok (heatLogSys L) ∧
    (∃ S, heatSysFor R "RAMP" = .ok S) ∧ (∃ S, heatLogSysFor L "RAMP" = .ok S) ∧
    ∀ name, name ≠ "SIMP" → name ≠ "RAMP" → heatSysFor R name = .error .valueError ∧ heatLogSysFor L name = .error .valueError := by
  refine ⟨?_, ?_, ⟨_, rfl⟩, ⟨_, rfl⟩, fun name h1 h2 => ?_⟩
  · unfold heatSysFor
    rw [(Props.C26_interpolation_selection "SIMP").1]
    rfl
  · unfold heatLogSysFor
    rw [(Props.C26_interpolation_selection "SIMP").1]
    rfl
  · unfold heatSysFor heatLogSysFor
    rw [(Props.C26_interpolation_selection name).2.2 h1 h2]
    exact ⟨rfl, rfl⟩

/-- **C159.** A well-posed OC run on a heat task works with the RAMP law as it does with SIMP (C100, C101) — for every penalty and filter,
unlike on elasticity tasks (C109): no call raises, the task is left as it was, iterations are consecutive, densities stay admissible, changes
stay below the scheduled move limit, the recorded compliance is not negative, and the run is the documented algorithm with the heat balance
of the RAMP conductivities. Missing from the English claim: that the sensitivities are those of the RAMP law (`C159_solid_slope` shows that
they are not). -/
theorem C159_ramp_run_partial (R : HeatSetup ι Q d nE k) (h : HeatWellPosed R) (hnr : R.restart = false)
    (files : List (Snapshot.Name × (Fin nE → ℝ))) (cs : List Call) :
    ∃ S o, heatSysFor R "RAMP" = .ok S ∧ runCalls S cs (newHeatRun R files) = (o, .ok ()) ∧ o.world.aux.2 = R.task ∧
      (o.started = true →
        (∀ e ∈ R.design, R.rhoMin ≤ o.world.rho e ∧ ((∃ s, R.pinned = some s ∧ e ∉ s) → o.world.rho e ≤ R.rhoMax)) ∧
        (∀ s, R.pinned = some s → ∀ e ∈ s, o.world.rho e = 1) ∧
        1 ≤ o.iterNext ∧ o.iterNext ≤ R.maxIters + 1 ∧
        o.world.aux.1.log.map Rec.iter = List.range' 1 (o.iterNext - 1) ∧
        (∀ r ∈ o.world.aux.1.log, (R.task.objective = .compliance → 0 ≤ r.compliance) ∧
          ∃ ml, valueOf (.ok { R.cMoveLimit with itersMax := some (R.maxIters : ℤ) }) r.iter = .ok (some ml) ∧
            0 ≤ r.rhoChange ∧ r.rhoChange ≤ ml) ∧
        ∃ rho0 rs, InitialDensities R.toCommon rho0 ∧ Reached (RampHeatIteration R) rho0 0 [] o.world.rho rs o.world.aux.1.log) ∧
      (o.completed = true → o.iterNext = R.maxIters + 1 ∨
        (R.checkConvergence = true ∧ ∃ r, o.world.aux.1.log.getLast? = some r ∧ r.rhoChange < R.tolRho ∧ |r.kkt| < R.tolKkt)) := by
  obtain ⟨o, h1, h2, h3⟩ := well_posed_by h.toBasics (ramp_heat_computes h) hnr files cs
  obtain ⟨o', h4, h5⟩ := refines_by h.toBasics (ramp_heat_computes h) hnr files cs
  have : o' = o := by rw [h1] at h4; exact (Prod.mk.inj h4).1.symm
  subst this
  refine ⟨_, _, rfl, ramp_heat_run h.toHeatSound h1, rfl, fun hst => ?_, h3⟩
  obtain ⟨a1, a2, a3, a4, a5, a6⟩ := h2 hst
  exact ⟨a1, a2, a3, a4, a5, a6, (h5 hst).2⟩

/-- **C159.** The same for a restarted OC run: iterations `n + 1, …` appended to the stored histories, from the saved densities. -/
theorem C159_ramp_restarted_partial (R : HeatSetup ι Q d nE k) (h : HeatWellPosed R) (files : List (Snapshot.Name × (Fin nE → ℝ))) (n : ℕ)
    (data : Fin nE → ℝ) (hres : Resumes R.toCommon files n data) (hn : n ≤ R.maxIters)
    (hdata : ∀ e ∈ R.design, Pinned R.toCommon e ∨ R.rhoMin ≤ data e ∧ data e ≤ R.rhoMax) (cs : List Call) :
    ∃ S o, heatSysFor R "RAMP" = .ok S ∧ runCalls S cs (newHeatRun R files) = (o, .ok ()) ∧
      (o.started = true →
        n + 1 ≤ o.iterNext ∧ o.iterNext ≤ R.maxIters + 1 ∧
        (∃ new, o.world.aux.1.log = R.saved.getD [] ++ new ∧ new.map Rec.iter = List.range' (n + 1) (o.iterNext - (n + 1)) ∧
          ∀ r ∈ new, R.task.objective = .compliance → 0 ≤ r.compliance) ∧
        (∃ rs, Reached (RampHeatIteration R) (resumed R.toCommon data) 0 (R.saved.getD []) o.world.rho rs o.world.aux.1.log) ∧
        ∀ e ∈ R.design, Pinned R.toCommon e ∧ o.world.rho e = 1 ∨ R.rhoMin ≤ o.world.rho e ∧ o.world.rho e ≤ R.rhoMax) := by
  obtain ⟨o, ho, h1, -⟩ := restarted_by h.toBasics (ramp_heat_computes h) files n data hres hn hdata cs
  exact ⟨_, _, rfl, ramp_heat_run h.toHeatSound ho, h1⟩

/-- **C159.** A well-posed LogMOC run on a heat task works with the RAMP law (C102). -/
theorem C159_ramp_logmoc_partial (L : HeatLogSetup ι Q d nE k) (h : HeatLogWellPosed L) (hnr : L.restart = false)
    (files : List (Snapshot.Name × (Fin nE → ℝ))) (cs : List Call) :
    ∃ S o rho0, heatLogSysFor L "RAMP" = .ok S ∧ runCalls S cs (newHeatLogRun L files) = (o, .ok ()) ∧ o.world.aux.2 = L.task ∧
      (o.started = true →
        (∀ e ∈ L.design, L.rhoMin ≤ o.world.rho e ∧ ((∃ s, L.pinned = some s ∧ e ∉ s) → o.world.rho e ≤ L.rhoMax)) ∧
        (∀ r ∈ o.world.aux.1.log, (L.task.objective = .compliance → 0 ≤ r.compliance) ∧
          (L.lambdaLower ≤ r.lambdaV ∧ r.lambdaV ≤ L.lambdaUpper)) ∧
        o.world.aux.1.log.map LogRec.iter = List.range' 1 (o.iterNext - 1) ∧ InitialDensities L.toCommon rho0 ∧
        ∀ lam0 rs0, ∃ lam rs, LogReached (RampHeatLogIteration L) rho0 lam0 rs0 [] o.world.rho lam rs o.world.aux.1.log) := by
  obtain ⟨o, h1, h2, -⟩ := log_well_posed_by (L := L.common) h.toBasics (ramp_heatLog_computes h) hnr files cs
  obtain ⟨o', rho0, h4, h5⟩ := log_refines_by (L := L.common) h.toBasics (ramp_heatLog_computes h) hnr files cs
  have : o' = o := by rw [h1] at h4; exact (Prod.mk.inj h4).1.symm
  subst this
  refine ⟨_, _, rho0, rfl, ramp_heatLog_run h.toHeatSound h1, rfl, fun hst => ?_⟩
  obtain ⟨a1, a2, a3, a4, a5, a6⟩ := h2 hst
  exact ⟨a1, fun r hr => ⟨(a6 r hr).1, (a6 r hr).2.1⟩, h5 hst⟩

/-- **C159.** The sensitivities of a run with the RAMP law are not those of the RAMP law: where the material is solid, they are the fraction
`p / (1 + p)` of the derivative of the (negative) conduction energy at fixed temperatures, half of it for `p = 1`. -/
theorem C159_solid_slope (T : Task ι Q d nE k) (hs : T.objective = .compliance → T.robin = none) (hk : 1 / 10 ^ 12 ≤ T.k)
    (c p : ℝ) (hp : 0 ≤ p) (rho : Fin nE → ℝ) (e : Fin nE) (he : rho e = 1) (u : ι → ℝ) (s : ℝ)
    (hder : HasDerivAt (fun x => -(rampConductivity T c p x * ∑ y, (∑ a, Spec.Heat.slope T.fe u e y a ^ 2) * T.fe.dx e y)) s 1) :
    T.sensitivity Material.ramp c rho p u e = p / (1 + p) * s ∧
    (c < 1 → (∑ y, (∑ a, Spec.Heat.slope T.fe u e y a ^ 2) * T.fe.dx e y) ≠ 0 → T.sensitivity Material.ramp c rho p u e ≠ s) := by
  obtain ⟨W, hW⟩ : ∃ W, W = ∑ y, (∑ a, Spec.Heat.slope T.fe u e y a ^ 2) * T.fe.dx e y := ⟨_, rfl⟩
  have hk0 : 0 < T.k := lt_of_lt_of_le (by norm_num) hk
  have hp1 : (1 + p) ≠ 0 := by linarith
  have hs' : s = -((T.k - T.k * c) * (1 + p) * W) := by
    refine hder.unique ?_
    rw [← hW]
    have h1 : HasDerivAt (fun x : ℝ => 1 + p * (1 - x)) (-p) 1 := by
      have := (((hasDerivAt_id (1 : ℝ)).const_sub 1).const_mul p).const_add 1
      simpa using this
    have h2 := (hasDerivAt_id (1 : ℝ)).div h1 (by norm_num)
    have h3 := (((h2.const_mul (T.k - T.k * c)).const_add (T.k * c)).mul_const W).neg
    refine h3.congr_deriv ?_
    simp
  have hsens : T.sensitivity Material.ramp c rho p u e = -(p * (T.k - T.k * c) * W) := by
    have hen : energy T.fe (T.ke Material.ramp c rho p) u e = T.k * W / 2 := by
      unfold energy
      rw [hW, Finset.mul_sum, Finset.sum_div]
      refine Finset.sum_congr rfl fun q _ => ?_
      have : dot (gradAt T.fe u e q) (gradAt T.fe u e q) = ∑ a, Spec.Heat.slope T.fe u e q a ^ 2 :=
        Finset.sum_congr rfl fun a _ => (sq _).symm
      rw [this, rampConductivity_eq]
      simp only [rampConductivity, he]
      norm_num
      ring
    have hbase : Material.dCSimp (rho e) (energy T.fe (T.ke Material.ramp c rho p) u e) T.k (T.k * c) p = -(p * (T.k - T.k * c) * W) := by
      rw [heatSlope_eq, hen, he]
      unfold slopeOf
      have hm : max (1 : ℝ) (1 / 10 ^ 6) = 1 := max_eq_left (by norm_num)
      rw [hm, Real.one_rpow, Real.one_rpow]
      have hm2 : max (T.k * c + (T.k - T.k * c) * 1) (1 / 10 ^ 12 : ℝ) = T.k := by
        rw [show T.k * c + (T.k - T.k * c) * 1 = T.k by ring]
        exact max_eq_left hk
      rw [hm2]
      field_simp
    unfold Task.sensitivity
    simp only [hbase]
    rcases ho : T.objective with _ | _ | _ <;> rcases hr : T.robin with _ | ⟨hh, Tenv⟩ <;> simp only
    rw [hs ho] at hr
    cases hr
  rw [← hW, hsens, hs']
  refine ⟨by field_simp, fun hc hW0 heq => ?_⟩
  have : (T.k - T.k * c) * W = 0 := by linarith
  rcases mul_eq_zero.mp this with h | h
  · nlinarith
  · exact hW0 h

/-! ### Concrete cases -/

example := C159_ramp_run_partial (rodsRun .heatExchange) (rodsRun_wellPosed _ (by simp)) rfl [] [.steps 3, .optimize]

/-- Solid rods with the temperatures 0, 1, 2 at their ends and `p = 3`: the sensitivity of the first rod is three quarters of the derivative
of its conduction energy. -/
example (s : ℝ)
    (hder : HasDerivAt (fun x => -(rampConductivity rodsTask (1 / 1000) 3 x *
      ∑ y, (∑ a, Spec.Heat.slope rods ![0, 1, 2] 0 y a ^ 2) * rods.dx 0 y)) s 1) :
    rodsTask.sensitivity Material.ramp (1 / 1000) (fun _ => 1) 3 ![0, 1, 2] 0 = 3 / (1 + 3) * s ∧
    rodsTask.sensitivity Material.ramp (1 / 1000) (fun _ => 1) 3 ![0, 1, 2] 0 ≠ s := by
  have := C159_solid_slope rodsTask (by simp [rodsTask]) (by norm_num [rodsTask]) (1 / 1000) 3 (by norm_num) (fun _ => 1) 0 rfl ![0, 1, 2] s hder
  refine ⟨this.1, this.2 (by norm_num) ?_⟩
  simp [Spec.Heat.slope, rodsTask, rods, Fin.sum_univ_three, twoRods]

example := C159_ramp_restarted_partial (rodsRestart .averagedTemp) (rodsRestart_wellPosed _ (by simp)) [(Snapshot.snapshotName 4, fun _ => 0.4)] 4 (fun _ => 0.4)
  ⟨rfl, by simp [Snapshot.load], Or.inl ⟨by norm_num, rfl⟩⟩ (by simp [rodsRestart, rodsRun])
  (fun e _ => Or.inr (by norm_num [rodsRestart, rodsRun])) [.steps 3, .optimize]

example := C159_ramp_logmoc_partial (heatLogOf (rodsRun .averagedTemp)) (rodsLog_wellPosed _) rfl [] [.steps 3, .optimize]

end
end Verif.Run
