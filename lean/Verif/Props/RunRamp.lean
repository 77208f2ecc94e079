import Verif.Lemmas.RunRamp
import Verif.Props.RunHeatNan
import Verif.Props.RunLog
import Verif.Props.FinalMesh

/-! C109: whole runs with `interpolation="RAMP"`. -/
namespace Verif.Run
open Verif Verif.Sched Verif.Spec Verif.Driver

variable {ι E Q : Type} [Fintype ι] [Fintype E] [Fintype Q] {d m : ℕ}

noncomputable section
open Classical

/-- **C109.** The configured name selects the law: "SIMP" gives the runs of C78–C81 and C94–C95, any name but "SIMP" and "RAMP" is
rejected when the optimizer is built. -/
theorem C109_law_selected (R : Setup ι E Q d m) (L : LogSetup ι E Q d m) :
    sysFor R "SIMP" = .ok (sys R) ∧ logSysFor L "SIMP" = .ok (logSys L) ∧ (∃ S, sysFor R "RAMP" = .ok S) ∧ (∃ S, logSysFor L "RAMP" = .ok S) ∧
    ∀ name, name ≠ "SIMP" → name ≠ "RAMP" → sysFor R name = .error .valueError ∧ logSysFor L name = .error .valueError := by
  refine ⟨?_, ?_, ⟨_, rfl⟩, ⟨_, rfl⟩, fun name h1 h2 => ?_⟩
  · unfold sysFor
    rw [(Props.C26_interpolation_selection "SIMP").1]
    rfl
  · unfold logSysFor
    rw [(Props.C26_interpolation_selection "SIMP").1]
    rfl
  · unfold sysFor logSysFor
    rw [(Props.C26_interpolation_selection name).2.2 h1 h2]
    exact ⟨rfl, rfl⟩

/-- **C109.** A well-posed OC run with the RAMP law and either the default filter or penalties `p ≤ 1` works, as in C78 and C80: no call
raises, densities stay admissible, and the run is the documented algorithm with the RAMP law and the sensitivities of the code. Missing from
the English claim: the spatial filter with larger penalties, for which `C109_nan_run` shows it to be false. -/
theorem C109_ramp_run_partial (R : Setup ι E Q d m) (h : WellPosed R) (hs : R.nodal ≠ none ∨ ∀ k p, Scheduled R.toCommon R.cP k (some p) → p ≤ 1)
    (hnr : R.restart = false) (files : List (Snapshot.Name × (E → ℝ))) (cs : List Call) :
    ∃ S o, sysFor R "RAMP" = .ok S ∧ runCalls S cs (newRun R.toCommon files) = (o, .ok ()) ∧
      (o.started = true →
        (∀ e ∈ R.design, R.rhoMin ≤ o.world.rho e ∧ ((∃ s, R.pinned = some s ∧ e ∉ s) → o.world.rho e ≤ R.rhoMax)) ∧
        (∀ s, R.pinned = some s → ∀ e ∈ s, o.world.rho e = 1) ∧
        1 ≤ o.iterNext ∧ o.iterNext ≤ R.maxIters + 1 ∧
        o.world.aux.log.map Rec.iter = List.range' 1 (o.iterNext - 1) ∧
        (∀ r ∈ o.world.aux.log, 0 ≤ r.compliance ∧
          ∃ ml, valueOf (.ok { R.cMoveLimit with itersMax := some (R.maxIters : ℤ) }) r.iter = .ok (some ml) ∧
            0 ≤ r.rhoChange ∧ r.rhoChange ≤ ml) ∧
        ∃ rho0 rs, InitialDensities R.toCommon rho0 ∧ Reached (RampIteration R) rho0 0 [] o.world.rho rs o.world.aux.log) ∧
      (o.completed = true → o.iterNext = R.maxIters + 1 ∨
        (R.checkConvergence = true ∧ ∃ r, o.world.aux.log.getLast? = some r ∧ r.rhoChange < R.tolRho ∧ |r.kkt| < R.tolKkt)) := by
  obtain ⟨o, h1, h2, h3⟩ := well_posed_by h.toBasics (ramp_computes h hs) hnr files cs
  obtain ⟨o', h4, h5⟩ := refines_by h.toBasics (ramp_computes h hs) hnr files cs
  have : o' = o := by rw [h1] at h4; exact (Prod.mk.inj h4).1.symm
  subst this
  refine ⟨_, o', rfl, h1, fun hst => ?_, h3⟩
  obtain ⟨a1, a2, a3, a4, a5, a6⟩ := h2 hst
  exact ⟨a1, a2, a3, a4, a5, a6, (h5 hst).2⟩

/-- **C109.** A well-posed LogMOC run with the RAMP law works with either filter and any penalty. -/
theorem C109_ramp_logmoc (L : LogSetup ι E Q d m) (h : LogWellPosed L) (hnr : L.restart = false)
    (files : List (Snapshot.Name × (E → ℝ))) (cs : List Call) :
    ∃ S o rho0, logSysFor L "RAMP" = .ok S ∧ runCalls S cs (newLogRun L.common files) = (o, .ok ()) ∧
      (o.started = true →
        (∀ e ∈ L.design, L.rhoMin ≤ o.world.rho e ∧ ((∃ s, L.pinned = some s ∧ e ∉ s) → o.world.rho e ≤ L.rhoMax)) ∧
        o.world.aux.log.map LogRec.iter = List.range' 1 (o.iterNext - 1) ∧ InitialDensities L.toCommon rho0 ∧
        ∀ lam0 rs0, ∃ lam rs, LogReached (RampLogIteration L) rho0 lam0 rs0 [] o.world.rho lam rs o.world.aux.log) := by
  obtain ⟨o, h1, h2, -⟩ := log_well_posed_by h.toBasics (rampLog_computes h) hnr files cs
  obtain ⟨o', rho0, h4, h5⟩ := log_refines_by h.toBasics (rampLog_computes h) hnr files cs
  have : o' = o := by rw [h1] at h4; exact (Prod.mk.inj h4).1.symm
  subst this
  refine ⟨_, o', rho0, rfl, h1, fun hst => ?_⟩
  exact ⟨(h2 hst).1, h5 hst⟩

/-- **C109.** OC with the RAMP law and a fractional exponent `eta` (the default is 0.5): if the sensitivity of the first iteration,
computed from the equilibrium of the initial design, is positive at some design element, every call that iterates computes NaN densities in
iteration 1 (`.nan` marks them; the code raises nothing). -/
theorem C109_positive_sensitivity_nan (R : Setup ι E Q d m) (h : WellPosed R) (hnr : R.restart = false)
    (heta : ∀ v, AllScheduled R.toCommon 1 v → ¬ ∃ z : ℤ, (z : ℝ) = v.eta)
    (hpos : ∀ v rho (u : Fin m → ι → ℝ), AllScheduled R.toCommon 1 v → InitialDensities R.toCommon rho →
      (∀ e, 0 ≤ physical R.toCommon v rho e ∧ physical R.toCommon v rho e ≤ 1) →
      (∀ j, Displaced R (fun e => rampYoung R v.p (physical R.toCommon v rho e)) (fun i => R.loads j i * v.neumannScale) (u j)) →
      (∀ j e, 0 ≤ innerWork R (fun e => rampYoung R v.p (physical R.toCommon v rho e)) (u j) (u j) e) →
      ∃ e ∈ R.design, 0 < rampGradient R v rho u e)
    (files : List (Snapshot.Name × (E → ℝ))) (c : Call) (hc : ∀ n, c = .steps n → 0 < n) :
    ∃ S o, sysFor R "RAMP" = .ok S ∧ c.run S (newRun R.toCommon files) = (o, .error .nan) ∧ InitialDensities R.toCommon o.world.rho ∧
      o.world.files = files ∧ o.world.trace = [1] := by
  obtain ⟨o, ho⟩ := nan_by h.toBasics h.toOCRules (response := responseWith R Material.ramp Material.dCRamp) (fun v hv rho hrho hbox =>
    ⟨heta v hv.all, by
      obtain ⟨c, cols, h1, h2, u, u1, u2, u3, u4⟩ := rampResponse_ok h.toSound hv.p (physical R.toCommon v rho)
        fun e => physical_range h.toBasics hv hbox e
      refine ⟨c, cols, h1, ?_⟩
      rw [u4]
      exact hpos v rho u hv.all hrho (fun e => physical_range h.toBasics hv hbox e) u1 u2⟩) hnr files c hc
  exact ⟨_, o, rfl, ho⟩

/-! ### A run that computes NaN: from solid to 40 percent, penalty 3, spatial filter -/

/-- The chain, starting from volume fraction 1. -/
def chainSolid : Setup (Fin 4) (Fin 3) (Fin 1) 1 2 := { chainRun with
  cP := { initValue := some 3, targetValue := some 3 }
  cVolFrac := { initValue := some 1, targetValue := some 0.4, numSteps := some 4, schedType := "Step" }
  cBeta := { initValue := some 2, targetValue := some 2 } }

theorem chainSolid_wellPosed : WellPosed chainSolid :=
  let h := chainRun_wellPosed
  { h with
    p := ⟨⟨chainSolid.cP, rfl⟩, by simp [chainSolid], by simp [chainSolid], by simp [chainSolid], by
      simp only [chainSolid]; rintro x (h | h) <;> simp only [Option.some.injEq] at h <;> subst h <;> simp⟩
    volFrac := ⟨⟨chainSolid.cVolFrac, rfl⟩, by simp [chainSolid], by simp [chainSolid], by simp [chainSolid], by simp⟩
    beta := ⟨⟨chainSolid.cBeta, rfl⟩, by simp [chainSolid], by simp [chainSolid], by simp [chainSolid], by
      simp only [chainSolid]; rintro x (h | h) <;> simp only [Option.some.injEq] at h <;> subst h <;> simp⟩
    nodal := by simp [chainSolid, chainRun] }

theorem chain_strain (u : Fin 4 → ℝ) (e : Fin 3) (q : Fin 1) : strain chainSolid u e q = Matrix.of fun _ _ => u e.succ - u e.castSucc := by
  ext a b
  unfold strain
  have hfe : chainSolid.fe = chain := rfl
  simp only [Matrix.of_apply, hfe, chain]
  fin_cases e <;> simp [Fin.sum_univ_four] <;> ring

theorem chain_work (Em : Fin 3 → ℝ) (u w : Fin 4 → ℝ) (e : Fin 3) : innerWork chainSolid Em u w e =
    (0.3 / (1.3 * 0.4) + 1 / 1.3) * Em e * ((u e.succ - u e.castSucc) * (w e.succ - w e.castSucc)) := by
  unfold innerWork stressWork
  simp only [chain_strain]
  have h1 : chainSolid.nu = 0.3 := rfl
  have h2 : ∀ q, chainSolid.fe.dx e q = 1 := fun _ => rfl
  simp only [h1, h2, Fin.sum_univ_one, Matrix.trace, Matrix.diag, Matrix.of_apply, Finset.univ_unique, Finset.sum_singleton]
  norm_num
  ring

/-- The load passes through every element. -/
theorem chain_loaded {Em : Fin 3 → ℝ} (hE : ∀ e, 0 < Em e) {F : ℝ} (hF : F ≠ 0) {f u : Fin 4 → ℝ} (hf : ∀ i, f i = if i = 3 then F else 0)
    (hu : Displaced chainSolid Em f u) (e : Fin 3) : 0 < innerWork chainSolid Em u u e := by
  have hd : chainSolid.dirichlet = {0} := rfl
  have key := hu.2 (fun i => if i ≤ e.castSucc then 0 else 1) (by rw [hd]; simp)
  have h2 : ∑ i, f i * (if i ≤ e.castSucc then (0 : ℝ) else 1) = F := by
    rw [Finset.sum_eq_single 3]
    · rw [hf, if_pos rfl, if_neg (by fin_cases e <;> simp <;> decide), mul_one]
    · intro b _ hb; rw [hf, if_neg hb, zero_mul]
    · simp
  have h1 : ∑ e', innerWork chainSolid Em u (fun i => if i ≤ e.castSucc then (0 : ℝ) else 1) e' =
      (0.3 / (1.3 * 0.4) + 1 / 1.3) * Em e * (u e.succ - u e.castSucc) := by
    simp only [chain_work, Fin.sum_univ_three]
    fin_cases e <;> simp [Fin.le_def, Fin.succ, Fin.castSucc, Fin.castAdd, Fin.castLE]
  rw [h1, h2] at key
  rw [chain_work]
  have hne : u e.succ - u e.castSucc ≠ 0 := by
    intro h0
    rw [h0, mul_zero] at key
    exact hF key.symm
  have := hE e
  have := mul_self_pos.mpr hne
  positivity

/-- **C109.** NaN densities happen: a well-posed OC run with the RAMP law, the spatial filter and a volume fraction that starts from
solid, in which no call that iterates gets beyond the first iteration. (The same configuration works with SIMP, by C78.) -/
theorem C109_nan_run : WellPosed chainSolid ∧ chainSolid.nodal = none ∧
    ∀ (files : List (Snapshot.Name × (Fin 3 → ℝ))) (c : Call), (∀ n, c = .steps n → 0 < n) →
      ∃ S o, sysFor chainSolid "RAMP" = .ok S ∧ c.run S (newRun chainSolid.toCommon files) = (o, .error .nan) ∧ o.world.trace = [1] := by
  refine ⟨chainSolid_wellPosed, rfl, fun files c hc => ?_⟩
  have key : ∀ {x y : ℝ}, (Except.ok (some x) : Res (Option ℝ)) = .ok (some y) → x = y := by
    intro x y h
    injection h with h
    injection h
  have hinst : instDecidableEqFin 3 = fun a b => propDecidable (a = b) := Subsingleton.elim _ _
  rw [hinst]
  refine (C109_positive_sensitivity_nan chainSolid chainSolid_wellPosed rfl ?_ ?_ files c hc).imp fun S => Exists.imp fun o h => ⟨h.1, h.2.1, h.2.2.2.2⟩
  · rintro v hv ⟨z, hz⟩
    have he : (0.6 : ℝ) = v.eta := key (hv.eta rfl)
    rw [← he] at hz
    have h5 : (5 * z : ℝ) = 3 := by rw [hz]; norm_num
    have h6 : 5 * z = 3 := by exact_mod_cast h5
    omega
  · intro v rho u hv hrho hbox hu hw
    have hp : (3 : ℝ) = v.p := key hv.p
    have hb : (2 : ℝ) = v.beta := key hv.beta
    have hr : (1.2 : ℝ) = v.radius := key hv.radius
    have hns : (1 : ℝ) = v.neumannScale := key hv.neumannScale
    have hr0 : 0 < v.radius := by rw [← hr]; norm_num
    have hR0 : ∀ e, rho e = 1 := by
      intro e
      obtain ⟨x, hx, h⟩ := hrho
      have hx' : (1 : ℝ) = x := by
        have : InitialValue chainSolid.cVolFrac x := hx
        unfold InitialValue at this
        rw [if_neg (by simp [chainSolid])] at this
        injection this
      rw [h e, ← hx']
      split_ifs
      · rfl
      · norm_num [chainSolid, chainRun]
    have hnod : chainSolid.toCommon.nodal = none := rfl
    have hblur : ∀ e, blur chainSolid.toCommon v.radius rho e = 1 := by
      intro e
      unfold blur
      rw [hnod]
      simp only [hR0, mul_one]
      split_ifs with he
      · exact share_sum hr0 he
      · rfl
    have hphys : ∀ e, 2 / 3 < physical chainSolid.toCommon v rho e := by
      intro e
      unfold physical threshold
      rw [hblur, ← hb, show chainSolid.betaEta = 1 / 2 from rfl]
      have ht := half_lt_tanh (x := 2 * (1 / 2)) (by norm_num)
      have ht' : Real.tanh (2 * (1 - 1 / 2)) = Real.tanh (2 * (1 / 2)) := by norm_num
      rw [ht', lt_div_iff₀ (by positivity)]
      have h12 : (1 : ℝ) / 10 ^ 12 ≤ 1 / 10 := by norm_num
      linarith
    have hE : ∀ e, 0 < rampYoung chainSolid v.p (physical chainSolid.toCommon v rho e) := fun e =>
      rampYoung_pos chainSolid_wellPosed.toSound (by rw [← hp]; norm_num) (hbox e).1 (hbox e).2
    have hcol : ∀ (j : Fin 2) (e : Fin 3), 0 < rampSlope chainSolid v.p (physical chainSolid.toCommon v rho e)
        (innerWork chainSolid (fun e => rampYoung chainSolid v.p (physical chainSolid.toCommon v rho e)) (u j) (u j) e / 2) := by
      intro j e
      have hU := chain_loaded hE (F := if j = 0 then 1 else 2) (by split_ifs <;> norm_num)
        (f := fun i => chainSolid.loads j i * v.neumannScale) (fun i => by
          rw [← hns]
          show (if i = 3 then (if j = 0 then (1 : ℝ) else 2) else 0) * 1 = _
          rw [mul_one]) (hu j) e
      refine rampSlope_pos chainSolid_wellPosed.toSound (by norm_num [chainSolid, chainRun]) (by rw [← hp]; norm_num) (by linarith) (hbox e).2 ?_
      have := hphys e
      rw [← hp]
      linarith
    refine ⟨0, by simp [chainSolid, chainRun], ?_⟩
    unfold rampGradient chained
    have hsf : chainSolid.toCommon.sensFilter = false := rfl
    simp only [hsf, Bool.false_eq_true, if_false]
    refine div_pos (Finset.sum_pos (fun j _ => ?_) ⟨0, Finset.mem_univ _⟩) (by norm_num)
    have h0d : (0 : Fin 3) ∈ chainSolid.toCommon.design := by simp [chainSolid, chainRun]
    have hts : ∀ e, 0 < thresholdSlope v.beta chainSolid.toCommon.betaEta (blur chainSolid.toCommon v.radius rho e) := by
      intro e
      unfold thresholdSlope
      rw [hblur, ← hb, show chainSolid.toCommon.betaEta = 1 / 2 from rfl]
      have ht := half_lt_tanh (x := 2 * (1 / 2)) (by norm_num)
      have ht' := half_lt_tanh (x := 2 * (1 - 1 / 2)) (by norm_num)
      have := Real.cosh_pos (2 * (1 - 1 / 2))
      positivity
    unfold blurT
    rw [hnod]
    simp only
    rw [if_pos h0d]
    refine Finset.sum_pos' (fun i _ => mul_nonneg (share_nonneg ..) (mul_pos (hcol j i) (hts i)).le) ⟨0, h0d, ?_⟩
    refine mul_pos ?_ (mul_pos (hcol j 0) (hts 0))
    unfold share
    have hbell : 0 < bell chainSolid.toCommon v.radius 0 0 := by
      unfold bell
      rw [dist_self, if_pos hr0.le]
      exact Real.exp_pos _
    refine div_pos hbell (Finset.sum_pos' (fun k _ => ?_) ⟨0, h0d, hbell⟩)
    unfold bell
    split_ifs
    exacts [(Real.exp_pos _).le, le_rfl]

/-- Non-vacuity: the default filter with penalties up to 3, and a spatial filter with `p = 1`. -/
example := C109_ramp_run_partial chainHelmholtz chainHelmholtz_wellPosed (Or.inl (by simp [chainHelmholtz])) rfl [] [.steps 3, .optimize]

example := C109_ramp_logmoc (logOf chainRun) chainLog_wellPosed rfl [] [.steps 3, .optimize]

end
end Verif.Run
