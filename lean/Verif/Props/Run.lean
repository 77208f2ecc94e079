import Verif.Lemmas.RunBy
/-!
C78: a complete OC run on a well-posed elasticity problem. No call raises, iterations are consecutive, the densities stay
admissible, every recorded change respects the move limit of its iteration, compliances are non-negative, and a run is
complete only after `max_iters` iterations or when the recorded numbers satisfy the tolerances.
-/
namespace Verif.Run
open Verif Verif.Sched Verif.Spec Verif.Driver

variable {ι E Q : Type} [Fintype ι] [Fintype E] [Fintype Q] {d m : ℕ}

theorem fin4_cases : ∀ n : Fin 4, n = 0 ∨ n = 1 ∨ n = 2 ∨ n = 3 := by decide

noncomputable section
open Classical

/-- **C78.** A well-posed run works: whatever calls of `optimize` and `optimize_steps` a program makes, in whatever
directory, none of them raises. Once the run has started, the histories have one line for each of the iterations
`1, …, iter_next - 1`, at most `max_iters`; every design element has a density in `[rho_min, rho_max]`, unless it is
pinned to 1; every line has a non-negative compliance and a largest density change at most the value of the configured
`move_limit` schedule at its iteration. A run is completed only after `max_iters` iterations or when convergence checking
is on and the last line is below both tolerances. -/
theorem C78_well_posed_run (R : Setup ι E Q d m) (h : WellPosed R) (hnr : R.restart = false)
    (files : List (Snapshot.Name × (E → ℝ))) (cs : List Call) :
    ∃ o, runCalls (sys R) cs (newRun R.toCommon files) = (o, .ok ()) ∧
      (o.started = true →
        (∀ e ∈ R.design, R.rhoMin ≤ o.world.rho e ∧ ((∃ s, R.pinned = some s ∧ e ∉ s) → o.world.rho e ≤ R.rhoMax)) ∧
        (∀ s, R.pinned = some s → ∀ e ∈ s, o.world.rho e = 1) ∧
        1 ≤ o.iterNext ∧ o.iterNext ≤ R.maxIters + 1 ∧
        o.world.aux.log.map Rec.iter = List.range' 1 (o.iterNext - 1) ∧
        ∀ r ∈ o.world.aux.log, 0 ≤ r.compliance ∧
          ∃ ml, valueOf (.ok { R.cMoveLimit with itersMax := some (R.maxIters : ℤ) }) r.iter = .ok (some ml) ∧
            0 ≤ r.rhoChange ∧ r.rhoChange ≤ ml) ∧
      (o.completed = true → o.iterNext = R.maxIters + 1 ∨
        (R.checkConvergence = true ∧ ∃ r, o.world.aux.log.getLast? = some r ∧ r.rhoChange < R.tolRho ∧ |r.kkt| < R.tolKkt)) :=
  well_posed_by h.toBasics (step_computes h) hnr files cs

/-- **C80.** Refinement: after any calls, the densities and the histories of a well-posed run are those of the documented
algorithm (`Verif.Spec.Trajectory`): one line for each iteration `1, …, iter_next - 1`, each of them the documented iteration
with the scheduled values of its number, applied to the densities the previous one left behind; the first one starts from the
initial volume fraction. -/
theorem C80_run_refines_algorithm (R : Setup ι E Q d m) (h : WellPosed R) (hnr : R.restart = false)
    (files : List (Snapshot.Name × (E → ℝ))) (cs : List Call) :
    ∃ o, runCalls (sys R) cs (newRun R.toCommon files) = (o, .ok ()) ∧
      (o.started = true → o.world.aux.log.map Rec.iter = List.range' 1 (o.iterNext - 1) ∧
        ∃ rho0 rs, InitialDensities R.toCommon rho0 ∧ Continues R rho0 0 [] o.world.rho rs o.world.aux.log) :=
  refines_by h.toBasics (step_computes h) hnr files cs

/-- **C81.** A well-posed restarted run works too. If the snapshot it finds is that of an iteration `k ≤ max_iters` with
admissible design densities, no call raises; the iterations executed are `k + 1, …, iter_next - 1`, appended to the stored
histories (if there are any); each is the documented iteration with the scheduled values of its number, the first one applied
to the saved densities and a running scale of zero; the box is respected. -/
theorem C81_restarted_run (R : Setup ι E Q d m) (h : WellPosed R) (files : List (Snapshot.Name × (E → ℝ))) (k : ℕ) (data : E → ℝ)
    (hres : Resumes R.toCommon files k data) (hk : k ≤ R.maxIters)
    (hdata : ∀ e ∈ R.design, Pinned R.toCommon e ∨ R.rhoMin ≤ data e ∧ data e ≤ R.rhoMax) (cs : List Call) :
    ∃ o, runCalls (sys R) cs (newRun R.toCommon files) = (o, .ok ()) ∧
      (o.started = true →
        k + 1 ≤ o.iterNext ∧ o.iterNext ≤ R.maxIters + 1 ∧
        (∃ new, o.world.aux.log = R.saved.getD [] ++ new ∧ new.map Rec.iter = List.range' (k + 1) (o.iterNext - (k + 1)) ∧
          ∀ r ∈ new, 0 ≤ r.compliance) ∧
        (∃ rs, Continues R (resumed R.toCommon data) 0 (R.saved.getD []) o.world.rho rs o.world.aux.log) ∧
        ∀ e ∈ R.design, Pinned R.toCommon e ∧ o.world.rho e = 1 ∨ R.rhoMin ≤ o.world.rho e ∧ o.world.rho e ≤ R.rhoMax) ∧
      (o.completed = true → o.iterNext = R.maxIters + 1 ∨
        (R.checkConvergence = true ∧ ∃ r, o.world.aux.log.getLast? = some r ∧ r.rhoChange < R.tolRho ∧ |r.kkt| < R.tolKkt)) :=
  restarted_by h.toBasics (step_computes h) files k data hres hk hdata cs

/-- **C78.** `optimize()` on a new well-posed run returns, the run is completed, and if convergence checking is off the
histories have exactly the lines `1, …, max_iters`. -/
theorem C78_optimize_completes (R : Setup ι E Q d m) (h : WellPosed R) (hnr : R.restart = false) (files : List (Snapshot.Name × (E → ℝ))) :
    ∃ o, optimize (sys R) (newRun R.toCommon files) = (o, .ok ()) ∧ o.completed = true ∧
      (R.checkConvergence = false → o.world.aux.log.map Rec.iter = List.range' 1 R.maxIters) :=
  optimize_by h.toBasics (step_computes h) hnr files

/-! ### A concrete well-posed run: three bar elements in a row, held at the left end and pulled at the right end. -/

/-- Bars between nodes 0–1, 1–2, 2–3 of a line; the strain of element `e` is `u (e+1) - u e`. -/
def chain : Elastic.FE (Fin 4) (Fin 3) (Fin 1) 1 where
  grad i e _ := Matrix.of fun _ _ => if i = e.castSucc then -1 else if i = e.succ then 1 else 0
  dx _ _ := 1

theorem chain_grad (u : Fin 4 → ℝ) (e : Fin 3) (q : Fin 1) : Elastic.gradOf chain u e q = Matrix.of fun _ _ => u e.succ - u e.castSucc := by
  ext a b
  simp only [Elastic.gradOf, chain, Matrix.sum_apply, Matrix.smul_apply, Matrix.of_apply, smul_eq_mul]
  fin_cases e <;> simp [Fin.sum_univ_four] <;> ring

theorem chain_rigid (u : Fin 4 → ℝ) (h : ∀ i ∈ ({0} : Finset (Fin 4)), u i = 0)
    (hs : ∀ e q, Elastic.sym (Elastic.gradOf chain u e q) = 0) : u = 0 := by
  have h0 : u 0 = 0 := h 0 (by simp)
  have hstep : ∀ e : Fin 3, u e.succ = u e.castSucc := by
    intro e
    have h1 := congrFun (congrFun (hs e 0) 0) 0
    rw [chain_grad] at h1
    simp only [Elastic.sym, Matrix.smul_apply, Matrix.add_apply, Matrix.transpose_apply, Matrix.of_apply, Matrix.zero_apply, smul_eq_mul] at h1
    linarith
  have h1 : u 1 = 0 := (hstep 0).trans h0
  have h2 : u 2 = 0 := (hstep 1).trans h1
  have h3 : u 3 = 0 := (hstep 2).trans h2
  funext i
  fin_cases i <;> assumption

/-- 20 iterations; `p` grows from 1 to 3, `beta` from 1 to 8, the move limit is a sawtooth between 0.3 and 0.1; element 2
carries the load and is pinned. -/
def chainRun : Setup (Fin 4) (Fin 3) (Fin 1) 1 2 where
  cP := { initValue := some 1, targetValue := some 3, numSteps := some 4, schedType := "Step" }
  cVolFrac := { initValue := some 0.4, targetValue := some 0.4 }
  cMoveLimit := { initValue := some 0.3, targetValue := some 0.1, numSteps := some 3, schedType := "SawtoothDecay" }
  cBeta := { initValue := some 1, targetValue := some 8, numSteps := some 5, curvature := some 2, schedType := "StepAccelerating" }
  cPercentile := { schedType := "None" }
  cRadius := { initValue := some 1.2, targetValue := some 1.2 }
  cNeumannScale := { initValue := some 1, targetValue := some 1, schedType := "ConstantOne" }
  cEta := { initValue := some 0.6, targetValue := some 0.6 }
  maxIters := 20
  recordTimes := 4
  restart := false
  restartFrom := -1
  rhoMin := 1 / 100
  rhoMax := 1
  betaEta := 1 / 2
  lambdaLower := 1 / 10 ^ 7
  lambdaUpper := 10 ^ 7
  rateMin := 1 / 2
  rateMax := 2
  scaleFloor := 1 / 10 ^ 12
  eMinCoeff := 1 / 1000
  sensFilter := false
  checkConvergence := true
  tolRho := 1 / 100
  tolKkt := 1 / 100
  centers e := WithLp.toLp 2 fun _ => (e : ℝ)
  volume _ := 1
  design := {0, 1}
  pinned := some {2}
  fixed := ∅
  fe := chain
  nu := 0.3
  E0 := 210
  dirichlet := {0}
  loads j i := if i = 3 then (if j = 0 then 1 else 2) else 0
  backend :=
    { cgJacobi := fun _ _ _ _ => .error .runtimeError
      cgPyamg := fun _ _ _ _ => .error .runtimeError
      spsolve := fun k f => .ok (k⁻¹.mulVec f)
      petsc := fun _ _ _ _ _ => .error .runtimeError
      splu := fun k fs => .ok (fs.map fun f => k⁻¹.mulVec f)
      petscMulti := fun _ _ _ _ _ => .error .runtimeError }
  solver := { solver := "auto", rtol := 1 / 10 ^ 8 }
  pct _ _ := 0

theorem chainRun_wellPosed : WellPosed chainRun where
  record := by simp [chainRun]
  p := ⟨⟨chainRun.cP, rfl⟩, by simp [chainRun], by simp [chainRun], by simp [chainRun], by
    simp only [chainRun]; rintro x (h | h) <;> simp only [Option.some.injEq] at h <;> subst h <;> simp⟩
  volFrac := ⟨⟨chainRun.cVolFrac, rfl⟩, by simp [chainRun], by simp [chainRun], by simp [chainRun], by simp⟩
  moveLimit := ⟨⟨chainRun.cMoveLimit, rfl⟩, by simp [chainRun], by simp [chainRun], by simp [chainRun], by
    simp only [chainRun]; rintro x (h | h) <;> simp only [Option.some.injEq] at h <;> subst h <;> simp <;> norm_num⟩
  beta := ⟨⟨chainRun.cBeta, rfl⟩, by simp [chainRun], by simp [chainRun], by simp [chainRun], by
    simp only [chainRun]; rintro x (h | h) <;> simp only [Option.some.injEq] at h <;> subst h <;> simp⟩
  percentile := Or.inr ⟨rfl, rfl⟩
  percentages := fun k q hq => by
    have h0 : valueOf (.ok { chainRun.cPercentile with itersMax := some (chainRun.maxIters : ℤ) }) (k : ℤ) = .ok none := rfl
    have h1 : (Except.ok none : Res (Option ℝ)) = .ok (some q) := h0.symm.trans hq
    injection h1 with h1
    cases h1
  radius := ⟨⟨chainRun.cRadius, rfl⟩, by simp [chainRun], by simp [chainRun], by simp [chainRun], by
    simp only [chainRun]; rintro x (h | h) <;> simp only [Option.some.injEq] at h <;> subst h <;> simp <;> norm_num⟩
  neumannScale := ⟨⟨chainRun.cNeumannScale, rfl⟩, by simp [chainRun], by simp [chainRun], by simp [chainRun], by simp⟩
  neumannType := by simp [chainRun]
  eta := fun _ => ⟨⟨chainRun.cEta, rfl⟩, by simp [chainRun], by simp [chainRun], by simp [chainRun], by simp⟩
  box := by norm_num [chainRun]
  bracket := by norm_num [chainRun]
  scaleFloor := by norm_num [chainRun]
  design := ⟨0, by simp [chainRun]⟩
  separate := by simp [chainRun]
  volume := by intro e; norm_num [chainRun]
  dim := by norm_num
  weights := by intro e q; norm_num [chainRun, chain]
  poisson := by norm_num [chainRun]
  modulus := by norm_num [chainRun]
  supports := chain_rigid
  loadCases := by norm_num
  direct := fun k _ => ⟨fun f => by
    show Except.ok _ = Except.ok _
    congr! <;> exact Subsingleton.elim _ _, fun fs => by
    show Except.ok _ = Except.ok _
    congr! <;> exact Subsingleton.elim _ _⟩
  solver := Or.inr ⟨rfl, by simp⟩
  nodal := by simp [chainRun]

/-- Non-vacuity of C77 (OC) and C78. -/
example := C78_optimize_completes chainRun chainRun_wellPosed rfl []

/-- Non-vacuity of C80. -/
example := C80_run_refines_algorithm chainRun chainRun_wellPosed rfl [] [.steps 3, .optimize]

/-- The same run restarted from the snapshot of iteration 4, with four stored lines. -/
def chainRestart : Setup (Fin 4) (Fin 3) (Fin 1) 1 2 :=
  { chainRun with restart := true, restartFrom := 4, saved := some ([1, 2, 3, 4].map fun k => ⟨k, 0.1, 1, 1, none, 1, 0⟩) }

theorem chainRestart_wellPosed : WellPosed chainRestart :=
  let h := chainRun_wellPosed
  { h with nodal := by simp [chainRestart, chainRun] }

/-- Non-vacuity of C81. -/
example := C81_restarted_run chainRestart chainRestart_wellPosed [(Snapshot.snapshotName 4, fun _ => 0.4)] 4 (fun _ => 0.4)
  ⟨rfl, by simp [Snapshot.load], Or.inl ⟨by norm_num, rfl⟩⟩ (by simp [chainRestart, chainRun])
  (fun e _ => Or.inr (by norm_num [chainRestart, chainRun])) [.steps 3, .optimize]

/-! The same run with the default filter and a number for `eta`. -/

/-- Linear finite elements on the line 0–1–2–3. -/
def chainNodal : Nodal (Fin 3) where
  nodes := 4
  k := 2
  t e i := if i = 0 then e.castSucc else e.succ
  mass := !![1 / 3, 1 / 6, 0, 0; 1 / 6, 2 / 3, 1 / 6, 0; 0, 1 / 6, 2 / 3, 1 / 6; 0, 0, 1 / 6, 1 / 3]
  stiff := !![1, -1, 0, 0; -1, 2, -1, 0; 0, -1, 2, -1; 0, 0, -1, 1]
  solve A b D value := (Matrix.of fun i j => if i ∈ D then (if i = j then 1 else 0) else A i j)⁻¹.mulVec fun i => if i ∈ D then value else b i

def chainHelmholtz : Setup (Fin 4) (Fin 3) (Fin 1) 1 2 := { chainRun with nodal := some chainNodal, etaConst := some 0.6 }

theorem chainNodal_coercive (r : ℝ) (x : Fin 4 → ℝ) (hx : x ≠ 0) :
    0 < ∑ i, ∑ j, x i * (chainNodal.mass i j + r ^ 2 * chainNodal.stiff i j) * x j := by
  have e : ∑ i, ∑ j, x i * (chainNodal.mass i j + r ^ 2 * chainNodal.stiff i j) * x j =
      (x 0 ^ 2 + 2 * x 1 ^ 2 + 2 * x 2 ^ 2 + x 3 ^ 2 + (x 0 + x 1) ^ 2 + (x 1 + x 2) ^ 2 + (x 2 + x 3) ^ 2) / 6 +
        r ^ 2 * ((x 0 - x 1) ^ 2 + (x 1 - x 2) ^ 2 + (x 2 - x 3) ^ 2) := by
    show ∑ i : Fin 4, ∑ j : Fin 4, x i * (chainNodal.mass i j + r ^ 2 * chainNodal.stiff i j) * x j = _
    simp [Fin.sum_univ_four, chainNodal]
    ring
  rw [e]
  have : ∃ i, x i ≠ 0 := by
    by_contra hn
    exact hx (funext fun i => by simpa using fun h => hn ⟨i, h⟩)
  have h4 : 0 < x 0 ^ 2 ∨ 0 < x 1 ^ 2 ∨ 0 < x 2 ^ 2 ∨ 0 < x 3 ^ 2 := by
    obtain ⟨i, hi⟩ := this
    have := pow_pos (abs_pos.mpr hi) 2
    rw [sq_abs] at this
    fin_cases i
    exacts [Or.inl this, Or.inr (Or.inl this), Or.inr (Or.inr (Or.inl this)), Or.inr (Or.inr (Or.inr this))]
  have hq : 0 ≤ r ^ 2 * ((x 0 - x 1) ^ 2 + (x 1 - x 2) ^ 2 + (x 2 - x 3) ^ 2) := by positivity
  have p0 := sq_nonneg (x 0)
  have p1 := sq_nonneg (x 1)
  have p2 := sq_nonneg (x 2)
  have p3 := sq_nonneg (x 3)
  have p4 := sq_nonneg (x 0 + x 1)
  have p5 := sq_nonneg (x 1 + x 2)
  have p6 := sq_nonneg (x 2 + x 3)
  rcases h4 with h | h | h | h <;> linarith

theorem chainHelmholtz_ok : NodalOk chainHelmholtz.toCommon chainNodal where
  corners := by norm_num [chainNodal]
  covered n := by
    show ∃ (e : Fin 3) (i : Fin 2), (if i = 0 then e.castSucc else e.succ) = n
    have hn : n = (0 : Fin 4) ∨ n = (1 : Fin 4) ∨ n = (2 : Fin 4) ∨ n = (3 : Fin 4) := by
      revert n; exact fin4_cases
    rcases hn with rfl | rfl | rfl | rfl
    exacts [⟨0, 0, rfl⟩, ⟨0, 1, rfl⟩, ⟨1, 1, rfl⟩, ⟨2, 1, rfl⟩]
  coercive r _ x hx := chainNodal_coercive r x hx
  solves r D b value _ := by
    unfold nodalMatrix
    simp only [chainNodal]
    congr! <;> exact Subsingleton.elim _ _
  maximum k r hs y hy n := by
    have hr : r = 1.2 := by
      have : Scheduled chainHelmholtz.toCommon chainHelmholtz.cRadius k (some 1.2) := rfl
      unfold Scheduled at this hs
      rw [this] at hs
      simpa using hs.symm
    subst hr
    refine Props.nodal_maximum_principle chainNodal.mass chainNodal.stiff ?_ ?_ ?_ 1.2 ?_ (held chainHelmholtz.toCommon chainNodal) 0 1 1
      (by norm_num) y _ hy (relaxed_solves 1.2 _ (nodalMatrix_det (chainNodal_coercive 1.2) _) 1 y) n
    · show ∀ a b : Fin 4, 0 ≤ chainNodal.mass a b
      intro a b; fin_cases a <;> fin_cases b <;> simp [chainNodal] <;> norm_num
    · show ∀ a : Fin 4, 0 < ∑ b : Fin 4, chainNodal.mass a b
      intro a; fin_cases a <;> simp [chainNodal, Fin.sum_univ_four] <;> norm_num
    · show ∀ a : Fin 4, ∑ b : Fin 4, chainNodal.stiff a b = 0
      intro a; fin_cases a <;> simp [chainNodal, Fin.sum_univ_four] <;> norm_num
    · show ∀ a b : Fin 4, a ≠ b → chainNodal.mass a b + 1.2 ^ 2 * chainNodal.stiff a b ≤ 0
      intro a b; fin_cases a <;> fin_cases b <;> simp [chainNodal] <;> norm_num
  noSensFilter := rfl

theorem chainHelmholtz_wellPosed : WellPosed chainHelmholtz :=
  let h := chainRun_wellPosed
  { h with
    eta := by simp [chainHelmholtz]
    nodal := by
      intro N hN
      simp only [chainHelmholtz, Option.some.injEq] at hN
      rw [← hN]
      exact chainHelmholtz_ok }

/-- Non-vacuity of C78 and C80 with the default filter. -/
example := C78_optimize_completes chainHelmholtz chainHelmholtz_wellPosed rfl []
example := C80_run_refines_algorithm chainHelmholtz chainHelmholtz_wellPosed rfl [] [.steps 3, .optimize]

end
end Verif.Run
