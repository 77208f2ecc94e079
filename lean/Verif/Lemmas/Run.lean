import Verif.Lemmas.RunSched
import Verif.Lemmas.DriverInv
import Verif.Lemmas.Trajectory
import Verif.Props.Pipeline
import Verif.Props.OC

/-! Lemmas for `Verif.Props.Run`: one iteration of a well-posed run. -/
namespace Verif.Run
open Verif Verif.Sched Verif.Spec

variable {ι E Q : Type} [Fintype ι] [Fintype E] [Fintype Q] {d m : ℕ}

noncomputable section
open Classical

/-! ### Schedulers -/

/-- The scheduled values a run of `R` needs at iteration `k`. -/
structure ValsOk (R : Common E d) (k : ℕ) (v : Vals) : Prop where
  p : 0 ≤ v.p
  beta : 0 < v.beta
  moveLimit : 0 ≤ v.moveLimit
  radius : 0 < v.radius
  move : valueOf (.ok { R.cMoveLimit with itersMax := some (R.maxIters : ℤ) }) k = .ok (some v.moveLimit)
  all : AllScheduled R k v

/-- Every later iteration finds its scheduled values. -/
def Ready (R : Common E d) (ss : Schedulers) : Prop :=
  ∀ (x : State E d), x.scheds = ss → ∀ k : ℕ, ∃ v, readVals x k = .ok v ∧ ValsOk R k v

theorem addAll_cons {n : String} {c c' : Config} {s : Scheduler} (h : Sched.fromConfig { c with name := some n } = .ok (s, c'))
    (rest : List (String × Config)) (ss : Schedulers) : addAll ((n, c) :: rest) ss = addAll rest (ss ++ [s]) := by
  simp only [addAll, Schedulers.addFromConfig, h, bind, Except.bind, pure, Except.pure, Schedulers.addObject]

theorem initSched_ok {R : Common E d} (h : Basics R) (x : State E d) (hx : x.scheds = []) (hd : x.schedsDone = false) :
    ∃ ss r, initSched R x = ({ x with scheds := ss, schedsDone := true, filter := x.filter.updateRadius r }, .ok ()) ∧
      Ready R ss := by
  have hmax : (0 : ℤ) < (R.maxIters : ℤ) := by have := h.record; omega
  obtain ⟨s1, c1, e1, n1, v1⟩ := GoodSchedule.run h.p Set.ordConnected_Ici "p"
  obtain ⟨s2, c2, e2, n2, v2⟩ := GoodSchedule.run h.volFrac Set.ordConnected_univ "vol_frac"
  obtain ⟨s3, c3, e3, n3, v3⟩ := GoodSchedule.run h.moveLimit Set.ordConnected_Ici "move_limit"
  obtain ⟨s4, c4, e4, n4, v4⟩ := GoodSchedule.run h.beta Set.ordConnected_Ioi "beta"
  obtain ⟨s6, c6, e6, n6, v6⟩ := GoodSchedule.run h.radius Set.ordConnected_Ioi "filter_radius"
  obtain ⟨s7, c7, e7, n7, v7⟩ := GoodSchedule.run h.neumannScale Set.ordConnected_univ "neumann_scale"
  have h8 : ∃ s : Scheduler, (∀ ss, addEta R ss = (ss ++ [s], .ok ())) ∧ s.name = some "eta" ∧ ∀ it : ℤ, 0 ≤ it →
      ∃ v : ℝ, ({ s with itersMax := some (R.maxIters : ℤ) } : Scheduler).value it = .ok (some v) ∧
        (R.etaConst = none → valueOf (.ok { R.cEta with itersMax := some (R.maxIters : ℤ) }) it = .ok (some v)) ∧
        ∀ x, R.etaConst = some x → v = x := by
    unfold addEta
    cases he : R.etaConst with
    | none =>
      obtain ⟨s, c, e, n, v⟩ := GoodSchedule.run (h.eta he) Set.ordConnected_univ "eta"
      refine ⟨s, fun ss => by simp only; rw [addAll_cons e]; rfl, n, fun it hit => ?_⟩
      obtain ⟨w, -, hv, hg⟩ := v R.maxIters it hmax hit
      exact ⟨w, hv, fun _ => hg, by simp⟩
    | some x => exact ⟨_, fun ss => rfl, rfl, fun it _ => ⟨x, rfl, by simp, by simp⟩⟩
  obtain ⟨s8, e8, n8, v8⟩ := h8
  have h5 : ∃ s c', Sched.fromConfig { R.cPercentile with name := some "percentile" } = .ok (s, c') ∧
      s.name = some "percentile" ∧ ∀ m it : ℤ, 0 < m → 0 ≤ it →
        ∃ v : Option ℝ, ({ s with itersMax := some m } : Scheduler).value it = .ok v ∧
          valueOf (.ok { R.cPercentile with itersMax := some m }) it = .ok v := by
    rcases h.percentile with hp | ⟨hp1, hp2⟩
    · obtain ⟨s, c, e, n, v⟩ := GoodSchedule.run hp Set.ordConnected_univ "percentile"
      refine ⟨s, c, e, n, fun m it hm hit => ?_⟩
      obtain ⟨w, hw, hv, hg⟩ := v m it hm hit
      exact ⟨some w, hv, hg⟩
    · generalize R.cPercentile = c at hp1 hp2
      obtain ⟨nm, ini, tgt, ns, im, cu, ty⟩ := c
      simp only at hp1 hp2
      subst hp1 hp2
      exact ⟨_, _, rfl, rfl, fun m it _ _ => ⟨none, rfl, rfl⟩⟩
  obtain ⟨s5, c5, e5, n5, v5⟩ := h5
  -- first radius
  obtain ⟨sr, cr, er, -, ir, tr, -, -, -, hri, hrt⟩ := GoodSchedule.fromConfig h.radius R.cRadius.name
  have hfr : ∃ r, firstRadius R = some r := by
    unfold firstRadius
    have er' : Sched.fromConfig R.cRadius = .ok (sr, cr) := er
    rw [er']
    simp only
    split_ifs
    · exact ⟨ir, hri⟩
    · exact ⟨tr, hrt⟩
  obtain ⟨r, hr⟩ := hfr
  refine ⟨Schedulers.setItersMax [s1, s2, s3, s4, s5, s6, s7, s8] R.maxIters, r, ?_, ?_⟩
  · unfold initSched
    rw [if_neg (by simp [hd]), hx]
    rw [addAll_cons e1, addAll_cons e2, addAll_cons e3, addAll_cons e4, addAll_cons e5, addAll_cons e6]
    rw [show ∀ ss, addAll [] ss = (ss, .ok ()) from fun _ => rfl]
    dsimp only
    have hty : ¬ R.cNeumannScale.schedType ∉ allowedForceTypes := not_not.mpr h.neumannType
    rw [if_neg hty, addAll_cons e7]
    simp only [addAll, hr, e8]
    rfl
  · intro y hy k
    have hk : (0 : ℤ) ≤ (k : ℤ) := Int.natCast_nonneg k
    obtain ⟨w1, m1, f1, g1⟩ := v1 R.maxIters k hmax hk
    obtain ⟨w2, m2, f2, g2⟩ := v2 R.maxIters k hmax hk
    obtain ⟨w3, m3, f3, g3⟩ := v3 R.maxIters k hmax hk
    obtain ⟨w4, m4, f4, g4⟩ := v4 R.maxIters k hmax hk
    obtain ⟨w5, f5, g5⟩ := v5 R.maxIters k hmax hk
    obtain ⟨w6, m6, f6, g6⟩ := v6 R.maxIters k hmax hk
    obtain ⟨w7, m7, f7, g7⟩ := v7 R.maxIters k hmax hk
    obtain ⟨w8, f8, g8, g9⟩ := v8 k hk
    refine ⟨⟨w7, w1, w2, w4, w3, w8, w5, w6⟩, ?_, ⟨m1, m4, m3, m6, g3, ⟨g1, g2, g3, g4, g5, g6, g7, g8, g9⟩⟩⟩
    unfold readVals
    rw [hy, Props.C11_values_last_write_wins]
    · simp only [Schedulers.setItersMax, List.map_cons, List.map_nil, List.mapM_cons, List.mapM_nil, Props.lastRegistered,
        List.reverse_cons, List.reverse_nil, List.nil_append, List.cons_append, List.find?_cons, n1, n2, n3, n4, n5, n6, n7, n8]
      simp only [n1] at f1
      simp only [n2] at f2
      simp only [n3] at f3
      simp only [n4] at f4
      simp only [n5] at f5
      simp only [n6] at f6
      simp only [n7] at f7
      simp only [n8] at f8
      simp [f1, f2, f3, f4, f5, f6, f7, f8, bind, Except.bind, pure, Except.pure, unpack]
    · intro s hs
      simp only [Schedulers.setItersMax, List.map_cons, List.map_nil, List.mem_cons, List.not_mem_nil, or_false] at hs
      rcases hs with rfl | rfl | rfl | rfl | rfl | rfl | rfl | rfl
      exacts [⟨_, f1⟩, ⟨_, f2⟩, ⟨_, f3⟩, ⟨_, f4⟩, ⟨_, f5⟩, ⟨_, f6⟩, ⟨_, f7⟩, ⟨_, f8⟩]

/-! ### One iteration -/

/-- The update keeps the box if the old density is not below it, even if it is above it. -/
theorem candidate_box_low {P : OC.Params E} {l : ℝ} {e : E} {r : ℝ} (h : OC.candidate P l e = some r)
    (hm : 0 ≤ P.moveLimit) (h1 : P.rhoMin ≤ P.rhoE e) (h2 : P.rhoMin ≤ P.rhoMax) : P.rhoMin ≤ r ∧ r ≤ P.rhoMax := by
  unfold OC.candidate at h
  cases hs : OC.scaling P l e with
  | none => rw [hs] at h; simp at h
  | some s =>
    rw [hs] at h
    simp only [Option.map_some, Option.some.injEq] at h
    subst h
    unfold OC.clip
    exact ⟨le_min ((le_max_right _ _).trans (le_max_right _ _)) (le_min (by linarith) h2),
      (min_le_right _ _).trans (min_le_right _ _)⟩

/-- An exact direct solver answers every load case of a nonsingular system. -/
theorem objectives_full {R : Setup ι E Q d m} (h : Sound R) (K : Matrix ι ι ℝ)
    (hdet : (Elastic.enforceK K R.dirichlet).det ≠ 0) (sc : ℝ) :
    ∃ cs us, Elastic.objectives R.backend R.solver K R.dirichlet (List.ofFn R.loads) sc = .ok (cs, us) ∧
      (∀ j : Fin m, Elastic.Solves K R.dirichlet (fun i => R.loads j i * sc) (us.getD j 0)) ∧
      cs.sum = ∑ j : Fin m, Elastic.complianceSingle R.dirichlet (fun i => R.loads j i * sc) (us.getD j 0) ∧ us.length = m := by
  have hne : ((List.ofFn R.loads).map fun f i => f i * sc) ≠ [] := by
    have := h.loadCases
    simp [List.map_eq_nil_iff, List.ofFn_eq_nil_iff]; omega
  have hs : ∀ f, Elastic.computeSingle R.backend R.solver K R.dirichlet f =
      .ok (Elastic.complianceSingle R.dirichlet f ((Elastic.enforceK K R.dirichlet)⁻¹.mulVec (Elastic.enforceF f R.dirichlet)),
        (Elastic.enforceK K R.dirichlet)⁻¹.mulVec (Elastic.enforceF f R.dirichlet)) := by
    intro f
    have h1 : Solver.solveSingle R.backend R.solver (Fintype.card ι) (Elastic.enforceK K R.dirichlet)
        (Elastic.enforceF f R.dirichlet) = R.backend.spsolve (Elastic.enforceK K R.dirichlet) (Elastic.enforceF f R.dirichlet) := by
      rcases h.solver with hc | ⟨hc, hn⟩
      · have := (Solver.C49_explicit_solver_used_as_is R.backend R.solver (Fintype.card ι) (Elastic.enforceK K R.dirichlet)
          (Elastic.enforceF f R.dirichlet)).1 (.inr (.inr hc)) {}
        rw [hc] at this
        exact Option.some.inj this
      · exact (Solver.C49_auto R.backend R.solver hc _ _ _).1 hn
    unfold Elastic.computeSingle
    rw [h1, (h.direct _ hdet).1]; rfl
  unfold Elastic.objectives
  rw [Elastic.C68_load_cases_independent_partial R.backend h.direct R.solver h.solver K R.dirichlet hdet _ hne,
    Elastic.mapM_ok _ _ hs]
  have hus : ∀ j : Fin m, (List.map Prod.snd (List.map (fun f : ι → ℝ =>
      (Elastic.complianceSingle R.dirichlet f ((Elastic.enforceK K R.dirichlet)⁻¹.mulVec (Elastic.enforceF f R.dirichlet)),
        (Elastic.enforceK K R.dirichlet)⁻¹.mulVec (Elastic.enforceF f R.dirichlet)))
      ((List.ofFn R.loads).map fun f i => f i * sc))).getD j 0 =
      (Elastic.enforceK K R.dirichlet)⁻¹.mulVec (Elastic.enforceF (fun i => R.loads j i * sc) R.dirichlet) := by
    intro j
    simp [List.getD_eq_getElem?_getD]
  refine ⟨_, _, rfl, fun j => ?_, ?_, by simp⟩
  · rw [hus]
    unfold Elastic.Solves
    rw [Matrix.mulVec_mulVec, Matrix.mul_nonsing_inv _ (Ne.isUnit hdet), Matrix.one_mulVec]
  · simp only [hus]
    rw [← List.sum_ofFn]
    congr 1
    simp only [List.map_map, List.map_ofFn]
    rfl

theorem objectives_ok {R : Setup ι E Q d m} (h : Sound R) (K : Matrix ι ι ℝ)
    (hdet : (Elastic.enforceK K R.dirichlet).det ≠ 0) (sc : ℝ) :
    ∃ cs us, Elastic.objectives R.backend R.solver K R.dirichlet (List.ofFn R.loads) sc = .ok (cs, us) ∧
      (∀ j : Fin m, Elastic.Solves K R.dirichlet (fun i => R.loads j i * sc) (us.getD j 0)) ∧
      cs.sum = ∑ j : Fin m, Elastic.complianceSingle R.dirichlet (fun i => R.loads j i * sc) (us.getD j 0) := by
  obtain ⟨cs, us, h1, h2, h3, -⟩ := objectives_full h K hdet sc
  exact ⟨cs, us, h1, h2, h3⟩

/-- Physical densities are densities. -/
theorem physical_range {R : Common E d} (h : Basics R) {k : ℕ} {v : Vals} (hv : ValsOk R k v) {rho : E → ℝ}
    (hrho : ∀ e, 0 ≤ rho e ∧ rho e ≤ 1) (e : E) : 0 ≤ physical R v rho e ∧ physical R v rho e ≤ 1 := by
  have hfr := blur_range h hv.radius hv.all.radius hrho e
  unfold physical
  rw [← threshold_eq, (Props.C23_inplace_agree _ _ _).1]
  exact (Props.C22_heaviside_range_and_monotone v.beta R.betaEta hv.beta).1 _ hfr.1 hfr.2

theorem pullback_eq {n : ℕ} (R : Common E d) (v : Vals) (rho : E → ℝ) (cols : Fin n → E → ℝ) :
    Pipeline.pullback (blur R v.radius) (blurT R v.radius) v.beta R.betaEta cols R.sensFilter rho = chained R v rho cols := by
  unfold Pipeline.pullback chained
  simp only [thresholdSlope_eq]

theorem chained_nonpos {n : ℕ} {R : Common E d} (h : Basics R) {v : Vals} (hb : 0 < v.beta) (cols : Fin n → E → ℝ)
    (hc : (∀ k e, cols k e ≤ 0) ∨ R.nodal ≠ none) (rho : E → ℝ) (e : E) : chained R v rho cols e ≤ 0 := by
  rw [← pullback_eq]
  exact pullback_nonpos h hb cols hc rho e

/-- The analysis part of an iteration: if the finite element part does not raise, it does not; it uses the filter of the iteration, and
computes what the specification says. -/
theorem analyseWith_ok {n : ℕ} {R : Common E d} (h : Basics R) {k : ℕ} {v : Vals} (hv : ValsOk R k v) (rho : E → ℝ)
    (x : State E d) (hfit : Fits R x.filter) (response : (E → ℝ) → Res (ℝ × (Fin n → E → ℝ))) {c : ℝ} {cols : Fin n → E → ℝ}
    (hr : response (physical R v rho) = .ok (c, cols)) :
    ∃ F F1, analyseWith R response v rho x = ({ x with filter := F1, compliance := c, neumannScale := v.neumannScale },
        .ok ⟨F, F1, physical R v rho, chained R v rho cols⟩) ∧
      Fits R F1 ∧ fwdOf R F = blur R v.radius ∧ fwdOf R F1 = blur R v.radius ∧ gradOf R F1 = blurT R v.radius := by
  unfold analyseWith
  simp only
  obtain ⟨F, hFdef⟩ : ∃ F, F = if v.radius ≠ x.filter.radius then x.filter.updateRadius v.radius else x.filter :=
    ⟨_, rfl⟩
  rw [← hFdef]
  have hFf : Fits R F := by rw [hFdef]; split_ifs; exacts [hfit.updateRadius _, hfit]
  have hFr : F.radius = v.radius := by
    rw [hFdef]; split_ifs with hne
    · exact updateRadius_radius _ _
    · exact (not_not.mp hne).symm
  obtain ⟨F1, hF1, hF1r, hbl, hblT⟩ := filter_blur h hFf (by rw [hFr]; exact hv.radius)
  rw [hFr] at hbl hblT hF1r
  have hfB1 : fwdOf R F1 = blur R v.radius := by
    obtain ⟨F2, -, -, hbl', -⟩ := filter_blur h hF1 (by rw [hF1r]; exact hv.radius)
    funext y
    unfold fwdOf
    rw [hbl' y, hF1r]
  have hfB : fwdOf R F = blur R v.radius := by funext y; unfold fwdOf; rw [hbl y]
  have hgB : gradOf R F1 = blurT R v.radius := by funext y; unfold gradOf; rw [hblT y]
  rw [hbl rho]
  simp only
  rw [hfB, hgB]
  have hpp : Pipeline.projected (blur R v.radius) v.beta R.betaEta rho = physical R v rho := by
    funext e
    unfold Pipeline.projected physical
    rw [threshold_eq]
  rw [hpp, hr]
  simp only
  rw [pullback_eq]
  exact ⟨F, F1, rfl, hF1, hfB, hfB1, hgB⟩

/-- The finite element part of a well-posed elasticity run. -/
theorem response_ok {R : Setup ι E Q d m} (h : Sound R) {v : Vals} (hp : 0 ≤ v.p) (proj : E → ℝ) (hp0 : ∀ e, 0 ≤ proj e) :
    ∃ c cols, response R v proj = .ok (c, cols) ∧ 0 ≤ c ∧ (∀ k e, cols k e ≤ 0) ∧
      ∃ u : Fin m → ι → ℝ,
        (∀ j, Displaced R (fun e => young R v.p (proj e)) (fun i => R.loads j i * v.neumannScale) (u j)) ∧
        c = (∑ j, ∑ i, R.loads j i * v.neumannScale * u j i) / m ∧
        cols = fun j e => slope R v.p (proj e) (innerWork R (fun e => young R v.p (proj e)) (u j) (u j) e / 2) := by
  unfold response
  simp only
  have hEm : modulus R v.p proj = Elastic.simpField R.E0 (R.E0 * R.eMinCoeff) v.p proj := rfl
  rw [hEm]
  obtain ⟨hE0, hc0, hc1⟩ := h.modulus
  have hEmin : 0 < R.E0 * R.eMinCoeff := mul_pos hE0 hc0
  have hEle : R.E0 * R.eMinCoeff ≤ R.E0 := by nlinarith
  have hdet := (Elastic.C73_unique_solution R.fe h.dim h.weights R.nu h.poisson.1 h.poisson.2 R.E0 (R.E0 * R.eMinCoeff) v.p
    hEmin hEle proj hp0 R.dirichlet h.supports).1
  have hEnn : ∀ e, 0 ≤ Elastic.simpField R.E0 (R.E0 * R.eMinCoeff) v.p proj e := by
    intro e
    unfold Elastic.simpField Material.simp
    have := mul_nonneg (sub_nonneg.mpr hEle) (Real.rpow_nonneg (hp0 e) v.p)
    linarith
  have hen := fun u => Elastic.C69_energy_nonneg R.fe h.dim (fun e q => (h.weights e q).le) _ hEnn R.nu h.poisson.1 h.poisson.2 u
  obtain ⟨cs, us, hobj, hsol, hsum⟩ := objectives_ok h _ hdet v.neumannScale
  rw [hobj]
  simp only
  have hEy : Elastic.simpField R.E0 (R.E0 * R.eMinCoeff) v.p proj = fun e => young R v.p (proj e) := by
    funext e
    unfold Elastic.simpField
    rw [young_eq]
  refine ⟨_, _, rfl, ?_, fun j e => ?_, fun j => us.getD j 0, fun j => ?_, ?_, ?_⟩
  · refine div_nonneg ?_ (Nat.cast_nonneg _)
    rw [hsum]
    exact Finset.sum_nonneg fun j _ => (hen _).2 _ _ (hsol j)
  · exact Props.C25_simp_sensitivity_nonpos _ _ _ _ _ hEle hp ((hen _).1 e)
  · have := displaced_of_solves (hsol j)
    rw [hEy] at this
    exact this
  · rw [hsum]
    congr 1
    refine Finset.sum_congr rfl fun j _ => ?_
    exact (Elastic.C69_compliance_is_twice_energy _ _ _ _ _ _ (hsol j)).2.2.2.1
  · rw [hEy]
    simp only [slope_eq, energy_eq]

/-- The OC update of an iteration with non-positive sensitivities. -/
theorem ocUpdate_ok {R : Common E d} (h : Basics R) (h' : OCRules R) (k : ℕ) (v : Vals) (hv : ValsOk R k v) (rho : E → ℝ)
    (hlow : ∀ e ∈ R.design, R.rhoMin ≤ rho e) {rs : ℝ} (hrs : 0 ≤ rs) (x : State E d) (A : Analysis E d)
    (hfB : fwdOf R A.F = blur R v.radius) (hdC : ∀ e, A.dC e ≤ 0) :
    ∃ x' new, ocUpdate R k v rho rs x A = (x', .ok new) ∧ x'.filter = x.filter ∧
      0 ≤ x'.runningScale ∧
      x'.scheds = x.scheds ∧ x'.schedsDone = x.schedsDone ∧ x'.log = x.log ∧ (∃ kk, x'.kkt = some kk) ∧ x'.compliance = x.compliance ∧
      x'.neumannScale = x.neumannScale ∧
      (∀ e ∈ R.design, (R.rhoMin ≤ new e ∧ new e ≤ R.rhoMax) ∧ (rho e ≤ R.rhoMax → |new e - rho e| ≤ v.moveLimit)) ∧
      ∀ r rho', r.iter = k → r.volError = x'.volError → r.lmid = x'.lmid → x'.kkt = some r.kkt →
        (∀ e, rho' e = if Pinned R e then 1 else if e ∈ R.design then new e else rho e) →
        IsGreatest ((fun e => |rho' e - rho e|) '' R.design) r.rhoChange →
        OCStep R v A.dC rho rs r rho' x'.runningScale := by
  obtain ⟨F, F1, proj, dC⟩ := A
  simp only at hfB hdC
  unfold ocUpdate
  rw [if_neg (by rintro ⟨q, hq, hq'⟩; have := h'.percentages k q (hq ▸ hv.all.percentile); rcases hq' with h | h <;> linarith)]
  have hup : ∃ out, OC.rhoUpdate (ocCfg R F) (stepArgs R k v) rs rho rho dC = .ok out := by
    unfold OC.rhoUpdate OC.sensScale
    cases (stepArgs R k v).percentile with
    | some q => exact ⟨_, rfl⟩
    | none =>
      simp only
      have hd : (ocCfg R F).design.Nonempty := h.design
      rw [dif_pos hd]
      exact ⟨_, rfl⟩
  obtain ⟨out, hout'⟩ := hup
  rw [hout']
  simp only
  have hfl : 0 < (ocCfg R F).scaleFloor := h'.scaleFloor
  obtain ⟨hpos, hrhoO, -⟩ := Props.oc_scale_pos hout' hfl hrs
  have key : ∀ e ∈ R.design, ∃ r, out.rho e = some r ∧ (R.rhoMin ≤ r ∧ r ≤ R.rhoMax) ∧
      (rho e ≤ R.rhoMax → |r - rho e| ≤ v.moveLimit) := by
    intro e he
    set P := OC.mkParams (ocCfg R F) (stepArgs R k v) out.runningScale rho rho dC with hP
    have ho := OC.bisect_out P 1000 0 R.lambdaLower R.lambdaUpper
    have hn := OC.bisect_nested P 1000 0 R.lambdaLower R.lambdaUpper h'.bracket.2
    have hmid : 0 ≤ (OC.bisect P 1000 0 R.lambdaLower R.lambdaUpper).lmid := by
      rw [ho.1]; linarith [h'.bracket.1]
    have heps : 0 < (OC.bisect P 1000 0 R.lambdaLower R.lambdaUpper).lmid + P.eps := by
      have : 0 < P.eps := by simp only [hP, OC.mkParams]; norm_num
      linarith
    have hd : P.dC e ≤ 0 := by
      simp only [hP, OC.mkParams]
      exact div_nonpos_of_nonpos_of_nonneg (hdC e) hpos.le
    obtain ⟨r, hr'⟩ := OC.candidate_some heps hd
    refine ⟨r, ?_, ?_, fun hle => ?_⟩
    · rw [hrhoO]
      unfold OC.bisection
      show (OC.bisect P 1000 0 R.lambdaLower R.lambdaUpper).rho e = some r
      rw [ho.2.2]; exact hr'
    · exact candidate_box_low hr' hv.moveLimit (hlow e he) h.box.2.1
    · exact (OC.candidate_box hr' hv.moveLimit (hlow e he) hle).2
  have hnn : noNan R out.rho = .ok fun e => (out.rho e).getD 0 := by
    unfold noNan
    rw [if_pos]
    intro e he
    obtain ⟨r, hr', -⟩ := key e he
    rw [hr']; rfl
  rw [hnn]
  refine ⟨_, _, rfl, rfl, hpos.le, rfl, rfl, rfl, ⟨_, rfl⟩, rfl, rfl, ?_, ?_⟩
  · intro e he
    obtain ⟨r, hr', hb, hm⟩ := key e he
    simp only [hr', Option.getD_some]
    exact ⟨hb, hm⟩
  · intro r rho' e1 e4 e5 e6 e7 e8
    simp only [Option.some.injEq] at e4 e5 e6
    obtain ⟨s, u1, u2, u3, u4, u5, u6, u7, u8⟩ := update_spec hfB h'.bracket h'.scaleFloor hrs (fun e _ => hdC e) hout'
    refine ⟨s, u1, u2, by rw [e1]; exact u3, by rw [e5]; exact u4, fun e => ?_, by rw [e4, e5]; exact u6, e8, ?_, ?_⟩
    · rw [e7 e, e5]
      split_ifs with hp he
      · rfl
      · rw [u5 e he]; rfl
      · unfold grown; rw [if_neg he]
    · rw [e5, ← e6]; exact u7
    · rw [e5, ← e6]; exact u8

/-- What one iteration has to deliver for the driver to go on: `It` relates the densities and running scales before and after with the
recorded line, `G` holds of the recorded objective value. -/
def Computes (R : Common E d) (step : ℕ → (E → ℝ) → State E d → State E d × Res (E → ℝ))
    (It : (E → ℝ) → ℝ → Rec → (E → ℝ) → ℝ → Prop) (G : ℝ → Prop) : Prop :=
  ∀ (k : ℕ) (v : Vals), ValsOk R k v → ∀ (rho : E → ℝ), (∀ e, 0 ≤ rho e ∧ rho e ≤ 1) → (∀ e ∈ R.design, R.rhoMin ≤ rho e) →
    ∀ x : State E d, readVals x k = .ok v → Fits R x.filter → 0 ≤ x.runningScale →
    ∃ x' new, step k rho x = (x', .ok new) ∧ Fits R x'.filter ∧
      0 ≤ x'.runningScale ∧
      x'.scheds = x.scheds ∧ x'.schedsDone = x.schedsDone ∧ x'.log = x.log ∧ (∃ kk, x'.kkt = some kk) ∧ G x'.compliance ∧
      (∀ e ∈ R.design, (R.rhoMin ≤ new e ∧ new e ≤ R.rhoMax) ∧ (rho e ≤ R.rhoMax → |new e - rho e| ≤ v.moveLimit)) ∧
      ∀ r rho', r.iter = k → r.compliance = x'.compliance → r.neumannScale = x'.neumannScale → r.volError = x'.volError →
        r.lmid = x'.lmid → x'.kkt = some r.kkt →
        (∀ e, rho' e = if Pinned R e then 1 else if e ∈ R.design then new e else rho e) →
        IsGreatest ((fun e => |rho' e - rho e|) '' R.design) r.rhoChange →
        It rho x.runningScale r rho' x'.runningScale

/-- An OC iteration whose finite element part does not raise and whose sensitivities are not positive. -/
theorem stepWith_ok {n : ℕ} {R : Common E d} (h : Basics R) (h' : OCRules R) (response : Vals → (E → ℝ) → Res (ℝ × (Fin n → E → ℝ)))
    (It : (E → ℝ) → ℝ → Rec → (E → ℝ) → ℝ → Prop) (G : ℝ → Prop)
    (hr : ∀ k v, ValsOk R k v → ∀ rho : E → ℝ, (∀ e, 0 ≤ rho e ∧ rho e ≤ 1) → ∃ c cols,
      response v (physical R v rho) = .ok (c, cols) ∧ G c ∧ ((∀ j e, cols j e ≤ 0) ∨ R.nodal ≠ none) ∧
      ∀ rs r rho' rs', r.iter = k → r.compliance = c → r.neumannScale = v.neumannScale →
        OCStep R v (chained R v rho cols) rho rs r rho' rs' → It rho rs r rho' rs') :
    Computes R (stepWith R response) It G := by
  intro k v hv rho hrho hlow x hread hfit hrs
  obtain ⟨c, cols, h1, h2, h3, h4⟩ := hr k v hv rho hrho
  obtain ⟨F, F1, ha, f1, f2, -, -⟩ := analyseWith_ok h hv rho x hfit (response v) h1
  obtain ⟨x', new, g1, g2, g3, g4, g5, g6, g7, g8, g9, g10, g11⟩ := ocUpdate_ok h h' k v hv rho hlow hrs
    { x with filter := F1, compliance := c, neumannScale := v.neumannScale } ⟨F, F1, _, chained R v rho cols⟩ f2
    (chained_nonpos h hv.beta cols h3 rho)
  refine ⟨x', new, ?_, by rw [g2]; exact f1, g3, g4, g5, g6, g7, by rw [g8]; exact h2, g10, ?_⟩
  · unfold stepWith computeWith
    rw [hread]
    simp only
    rw [ha]
    exact g1
  · intro r rho' e1 e2 e3 e4 e5 e6 e7 e8
    exact h4 _ r rho' _ e1 (by rw [e2, g8]) (by rw [e3, g9]) (g11 r rho' e1 e4 e5 e6 e7 e8)

theorem step_computes {R : Setup ι E Q d m} (h : WellPosed R) : Computes R.toCommon (step R) (Iteration R) (0 ≤ ·) := by
  refine stepWith_ok h.toBasics h.toOCRules _ _ _ fun k v hv rho hrho => ?_
  obtain ⟨c, cols, h1, h2, h3, u, u1, u2, u3⟩ := response_ok h.toSound hv.p (physical R.toCommon v rho)
    fun e => (physical_range h.toBasics hv hrho e).1
  refine ⟨c, cols, h1, h2, Or.inl h3, fun rs r rho' rs' e1 e2 e3 hs => ⟨v, u, e1 ▸ hv.all, u1, by rw [e2, u2], e3, ?_⟩⟩
  rw [u3] at hs
  exact hs

end
end Verif.Run
