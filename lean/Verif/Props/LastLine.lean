import Verif.Props.FinalMesh
import Verif.Props.RunRamp
import Verif.Lemmas.Project
import Verif.Spec.LastLine

/-! C125: which design the lines of the histories describe. -/
namespace Verif.Run
open Verif Verif.Sched Verif.Spec Verif.Driver

variable {ι E Q : Type} [Fintype ι] [Fintype E] [Fintype Q] {d m : ℕ}

noncomputable section
open Classical

/-- The designs between the iterations of a trajectory. -/
theorem reached_designs {It : (E → ℝ) → ℝ → Rec → (E → ℝ) → ℝ → Prop} {rho0 rho : E → ℝ} {rs0 rs : ℝ} {log0 log : List Rec}
    (h : Reached It rho0 rs0 log0 rho rs log) : ∃ new, log = log0 ++ new ∧ ∃ D : ℕ → E → ℝ, D 0 = rho0 ∧ D new.length = rho ∧
      ∀ i (hi : i < new.length), ∃ a b, It (D i) a new[i] (D (i + 1)) b := by
  induction h with
  | refl => exact ⟨[], by simp, fun _ => rho0, rfl, rfl, fun i hi => by simp at hi⟩
  | @next rho rs log _ r rho' rs' hi ih =>
    obtain ⟨new, h1, D, h2, h3, h4⟩ := ih
    refine ⟨new ++ [r], by rw [h1, List.append_assoc], fun i => if i ≤ new.length then D i else rho', by simpa using h2, by simp, ?_⟩
    intro i hil
    simp only [List.length_append, List.length_singleton] at hil
    rcases Nat.lt_or_eq_of_le (Nat.le_of_lt_succ hil) with hlt | heq
    · obtain ⟨a, b, hab⟩ := h4 i hlt
      refine ⟨a, b, ?_⟩
      simp only
      rw [if_pos hlt.le, if_pos (by omega), List.getElem_append_left hlt]
      exact hab
    · subst heq
      refine ⟨rs, rs', ?_⟩
      simp only
      rw [if_pos le_rfl, if_neg (by omega), h3]
      simpa using hi

/-- **C125 (partial).** The histories of a new well-posed run describe the designs between its updates: there is a sequence of designs
from the start densities to the densities the run has now, one for each iteration, such that the line of iteration `k` records the
objective value of the design *before* the update of iteration `k`, for the values scheduled for `k`, and how much that update changed it.
The snapshot of the last iteration has the design after it. (Partial: no line describes the design the run ends with, see
`C125_last_objective_stale`.) -/
theorem C125_lines_describe_designs_partial (R : Setup ι E Q d m) (h : WellPosed R) (hnr : R.restart = false)
    (files : List (Snapshot.Name × (E → ℝ))) (cs : List Call) :
    ∃ o, runCalls (sys R) cs (newRun R.toCommon files) = (o, .ok ()) ∧
      (o.started = true → ∃ D : ℕ → E → ℝ, InitialDensities R.toCommon (D 0) ∧ D (o.iterNext - 1) = o.world.rho ∧
        o.world.aux.log.length = o.iterNext - 1 ∧
        (∀ i (hi : i < o.world.aux.log.length), (o.world.aux.log[i]).iter = i + 1 ∧
          IsGreatest ((fun e => |D (i + 1) e - D i e|) '' R.design) (o.world.aux.log[i]).rhoChange ∧
          ∃ v, AllScheduled R.toCommon (i + 1) v ∧ ObjectiveOf R v (D i) (o.world.aux.log[i]).compliance) ∧
        (o.world.trace ≠ [] → ∃ data, Snapshot.load o.world.files (Snapshot.snapshotName (o.iterNext - 1)) = some data ∧
          ∀ e ∈ R.design, data e = o.world.rho e)) := by
  obtain ⟨o, ho, h'⟩ := C80_run_refines_algorithm R h hnr files cs
  refine ⟨o, ho, fun hs => ?_⟩
  obtain ⟨hit, rho0, rs, hinit, hcont⟩ := h' hs
  obtain ⟨new, h1, D, h2, h3, h4⟩ := reached_designs hcont
  rw [List.nil_append] at h1
  subst h1
  have hlen : o.world.aux.log.length = o.iterNext - 1 := by
    have := congrArg List.length hit
    simpa using this
  refine ⟨D, h2 ▸ hinit, by rw [← hlen]; exact h3, hlen, fun i hi => ?_, fun htr => ?_⟩
  · have hiter : (o.world.aux.log[i]).iter = i + 1 := by
      have := congrArg (fun l : List ℕ => l[i]?) hit
      simp only [List.getElem?_map, List.getElem?_eq_getElem hi, Option.map_some] at this
      rw [List.getElem?_range' (by omega)] at this
      simp only [Option.some.injEq] at this
      omega
    obtain ⟨a, b, v, u, hv, hu, hc, -, s, -, -, -, -, -, -, hgr, -⟩ := h4 i hi
    rw [hiter] at hv
    exact ⟨hiter, hgr, v, hv, u, hu, hc⟩
  · have := (saved_calls (S := sys R) (files := files) cs (saved_fresh _ _ _ _) ho).2.2.2 htr
    exact ⟨_, this.2, fun e he => by
      show designPart R.design o.world.rho e = _
      simp [designPart, he]⟩

/-- **C125.** If the last update changed nothing, the last line does describe the design the run ends with. -/
theorem C125_unchanged_design (R : Setup ι E Q d m) (h : WellPosed R) (hnr : R.restart = false)
    (files : List (Snapshot.Name × (E → ℝ))) (cs : List Call) :
    ∃ o, runCalls (sys R) cs (newRun R.toCommon files) = (o, .ok ()) ∧
      ∀ r, o.started = true → o.world.aux.log.getLast? = some r → r.rhoChange = 0 →
        ∃ v, AllScheduled R.toCommon r.iter v ∧ ObjectiveOf R v o.world.rho r.compliance := by
  obtain ⟨o, ho, h'⟩ := C80_run_refines_algorithm R h hnr files cs
  refine ⟨o, ho, fun r hs hr h0 => ?_⟩
  obtain ⟨-, rho0, rs, hinit, hcont⟩ := h' hs
  have hstep : ∀ {rho rho' : E → ℝ} {a b : ℝ} {r : Rec}, Iteration R rho a r rho' b → ∀ e, Pinned R.toCommon e → rho' e = 1 := by
    rintro rho rho' a b r ⟨v, u, -, -, -, -, s, -, -, -, -, hrho, -⟩ e he
    rw [hrho e, if_pos he]
  obtain ⟨log, hl⟩ : ∃ l, l = o.world.aux.log := ⟨_, rfl⟩
  rw [← hl] at hcont hr
  obtain ⟨rho, hrho⟩ : ∃ x, x = o.world.rho := ⟨_, rfl⟩
  rw [← hrho] at hcont ⊢
  cases hcont with
  | refl => simp at hr
  | @next rho1 rs1 log1 hprev r1 _ _ hi =>
    have : r1 = r := by simpa using hr
    subst this
    have hpin1 : ∀ e, Pinned R.toCommon e → rho1 e = 1 := by
      intro e he
      cases hprev with
      | refl =>
        obtain ⟨x, -, hx⟩ := hinit
        rw [hx e, if_pos (Or.inl he)]
      | next _ hi' => exact hstep hi' e he
    obtain ⟨v, u, hv, hu, hc, -, s, -, -, -, -, hrho', -, hgr, -⟩ := hi
    have hsame : rho = rho1 := by
      funext e
      by_cases hp : Pinned R.toCommon e
      · rw [hpin1 e hp, hrho' e, if_pos hp]
      by_cases hd : e ∈ R.design
      · have := hgr.2 ⟨e, hd, rfl⟩
        rw [h0] at this
        have := abs_nonpos_iff.mp this
        linarith
      · rw [hrho' e, if_neg hp]
        unfold grown
        rw [if_neg hd]
    rw [hsame]
    exact ⟨v, hv, u, hu, hc⟩

/-! ### A run that ends with a design no line describes -/

/-- One design element, one iteration from density 0.6 with move limit 0.01, threshold at 0.8: the volume target 0.6 is not reached. -/
def chainGrow : Setup (Fin 4) (Fin 3) (Fin 1) 1 2 := { chainRun with
  maxIters := 1
  recordTimes := 1
  cP := { initValue := some 1, targetValue := some 1 }
  cVolFrac := { initValue := some 0.6, targetValue := some 0.6 }
  cMoveLimit := { initValue := some 0.01, targetValue := some 0.01 }
  cBeta := { initValue := some 10, targetValue := some 10 }
  betaEta := 0.8
  design := {0}
  fixed := {1}
  checkConvergence := false }

theorem chainGrow_wellPosed : WellPosed chainGrow :=
  let h := chainRun_wellPosed
  { h with
    record := by simp [chainGrow]
    percentages := by
      intro k q hq
      have h0 : Scheduled chainGrow.toCommon chainGrow.cPercentile k none := rfl
      unfold Scheduled at hq h0
      rw [h0] at hq
      injection hq with h1
      cases h1
    p := ⟨⟨chainGrow.cP, rfl⟩, by simp [chainGrow], by simp [chainGrow], by simp [chainGrow], by
      simp only [chainGrow]; rintro x (h | h) <;> simp only [Option.some.injEq] at h <;> subst h <;> simp⟩
    volFrac := ⟨⟨chainGrow.cVolFrac, rfl⟩, by simp [chainGrow], by simp [chainGrow], by simp [chainGrow], by simp⟩
    moveLimit := ⟨⟨chainGrow.cMoveLimit, rfl⟩, by simp [chainGrow], by simp [chainGrow], by simp [chainGrow], by
      simp only [chainGrow]; rintro x (h | h) <;> simp only [Option.some.injEq] at h <;> subst h <;> simp <;> norm_num⟩
    beta := ⟨⟨chainGrow.cBeta, rfl⟩, by simp [chainGrow], by simp [chainGrow], by simp [chainGrow], by
      simp only [chainGrow]; rintro x (h | h) <;> simp only [Option.some.injEq] at h <;> subst h <;> simp⟩
    design := ⟨0, by simp [chainGrow]⟩
    separate := by simp [chainGrow]
    nodal := by simp [chainGrow, chainRun] }

theorem grow_work (Em : Fin 3 → ℝ) (u w : Fin 4 → ℝ) (e : Fin 3) : innerWork chainGrow Em u w e =
    (0.3 / (1.3 * 0.4) + 1 / 1.3) * Em e * ((u e.succ - u e.castSucc) * (w e.succ - w e.castSucc)) := chain_work Em u w e

/-- The stress in every bar is the load. -/
theorem grow_stress {Em : Fin 3 → ℝ} {F : ℝ} {f u : Fin 4 → ℝ} (hf : ∀ i, f i = if i = 3 then F else 0)
    (hu : Displaced chainGrow Em f u) (e : Fin 3) : (0.3 / (1.3 * 0.4) + 1 / 1.3) * Em e * (u e.succ - u e.castSucc) = F := by
  have hd : chainGrow.dirichlet = {0} := rfl
  have key := hu.2 (fun i => if i ≤ e.castSucc then 0 else 1) (by rw [hd]; simp)
  have h2 : ∑ i, f i * (if i ≤ e.castSucc then (0 : ℝ) else 1) = F := by
    rw [Finset.sum_eq_single 3]
    · rw [hf, if_pos rfl, if_neg (by fin_cases e <;> simp <;> decide), mul_one]
    · intro b _ hb; rw [hf, if_neg hb, zero_mul]
    · simp
  have h1 : ∑ e', innerWork chainGrow Em u (fun i => if i ≤ e.castSucc then (0 : ℝ) else 1) e' =
      (0.3 / (1.3 * 0.4) + 1 / 1.3) * Em e * (u e.succ - u e.castSucc) := by
    simp only [grow_work, Fin.sum_univ_three]
    fin_cases e <;> simp [Fin.le_def, Fin.succ, Fin.castSucc, Fin.castAdd, Fin.castLE]
  rw [h1, h2] at key
  exact key

/-- The work of the load is the sum of the flexibilities. -/
theorem grow_load {Em : Fin 3 → ℝ} (hE : ∀ e, 0 < Em e) {F : ℝ} {f u : Fin 4 → ℝ} (hf : ∀ i, f i = if i = 3 then F else 0)
    (hu : Displaced chainGrow Em f u) : ∑ i, f i * u i = F ^ 2 / (0.3 / (1.3 * 0.4) + 1 / 1.3) * (1 / Em 0 + 1 / Em 1 + 1 / Em 2) := by
  have h0 : u 0 = 0 := hu.1 0 (by simp [chainGrow, chainRun])
  have e0 := grow_stress hf hu 0
  have e1 := grow_stress hf hu 1
  have e2 := grow_stress hf hu 2
  have p0 := hE 0
  have p1 := hE 1
  have p2 := hE 2
  have s : ∑ i, f i * u i = F * u 3 := by
    rw [Finset.sum_eq_single 3]
    · rw [hf, if_pos rfl]
    · intro b _ hb; rw [hf, if_neg hb, zero_mul]
    · simp
  rw [s]
  obtain ⟨κ, hκ⟩ : ∃ κ : ℝ, κ = 0.3 / (1.3 * 0.4) + 1 / 1.3 := ⟨_, rfl⟩
  have hκp : 0 < κ := by rw [hκ]; norm_num
  rw [← hκ] at e0 e1 e2 ⊢
  simp only [Fin.isValue, Fin.succ_zero_eq_one, Fin.castSucc_zero, Fin.succ_one_eq_two, Fin.castSucc_one] at e0 e1 e2
  have e2' : κ * Em 2 * (u 3 - u 2) = F := e2
  have d0 : u 1 - u 0 = F / (κ * Em 0) := by rw [eq_div_iff (by positivity)]; linarith
  have d1 : u 2 - u 1 = F / (κ * Em 1) := by rw [eq_div_iff (by positivity)]; linarith
  have d2 : u 3 - u 2 = F / (κ * Em 2) := by rw [eq_div_iff (by positivity)]; linarith
  have : u 3 = F / (κ * Em 0) + F / (κ * Em 1) + F / (κ * Em 2) := by linarith
  rw [this]
  field_simp


/-- A run of one iteration is that iteration. -/
theorem single_iteration (R : Setup ι E Q d m) (h : WellPosed R) (hnr : R.restart = false) (h1 : R.maxIters = 1) (hcc : R.checkConvergence = false)
    (files : List (Snapshot.Name × (E → ℝ))) :
    ∃ o r rho0 rs, optimize (sys R) (newRun R.toCommon files) = (o, .ok ()) ∧ o.completed = true ∧ o.world.aux.log = [r] ∧ r.iter = 1 ∧
      InitialDensities R.toCommon rho0 ∧ Iteration R rho0 0 r o.world.rho rs := by
  obtain ⟨o, ho, hc, hlog⟩ := C78_optimize_completes R h hnr files
  have hrun : runCalls (sys R) [.optimize] (newRun R.toCommon files) = (o, .ok ()) := by
    simp only [runCalls, Call.run]
    rw [ho]
  have hr : Reachable (sys R) o := by
    have := reachable_runCalls (S := sys R) [.optimize] (o := newRun R.toCommon files) (Reachable.fresh _ _ _)
    rw [hrun] at this
    exact this
  obtain ⟨o2, h4, h5⟩ := C80_run_refines_algorithm R h hnr files [.optimize]
  have e2 : o2 = o := by rw [h4] at hrun; exact (Prod.mk.inj hrun).1
  subst e2
  obtain ⟨-, rho0, rs, hinit, hcont⟩ := h5 (completed_started hr hc)
  have hlog := hlog hcc
  rw [h1] at hlog
  obtain ⟨log, hl⟩ : ∃ l, l = o2.world.aux.log := ⟨_, rfl⟩
  rw [← hl] at hcont hlog
  obtain ⟨rho, hrho⟩ : ∃ x, x = o2.world.rho := ⟨_, rfl⟩
  rw [← hrho] at hcont
  cases hcont with
  | refl => simp at hlog
  | @next rho' rs' log' hprev r _ _ hi =>
    have hl' : log' = [] := by
      have := congrArg List.length hlog
      simp at this
      exact this
    subst hl'
    have hr1 : r.iter = 1 := by simpa using hlog
    have hrho0 : rho' = rho0 ∧ rs' = 0 := by
      generalize hq : ([] : List Rec) = l0 at hprev
      cases hprev with
      | refl => exact ⟨rfl, rfl⟩
      | next _ _ => simp at hq
    obtain ⟨rfl, rfl⟩ := hrho0
    exact ⟨o2, r, rho', rs, ho, hc, by rw [← hl]; rfl, hr1, hinit, by rw [← hrho]; exact hi⟩

theorem grow_blur {r : ℝ} (hr : 0 < r) (x : Fin 3 → ℝ) (e : Fin 3) : blur chainGrow.toCommon r x e = x e := by
  unfold blur
  have hnod : chainGrow.toCommon.nodal = none := rfl
  have hdes : chainGrow.toCommon.design = {0} := rfl
  rw [hnod]
  simp only
  split_ifs with he
  · have hs := share_sum (R := chainGrow.toCommon) hr he
    rw [hdes] at hs he ⊢
    rw [Finset.mem_singleton] at he
    rw [Finset.sum_singleton] at hs ⊢
    rw [hs, one_mul, he]
  · rfl

/-- Below the threshold. -/
theorem threshold_low {x : ℝ} (hx : x ≤ 0.7) : threshold 10 0.8 x < 1 / 2 := by
  unfold threshold
  have ha := half_lt_tanh (x := 10 * 0.8) (by norm_num)
  have hb := half_lt_tanh (x := -(10 * (x - 0.8))) (by linarith)
  have hc := half_lt_tanh (x := 10 * (1 - 0.8)) (by norm_num)
  have hlt := Real.tanh_lt_one (10 * 0.8)
  rw [Real.tanh_neg] at hb
  rw [div_lt_iff₀ (by positivity)]
  have : (0 : ℝ) < 1 / 10 ^ 12 := by positivity
  linarith

theorem threshold_strictMono : StrictMono (threshold 10 0.8) := by
  intro x y hxy
  unfold threshold
  have ha := half_lt_tanh (x := 10 * 0.8) (by norm_num)
  have hc := half_lt_tanh (x := 10 * (1 - 0.8)) (by norm_num)
  refine div_lt_div_of_pos_right ?_ (by positivity)
  have := Projection.tanh_strictMono (show 10 * (x - 0.8) < 10 * (y - 0.8) by linarith)
  linarith

theorem threshold_zero : threshold 10 0.8 0 = 0 := by
  unfold threshold
  rw [show (10 : ℝ) * (0 - 0.8) = -(10 * 0.8) by ring, Real.tanh_neg]
  simp

theorem threshold_le_one {x : ℝ} (hx : x ≤ 1) : threshold 10 0.8 x ≤ 1 := by
  unfold threshold
  have ha := half_lt_tanh (x := 10 * 0.8) (by norm_num)
  have hc := half_lt_tanh (x := 10 * (1 - 0.8)) (by norm_num)
  have h1 := Projection.tanh_strictMono.monotone (show 10 * (x - 0.8) ≤ 10 * (1 - 0.8) by linarith)
  rw [div_le_one (by positivity)]
  have : (0 : ℝ) < 1 / 10 ^ 12 := by positivity
  linarith

theorem threshold_slope_low : 1 / 100 < thresholdSlope 10 0.8 0.6 := by
  unfold thresholdSlope
  have ha := half_lt_tanh (x := 10 * 0.8) (by norm_num)
  have hc := half_lt_tanh (x := 10 * (1 - 0.8)) (by norm_num)
  have ha' := Real.tanh_lt_one (10 * 0.8)
  have hc' := Real.tanh_lt_one (10 * (1 - 0.8))
  have hcosh : Real.cosh (10 * (0.6 - 0.8)) ≤ 8 := by
    rw [show (10 : ℝ) * (0.6 - 0.8) = -2 by norm_num, Real.cosh_neg, Real.cosh_eq]
    have h1 := Real.exp_one_lt_d9
    have h2 : Real.exp 2 = Real.exp 1 ^ 2 := by rw [← Real.exp_nat_mul]; norm_num
    have h3 : Real.exp (-2) ≤ 1 := Real.exp_le_one_iff.mpr (by norm_num)
    have h4 := Real.exp_pos 1
    rw [h2]
    nlinarith
  have hpos := Real.cosh_pos (10 * (0.6 - 0.8))
  have hsq : Real.cosh (10 * (0.6 - 0.8)) ^ 2 ≤ 64 := by nlinarith
  have h12 : (1 : ℝ) / 10 ^ 12 ≤ 1 := by norm_num
  have h12' : (0 : ℝ) < 1 / 10 ^ 12 := by positivity
  rw [lt_div_iff₀ (by positivity), lt_div_iff₀ (by positivity)]
  nlinarith

/-- Bisection of a function that is far below zero everywhere ends near the lower end. -/
theorem bisected_low {F : ℝ → ℝ} (hF : ∀ l, F l ≤ -(1 / 10)) {l : ℝ} (h : Bisected chainGrow.toCommon F l) : 0 ≤ l ∧ l ≤ 1 / 10 ^ 4 := by
  obtain ⟨n, hn, -, rfl⟩ := h
  have hb : ∀ n, (bracket chainGrow.toCommon F n).1 = 1 / 10 ^ 7 ∧
      (bracket chainGrow.toCommon F n).2 = 1 / 10 ^ 7 + (10 ^ 7 - 1 / 10 ^ 7) / 2 ^ n := by
    intro n
    induction n with
    | zero => exact ⟨rfl, by show (10 : ℝ) ^ 7 = _; norm_num⟩
    | succ n ih =>
      have hneg : ¬ 0 < F (((bracket chainGrow.toCommon F n).1 + (bracket chainGrow.toCommon F n).2) / 2) := by
        have := hF (((bracket chainGrow.toCommon F n).1 + (bracket chainGrow.toCommon F n).2) / 2)
        intro h; linarith
      rw [bracket, if_neg hneg]
      refine ⟨ih.1, ?_⟩
      show ((bracket chainGrow.toCommon F n).1 + (bracket chainGrow.toCommon F n).2) / 2 = _
      rw [ih.1, ih.2, pow_succ]
      field_simp
      ring
  obtain ⟨h1, h2⟩ := hb n
  have hw : (10 ^ 7 - 1 / 10 ^ 7) / 2 ^ n ≤ (1 : ℝ) / 10 ^ 5 := by
    rcases hn with h | h | h
    · have := hF (middle chainGrow.toCommon F n)
      rw [abs_lt] at h
      norm_num at h this
      linarith [h.1]
    · rw [h, div_le_div_iff₀ (by positivity) (by positivity)]
      have : (2 : ℝ) ^ 60 ≤ 2 ^ 1000 := pow_le_pow_right₀ (by norm_num) (by norm_num)
      have h60 : ((10 : ℝ) ^ 7 - 1 / 10 ^ 7) * 10 ^ 5 ≤ 2 ^ 60 := by norm_num
      rw [one_mul]
      exact h60.trans this
    · rw [h1, h2] at h
      exact (le_abs_self _).trans (by rw [add_sub_cancel_left] at h; exact h)
  have hp : (0 : ℝ) < (10 ^ 7 - 1 / 10 ^ 7) / 2 ^ n := div_pos (by norm_num) (by positivity)
  unfold middle
  rw [h1, h2]
  constructor
  · positivity
  · norm_num at hw ⊢
    linarith

/-- Every load case has a displacement. -/
theorem grow_exists {Em : Fin 3 → ℝ} (hE : ∀ e, 0 < Em e) (F : ℝ) (f : Fin 4 → ℝ) (hf : ∀ i, f i = if i = 3 then F else 0) :
    ∃ u, Displaced chainGrow Em f u := by
  obtain ⟨κ, hκ⟩ : ∃ κ : ℝ, κ = 0.3 / (1.3 * 0.4) + 1 / 1.3 := ⟨_, rfl⟩
  have hκp : 0 < κ := by rw [hκ]; norm_num
  have hd : chainGrow.dirichlet = {0} := rfl
  have p0 := hE 0
  have p1 := hE 1
  have p2 := hE 2
  refine ⟨![0, F / (κ * Em 0), F / (κ * Em 0) + F / (κ * Em 1), F / (κ * Em 0) + F / (κ * Em 1) + F / (κ * Em 2)], ?_, fun w hw => ?_⟩
  · rw [hd]; simp
  · have h0 : w 0 = 0 := hw 0 (by rw [hd]; simp)
    simp only [grow_work, ← hκ, Fin.sum_univ_three]
    rw [Fin.sum_univ_four, hf, hf, hf, hf, if_neg (by decide), if_neg (by decide), if_neg (by decide), if_pos rfl]
    simp only [Fin.isValue, Fin.succ_zero_eq_one, Fin.castSucc_zero, Fin.succ_one_eq_two, Fin.castSucc_one]
    have e3 : Fin.succ (2 : Fin 3) = 3 := rfl
    have e4 : Fin.castSucc (2 : Fin 3) = 2 := rfl
    rw [e3, e4, h0]
    simp
    field_simp
    ring

/-- **C125 (refuted for the last design).** The last objective value a run records need not be that of the design it ends with: a
well-posed run whose only line records a value that is strictly larger than the objective value of its final densities with the same
scheduled values. -/
theorem C125_last_objective_stale (files : List (Snapshot.Name × (Fin 3 → ℝ))) : WellPosed chainGrow ∧
    ∃ o r v c, optimize (sys chainGrow) (newRun chainGrow.toCommon files) = (o, .ok ()) ∧ o.completed = true ∧ o.world.aux.log = [r] ∧
      r.iter = 1 ∧ AllScheduled chainGrow.toCommon 1 v ∧ ObjectiveOf chainGrow v o.world.rho c ∧ c < r.compliance := by
  refine ⟨chainGrow_wellPosed, ?_⟩
  have hinst : instDecidableEqFin 3 = fun a b => propDecidable (a = b) := Subsingleton.elim _ _
  rw [hinst]
  obtain ⟨o, r, rho0, rs, ho, hc, hlog, hiter, hinit, hI⟩ := single_iteration chainGrow chainGrow_wellPosed rfl rfl rfl files
  obtain ⟨v, u, hv, hu, hcomp, -, hstep⟩ := hI
  rw [hiter] at hv
  obtain ⟨rho, hrho⟩ : ∃ x, x = o.world.rho := ⟨_, rfl⟩
  rw [← hrho] at hstep
  have key : ∀ {x y : ℝ}, (Except.ok (some x) : Res (Option ℝ)) = .ok (some y) → x = y := by
    intro x y h
    injection h with h
    injection h
  have hb : (10 : ℝ) = v.beta := key hv.beta
  have hr : (1.2 : ℝ) = v.radius := key hv.radius
  have hp : (1 : ℝ) = v.p := key hv.p
  have hml : (0.01 : ℝ) = v.moveLimit := key hv.moveLimit
  have hvf : (0.6 : ℝ) = v.volFrac := key hv.volFrac
  have hns : (1 : ℝ) = v.neumannScale := key hv.neumannScale
  have heta : (0.6 : ℝ) = v.eta := key (hv.eta rfl)
  have hpc : v.percentile = none := by
    have h0 : Scheduled chainGrow.toCommon chainGrow.cPercentile 1 none := rfl
    have h1 := hv.percentile
    unfold Scheduled at h0 h1
    rw [h0] at h1
    injection h1 with h1
    exact h1.symm
  have hrp : 0 < v.radius := by rw [← hr]; norm_num
  have hphys : ∀ (x : Fin 3 → ℝ) e, physical chainGrow.toCommon v x e = threshold 10 0.8 (x e) := by
    intro x e
    unfold physical
    rw [grow_blur hrp, ← hb]
    rfl
  have hnp : ¬ Pinned chainGrow.toCommon 0 := fun h => by
    have := h {2} rfl
    simp at this
  -- the start densities
  have hall : (∀ e, 0 ≤ rho0 e ∧ rho0 e ≤ 1) ∧ rho0 0 = 0.6 ∧ (∀ e, Pinned chainGrow.toCommon e → rho0 e = 1) := by
    obtain ⟨x, hx, h⟩ := hinit
    have hx' : (0.6 : ℝ) = x := by
      have : InitialValue chainGrow.cVolFrac x := hx
      unfold InitialValue at this
      rw [if_pos (Or.inl (show chainGrow.cVolFrac.schedType = "Constant" from rfl))] at this
      injection this
    refine ⟨fun e => ?_, ?_, fun e he => by rw [h e, if_pos (Or.inl he)]⟩
    · rw [h e, ← hx']
      split_ifs
      · norm_num
      · norm_num [chainGrow, chainRun]
    · have hnf : ¬ (Pinned chainGrow.toCommon 0 ∨ (0 : Fin 3) ∈ chainGrow.fixed) := by
        rintro (hp | hp)
        · exact hnp hp
        · simp [chainGrow] at hp
      rw [h 0, if_neg hnf, ← hx']
      norm_num [chainGrow, chainRun]
  obtain ⟨hbox, h06, hone⟩ := hall
  have hyoung : ∀ x, young chainGrow v.p x = 0.21 + 209.79 * x := by
    intro x
    unfold young
    rw [← hp, Real.rpow_one]
    have h1 : chainGrow.E0 = 210 := rfl
    have h2 : chainGrow.eMinCoeff = 1 / 1000 := rfl
    rw [h1, h2]
    norm_num
  have hth : ∀ x, 0 ≤ x → 0 ≤ threshold 10 0.8 x := fun x hx => by
    rw [← threshold_zero]; exact threshold_strictMono.monotone hx
  obtain ⟨Em, hEm⟩ : ∃ Em, Em = fun e => young chainGrow v.p (physical chainGrow.toCommon v rho0 e) := ⟨_, rfl⟩
  have hEp : ∀ e, 0.21 ≤ Em e ∧ Em e ≤ 210 := by
    intro e
    rw [hEm]
    simp only
    rw [hyoung, hphys]
    have := hth _ (hbox e).1
    have := threshold_le_one (hbox e).2
    constructor <;> linarith
  have hload : ∀ j i, chainGrow.loads j i * v.neumannScale = if i = 3 then (if j = 0 then 1 else 2) else 0 := by
    intro j i
    rw [← hns]
    show (if i = 3 then (if j = 0 then (1 : ℝ) else 2) else 0) * 1 = _
    rw [mul_one]
  rw [← hEm] at hu
  -- the sensitivity of the design element
  have hgrad : gradient chainGrow v rho0 u 0 ≤ -(1 / 10 ^ 12) := by
    have hwork : ∀ j, 1 / 500 ≤ innerWork chainGrow Em (u j) (u j) 0 := by
      intro j
      have hs := grow_stress (hload j) (hu j) 0
      rw [grow_work]
      obtain ⟨κ, hκ⟩ : ∃ κ : ℝ, κ = 0.3 / (1.3 * 0.4) + 1 / 1.3 := ⟨_, rfl⟩
      have hκ1 : 0 < κ ∧ κ < 2 := by rw [hκ]; norm_num
      rw [← hκ] at hs ⊢
      obtain ⟨D, hD⟩ : ∃ D, D = u j (Fin.succ 0) - u j (Fin.castSucc 0) := ⟨_, rfl⟩
      rw [← hD] at hs ⊢
      have h1 := (hEp 0).1
      have h2 := (hEp 0).2
      have hF : 1 ≤ (if j = 0 then (1 : ℝ) else 2) := by split_ifs <;> norm_num
      rw [← hs] at hF
      have hpos : 0 < κ * Em 0 := mul_pos hκ1.1 (by linarith)
      have hle : κ * Em 0 ≤ 420 := by nlinarith [hκ1.1, hκ1.2]
      have hDp : 1 / 420 ≤ D := by
        by_contra hlt
        push Not at hlt
        have hDpos : 0 < D := by
          by_contra hn
          push Not at hn
          nlinarith
        nlinarith
      have : κ * Em 0 * (D * D) = (κ * Em 0 * D) * D := by ring
      rw [this]
      nlinarith
    have hslope : ∀ j, Spec.slope chainGrow v.p (physical chainGrow.toCommon v rho0 0) (innerWork chainGrow Em (u j) (u j) 0 / 2) ≤ -(1 / 1000) := by
      intro j
      unfold Spec.slope slopeOf
      have h1 : chainGrow.E0 = 210 := rfl
      have h2 : chainGrow.eMinCoeff = 1 / 1000 := rfl
      rw [h1, h2, ← hp, sub_self, Real.rpow_zero, Real.rpow_one, hphys, h06]
      obtain ⟨X, hX⟩ : ∃ X, X = max (threshold 10 0.8 0.6) (1 / 10 ^ 6) := ⟨_, rfl⟩
      have hX1 : 0 ≤ X ∧ X ≤ 1 := by
        rw [hX]
        exact ⟨le_max_of_le_right (by positivity), max_le (threshold_le_one (by norm_num)) (by norm_num)⟩
      rw [← hX]
      have hden : (210 : ℝ) * (1 / 1000) + (210 - 210 * (1 / 1000)) * X ≤ 210 := by nlinarith [hX1.2]
      have hden0 : (0 : ℝ) < 210 * (1 / 1000) + (210 - 210 * (1 / 1000)) * X := by nlinarith [hX1.1]
      have hm : max (210 * (1 / 1000) + (210 - 210 * (1 / 1000)) * X) ((1 : ℝ) / 10 ^ 12) ≤ 210 := max_le hden (by norm_num)
      have hm0 : 0 < max (210 * (1 / 1000) + (210 - 210 * (1 / 1000)) * X) ((1 : ℝ) / 10 ^ 12) := lt_max_of_lt_left hden0
      have := hwork j
      rw [div_le_iff₀ hm0]
      nlinarith
    have hnod : chainGrow.toCommon.nodal = none := rfl
    have hdes : chainGrow.toCommon.design = {0} := rfl
    have hsf : chainGrow.toCommon.sensFilter = false := rfl
    have hbe : chainGrow.toCommon.betaEta = 0.8 := rfl
    have hsh : share chainGrow.toCommon v.radius 0 0 = 1 := by
      have := share_sum (R := chainGrow.toCommon) hrp (i := 0) (by rw [hdes]; simp)
      rwa [hdes, Finset.sum_singleton] at this
    unfold gradient chained
    simp only [hsf, Bool.false_eq_true, if_false, ← hEm]
    have hone : ∀ j, blurT chainGrow.toCommon v.radius (fun e => Spec.slope chainGrow v.p (physical chainGrow.toCommon v rho0 e)
        (innerWork chainGrow Em (u j) (u j) e / 2) * thresholdSlope v.beta chainGrow.toCommon.betaEta (blur chainGrow.toCommon v.radius rho0 e)) 0 ≤
        -(1 / 1000) * (1 / 100) := by
      intro j
      unfold blurT
      rw [hnod]
      simp only
      rw [hdes, if_pos (by simp), Finset.sum_singleton, hsh, one_mul, grow_blur hrp, h06, ← hb, hbe]
      have h1 := hslope j
      have h2 := threshold_slope_low
      nlinarith
    rw [Fin.sum_univ_two]
    have h0 := hone 0
    have h1 := hone 1
    rw [div_le_iff₀ (by norm_num)]
    norm_num at h0 h1 ⊢
    linarith
  -- the update
  have hrho1 : rho 0 = 0.61 ∧ rho 1 = rho0 1 ∧ rho 2 = rho0 2 := by
    obtain ⟨s, hs, -, hrs, hbis, hnew, -⟩ := hstep
    have hdes : chainGrow.toCommon.design = {0} := rfl
    have hs' : s = |gradient chainGrow v rho0 u 0| := by
      have := (hs hpc).1
      rw [hdes] at this
      obtain ⟨a, ha, hsa⟩ := this
      simp only [Finset.coe_singleton, Set.mem_singleton_iff] at ha
      rw [← hsa, ha]
    obtain ⟨g0, hg0⟩ : ∃ g0, g0 = gradient chainGrow v rho0 u 0 := ⟨_, rfl⟩
    rw [← hg0] at hs' hgrad
    have hneg : g0 < 0 := lt_of_le_of_lt hgrad (by norm_num)
    have hrs' : rs = -g0 := by
      rw [hrs, if_pos (by rw [hiter]), hs', abs_of_neg hneg]
      exact max_eq_left (by show (1 : ℝ) / 10 ^ 12 ≤ _; linarith)
    have hg1 : gradient chainGrow v rho0 u 0 / rs = -1 := by
      rw [← hg0, hrs', div_neg, div_self hneg.ne]
    have hup : ∀ l, grown chainGrow.toCommon v rho0 (fun e => gradient chainGrow v rho0 u e / rs) l 0 ≤ 0.61 := by
      intro l
      unfold grown
      rw [hdes, if_pos (by simp), h06, ← hml]
      refine (min_le_right _ _).trans ((min_le_left _ _).trans ?_)
      norm_num
    have hl := bisected_low (fun l => by
      unfold excess
      rw [hdes, Finset.sum_singleton, Finset.sum_singleton, hphys, ← hvf]
      have h1 : chainGrow.toCommon.volume 0 = 1 := rfl
      rw [h1]
      have h2 := threshold_low (x := grown chainGrow.toCommon v rho0 (fun e => gradient chainGrow v rho0 u e / rs) l 0) ((hup l).trans (by norm_num))
      norm_num at h2 ⊢
      linarith) hbis
    refine ⟨?_, ?_, ?_⟩
    · rw [hnew 0, if_neg hnp]
      unfold grown
      rw [hdes, if_pos (by simp), h06, ← hml]
      have hrate : rate chainGrow.toCommon v.eta (gradient chainGrow v rho0 u 0 / rs) r.lmid = 2 := by
        unfold rate
        rw [hg1, ← heta, if_neg (by norm_num)]
        have h1 : chainGrow.toCommon.rateMax = 2 := rfl
        rw [h1]
        refine min_eq_right (le_max_of_le_left ?_)
        have h32 : (32 : ℝ) ≤ - -1 / (r.lmid + 1 / 10 ^ 12) := by
          rw [le_div_iff₀ (by have := hl.1; positivity)]
          have := hl.2
          norm_num at this ⊢
          linarith
        refine le_trans ?_ (Real.rpow_le_rpow (by norm_num) h32 (by norm_num))
        rw [show (32 : ℝ) = 2 ^ (5 : ℝ) by norm_num, ← Real.rpow_mul (by norm_num)]
        norm_num
      rw [hrate]
      have h1 : chainGrow.toCommon.rhoMin = 1 / 100 := rfl
      have h2 : chainGrow.toCommon.rhoMax = 1 := rfl
      rw [h1, h2]
      norm_num
    all_goals
      rw [hnew]
      split_ifs with hpin
      · exact (hone _ hpin).symm
      · unfold grown
        rw [hdes, if_neg (by simp)]
  -- the objective value of the final design
  obtain ⟨Em', hEm'⟩ : ∃ Em, Em = fun e => young chainGrow v.p (physical chainGrow.toCommon v rho e) := ⟨_, rfl⟩
  have h1 : Em' 1 = Em 1 := by rw [hEm', hEm]; simp only; rw [hphys, hphys, hrho1.2.1]
  have h2 : Em' 2 = Em 2 := by rw [hEm', hEm]; simp only; rw [hphys, hphys, hrho1.2.2]
  have h0 : Em 0 < Em' 0 := by
    rw [hEm', hEm]
    simp only
    rw [hyoung, hyoung, hphys, hphys, hrho1.1, h06]
    have := threshold_strictMono (show (0.6 : ℝ) < 0.61 by norm_num)
    linarith
  have hEp' : ∀ e, 0 < Em' e := by
    intro e
    fin_cases e
    · show 0 < Em' 0
      linarith [(hEp 0).1]
    · show 0 < Em' 1
      rw [h1]; linarith [(hEp 1).1]
    · show 0 < Em' 2
      rw [h2]; linarith [(hEp 2).1]
  have hEq : ∀ e, 0 < Em e := fun e => lt_of_lt_of_le (by norm_num) (hEp e).1
  choose u' hu' using fun j => grow_exists hEp' (if j = 0 then (1 : ℝ) else 2) (fun i => chainGrow.loads j i * v.neumannScale) (hload j)
  refine ⟨o, r, v, _, ho, hc, hlog, hiter, hv, ⟨u', by rw [← hrho, ← hEm']; exact hu', rfl⟩, ?_⟩
  rw [hcomp]
  refine div_lt_div_of_pos_right ?_ (by norm_num)
  refine Finset.sum_lt_sum_of_nonempty Finset.univ_nonempty fun j _ => ?_
  rw [grow_load hEp' (hload j) (hu' j), grow_load hEq (hload j) (hu j), h1, h2]
  have hF : (0 : ℝ) < (if j = 0 then (1 : ℝ) else 2) := by split_ifs <;> norm_num
  have hlt : 1 / Em' 0 < 1 / Em 0 := one_div_lt_one_div_of_lt (hEq 0) h0
  refine mul_lt_mul_of_pos_left (by linarith) (by positivity)

/-- Non-vacuity of the general statements: the chain of bars. -/
example := C125_lines_describe_designs_partial chainRun chainRun_wellPosed rfl [] [.steps 3, .optimize]

end
end Verif.Run
