import Verif.Props.RunHeat
import Mathlib.Analysis.Complex.ExponentialBounds
import Mathlib.Analysis.SpecialFunctions.Trigonometric.DerivHyp

/-!
C103: the compliance objective with Robin boundaries and the spatial filter. The sensitivities may be positive, and then OC computes NaN
densities.
-/
namespace Verif.Run
open Verif Verif.Sched Verif.Spec Verif.Driver Verif.Heat

variable {ι Q : Type} [Fintype ι] [Fintype Q] {d nE k : ℕ}

noncomputable section
open Classical

/-- Generic version: if the first iteration finds a positive sensitivity and `eta` is fractional, every call that iterates computes NaN
densities. -/
theorem nan_by {E : Type} [Fintype E] {R : Common E d} (h : Basics R) (h' : OCRules R) {n : ℕ} {response : Vals → (E → ℝ) → Res (ℝ × (Fin n → E → ℝ))}
    (hresp : ∀ v, ValsOk R 1 v → ∀ rho : E → ℝ, InitialDensities R rho → (∀ e, 0 ≤ rho e ∧ rho e ≤ 1) → (¬ ∃ z : ℤ, (z : ℝ) = v.eta) ∧
      ∃ c cols, response v (physical R v rho) = .ok (c, cols) ∧ ∃ e ∈ R.design, 0 < chained R v rho cols e)
    (hnr : R.restart = false) (files : List (Snapshot.Name × (E → ℝ))) (c : Call) (hc : ∀ n, c = .steps n → 0 < n) :
    ∃ o, c.run (sysWith R (stepWith R response)) (newRun R files) = (o, .error .nan) ∧ InitialDensities R o.world.rho ∧ o.world.files = files ∧
      o.world.trace = [1] := by
  obtain ⟨o1, hi, hn, hid, hok, hf, ht, hready, hfit, hrs⟩ := new_initialized h (stepWith R response) hnr files
  obtain ⟨v, hv, hvok⟩ := hready o1.world.aux rfl 1
  obtain ⟨heta, cc, cols, hre, e, he, hpos⟩ := hresp v hvok o1.world.rho hid hok.unit
  obtain ⟨F, F1, han, -⟩ := analyseWith_ok h hvok o1.world.rho o1.world.aux hfit (response v) hre
  have hstep : ∃ y, (sysWith R (stepWith R response)).step o1.iterNext o1.world.rho o1.world.aux = (y, .error .nan) := by
    rw [hn]
    show ∃ y, stepWith R response 1 o1.world.rho o1.world.aux = _
    unfold stepWith
    rw [hv]
    simp only
    unfold computeWith
    rw [han]
    simp only
    unfold ocUpdate
    rw [if_neg (by rintro ⟨q, hq, hq'⟩; have := h'.percentages 1 q (hq ▸ hvok.all.percentile); rcases hq' with h | h <;> linarith)]
    simp only
    have hup : ∃ out, OC.rhoUpdate (ocCfg R F) (stepArgs R 1 v) o1.world.aux.runningScale o1.world.rho o1.world.rho
        (chained R v o1.world.rho cols) = .ok out := by
      unfold OC.rhoUpdate OC.sensScale
      cases (stepArgs R 1 v).percentile with
      | some q => exact ⟨_, rfl⟩
      | none =>
        simp only
        have hd : (ocCfg R F).design.Nonempty := h.design
        rw [dif_pos hd]
        exact ⟨_, rfl⟩
    obtain ⟨out, hout⟩ := hup
    rw [hout]
    simp only
    have hnone := (Props.C13_positive_sensitivity_nan _ _ _ _ _ _ out hout h'.scaleFloor hrs.ge h'.bracket.1 h'.bracket.2 heta e he hpos).1
    refine ⟨_, Prod.ext rfl ?_⟩
    show noNan R out.rho = _
    unfold noNan
    rw [if_neg]
    intro hall
    have := hall e he
    rw [hnone] at this
    exact absurd this (by simp)
  obtain ⟨y, hstep⟩ := hstep
  have hmax : o1.iterNext ≤ (sysWith R (stepWith R response)).maxIters := by rw [hn]; exact h.record.1.trans h.record.2
  refine ⟨_, first_step_raises _ _ o1 rfl hi hmax hstep c hc, hid, hf, ?_⟩
  show o1.world.trace ++ [o1.iterNext] = [1]
  rw [ht, hn]; rfl

/-- **C103.** An OC run on a sound heat task whose exponent `eta` is fractional (the default is 0.5): if the sensitivity of the first
iteration, computed from the heat balance of the initial design, is positive at some design element, every call that iterates computes NaN
densities in iteration 1 (`.nan` marks them; the code raises nothing). -/
theorem C103_positive_sensitivity_nan (R : HeatSetup ι Q d nE k) (h : HeatSound R) (h' : OCRules R.toCommon) (hnr : R.restart = false)
    (heta : ∀ v, AllScheduled R.toCommon 1 v → ¬ ∃ z : ℤ, (z : ℝ) = v.eta)
    (hpos : ∀ v rho (u : Fin R.task.values.length → ι → ℝ), AllScheduled R.toCommon 1 v → InitialDensities R.toCommon rho →
      (∀ j, Warmed R.task R.eMinCoeff v.p (physical R.toCommon v rho) j (u j)) →
      ∃ e ∈ R.design, 0 < chained R.toCommon v rho (fun j => heatColumn R.task R.eMinCoeff v.p (physical R.toCommon v rho) (u j)) e)
    (files : List (Snapshot.Name × (Fin nE → ℝ))) (c : Call) (hc : ∀ n, c = .steps n → 0 < n) :
    ∃ o, c.run (heatSys R) (newHeatRun R files) = (o, .error .nan) ∧ InitialDensities R.toCommon o.world.rho ∧ o.world.files = files ∧
      o.world.trace = [1] := by
  obtain ⟨o, ho, h1⟩ := nan_by h.toBasics h' (response := heatResponse R R.task) (fun v hv rho hrho hbox => ⟨heta v hv.all, by
    obtain ⟨u, u1, u2⟩ := heatResponse_ok h v fun e => physical_range h.toBasics hv hbox e
    exact ⟨_, _, u2, hpos v rho u hv.all hrho u1⟩⟩) hnr files c hc
  exact ⟨_, heat_call h ho, h1⟩

/-- **C103.** What holds instead: with the default filter, or another objective, or without Robin boundaries, no call computes NaN densities
(or raises anything else). Missing from the English claim: the compliance with Robin boundaries and the spatial filter, for which
`C103_nan_run` shows it to be false. -/
theorem C103_no_nan_partial (R : HeatSetup ι Q d nE k) (h : HeatSound R) (h' : OCRules R.toCommon) (hnr : R.restart = false)
    (hs : R.nodal ≠ none ∨ R.task.objective ≠ .compliance ∨ R.task.robin = none) (files : List (Snapshot.Name × (Fin nE → ℝ))) (cs : List Call) :
    ∃ o, runCalls (heatSys R) cs (newHeatRun R files) = (o, .ok ()) := by
  have hsign : R.task.objective = .compliance → R.task.robin ≠ none → R.nodal ≠ none := fun h1 h2 => by
    rcases hs with h3 | h3 | h3
    · exact h3
    · exact absurd h1 h3
    · exact absurd h3 h2
  obtain ⟨o, ho, -⟩ := C100_well_posed_run R ⟨h, h', hsign⟩ hnr files cs
  exact ⟨o, ho⟩

/-! ### A run that computes NaN -/

/-- Two rods, of which the first is designed and the second is solid; temperature 1 prescribed everywhere, surroundings at 0 degrees, film
coefficient 1; minimise the compliance. -/
def hotRods : HeatSetup (Fin 3) (Fin 1) 1 2 2 := { rodsRun .compliance with
  cP := { initValue := some 3, targetValue := some 3 }
  cVolFrac := { initValue := some (1 / 2), targetValue := some (1 / 2) }
  cBeta := { initValue := some 2, targetValue := some 2 }
  design := {0}
  fixed := {1}
  task := { rodsTask with
    objective := .compliance
    dirichlet := [{0, 1, 2}]
    values := [1]
    robin := some (1, 0) } }

theorem hotRods_basics : Basics hotRods.toCommon :=
  let h := rodsRun_basics .compliance
  { h with
    p := ⟨⟨hotRods.cP, rfl⟩, by simp [hotRods], by simp [hotRods], by simp [hotRods], by simp [hotRods]⟩
    volFrac := ⟨⟨hotRods.cVolFrac, rfl⟩, by simp [hotRods], by simp [hotRods], by simp [hotRods], by simp⟩
    beta := ⟨⟨hotRods.cBeta, rfl⟩, by simp [hotRods], by simp [hotRods], by simp [hotRods], by simp [hotRods]⟩
    design := ⟨0, by simp [hotRods]⟩
    separate := by simp [hotRods]
    nodal := by simp [hotRods, rodsRun] }

theorem hotRods_rules : OCRules hotRods.toCommon := { rodsRun_rules .compliance with }

theorem hotRods_sound : HeatSound hotRods :=
  let h := rodsRun_sound .compliance
  { toBasics := hotRods_basics
    built := ⟨hotRods.task, by
      unfold Task.build hotRods rodsTask
      simp only [assembleRobin_one, Except.map]
      rfl⟩
    weights := h.weights
    shapes := h.shapes
    partition := h.partition
    corners := h.corners
    surfaces := h.surfaces
    film := by
      intro h Tenv hr
      simp only [hotRods, Option.some.injEq, Prod.mk.injEq] at hr
      rw [← hr.1]; norm_num
    material := by norm_num [hotRods, rodsTask, rodsRun]
    loadCases := by simp [hotRods]
    regions := rfl
    same := by simp [hotRods]
    connected := by
      intro D hD w hw hs
      have : D = {0, 1, 2} := by simpa [hotRods] using hD
      exact rods_connected w (hw 0 (by simp [this])) hs
    robin := by simp [hotRods]
    direct := h.direct
    solver := Or.inl rfl }

/-- `tanh 1 / (2 tanh 1 + 1e-12)`, the physical density of the designed rod. -/
def hotDensity : ℝ := Real.tanh 1 / (Real.tanh 1 + Real.tanh 1 + 1 / 10 ^ 12)

theorem tanh_one : (1 : ℝ) / 3 < Real.tanh 1 := by
  have h1 : (1 : ℝ) ≤ Real.sinh 1 := Real.self_le_sinh_iff.mpr (by norm_num)
  have h2 : Real.cosh 1 < 3 := by
    have := Real.exp_one_lt_d9
    rw [Real.cosh_eq]
    have h3 : Real.exp (-1) ≤ 1 := Real.exp_le_one_iff.mpr (by norm_num)
    linarith
  rw [Real.tanh_eq_sinh_div_cosh, lt_div_iff₀ (Real.cosh_pos 1)]
  linarith

theorem hotDensity_range : (0.4 : ℝ) < hotDensity ∧ hotDensity < 0.5 := by
  have h := tanh_one
  unfold hotDensity
  have hp : (0 : ℝ) < Real.tanh 1 + Real.tanh 1 + 1 / 10 ^ 12 := by positivity
  constructor
  · rw [lt_div_iff₀ hp]; norm_num at *; linarith
  · rw [div_lt_iff₀ hp]; norm_num at *; linarith

theorem filter_is {α : Type} [Fintype α] {P : α → Prop} {inst : DecidablePred P} {S : Finset α} (h : ∀ a, P a ↔ a ∈ S) :
    @Finset.filter α P inst Finset.univ = S := by
  ext a
  rw [Finset.mem_filter]
  exact ⟨fun h' => (h a).mp h'.2, fun h' => ⟨Finset.mem_univ _, (h a).mpr h'⟩⟩

theorem hot_valence : valence hotRods.task 0 = 1 ∧ valence hotRods.task 1 = 2 ∧ valence hotRods.task 2 = 1 := by
  have v : ∀ (i : Fin 3) (S : Finset (Fin 2)), (∀ e, (∃ a, twoRods a e = i) ↔ e ∈ S) → valence hotRods.task i = max (S.card : ℝ) 1 := by
    intro i S h
    unfold valence
    congr 2
    exact congrArg Finset.card (filter_is h)
  have c0 : ∀ e, (∃ a, twoRods a e = 0) ↔ e ∈ ({0} : Finset (Fin 2)) := by
    intro e; fin_cases e <;> simp [twoRods, Fin.exists_fin_two]
  have c1 : ∀ e, (∃ a, twoRods a e = 1) ↔ e ∈ (Finset.univ : Finset (Fin 2)) := by
    intro e; fin_cases e <;> simp [twoRods, Fin.exists_fin_two]
  have c2 : ∀ e, (∃ a, twoRods a e = 2) ↔ e ∈ ({1} : Finset (Fin 2)) := by
    intro e; fin_cases e <;> simp [twoRods, Fin.exists_fin_two]
  rw [v 0 _ c0, v 1 _ c1, v 2 _ c2]
  norm_num

theorem hot_gathered (s : ℝ) (x : Fin 2 → ℝ) (h0 : x 0 = s) (h1 : x 1 = 2 * s) : gathered hotRods.task x = ![s, 3 / 2 * s, 2 * s] := by
  obtain ⟨v0, v1, v2⟩ := hot_valence
  have t00 : hotRods.task.t 0 0 = 0 := rfl
  have t01 : hotRods.task.t 0 1 = 1 := rfl
  have t10 : hotRods.task.t 1 0 = 1 := rfl
  have t11 : hotRods.task.t 1 1 = 2 := rfl
  funext i
  unfold gathered
  fin_cases i
  · show _ = s
    simp only [Fin.zero_eta, Fin.sum_univ_two, v0, t00, t01, t10, t11, show (1 : Fin 3) ≠ 0 by decide, show (2 : Fin 3) ≠ 0 by decide, false_and, if_false]
    norm_num [h0, h1]
  · show _ = 3 / 2 * s
    simp only [Fin.mk_one, Fin.sum_univ_two, v1, t00, t01, t10, t11, show (0 : Fin 3) ≠ 1 by decide, show (2 : Fin 3) ≠ 1 by decide, false_and, if_false]
    norm_num [h0, h1]
    ring
  · show _ = 2 * s
    simp only [Fin.reduceFinMk, Fin.sum_univ_two, v2, t00, t01, t10, t11, show (0 : Fin 3) ≠ 2 by decide, show (1 : Fin 3) ≠ 2 by decide, false_and, if_false]
    norm_num [h0, h1]

theorem hot_fields (s : ℝ) (hs : 0 < s) (y : Fin 1) :
    (Spec.Heat.field rods ![s, 3 / 2 * s, 2 * s] 0 y = 5 / 4 * s ∧ Spec.Heat.field rods ![s, 3 / 2 * s, 2 * s] 1 y = 7 / 4 * s) ∧
    (∀ e a, Spec.Heat.slope rods ![s, 3 / 2 * s, 2 * s] e y a = s / 2) ∧ ∀ e, Spec.Heat.steepness rods ![s, 3 / 2 * s, 2 * s] e y = s / 2 := by
  have hsl : ∀ e a, Spec.Heat.slope rods ![s, 3 / 2 * s, 2 * s] e y a = s / 2 := by
    intro e a
    fin_cases e <;> simp [Spec.Heat.slope, rods, Fin.sum_univ_three, twoRods] <;> ring
  refine ⟨⟨?_, ?_⟩, hsl, fun e => ?_⟩
  · simp [Spec.Heat.field, rods, Fin.sum_univ_three, twoRods]; ring
  · simp [Spec.Heat.field, rods, Fin.sum_univ_three, twoRods]; ring
  · unfold Spec.Heat.steepness
    simp only [hsl, Finset.univ_unique, Finset.sum_singleton]
    exact Real.sqrt_sq (by positivity)

/-- `r³ (1-r)⁴`. -/
def hotA (r : ℝ) : ℝ := r ^ (3 : ℝ) * (1 - r) ^ (4 : ℝ)

/-- Its derivative. -/
def hotSlope (r : ℝ) : ℝ := 3 * r ^ ((3 : ℝ) - 1) * (1 - r) ^ (4 : ℝ) - 4 * r ^ (3 : ℝ) * (1 - r) ^ ((4 : ℝ) - 1)

theorem hotA_pos {r : ℝ} (h0 : 0 < r) (h1 : r < 1) : 0 < hotA r := by
  have : 0 < 1 - r := by linarith
  unfold hotA
  positivity

theorem hotSlope_neg {r : ℝ} (h0 : 3 / 7 < r) (h1 : r < 1) : hotSlope r < 0 := by
  have hr : 0 < r := by linarith
  have hr' : 0 < 1 - r := by linarith
  have e3 : r ^ (3 : ℝ) = r ^ 3 := by exact_mod_cast Real.rpow_natCast r 3
  have e2 : r ^ ((3 : ℝ) - 1) = r ^ 2 := by norm_num
  have f4 : (1 - r) ^ (4 : ℝ) = (1 - r) ^ 4 := by exact_mod_cast Real.rpow_natCast (1 - r) 4
  have f3 : (1 - r) ^ ((4 : ℝ) - 1) = (1 - r) ^ 3 := by
    rw [show (4 : ℝ) - 1 = (3 : ℕ) by norm_num, Real.rpow_natCast]
  unfold hotSlope
  rw [e3, e2, f4, f3]
  have : 3 * r ^ 2 * (1 - r) ^ 4 - 4 * r ^ 3 * (1 - r) ^ 3 = r ^ 2 * (1 - r) ^ 3 * (3 - 7 * r) := by ring
  rw [this]
  exact mul_neg_of_pos_of_neg (by positivity) (by linarith)

theorem hot_slope (s : ℝ) (hs : (0.4 : ℝ) < s) (x : Fin 2 → ℝ) (h0 : x 0 = s) (h1 : x 1 = 2 * s) (i : Fin 3) :
    interfaceSlope hotRods.task 1 0 3 x (fun _ => 1) i =
      -(hotSlope (5 / 4 * s) * (s / 2) * rods.val i 0 0 + hotA (5 / 4 * s) * rods.grad i 0 0 0) -
       (hotSlope (7 / 4 * s) * (s / 2) * rods.val i 1 0 + hotA (7 / 4 * s) * rods.grad i 1 0 0) := by
  have hs0 : 0 < s := by linarith
  obtain ⟨⟨g0, g1⟩, g2, g3⟩ := hot_fields s hs0 0
  have hfe : hotRods.task.fe = rods := rfl
  have hq : hotRods.task.q = 4 := rfl
  have hu : ∀ e y, Spec.Heat.field rods (fun _ => 1) e y = 1 := fun e q => valAt_const rods rods_one 1 e q
  have hm : max (s / 2) (1 / 10 ^ 12) = s / 2 := max_eq_left (by norm_num at *; linarith)
  unfold interfaceSlope
  rw [hot_gathered s x h0 h1, hfe, hq]
  simp only [Fin.sum_univ_two, Finset.univ_unique, Finset.sum_singleton, Fin.default_eq_zero, hu, g0, g1, g2, g3, hm]
  have hdx : ∀ e y, rods.dx e y = 1 := fun _ _ => rfl
  have hc : ∀ g : ℝ, s / 2 * g / (s / 2) = g := fun g => by field_simp
  rw [hc, hc, hdx, hdx]
  unfold hotSlope hotA
  push_cast
  ring

theorem hot_column (c s : ℝ) (hs : (0.4 : ℝ) < s) (hs' : s < 0.5) (x : Fin 2 → ℝ) (h0 : x 0 = s) (h1 : x 1 = 2 * s) :
    0 < heatColumn hotRods.task c 3 x (fun _ => 1) 0 := by
  obtain ⟨v0, v1, v2⟩ := hot_valence
  have hfe : hotRods.task.fe = rods := rfl
  have ht0 : hotRods.task.t 0 0 = 0 := rfl
  have ht1 : hotRods.task.t 1 0 = 1 := rfl
  have hz : ∀ e y a, Spec.Heat.slope rods (fun _ => 1) e y a = 0 := by
    intro e y a
    fin_cases e <;> simp [Spec.Heat.slope, rods, Fin.sum_univ_three, twoRods]
  have hcol : heatColumn hotRods.task c 3 x (fun _ => 1) 0 =
      interfaceSlope hotRods.task 1 0 3 x (fun _ => 1) 0 / 1 + interfaceSlope hotRods.task 1 0 3 x (fun _ => 1) 1 / 2 := by
    show slopeOf hotRods.task.k c 3 (x 0) ((∑ y, conductivity hotRods.task c 3 (x 0) * (∑ a, Spec.Heat.slope rods (fun _ => 1) 0 y a ^ 2) * rods.dx 0 y) / 2) +
      ∑ a, interfaceSlope hotRods.task 1 0 3 x (fun _ => 1) (hotRods.task.t a 0) / valence hotRods.task (hotRods.task.t a 0) = _
    simp only [hz, Fin.sum_univ_two, ht0, ht1, v0, v1]
    simp [slopeOf]
  rw [hcol, hot_slope s hs x h0 h1, hot_slope s hs x h0 h1]
  have a0 := hotA_pos (r := 5 / 4 * s) (by linarith) (by linarith)
  have a1 := hotA_pos (r := 7 / 4 * s) (by linarith) (by linarith)
  have d0 := hotSlope_neg (r := 5 / 4 * s) (by norm_num at *; linarith) (by norm_num at *; linarith)
  have d1 := hotSlope_neg (r := 7 / 4 * s) (by norm_num at *; linarith) (by norm_num at *; linarith)
  have hs0 : 0 < s := by linarith
  have m0 := mul_neg_of_neg_of_pos d0 hs0
  have m1 := mul_neg_of_neg_of_pos d1 hs0
  simp [rods, twoRods]
  linarith

theorem hot_share (r : ℝ) (hr : 0 ≤ r) : share hotRods.toCommon r 0 0 = 1 := by
  have hd : hotRods.toCommon.design = {0} := rfl
  unfold share
  rw [hd, Finset.sum_singleton, div_self]
  unfold bell
  rw [dist_self, if_pos hr]
  exact (Real.exp_pos _).ne'

theorem hot_blur (r : ℝ) (hr : 0 ≤ r) (x : Fin 2 → ℝ) (e : Fin 2) : blur hotRods.toCommon r x e = x e := by
  have hd : hotRods.toCommon.design = {0} := rfl
  have hn : hotRods.toCommon.nodal = none := rfl
  unfold blur
  rw [hn]
  simp only [hd, Finset.mem_singleton, Finset.sum_singleton]
  split_ifs with h
  · rw [h, hot_share r hr, one_mul]
  · rfl

/-- **C103.** NaN densities happen: a sound run for the compliance with Robin boundaries and the spatial filter, in which no call that
iterates gets beyond the first iteration. -/
theorem C103_nan_run : HeatSound hotRods ∧ OCRules hotRods.toCommon ∧ hotRods.task.objective = .compliance ∧ hotRods.nodal = none ∧
    ∀ (files : List (Snapshot.Name × (Fin 2 → ℝ))) (c : Call), (∀ n, c = .steps n → 0 < n) →
      ∃ o, c.run (heatSys hotRods) (newHeatRun hotRods files) = (o, .error .nan) ∧ o.world.trace = [1] := by
  refine ⟨hotRods_sound, hotRods_rules, rfl, rfl, fun files c hc => ?_⟩
  have key : ∀ {x y : ℝ}, (Except.ok (some x) : Res (Option ℝ)) = .ok (some y) → x = y := by
    intro x y h
    injection h with h
    injection h
  refine (C103_positive_sensitivity_nan hotRods hotRods_sound hotRods_rules rfl ?_ ?_ files c hc).imp fun o h => ⟨h.1, h.2.2.2⟩
  · rintro v hv ⟨z, hz⟩
    have he : (0.6 : ℝ) = v.eta := key (hv.eta rfl)
    rw [← he] at hz
    have h5 : (5 * z : ℝ) = 3 := by rw [hz]; norm_num
    have h6 : 5 * z = 3 := by exact_mod_cast h5
    omega
  · intro v rho u hv hrho hu
    have hp : (3 : ℝ) = v.p := key hv.p
    have hb : (2 : ℝ) = v.beta := key hv.beta
    have hr : (1.2 : ℝ) = v.radius := key hv.radius
    have hr0 : 0 ≤ v.radius := by rw [← hr]; norm_num
    have hR0 : rho 0 = 1 / 2 := by
      obtain ⟨x, hx, h⟩ := hrho
      have hx' : (1 / 2 : ℝ) = x := by
        have : InitialValue hotRods.cVolFrac x := hx
        unfold InitialValue at this
        rw [if_pos (Or.inl (show hotRods.cVolFrac.schedType = "Constant" from rfl))] at this
        injection this
      rw [h 0, if_neg (by simp [Pinned, hotRods, rodsRun]), ← hx']
      norm_num [hotRods, rodsRun]
    have hR1 : rho 1 = 1 := by
      obtain ⟨x, hx, h⟩ := hrho
      rw [h 1, if_pos (Or.inr (by simp [hotRods]))]
    have hbe : hotRods.toCommon.betaEta = 1 / 2 := rfl
    have hx0 : physical hotRods.toCommon v rho 0 = hotDensity := by
      unfold physical threshold hotDensity
      rw [hot_blur _ hr0, hR0, ← hb, hbe]
      norm_num
    have hx1 : physical hotRods.toCommon v rho 1 = 2 * hotDensity := by
      unfold physical threshold hotDensity
      rw [hot_blur _ hr0, hR1, ← hb, hbe]
      norm_num
      ring
    have hu1 : ∀ j, u j = fun _ => 1 := by
      intro j
      funext i
      have := (hu j).1 i (by
        have : j = ⟨0, by simp [hotRods]⟩ := Fin.ext (by have := j.isLt; simp [hotRods] at this; exact this)
        subst this
        show i ∈ ({0, 1, 2} : Finset (Fin 3))
        fin_cases i <;> simp)
      rw [this]
      have : j = ⟨0, by simp [hotRods]⟩ := Fin.ext (by have := j.isLt; simp [hotRods] at this; exact this)
      subst this
      rfl
    refine ⟨0, by simp [hotRods], ?_⟩
    have hcol := hot_column hotRods.eMinCoeff hotDensity hotDensity_range.1 hotDensity_range.2 _ hx0 hx1
    have hts : 0 < thresholdSlope v.beta hotRods.toCommon.betaEta (blur hotRods.toCommon v.radius rho 0) := by
      unfold thresholdSlope
      rw [← hb, hbe]
      have ht := tanh_one
      norm_num
      positivity
    have hd : hotRods.toCommon.design = {0} := rfl
    have hn : hotRods.toCommon.nodal = none := rfl
    have hsf : hotRods.toCommon.sensFilter = false := rfl
    unfold chained
    simp only [hsf, Bool.false_eq_true, if_false]
    refine div_pos (Finset.sum_pos (fun j _ => ?_) ⟨⟨0, by simp [hotRods]⟩, Finset.mem_univ _⟩) (by simp [hotRods])
    unfold blurT
    rw [hn]
    simp only [hd, Finset.mem_singleton, Finset.sum_singleton, if_true]
    rw [hot_share _ hr0, one_mul, hu1 j, ← hp]
    exact mul_pos hcol hts

end
end Verif.Run
