import Verif.Props.Run
import Verif.Props.Submesh

/-! C108: which elements the final mesh of a run shows. -/
namespace Verif.Driver
open Verif.Snapshot

variable {E D X : Type} [DecidableEq E] [Zero D] [One D] [Max D] [Min D]

theorem ensureInit_final (S : Sys E D X) (o : Opt E D X) : (ensureInit S o).1.final = o.final ∧ (ensureInit S o).1.completed = o.completed := by
  rcases ensureInit_cases S o with ⟨-, h'⟩ | ⟨-, ⟨x, e', h'⟩ | ⟨x, rho, k, -, h'⟩⟩ <;> rw [h'] <;> exact ⟨rfl, rfl⟩

theorem impl_final (S : Sys E D X) (m : Option ℕ) (o : Opt E D X)
    (h : (o.completed = true → o.final = some o.world.rho) ∧ (o.completed = false → o.final = none)) :
    ((optimizeImpl S m o).1.completed = true → (optimizeImpl S m o).1.final = some (optimizeImpl S m o).1.world.rho) ∧
      ((optimizeImpl S m o).1.completed = false → (optimizeImpl S m o).1.final = none) := by
  rw [optimizeImpl_eq]
  split_ifs with hc
  · exact h
  · have hcf : o.completed = false := by simpa using hc
    obtain ⟨h1, h2⟩ := ensureInit_final S o
    rcases hE : ensureInit S o with ⟨o1, e | ⟨⟩⟩ <;> rw [hE] at h1 h2 <;> simp only at h1 h2 ⊢
    · rw [h1, h2, hcf]
      exact ⟨fun hf => by simp at hf, fun _ => h.2 hcf⟩
    · have hc1 : o1.completed = false := h2.trans hcf
      have hf1 : o1.final = none := h1.trans (h.2 hcf)
      rcases continueRun_cases S m o1 with ⟨-, he⟩ | ⟨-, n, -, -, ⟨w, e, hl, he⟩ | ⟨w, k, c, hl, ⟨-, he⟩ | ⟨-, he⟩⟩⟩ <;> rw [he] <;>
        simp [finalize, hc1, hf1]

/-- **C108.** Whatever calls were made and whatever they raised: `cubic_top.vtu` is written exactly by the call that completes the run,
and the densities it was cut at are those the object has from then on. -/
theorem C108_written_on_completion {S : Sys E D X} {o : Opt E D X} (h : Reachable S o) :
    (o.completed = true → o.final = some o.world.rho) ∧ (o.completed = false → o.final = none) := by
  induction h with
  | fresh rho0 x files => exact ⟨fun h => by simp [fresh] at h, fun _ => rfl⟩
  | @call c o ho ih =>
    cases c with
    | optimize => exact impl_final S none o ih
    | steps n =>
      simp only [Call.run, optimizeSteps]
      split_ifs
      · exact ih
      · exact impl_final S _ o ih

theorem completed_started {S : Sys E D X} {o : Opt E D X} (h : Reachable S o) : o.completed = true → o.started = true := by
  have key : ∀ (m : Option ℕ) (o : Opt E D X), (o.completed = true → o.started = true) →
      (optimizeImpl S m o).1.completed = true → (optimizeImpl S m o).1.started = true := by
    intro m o h
    rw [optimizeImpl_eq]
    split_ifs with hc
    · exact h
    · have hcf : o.completed = false := by simpa using hc
      obtain ⟨-, h2⟩ := ensureInit_final S o
      rcases hE : ensureInit S o with ⟨o1, e | ⟨⟩⟩ <;> rw [hE] at h2 <;> simp only at h2 ⊢
      · rw [h2, hcf]; simp
      · have hs : o1.started = true := (ensureInit_ok hE).1
        rcases continueRun_cases S m o1 with ⟨-, he⟩ | ⟨-, n, -, -, ⟨w, e, hl, he⟩ | ⟨w, k, c, hl, ⟨-, he⟩ | ⟨-, he⟩⟩⟩ <;> rw [he] <;>
          simp [finalize, hs]
  induction h with
  | fresh rho0 x files => intro h; simp [fresh] at h
  | @call c o ho ih =>
    cases c with
    | optimize => exact key none o ih
    | steps n =>
      simp only [Call.run, optimizeSteps]
      split_ifs
      · exact ih
      · exact key _ o ih

/-- Non-vacuity: `demo` completes in its second call. -/
example : let S := demo 7 2 100 100
    ((Call.steps 3).run S demo0).1.final.isNone = true ∧
    ((Call.steps 4).run S ((Call.steps 3).run S demo0).1).1.final.map (fun r => (r 0, r 1, r 2)) = some (1, 12, 12) := by decide

end Verif.Driver

namespace Verif.Run
open Verif Verif.Sched Verif.Spec Verif.Driver Verif.Submesh Verif.Mesh

variable {ι E Q : Type} [Fintype ι] [Fintype E] [Fintype Q] {d m nE : ℕ}

noncomputable section
open Classical

theorem reachable_runCalls {E D X : Type} [DecidableEq E] [Zero D] [One D] [Max D] [Min D] {S : Sys E D X} :
    ∀ (cs : List Call) {o : Opt E D X}, Reachable S o → Reachable S (runCalls S cs o).1
  | [], o, h => h
  | c :: cs, o, h => by
    have hc := Reachable.call c h
    unfold runCalls
    rcases hr : c.run S o with ⟨o', e | ⟨⟩⟩ <;> rw [hr] at hc <;> simp only
    · exact hc
    · exact reachable_runCalls cs hc

/-- Element values as an array, for a numbering of the elements. -/
def asArray (num : E ≃ Fin nE) (x : E → ℝ) (i : ℕ) : ℝ := if h : i < nE then x (num.symm ⟨i, h⟩) else 0

/-- The numbers of the elements of a set, in ascending order. -/
def asIndices (num : E ≃ Fin nE) (s : Set E) : List ℕ := (List.range nE).filter fun i => decide (∃ e ∈ s, (num e : ℕ) = i)

theorem mem_asIndices (num : E ≃ Fin nE) (s : Set E) (i : ℕ) : i ∈ asIndices num s ↔ ∃ e ∈ s, (num e : ℕ) = i := by
  unfold asIndices
  simp only [List.mem_filter, List.mem_range, decide_eq_true_eq, and_iff_right_iff_imp]
  rintro ⟨e, -, rfl⟩
  exact (num e).2

/-- **C108.** When a well-posed run on a mesh `(p, t)` is completed, the exported mesh is the part of `(p, t)` made of the elements that
are not designed or whose final design density exceeds 1/2. It exists if some element is pinned or not designed. (Partial: these are the
design densities, not the physical ones: see `C108_physical_design_missing`.) -/
theorem C108_final_mesh_partial (R : Setup ι E Q d m) (h : WellPosed R) (hnr : R.restart = false)
    (files : List (Snapshot.Name × (E → ℝ))) (cs : List Call) (num : E ≃ Fin nE)
    {α : Type} [Inhabited α] (p : List α) (t : Conn) (hsize : t.length = nE) (ht : ∀ el ∈ t, el ≠ [] ∧ ∀ v ∈ el, v < p.length)
    (hsome : (∃ s, R.pinned = some s ∧ s.Nonempty) ∨ ∃ e, e ∉ R.design) :
    ∃ o, runCalls (sys R) cs (newRun R.toCommon files) = (o, .ok ()) ∧
      (o.completed = true → ∃ rho, o.final = some rho ∧ rho = o.world.rho ∧
        ∃ p' t' old, exportSubmesh p t (List.range nE) (asIndices num R.design) (asArray num rho) 0.5 = .ok (p', t') ∧
          IsPart p t (asIndices num {e | e ∉ R.design ∨ 1 / 2 < rho e}) p' t' old) := by
  obtain ⟨o, ho, hst, -⟩ := C78_well_posed_run R h hnr files cs
  refine ⟨o, ho, fun hcm => ?_⟩
  have hr : Reachable (sys R) o := by
    have := reachable_runCalls (S := sys R) cs (o := newRun R.toCommon files) (Reachable.fresh _ _ _)
    rw [ho] at this
    exact this
  refine ⟨_, (C108_written_on_completion hr).1 hcm, rfl, ?_⟩
  obtain ⟨-, hpin, -⟩ := hst (completed_started hr hcm)
  have hkeep : ∀ i, i < nE → ((i ∈ asIndices num (R.design : Set E) → (0.5 : ℝ) < asArray num o.world.rho i) ↔
      ∃ e ∈ {e | e ∉ R.design ∨ 1 / 2 < o.world.rho e}, (num e : ℕ) = i) := by
    intro i hi
    obtain ⟨e, rfl⟩ : ∃ e, (num e : ℕ) = i := ⟨num.symm ⟨i, hi⟩, by simp⟩
    have h1 : (num e : ℕ) ∈ asIndices num (R.design : Set E) ↔ e ∈ R.design := by
      rw [mem_asIndices]
      constructor
      · rintro ⟨f, hf, hfe⟩
        rw [← num.injective (Fin.val_injective hfe)]
        exact hf
      · exact fun hd => ⟨e, hd, rfl⟩
    have h2 : asArray num o.world.rho (num e) = o.world.rho e := by
      unfold asArray
      rw [dif_pos hi]
      simp
    rw [h1, h2]
    constructor
    · intro hh
      refine ⟨e, ?_, rfl⟩
      by_cases hd : e ∈ R.design
      · right; have := hh hd; norm_num at this ⊢; exact this
      · exact Or.inl hd
    · rintro ⟨f, hf, hfe⟩ hd
      rw [num.injective (Fin.val_injective hfe)] at hf
      rcases hf with hf | hf
      · exact absurd hd hf
      · norm_num at hf ⊢; exact hf
  obtain ⟨e, he⟩ : ∃ e : E, e ∉ R.design ∨ 1 / 2 < o.world.rho e := by
    rcases hsome with ⟨s, hs1, e, he⟩ | ⟨e, he⟩
    · exact ⟨e, Or.inr (by rw [hpin s hs1 e he]; norm_num)⟩
    · exact ⟨e, Or.inl he⟩
  have het : (num e : ℕ) < t.length := by rw [hsize]; exact (num e).2
  obtain ⟨v, hv⟩ := List.exists_mem_of_ne_nil _ (ht _ (List.getElem_mem het)).1
  obtain ⟨p', t', old, h1, h2⟩ := C107_exported_mesh p t (List.range nE) (asIndices num R.design) (asArray num o.world.rho) 0.5
    (fun i hi => by rw [hsize]; exact List.mem_range.mp hi) (fun el hel => (ht el hel).2)
    ⟨num e, List.mem_range.mpr (num e).2, (hkeep _ (num e).2).mpr ⟨e, he, rfl⟩, v, by
      rw [List.getD_eq_getElem?_getD, List.getElem?_eq_getElem het, Option.getD_some]; exact hv⟩
  refine ⟨p', t', old, h1, ?_⟩
  have heq : ((List.range nE).filter fun i => decide (i ∈ asIndices num (R.design : Set E) → (0.5 : ℝ) < asArray num o.world.rho i)) =
      asIndices num {e | e ∉ R.design ∨ 1 / 2 < o.world.rho e} :=
    List.filter_congr fun i hi => decide_eq_decide.mpr (hkeep i (List.mem_range.mp hi))
  rw [← heq]
  convert h2

/-- The elements are numbered from left to right. -/
example := C108_final_mesh_partial chainRun chainRun_wellPosed rfl [] [.steps 3, .optimize] (Equiv.refl _) ["a", "b", "c", "d"]
  [[0, 1], [1, 2], [2, 3]] rfl (by simp) (Or.inl ⟨{2}, rfl, by simp⟩)

/-! ### The physical design can be missing -/

/-- A run of one iteration. -/
theorem one_iteration (R : Setup ι E Q d m) (h : WellPosed R) (hnr : R.restart = false) (h1 : R.maxIters = 1) (hcc : R.checkConvergence = false)
    (files : List (Snapshot.Name × (E → ℝ))) :
    ∃ o, optimize (sys R) (newRun R.toCommon files) = (o, .ok ()) ∧ o.completed = true ∧ o.iterNext = 2 ∧
      ∃ rho0, InitialDensities R.toCommon rho0 ∧
        ∀ ml, Scheduled R.toCommon R.cMoveLimit 1 (some ml) → ∀ e ∈ R.design, |o.world.rho e - rho0 e| ≤ ml := by
  obtain ⟨o, ho, hc, hlog⟩ := C78_optimize_completes R h hnr files
  have hrun : runCalls (sys R) [.optimize] (newRun R.toCommon files) = (o, .ok ()) := by
    simp only [runCalls, Call.run]
    rw [ho]
  have hr : Reachable (sys R) o := by
    have := Reachable.call .optimize (Reachable.fresh (S := sys R) (newRun R.toCommon files).world.rho
      (newRun R.toCommon files).world.aux files)
    simp only [Call.run] at this
    have h2 : optimize (sys R) (fresh (newRun R.toCommon files).world.rho (newRun R.toCommon files).world.aux files) =
      (o, .ok ()) := ho
    rw [h2] at this
    exact this
  have hs := completed_started hr hc
  obtain ⟨o1, h1', h2, h3⟩ := C78_well_posed_run R h hnr files [.optimize]
  obtain ⟨o2, h4, h5⟩ := C80_run_refines_algorithm R h hnr files [.optimize]
  have e1 : o1 = o := by rw [h1'] at hrun; exact (Prod.mk.inj hrun).1
  have e2 : o2 = o := by rw [h4] at hrun; exact (Prod.mk.inj hrun).1
  subst e1
  subst e2
  obtain ⟨-, -, -, -, hiter, hrec⟩ := h2 hs
  obtain ⟨-, rho0, rs, hinit, hcont⟩ := h5 hs
  have hlog := hlog hcc
  rw [h1] at hlog
  refine ⟨o2, ho, hc, ?_, rho0, hinit, fun ml hml e he => ?_⟩
  · rcases h3 hc with h | ⟨h, -⟩
    · rw [h, h1]
    · rw [hcc] at h; simp at h
  obtain ⟨log, hl⟩ : ∃ l, l = o2.world.aux.log := ⟨_, rfl⟩
  rw [← hl] at hcont hlog hrec
  obtain ⟨rho, hrho⟩ : ∃ x, x = o2.world.rho := ⟨_, rfl⟩
  rw [← hrho] at hcont ⊢
  cases hcont with
  | refl => simp at hlog
  | @next rho' rs' log' hprev r _ _ hi =>
    have hl' : log' = [] := by
      have := congrArg List.length hlog
      simp at this
      exact this
    subst hl'
    have hr1 : r.iter = 1 := by simpa using hlog
    have hrho0 : rho' = rho0 := by
      generalize hq : ([] : List Rec) = l0 at hprev
      cases hprev with
      | refl => rfl
      | next _ _ => simp at hq
    subst hrho0
    obtain ⟨v, u, -, -, -, -, s, -, -, -, -, -, -, hgr, -⟩ := hi
    obtain ⟨-, ml', hml', -, hle⟩ := hrec r (by simp)
    rw [hr1] at hml'
    unfold Scheduled at hml
    have : ml' = ml := by
      have h6 := hml'.symm.trans hml
      injection h6 with h6
      injection h6
    rw [← this]
    exact (hgr.2 ⟨e, he, rfl⟩).trans hle

/-- One iteration from volume fraction 0.45 with move limit 0.01; sharp threshold at 0.3. -/
def chainThin : Setup (Fin 4) (Fin 3) (Fin 1) 1 2 := { chainRun with
  maxIters := 1
  recordTimes := 1
  cVolFrac := { initValue := some 0.45, targetValue := some 0.45 }
  cMoveLimit := { initValue := some 0.01, targetValue := some 0.01 }
  cBeta := { initValue := some 10, targetValue := some 10 }
  betaEta := 0.3
  checkConvergence := false }

theorem chainThin_wellPosed : WellPosed chainThin :=
  let h := chainRun_wellPosed
  { h with
    record := by simp [chainThin]
    percentages := by
      intro k q hq
      have h0 : Scheduled chainThin.toCommon chainThin.cPercentile k none := rfl
      unfold Scheduled at hq h0
      rw [h0] at hq
      injection hq with h1
      cases h1
    volFrac := ⟨⟨chainThin.cVolFrac, rfl⟩, by simp [chainThin], by simp [chainThin], by simp [chainThin], by simp⟩
    moveLimit := ⟨⟨chainThin.cMoveLimit, rfl⟩, by simp [chainThin], by simp [chainThin], by simp [chainThin], by
      simp only [chainThin]; rintro x (h | h) <;> simp only [Option.some.injEq] at h <;> subst h <;> simp <;> norm_num⟩
    beta := ⟨⟨chainThin.cBeta, rfl⟩, by simp [chainThin], by simp [chainThin], by simp [chainThin], by
      simp only [chainThin]; rintro x (h | h) <;> simp only [Option.some.injEq] at h <;> subst h <;> simp⟩
    nodal := by simp [chainThin, chainRun] }

theorem half_lt_tanh {x : ℝ} (hx : 1 ≤ x) : 1 / 2 < Real.tanh x := by
  have h1 : (1 : ℝ) ≤ Real.sinh 1 := Real.self_le_sinh_iff.mpr (by norm_num)
  have h2 : Real.cosh 1 < 2 := by
    have := Real.exp_one_lt_d9
    rw [Real.cosh_eq]
    have h3 : Real.exp (-1) ≤ 1 := Real.exp_le_one_iff.mpr (by norm_num)
    linarith
  have h4 : 1 / 2 < Real.tanh 1 := by
    rw [Real.tanh_eq_sinh_div_cosh, lt_div_iff₀ (Real.cosh_pos 1)]
    linarith
  exact h4.trans_le (Projection.tanh_strictMono.monotone hx)

/-- **C108.** The exported mesh need not show the physical design: a well-posed run that ends with design densities below 1/2, so that no
designed element is exported, although each of them has a physical density above 1/2 (with the values of the last iteration). -/
theorem C108_physical_design_missing (files : List (Snapshot.Name × (Fin 3 → ℝ))) : WellPosed chainThin ∧
    ∃ o, optimize (sys chainThin) (newRun chainThin.toCommon files) = (o, .ok ()) ∧ o.completed = true ∧ o.iterNext = 2 ∧
      ∀ v, AllScheduled chainThin.toCommon 1 v → ∀ e ∈ chainThin.design,
        o.world.rho e ≤ 1 / 2 ∧ 1 / 2 < physical chainThin.toCommon v o.world.rho e := by
  refine ⟨chainThin_wellPosed, ?_⟩
  have hinst : instDecidableEqFin 3 = fun a b => propDecidable (a = b) := Subsingleton.elim _ _
  rw [hinst]
  obtain ⟨o, ho, hc, hn, rho0, hinit, hch⟩ := one_iteration chainThin chainThin_wellPosed rfl rfl rfl files
  refine ⟨o, ho, hc, hn, fun v hv => ?_⟩
  have key : ∀ {x y : ℝ}, (Except.ok (some x) : Res (Option ℝ)) = .ok (some y) → x = y := by
    intro x y h
    injection h with h
    injection h
  have hb : (10 : ℝ) = v.beta := key hv.beta
  have hr : (1.2 : ℝ) = v.radius := key hv.radius
  have hR0 : ∀ e ∈ chainThin.design, rho0 e = 0.45 := by
    intro e he
    obtain ⟨x, hx, h⟩ := hinit
    have hx' : (0.45 : ℝ) = x := by
      have : InitialValue chainThin.cVolFrac x := hx
      unfold InitialValue at this
      rw [if_pos (Or.inl (show chainThin.cVolFrac.schedType = "Constant" from rfl))] at this
      injection this
    have he2 : e ≠ 2 := by
      rintro rfl
      simp [chainThin, chainRun] at he
    have hnp : ¬ (Pinned chainThin.toCommon e ∨ e ∈ chainThin.fixed) := by
      rintro (hp | hp)
      · have := hp {2} rfl
        simp at this
        exact he2 this
      · simp [chainThin, chainRun] at hp
    rw [h e, if_neg hnp, ← hx']
    norm_num [chainThin, chainRun]
  have hR1 : ∀ e ∈ chainThin.design, 0.44 ≤ o.world.rho e ∧ o.world.rho e ≤ 0.46 := by
    intro e he
    have h1 := hch 0.01 rfl e he
    rw [hR0 e he, abs_le] at h1
    constructor <;> linarith [h1.1, h1.2]
  intro e he
  refine ⟨by have := (hR1 e he).2; norm_num at this ⊢; linarith, ?_⟩
  have hblur : 0.44 ≤ blur chainThin.toCommon v.radius o.world.rho e := by
    unfold blur
    have hnod : chainThin.toCommon.nodal = none := rfl
    rw [hnod]
    simp only
    rw [if_pos he]
    have hsum := share_sum (R := chainThin.toCommon) (r := v.radius) (by rw [← hr]; norm_num) he
    calc (0.44 : ℝ) = ∑ j ∈ chainThin.toCommon.design, share chainThin.toCommon v.radius e j * 0.44 := by
          rw [← Finset.sum_mul, hsum, one_mul]
      _ ≤ _ := Finset.sum_le_sum fun j hj => mul_le_mul_of_nonneg_left (hR1 j hj).1 (share_nonneg ..)
  unfold physical threshold
  rw [← hb, show chainThin.betaEta = 0.3 from rfl]
  have ha := half_lt_tanh (x := 10 * 0.3) (by norm_num)
  have hbb := half_lt_tanh (x := 10 * (blur chainThin.toCommon v.radius o.world.rho e - 0.3)) (by linarith)
  have hcc := half_lt_tanh (x := 10 * (1 - 0.3)) (by norm_num)
  have hlt := Real.tanh_lt_one (10 * (1 - 0.3))
  rw [lt_div_iff₀ (by positivity)]
  have h12 : (1 : ℝ) / 10 ^ 12 ≤ 1 / 10 := by norm_num
  linarith


end
end Verif.Run
