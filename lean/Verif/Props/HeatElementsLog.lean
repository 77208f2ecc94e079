import Verif.Lemmas.RelabelLog
import Verif.Props.HeatElements

/-!
C158, elements: new LogMOC runs on a heat task without Robin boundaries do not depend on the numbers of the elements.
-/
namespace Verif.Run
open Verif Verif.Sched Verif.Spec Verif.Driver Verif.Heat

variable {ι Q : Type} [Fintype ι] [Fintype Q] {d nE k : ℕ}

noncomputable section
open Classical

/-- The same LogMOC run on the mesh with renumbered elements. -/
abbrev HeatLogSetup.reordered (L : HeatLogSetup ι Q d nE k) (σ : Equiv.Perm (Fin nE)) : HeatLogSetup ι Q d nE k where
  toHeatSetup := L.toHeatSetup.reordered σ
  toLogOpts := L.toLogOpts

/-! ### The common part, seen as an elasticity problem without degrees of freedom -/

/-- No degrees of freedom and no integration points. -/
def bareLog {E : Type} (L : LogCommon E d) : LogSetup Empty E Empty d 1 where
  toSetup := bare L.toCommon
  toLogOpts := L.toLogOpts

/-- Fields that LogMOC does not read, with values OC accepts. -/
def Common.ruled {E : Type} (R : Common E d) : Common E d :=
  { R with lambdaLower := 0, lambdaUpper := 1, scaleFloor := 1 }

theorem ruled_basics {E : Type} [Fintype E] {R : Common E d} (h : Basics R) : Basics R.ruled :=
  { h with nodal := fun N hN => { h.nodal N hN with } }

theorem ruled_rules {E : Type} {R : Common E d} (h : Percentages R) : OCRules R.ruled where
  percentages := h
  bracket := by norm_num [Common.ruled]
  scaleFloor := one_pos

theorem bare_sound {E : Type} [Fintype E] {R : Common E d} (h : Basics R) (h' : Percentages R) (hd : d ≤ 3) (hE : 0 < R.eMinCoeff ∧ R.eMinCoeff ≤ 1) :
    Sound (bare R) :=
  let hb := (bare_wellPosed (ruled_basics h) (ruled_rules h') hd hE).toSound
  { hb with nodal := fun N hN => { hb.nodal N hN with } }

theorem reordered_bare_sound {E : Type} [Fintype E] {R : Common E d} (h : Basics R) (h' : Percentages R) (hd : d ≤ 3)
    (hE : 0 < R.eMinCoeff ∧ R.eMinCoeff ≤ 1) (σ : Equiv.Perm E) : Sound (renumbered (bare R) σ (Equiv.refl Empty) inverting) :=
  let hb := (reordered_basics (ruled_basics h) (ruled_rules h') hd hE σ).toSound
  { hb with nodal := fun N hN => { hb.nodal N hN with } }

theorem reordered_percentages {E : Type} [Fintype E] {R : Common E d} (h : Basics R) (h' : Percentages R) (hd : d ≤ 3)
    (hE : 0 < R.eMinCoeff ∧ R.eMinCoeff ≤ 1) (σ : Equiv.Perm E) : Percentages (R.reordered σ) :=
  (reordered_basics (ruled_basics h) (ruled_rules h') hd hE σ).percentages

theorem HeatLogSetup.reordered_wellPosed {L : HeatLogSetup ι Q d nE k} (h : HeatLogWellPosed L) (hd : d ≤ 3) (hr : L.task.robin = none)
    (σ : Equiv.Perm (Fin nE)) : HeatLogWellPosed (L.reordered σ) :=
  let hb := reordered_bare_sound h.toBasics h.percentages hd h.material.2 σ
  let hs := Verif.Run.reordered_sound h.toHeatSound hr σ
  { toHeatSound :=
      { hs with
        toBasics := hb.toBasics
        material := hs.material }
    toLogRules :=
      { percentages := reordered_percentages h.toBasics h.percentages hd h.material.2 σ
        positive := h.positive
        range := h.range
        floor := h.floor
        lagPercentile := h.lagPercentile
        chainPercentile := h.chainPercentile } }

/-! ### Runs -/

theorem reordered_alikeLog (L : LogCommon (Fin nE) d) (hp : ∀ q x, L.pct q x = percentile q (L.design.val.map x)) (σ : Equiv.Perm (Fin nE)) :
    AlikeLog (renumbering σ (Equiv.refl Empty)) (bareLog L)
      { bareLog L with toSetup := renumbered (bare L.toCommon) σ (Equiv.refl Empty) inverting } :=
  alikeLog_unit (L := bareLog L) (alike_renumbered (bare L.toCommon) hp σ (Equiv.refl Empty) inverting).toAlike
    (by simp [Change.work, renumbering]) ⟨rfl, rfl⟩ rfl

theorem heatLog_det_reordered {L : HeatLogSetup ι Q d nE k} (h : HeatLogWellPosed L) (hd : d ≤ 3)
    (hp : ∀ q x, L.pct q x = percentile q (L.design.val.map x)) (hr : L.task.robin = none) (σ : Equiv.Perm (Fin nE)) {n : ℕ} {v : Vals}
    (hv : ValsOk L.toCommon n v) {rho rho' : Fin nE → ℝ} (hrho : ∀ e, 0 ≤ rho e ∧ rho e ≤ 1) (hx : ∀ e, rho' (σ e) = rho e) {lam rs : ℝ}
    {r r' : LogRec} {new new' : Fin nE → ℝ} {rs1 rs1' : ℝ} (e : r.iter = n) (e' : r'.iter = n) (hi : HeatLogIteration L rho lam rs r new rs1)
    (hi' : HeatLogIteration (L.reordered σ) rho' lam rs r' new' rs1') : (∀ e, new' (σ e) = new e) ∧ rs1' = rs1 ∧ r' = r := by
  have hb : Sound (bareLog L.common).toSetup := bare_sound h.toBasics h.percentages hd h.material.2
  have hb' := reordered_bare_sound h.toBasics h.percentages hd h.material.2 σ
  have hA := reordered_alikeLog L.common hp σ
  have hwork : (renumbering (E := Fin nE) (m := 1) σ (Equiv.refl Empty)).work = 1 := by simp [Change.work, renumbering]
  have hprice : (renumbering (E := Fin nE) (m := 1) σ (Equiv.refl Empty)).price (bareLog L.common) = 1 := by
    unfold Change.price; rw [hwork, ite_self]
  have hother : ∀ w : Vals, other (renumbering (E := Fin nE) (m := 1) σ (Equiv.refl Empty)) w = w := fun w => by
    simp [other, renumbering]
  obtain ⟨v1, u, a1, a2, a3, a4, a5⟩ := hi
  obtain ⟨v2, w, b1, b2, b3, b4, b5⟩ := hi'
  rw [e] at a1
  rw [e'] at b1
  obtain rfl : v1 = v := allScheduled_eq hv.all a1
  have hall : AllScheduled (L.toCommon.reordered σ) n v1 := by
    have := allScheduled_alike hA.toAlike (R := bare L.toCommon) a1
    rwa [hother] at this
  obtain rfl : v2 = v1 := allScheduled_eq hall b1
  have hph : ∀ e, physical (L.toCommon.reordered σ) v2 rho' (σ e) = physical L.toCommon v2 rho e := fun e => by
    have := physical_alike hA.toAlike hb hb' (v := v2) hv.radius hx e
    rwa [hother] at this
  have hph' : physical (L.toCommon.reordered σ) v2 rho' = fun e => physical L.toCommon v2 rho (σ.symm e) := by
    funext e
    have := hph (σ.symm e)
    rwa [Equiv.apply_symm_apply] at this
  have hrange := fun e => physical_range h.toBasics hv hrho e
  have hs' := reordered_sound h.toHeatSound hr σ
  have hw : w = u := funext fun j => by
    refine warmed_unique (R := { L.toHeatSetup with task := L.task.reordered σ }) hs' (x := fun e => physical L.toCommon v2 rho (σ.symm e))
      (fun e => hrange _) (warmed_reordered_of L.task hr σ L.eMinCoeff v2.p _ j (u j) (a2 j)) ?_
    have := b2 j
    rw [show physical (L.reordered σ).toCommon v2 rho' = _ from hph'] at this
    exact this
  subst hw
  have hcol : ∀ j e, heatColumn (L.task.reordered σ) L.eMinCoeff v2.p (physical (L.toCommon.reordered σ) v2 rho') (w j) (σ e) =
      (renumbering (E := Fin nE) (m := 1) σ (Equiv.refl Empty)).work * heatColumn L.task L.eMinCoeff v2.p (physical L.toCommon v2 rho) (w j) e := by
    intro j e
    rw [hwork, one_mul, hph']
    exact heatColumn_reordered L.task hr σ _ _ _ _ _
  have hchain := chained_alike hA.toAlike hb hb' (v := v2) hv.radius (rho := rho) (rho' := rho') hx
    (g := fun j => heatColumn L.task L.eMinCoeff v2.p (physical L.toCommon v2 rho) (w j))
    (g' := fun j => heatColumn (L.task.reordered σ) L.eMinCoeff v2.p (physical (L.toCommon.reordered σ) v2 rho') (w j)) hcol
  rw [hother] at hchain
  obtain ⟨c1, c2, c3⟩ := logStep_alike (lam := lam) (rs := rs) hA hb hb' (v := v2) hv.radius hx hchain (e'.trans e.symm) a5
    (by rw [hother, hwork, hprice, one_mul, one_mul]; exact b5)
  rw [hwork, one_mul] at c2
  refine ⟨c1, c2, ?_⟩
  have hc : r'.compliance = r.compliance := by
    rw [a3, b3, show physical (L.reordered σ).toCommon v2 rho' = _ from hph']
    exact heatObjective_reordered L.task hr σ _ _ _ _
  rw [logLine_id hwork] at c3
  rw [c3, hc, b4, ← a4]
  rfl

/-- **C158, elements, without Robin boundaries.** The same for new LogMOC runs. -/
theorem C158_element_numbering_runs_logmoc_partial (L : HeatLogSetup ι Q d nE k) (h : HeatLogWellPosed L) (hd : d ≤ 3)
    (hp : ∀ q x, L.pct q x = percentile q (L.design.val.map x)) (hr : L.task.robin = none) (hnr : L.restart = false) (σ : Equiv.Perm (Fin nE))
    (files : List (Snapshot.Name × (Fin nE → ℝ))) (cs : List Call) :
    ∃ o o', runCalls (heatLogSys L) cs (newHeatLogRun L files) = (o, .ok ()) ∧
      runCalls (heatLogSys (L.reordered σ)) cs (newHeatLogRun (L.reordered σ) (reorderedFiles σ files)) = (o', .ok ()) ∧
      o'.started = o.started ∧ o'.completed = o.completed ∧
      (o.started = true → o'.iterNext = o.iterNext ∧ (∀ e, o'.world.rho (σ e) = o.world.rho e) ∧
        o'.world.aux.1.log = o.world.aux.1.log ∧ o'.world.files = reorderedFiles σ o.world.files) := by
  have h' := HeatLogSetup.reordered_wellPosed h hd hr σ
  have hA := reordered_alikeLog L.common hp σ
  have hwork : (renumbering (E := Fin nE) (m := 1) σ (Equiv.refl Empty)).work = 1 := by simp [Change.work, renumbering]
  have hprice : (renumbering (E := Fin nE) (m := 1) σ (Equiv.refl Empty)).price (bareLog L.common) = 1 := by
    unfold Change.price; rw [hwork, ite_self]
  obtain ⟨o, o', ho, ho', h1, h2, h3⟩ := log_relabelled_by
    ((renumbering (E := Fin nE) (m := 1) σ (Equiv.refl Empty)).logLine (bareLog L.common)) (fun _ => ⟨rfl, rfl, rfl⟩) hA h.toBasics h'.toBasics (heatLog_computes h)
    (heatLog_computes (L := L.reordered σ) h')
    (fun n v hv rho rho' hrho hx lam rs r r' new new' rs1 rs1' e e' hi hi' => by
      rw [hwork, hprice, one_mul, one_mul] at hi'
      obtain ⟨c1, c2, c3⟩ := heatLog_det_reordered h hd hp hr σ hv hrho hx e e' hi hi'
      exact ⟨c1, by rw [hwork, one_mul]; exact c2, by rw [c3, logLine_id hwork]; rfl⟩) hnr files cs
  refine ⟨_, _, heatLog_run h.toHeatSound ho, heatLog_run h'.toHeatSound ho', h1, h2, fun hs => ⟨(h3 hs).1, (h3 hs).2.1, ?_, (h3 hs).2.2.2⟩⟩
  have := (h3 hs).2.2.1
  rw [logLine_id hwork, List.map_id] at this
  exact this

/-! ### A concrete case -/

theorem coldLogP_wellPosed : HeatLogWellPosed (heatLogOf coldRodsP) where
  toHeatSound := coldRodsP_wellPosed.toHeatSound
  percentages := coldRodsP_wellPosed.percentages
  positive := by norm_num [heatLogOf, coldRodsP, coldRods, rodsRun]
  range := by norm_num [heatLogOf, coldRodsP, coldRods, rodsRun]
  floor := by norm_num [heatLogOf, logOf]
  lagPercentile := by norm_num [heatLogOf, logOf]
  chainPercentile := by norm_num [heatLogOf, logOf]

example := C158_element_numbering_runs_logmoc_partial (heatLogOf coldRodsP) coldLogP_wellPosed (by norm_num) (fun _ _ => rfl) rfl rfl
  (Equiv.swap 0 1) [] [.steps 2, .optimize]

end
end Verif.Run
