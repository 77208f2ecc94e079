import Verif.Lemmas.Relabel
import Verif.Props.HeatNumbering

/-!
C158, elements: complete OC runs on a heat task without Robin boundaries do not depend on the numbers of the elements.
-/
namespace Verif.Run
open Verif Verif.Sched Verif.Spec Verif.Driver Verif.Heat

variable {ι Q : Type} [Fintype ι] [Fintype Q] {d nE k : ℕ}

noncomputable section
open Classical

/-- Configuration and mesh data after renumbering the elements: element `σ e` is what element `e` was. -/
def Common.reordered {E : Type} (R : Common E d) (σ : Equiv.Perm E) : Common E d :=
  { R with
    nodal := R.nodal.map fun N => { N with t := fun e => N.t (σ.symm e) }
    centers := fun e => R.centers (σ.symm e)
    volume := fun e => R.volume (σ.symm e)
    design := R.design.map σ.toEmbedding
    pinned := R.pinned.map fun s => s.map σ.toEmbedding
    fixed := R.fixed.map σ.toEmbedding
    pct := fun q x => R.pct q fun e => x (σ e) }

/-- The same run on the mesh with renumbered elements. -/
abbrev HeatSetup.reordered (R : HeatSetup ι Q d nE k) (σ : Equiv.Perm (Fin nE)) : HeatSetup ι Q d nE k where
  toCommon := R.toCommon.reordered σ
  task := R.task.reordered σ
  backend := R.backend
  solver := R.solver

/-- The snapshot files with renumbered elements. -/
def reorderedFiles {E : Type} (σ : Equiv.Perm E) (files : List (Snapshot.Name × (E → ℝ))) : List (Snapshot.Name × (E → ℝ)) :=
  files.map fun f => (f.1, fun e => f.2 (σ.symm e))

/-! ### The common part, seen as an elasticity problem without degrees of freedom -/

/-- A library that inverts matrices. -/
def inverting : Solver.Backend ℝ (Matrix Empty Empty ℝ) (Empty → ℝ) where
  cgJacobi _ _ _ _ := .error .runtimeError
  cgPyamg _ _ _ _ := .error .runtimeError
  spsolve k f := .ok (k⁻¹.mulVec f)
  petsc _ _ _ _ _ := .error .runtimeError
  splu k fs := .ok (fs.map fun f => k⁻¹.mulVec f)
  petscMulti _ _ _ _ _ := .error .runtimeError

theorem inverting_direct : Direct inverting := fun _ _ => ⟨fun _ => rfl, fun _ => rfl⟩

/-- No degrees of freedom and no integration points. -/
def bare {E : Type} (R : Common E d) : Setup Empty E Empty d 1 where
  toCommon := R
  fe := { grad := fun i => i.elim, dx := fun _ q => q.elim }
  nu := 0
  E0 := 1
  dirichlet := ∅
  loads := fun _ i => i.elim
  backend := inverting
  solver := { solver := "spsolve", rtol := 0 }

theorem bare_wellPosed {E : Type} [Fintype E] {R : Common E d} (h : Basics R) (h' : OCRules R) (hd : d ≤ 3) (hE : 0 < R.eMinCoeff ∧ R.eMinCoeff ≤ 1) :
    WellPosed (bare R) :=
  { h, h' with
    dim := hd
    weights := fun _ q => q.elim
    poisson := by norm_num [bare]
    modulus := ⟨one_pos, hE⟩
    supports := fun _ _ _ => Subsingleton.elim _ _
    loadCases := one_pos
    direct := inverting_direct
    solver := Or.inl rfl
    nodal := h.nodal }

theorem bare_reordered {E : Type} (R : Common E d) (σ : Equiv.Perm E) :
    (renumbered (bare R) σ (Equiv.refl Empty) inverting).toCommon = R.reordered σ := rfl

theorem reordered_basics {E : Type} [Fintype E] {R : Common E d} (h : Basics R) (h' : OCRules R) (hd : d ≤ 3) (hE : 0 < R.eMinCoeff ∧ R.eMinCoeff ≤ 1)
    (σ : Equiv.Perm E) : WellPosed (renumbered (bare R) σ (Equiv.refl Empty) inverting) :=
  wellPosed_renumbered (bare R) (bare_wellPosed h h' hd hE) σ (Equiv.refl Empty) inverting inverting_direct

/-! ### Runs -/

theorem HeatSetup.reordered_wellPosed {R : HeatSetup ι Q d nE k} (h : HeatWellPosed R) (hd : d ≤ 3) (hr : R.task.robin = none)
    (σ : Equiv.Perm (Fin nE)) : HeatWellPosed (R.reordered σ) :=
  let hb := reordered_basics h.toBasics h.toOCRules hd h.material.2 σ
  let hs := reordered_sound h.toHeatSound hr σ
  { toHeatSound :=
      { hs with
        toBasics := hb.toBasics
        material := hs.material }
    toOCRules := hb.toOCRules
    sign := fun _ hn => absurd hr hn }

theorem heat_det_reordered {R : HeatSetup ι Q d nE k} (h : HeatWellPosed R) (hd : d ≤ 3) (hp : ∀ q x, R.pct q x = percentile q (R.design.val.map x))
    (hr : R.task.robin = none) (σ : Equiv.Perm (Fin nE)) {n : ℕ} {v : Vals} (hv : ValsOk R.toCommon n v) {rho rho' : Fin nE → ℝ}
    (hrho : ∀ e, 0 ≤ rho e ∧ rho e ≤ 1) (hx : ∀ e, rho' (σ e) = rho e) {rs : ℝ} {r r' : Rec} {new new' : Fin nE → ℝ} {rs1 rs1' : ℝ}
    (e : r.iter = n) (e' : r'.iter = n) (hi : HeatIteration R rho rs r new rs1) (hi' : HeatIteration (R.reordered σ) rho' rs r' new' rs1') :
    (∀ e, new' (σ e) = new e) ∧ rs1' = rs1 ∧ r' = r := by
  have hb := bare_wellPosed h.toBasics h.toOCRules hd h.material.2
  have hb' := reordered_basics h.toBasics h.toOCRules hd h.material.2 σ
  have hA : AlikeOC (renumbering σ (Equiv.refl Empty)) (bare R.toCommon) (renumbered (bare R.toCommon) σ (Equiv.refl Empty) inverting) :=
    alike_renumbered (bare R.toCommon) hp σ (Equiv.refl Empty) inverting
  have hwork : (renumbering (E := Fin nE) (m := 1) σ (Equiv.refl Empty)).work = 1 := by simp [Change.work, renumbering]
  have hother : ∀ w : Vals, other (renumbering (E := Fin nE) (m := 1) σ (Equiv.refl Empty)) w = w := fun w => by
    simp [other, renumbering]
  obtain ⟨v1, u, a1, a2, a3, a4, a5⟩ := hi
  obtain ⟨v2, w, b1, b2, b3, b4, b5⟩ := hi'
  rw [e] at a1
  rw [e'] at b1
  obtain rfl : v1 = v := allScheduled_eq hv.all a1
  have hall : AllScheduled (R.toCommon.reordered σ) n v1 := by
    have := allScheduled_alike hA.toAlike (R := bare R.toCommon) a1
    rwa [hother] at this
  obtain rfl : v2 = v1 := allScheduled_eq hall b1
  have hph : ∀ e, physical (R.toCommon.reordered σ) v2 rho' (σ e) = physical R.toCommon v2 rho e := fun e => by
    have := physical_alike hA.toAlike hb.toSound hb'.toSound (v := v2) hv.radius hx e
    rwa [hother] at this
  have hph' : physical (R.toCommon.reordered σ) v2 rho' = fun e => physical R.toCommon v2 rho (σ.symm e) := by
    funext e
    have := hph (σ.symm e)
    rwa [Equiv.apply_symm_apply] at this
  have hrange := fun e => physical_range h.toBasics hv hrho e
  have hs' := reordered_sound h.toHeatSound hr σ
  have hw : w = u := funext fun j => by
    refine warmed_unique (R := { R with task := R.task.reordered σ }) hs' (x := fun e => physical R.toCommon v2 rho (σ.symm e)) (fun e => hrange _)
      (warmed_reordered_of R.task hr σ R.eMinCoeff v2.p _ j (u j) (a2 j)) ?_
    have := b2 j
    rw [show physical (R.reordered σ).toCommon v2 rho' = _ from hph'] at this
    exact this
  subst hw
  have hcol : ∀ j e, heatColumn (R.task.reordered σ) R.eMinCoeff v2.p (physical (R.toCommon.reordered σ) v2 rho') (w j) (σ e) =
      (renumbering (E := Fin nE) (m := 1) σ (Equiv.refl Empty)).work * heatColumn R.task R.eMinCoeff v2.p (physical R.toCommon v2 rho) (w j) e := by
    intro j e
    rw [hwork, one_mul, hph']
    exact heatColumn_reordered R.task hr σ _ _ _ _ _
  have hchain := chained_alike hA.toAlike hb.toSound hb'.toSound (v := v2) hv.radius (rho := rho) (rho' := rho') hx
    (g := fun j => heatColumn R.task R.eMinCoeff v2.p (physical R.toCommon v2 rho) (w j))
    (g' := fun j => heatColumn (R.task.reordered σ) R.eMinCoeff v2.p (physical (R.toCommon.reordered σ) v2 rho') (w j)) hcol
  have b5' : OCStep (renumbered (bare R.toCommon) σ (Equiv.refl Empty) inverting).toCommon (other (renumbering (E := Fin nE) (m := 1) σ (Equiv.refl Empty)) v2)
      (chained (R.toCommon.reordered σ) v2 rho' fun j => heatColumn (R.task.reordered σ) R.eMinCoeff v2.p (physical (R.toCommon.reordered σ) v2 rho') (w j))
      rho' ((renumbering (E := Fin nE) (m := 1) σ (Equiv.refl Empty)).work * rs) r' new' rs1' := by
    rw [hother, hwork, one_mul]
    exact b5
  rw [hother] at hchain
  obtain ⟨c1, c2, c3⟩ := ocStep_alike hA hb.toSound hb'.toSound (v := v2) hv.radius hx hchain (e'.trans e.symm) a5 b5'
  rw [hwork, one_mul] at c2
  refine ⟨c1, c2, ?_⟩
  have hc : r'.compliance = r.compliance := by
    rw [a3, b3, show physical (R.reordered σ).toCommon v2 rho' = _ from hph']
    exact heatObjective_reordered R.task hr σ _ _ _ _
  rw [line_id hwork] at c3
  rw [c3, hc, b4, ← a4]
  rfl

/-- **C158, elements, without Robin boundaries, complete runs.** A well-posed OC run on a heat task without Robin boundaries after renumbering the
elements: the same calls make the same progress; element `σ e` has at the end the density that `e` has, the histories are the same, and the
snapshots are the same up to the numbers of the elements. -/
theorem C158_element_numbering_runs_partial (R : HeatSetup ι Q d nE k) (h : HeatWellPosed R) (hd : d ≤ 3)
    (hp : ∀ q x, R.pct q x = percentile q (R.design.val.map x)) (hr : R.task.robin = none) (σ : Equiv.Perm (Fin nE))
    (files : List (Snapshot.Name × (Fin nE → ℝ))) (hs : CanStart R.toCommon files) (cs : List Call) :
    ∃ o o', runCalls (heatSys R) cs (newHeatRun R files) = (o, .ok ()) ∧
      runCalls (heatSys (R.reordered σ)) cs (newHeatRun (R.reordered σ) (reorderedFiles σ files)) = (o', .ok ()) ∧
      o'.started = o.started ∧ o'.completed = o.completed ∧
      (o.started = true → o'.iterNext = o.iterNext ∧ (∀ e, o'.world.rho (σ e) = o.world.rho e) ∧
        o'.world.aux.1.log = o.world.aux.1.log ∧ o'.world.files = reorderedFiles σ o.world.files) := by
  have h' := HeatSetup.reordered_wellPosed h hd hr σ
  have hA : AlikeOC (renumbering σ (Equiv.refl Empty)) (bare R.toCommon) (renumbered (bare R.toCommon) σ (Equiv.refl Empty) inverting) :=
    alike_renumbered (bare R.toCommon) hp σ (Equiv.refl Empty) inverting
  have hwork : (renumbering (E := Fin nE) (m := 1) σ (Equiv.refl Empty)).work = 1 := by simp [Change.work, renumbering]
  obtain ⟨o, o', ho, ho', h1, h2, h3⟩ := relabelled_by (R := bare R.toCommon)
    (renumbering (E := Fin nE) (m := 1) σ (Equiv.refl Empty)).line (fun _ => ⟨rfl, rfl⟩) hA hA.saved h.toBasics h'.toBasics (heat_computes h)
    (heat_computes (R := R.reordered σ) h')
    (fun n v hv rho rho' hrho hx rs r r' new new' rs1 rs1' e e' hi hi' => by
      rw [hwork, one_mul] at hi' ⊢
      obtain ⟨c1, c2, c3⟩ := heat_det_reordered h hd hp hr σ hv hrho hx e e' hi hi'
      exact ⟨c1, c2, by rw [c3, line_id hwork]; rfl⟩) hs cs
  refine ⟨_, _, heat_run h.toHeatSound ho, heat_run h'.toHeatSound ho', h1, h2, fun hs => ⟨(h3 hs).1, (h3 hs).2.1, ?_, (h3 hs).2.2.2⟩⟩
  have := (h3 hs).2.2.1
  rw [line_id hwork, List.map_id] at this
  exact this

/-! ### A concrete case -/

/-- Two rods without Robin boundaries; the statistic is `np.percentile`. -/
def coldRodsP : HeatSetup (Fin 3) (Fin 1) 1 2 2 :=
  { coldRods with pct := fun q x => percentile q (coldRods.design.val.map x) }

theorem coldRodsP_wellPosed : HeatWellPosed coldRodsP :=
  let h := coldRods_wellPosed
  { h with nodal := by simp [coldRodsP, coldRods, rodsRun] }

example := C158_element_numbering_runs_partial coldRodsP coldRodsP_wellPosed (by norm_num) (fun _ _ => rfl) rfl (Equiv.swap 0 1) [] (Or.inl rfl)
  [.steps 2, .optimize]

end
end Verif.Run
