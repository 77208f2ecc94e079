import Verif.Props.RunHeatEx
import Verif.Props.Task

/-!
C96 on heat tasks, and C106: with `design_dirichlet = True` a heat run has no design.
-/
namespace Verif.Run
open Verif Verif.Sched Verif.Spec Verif.Driver Verif.Heat

variable {ι Q : Type} [Fintype ι] [Fintype Q] {d nE k : ℕ}

noncomputable section
open Classical

/-- **C96** on heat tasks: a percentile that is not a percentage (OC). -/
theorem C96_bad_percentage_heat (R : HeatSetup ι Q d nE k) (h : HeatSound R) (hnr : R.restart = false)
    (files : List (Snapshot.Name × (Fin nE → ℝ))) (q : ℝ) (hq : Scheduled R.toCommon R.cPercentile 1 (some q)) (hbad : q < 0 ∨ 100 < q) (c : Call)
    (hc : ∀ n, c = .steps n → 0 < n) :
    ∃ o, c.run (heatSys R) (newHeatRun R files) = (o, .error .valueError) ∧ InitialDensities R.toCommon o.world.rho ∧ o.world.files = files ∧
      o.world.trace = [1] := by
  obtain ⟨o, ho, h1⟩ := bad_percentage_by h.toBasics (response := heatResponse R R.task) (heatLog_response h) hnr files q hq hbad c hc
  exact ⟨_, heat_call h ho, h1⟩

/-- **C96** on heat tasks: a percentile that is not a percentage (LogMOC). -/
theorem C96_bad_percentage_heat_logmoc (L : HeatLogSetup ι Q d nE k) (h : HeatSound L.toHeatSetup) (hnr : L.restart = false)
    (files : List (Snapshot.Name × (Fin nE → ℝ))) (q : Option ℝ) (hq : Scheduled L.toCommon L.cPercentile 1 q)
    (hbad : (∃ x, (x = q.getD L.lagPercentile ∨ L.normalizeVolumeChain = true ∧ (x = L.lagPercentile ∨ x = L.volumeChainPercentile)) ∧
      (x < 0 ∨ 100 < x)))
    (c : Call) (hc : ∀ n, c = .steps n → 0 < n) :
    ∃ o, c.run (heatLogSys L) (newHeatLogRun L files) = (o, .error .valueError) ∧ InitialDensities L.toCommon o.world.rho ∧ o.world.files = files ∧
      o.world.trace = [1] := by
  obtain ⟨o, ho, h1⟩ := log_bad_percentage_by (L := L.common) h.toBasics (response := heatResponse L.toHeatSetup L.task) (heatLog_response h)
    hnr files q hq hbad c hc
  exact ⟨_, heatLog_call h ho, h1⟩

end
end Verif.Run

namespace Verif.Driver
open Verif.Snapshot

variable {E X : Type} [DecidableEq E]

/-- If nothing in particular is pinned, everything is: after every history of calls, raising or not, every density of a started run is 1,
and so is every design density in every snapshot it has written. -/
theorem all_solid (S : Sys E ℝ X) (hp : S.pinned = none) (rho0 : E → ℝ) (x : X) (files : List (Name × (E → ℝ))) (cs : List Call) :
    ((history S cs (fresh rho0 x files)).started = true → ∀ e, (history S cs (fresh rho0 x files)).world.rho e = 1) ∧
    ∀ n c, load (history S cs (fresh rho0 x files)).world.files n = some c → load files n = some c ∨ ∀ e ∈ S.design, c e = 1 := by
  obtain ⟨F, hF⟩ : ∃ F : List (Name × (E → ℝ)) → Prop, F = fun fs => ∀ n c, load fs n = some c → load files n = some c ∨ ∀ e ∈ S.design, c e = 1 :=
    ⟨_, rfl⟩
  have hnew : ∀ new rho, newRho S new rho = fun _ => 1 := by
    intro new rho
    unfold newRho
    rw [hp]
    rfl
  have main := history_inv (S := S) (N := fun w => F w.files) (W := fun w => (∀ e, w.rho e = 1) ∧ F w.files) ?_ ?_ ?_ cs
    (fresh rho0 x files) ⟨fun _ => by rw [hF]; exact fun n c h => Or.inl h, fun h => by simp [fresh] at h⟩
  · obtain ⟨m1, m2⟩ := main
    by_cases hs : (history S cs (fresh rho0 x files)).started = true
    · exact ⟨fun _ => (m2 hs).1, by have := (m2 hs).2; rw [hF] at this; exact this⟩
    · exact ⟨fun h => absurd h hs, by have := m1 (by simpa using hs); rw [hF] at this; exact this⟩
  · intro o hs hN
    have hinit : ∀ fs rho n, initializeDensity S fs = .ok (rho, n) → ∀ e, rho e = 1 := by
      intro fs rho n h e
      have fin : ∀ r : E → ℝ, pin (some S.fixed) (pin S.pinned r) e = 1 := by
        intro r
        rw [hp]
        unfold pin
        simp
      unfold initializeDensity at h
      simp only at h
      split_ifs at h
      · cases hl : load fs (snapshotName S.restartFrom.toNat) with
        | none => rw [hl] at h; simp at h
        | some c =>
          rw [hl] at h
          simp only [Except.ok.injEq, Prod.mk.injEq] at h
          rw [← h.1]; exact fin _
      · rcases hfl : findLatest (fs.map Prod.fst) with ⟨n, _ | name⟩
        · rw [hfl] at h; simp at h
        · rw [hfl] at h
          simp only at h
          cases hl : load fs name with
          | none => rw [hl] at h; simp at h
          | some c =>
            rw [hl] at h
            simp only [Except.ok.injEq, Prod.mk.injEq] at h
            rw [← h.1]; exact fin _
      · simp only [Except.ok.injEq, Prod.mk.injEq] at h
        rw [← h.1]; exact fin _
    unfold ensureInit
    simp only [hs, Bool.false_eq_true, if_false]
    rcases hi : S.initSched o.world.aux with ⟨y, e | u⟩
    · simp only
      refine ⟨?_, by simp⟩
      intro o1 e' h
      simp only [Prod.mk.injEq] at h
      rw [← h.1]; exact hN
    · simp only
      rcases hd : initializeDensity S o.world.files with e | ⟨rho, n⟩
      · simp only
        refine ⟨?_, by simp⟩
        intro o1 e' h
        simp only [Prod.mk.injEq] at h
        rw [← h.1]; exact hN
      · simp only
        refine ⟨by simp, ?_⟩
        intro o1 h
        simp only [Prod.mk.injEq, and_true] at h
        rw [← h]
        exact ⟨hinit _ _ _ hd, hN⟩
  · rintro b n w ⟨h1, h2⟩
    rcases iterate_cases S b n w with ⟨x, e, hs, h⟩ | ⟨x, new, hs, ⟨y, e, hr, h⟩ | ⟨y, c, hr, ⟨-, h⟩ | ⟨-, h⟩⟩⟩ <;> rw [h] <;> simp only [hnew]
    · exact ⟨h1, h2⟩
    · exact ⟨fun _ => trivial, h2⟩
    · exact ⟨fun _ => trivial, h2⟩
    · refine ⟨fun _ => trivial, ?_⟩
      split_ifs
      · rw [hF] at h2 ⊢
        intro m c' hc'
        by_cases hm : m = snapshotName n
        · rw [hm, load_save_self, Option.some.injEq] at hc'
          refine Or.inr fun e he => ?_
          rw [← hc']
          simp [designPart, he]
        · rw [load_save_ne _ _ hm] at hc'
          exact h2 m c' hc'
      · exact h2
  · exact fun w h => h

end Verif.Driver

namespace Verif.Run
open Verif Verif.Sched Verif.Spec Verif.Driver Verif.Heat

/-- **C106.** A heat task (which has no Neumann boundary) leaves nothing for the optimizer to pin in particular if `design_dirichlet` is on.
`LinearHeatConduction.from_facets` calls `FEMDomain.from_facets` without Neumann facets (task_heat.py:196–212). -/
theorem heat_task_pins_everything {b : Task.Basis} {a : Task.FacetArgs} (hn : a.neumannFacets = none) {T : Task.Task}
    (h : Task.fromFacets b a = .ok T) : (T.construct true).pinned true = none := by
  have key : ∀ args : Task.Args, args.neumannNodes = none → ∀ T, Task.fromNodes b args = .ok T → T.neumannElements = none := by
    intro args hargs T h
    unfold Task.fromNodes at h
    rw [hargs] at h
    simp only [Task.boundaryElements, bind, Except.bind, pure, Except.pure] at h
    split at h
    · cases h
    · split at h
      · cases h
      · split at h
        · cases h
        · split_ifs at h
          split at h
          · cases h
          · split at h
            · cases h
            · injection h with h
              rw [← h]
  show T.neumannElements = none
  unfold Task.fromFacets at h
  rw [hn] at h
  simp only [Task.mergedFacetNodes, bind, Except.bind, pure, Except.pure] at h
  split at h
  · cases h
  · split at h
    · cases h
    · exact key _ rfl _ h

variable {ι Q : Type} [Fintype ι] [Fintype Q] {d k : ℕ}

/-- **C106.** With `design_dirichlet = True` (the default of the command line) a heat run has no design: on every task
`LinearHeatConduction.from_facets` builds, every density of a started OC run is 1 after every history of calls, raising or not, and so are
all design densities in the snapshots it writes. -/
theorem C106_design_dirichlet_solid {b : Task.Basis} {a : Task.FacetArgs} (hn : a.neumannFacets = none) {T : Task.Task}
    (h : Task.fromFacets b a = .ok T) (R : HeatSetup ι Q d b.t.length k) (hR : Task.OfTask b T true (heatSys R))
    (files : List (Snapshot.Name × (Fin b.t.length → ℝ))) (cs : List Call) :
    ((history (heatSys R) cs (newHeatRun R files)).started = true → ∀ e, (history (heatSys R) cs (newHeatRun R files)).world.rho e = 1) ∧
    ∀ n c, Snapshot.load (history (heatSys R) cs (newHeatRun R files)).world.files n = some c →
      Snapshot.load files n = some c ∨ ∀ e ∈ R.design, c e = 1 :=
  all_solid (heatSys R) (hR.pinned.1.mpr (heat_task_pins_everything hn h)) _ _ files cs

/-- **C106.** The same for LogMOC. -/
theorem C106_design_dirichlet_solid_logmoc {b : Task.Basis} {a : Task.FacetArgs} (hn : a.neumannFacets = none) {T : Task.Task}
    (h : Task.fromFacets b a = .ok T) (L : HeatLogSetup ι Q d b.t.length k) (hL : Task.OfTask b T true (heatLogSys L))
    (files : List (Snapshot.Name × (Fin b.t.length → ℝ))) (cs : List Call) :
    ((history (heatLogSys L) cs (newHeatLogRun L files)).started = true → ∀ e, (history (heatLogSys L) cs (newHeatLogRun L files)).world.rho e = 1) ∧
    ∀ n c, Snapshot.load (history (heatLogSys L) cs (newHeatLogRun L files)).world.files n = some c →
      Snapshot.load files n = some c ∨ ∀ e ∈ L.design, c e = 1 :=
  all_solid (heatLogSys L) (hL.pinned.1.mpr (heat_task_pins_everything hn h)) _ _ files cs

/-- Two rods in a row, heated at the left end. -/
def rodBasis : Task.Basis where
  t := [[0, 1], [1, 2]]
  facets := [[0], [1], [2]]
  nDofs := 3
  dofsAll l := l
  dofsDir l _ := .ok l
  volumes := .ok ()

def rodArgs : Task.FacetArgs where
  dirichletFacets := some (.lst [[0], [0]])
  dirichletDir := none
  dirichletValues := some (.list 2)
  neumannFacets := none
  robinFacets := none
  designRobin := none
  design := [0, 1]

def rodTask' : Task.Task where
  dirichletDofs := some (.lst [[0], [0]])
  dirichletElements := some [0]
  neumannElements := none
  robinElements := none
  design := [0, 1]
  freeDofs := [1, 2]
  freeElements := [0, 1]
  all := [0, 1]
  fixed := []
  dirichletNeumann := [0]

theorem rodTask'_built : Task.fromFacets rodBasis rodArgs = .ok rodTask' := by
  rfl

/-- `rodsRun` with `design_dirichlet = True`. -/
noncomputable def solidRods (obj : Objective) : HeatSetup (Fin 3) (Fin 1) 1 2 2 := { rodsRun obj with pinned := none }

theorem solidRods_ofTask (obj : Objective) : Task.OfTask rodBasis rodTask' true (heatSys (solidRods obj)) where
  design e := by
    show e ∈ ({0, 1} : Finset (Fin 2)) ↔ e.val ∈ [0, 1]
    revert e
    show ∀ e : Fin 2, e ∈ ({0, 1} : Finset (Fin 2)) ↔ e.val ∈ [0, 1]
    decide
  fixed e := by
    exact iff_of_false (Finset.notMem_empty e) (List.not_mem_nil)
  pinned := by
    refine ⟨iff_of_true rfl rfl, ?_⟩
    intro s l hs
    exact absurd (show (none : Option (Finset (Fin 2))) = some s from hs) (by simp)

/-- C96 on heat tasks. -/
example := C96_bad_percentage_heat_logmoc { heatLogOf (rodsRun .compliance) with lagPercentile := -1 } (rodsRun_sound _) rfl [] none rfl
  ⟨-1, Or.inl rfl, Or.inl (by norm_num)⟩ (.steps 2) (by rintro n h; cases h; norm_num)

/-- Non-vacuity of C106. -/
example := C106_design_dirichlet_solid (b := rodBasis) rfl rodTask'_built (solidRods .compliance) (solidRods_ofTask _) [] [.optimize]

end Verif.Run
