import Verif.Props.SupportedRun
import Verif.Props.RunLog

/-! C144 for LogMOC. -/
namespace Verif.Supported
open Matrix Verif.FEBasis Verif.Elastic Verif.Spec Verif.Spec.Supported Verif.Spec.Entry Verif.Run Verif.Driver

variable {N E Q : Type} {d m : ℕ} [Fintype N] [Fintype E] [Fintype Q]

open Classical in
/-- **C144 (LogMOC, tetrahedra).** On a body in one piece whose supports exclude rigid motions, LogMOC never raises, whatever calls are made, and the
histories have one line for each iteration. -/
theorem C144_tetrahedra_logmoc_run (M : Mesh N E (Fin (d + 1)) d) (hd : d ≤ 3) (hflat : NotFlat M) (hone : OnePiece M) [Nonempty Q] (w : Q → ℝ)
    (hw : ∀ q, 0 < w q) (L : LogSetup (N × Fin d) E Q d m) (hfe : L.fe = basis M (p1 d w)) (hR : Equipped L.toSetup) (hlog : LogRules L.common)
    (hD : NoLooseMotion M.p L.dirichlet) (hnr : L.restart = false) (files : List (Snapshot.Name × (E → ℝ))) (cs : List Call) :
    ∃ o, runCalls (logSys L) cs (newLogRun L.common files) = (o, .ok ()) ∧
      (o.started = true → o.world.aux.log.map LogRec.iter = List.range' 1 (o.iterNext - 1)) := by
  obtain ⟨o, h1, h2, -⟩ := C94_well_posed_run L ⟨sound_of hR hd (by rw [hfe]; exact dx_p1 hflat hw) fun u hu hz => by
    rw [hfe] at hz
    exact hD u (rigid_of_strain (stiff_p1 M hflat w) hone u hz) hu, hlog⟩ hnr files cs
  exact ⟨o, h1, fun hs => (h2 hs).2.2.2.2.1⟩

open Classical in
/-- **C144 (LogMOC, hexahedra).** The same for meshes of boxes with two integration points per direction. -/
theorem C144_hexahedra_logmoc_run (M : Mesh N E (Fin 8) 3) (hbox : Boxes M) (hone : OnePiece M) (L : LogSetup (N × Fin 3) E (Fin 3 → Fin 2) 3 m)
    (hfe : L.fe = basis M hex2) (hR : Equipped L.toSetup) (hlog : LogRules L.common) (hD : NoLooseMotion M.p L.dirichlet) (hnr : L.restart = false)
    (files : List (Snapshot.Name × (E → ℝ))) (cs : List Call) :
    ∃ o, runCalls (logSys L) cs (newLogRun L.common files) = (o, .ok ()) ∧
      (o.started = true → o.world.aux.log.map LogRec.iter = List.range' 1 (o.iterNext - 1)) := by
  have hw : ∀ q : Fin 3 → Fin 2, (0 : ℝ) < (fun _ => 1 / 8 : (Fin 3 → Fin 2) → ℝ) q := fun _ => by norm_num
  obtain ⟨o, h1, h2, -⟩ := C94_well_posed_run L ⟨sound_of hR le_rfl (by rw [hfe]; exact dx_q1 hbox hw) fun u hu hz => by
    rw [hfe] at hz
    exact hD u (rigid_of_strain (R := hex2) (stiff_q1 M hbox _ _ grid_gauss2) hone u hz) hu, hlog⟩ hnr files cs
  exact ⟨o, h1, fun hs => (h2 hs).2.2.2.2.1⟩

/-- Non-vacuity: the line of three elements. -/
example := C144_tetrahedra_logmoc_run lineMesh (by norm_num) lineMesh_notFlat lineMesh_onePiece (fun _ => 1) (fun _ => one_pos) (logOf lineRun) rfl
  lineRun_configured.toEquipped
  { percentages := chainLog_wellPosed.percentages
    positive := chainLog_wellPosed.positive
    range := chainLog_wellPosed.range
    floor := chainLog_wellPosed.floor
    lagPercentile := chainLog_wellPosed.lagPercentile
    chainPercentile := chainLog_wellPosed.chainPercentile }
  (C144_clamped _ _ (fun _ => 0) (fun _ i => by simp [logOf, lineRun, Subsingleton.elim i 0]) (affineIndependent_of_subsingleton ℝ _)) rfl []

end Verif.Supported
