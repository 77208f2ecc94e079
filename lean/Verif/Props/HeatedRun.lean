import Verif.Props.Heated
import Verif.Props.SupportedToy
import Verif.Props.SupportedRun
import Verif.Props.RunHeatEx

/-! C145: whole runs on heat tasks over meshes, box meshes, examples, and why one integration point is not enough. -/
namespace Verif.Supported
open Matrix Verif.FEBasis Verif.Heat Verif.Spec Verif.Spec.Supported Verif.Run Verif.Driver

variable {N C Q : Type} {d nE k : ℕ} [Fintype N] [Fintype Q] [Fintype C]

open Classical in
/-- What is left to ask of a heat task once its mesh and its prescribed temperatures are in order: a valid configuration, a task as constructed,
positive conductivity, no negative film coefficient, prescribed temperatures on the same nodes in all load cases (C82), Robin boundaries if the
objective or the option asks for them, a direct solver. -/
structure HeatConfigured {ι : Type} [Fintype ι] (R : HeatSetup ι Q d nE k) : Prop extends Basics R.toCommon where
  built : ∃ T0 : Task ι Q d nE k, T0.build = .ok R.task
  surfaces : ∀ G ∈ R.task.regions, ∀ q, 0 ≤ G.dx q
  film : ∀ h Tenv, R.task.robin = some (h, Tenv) → 0 ≤ h
  material : 0 < R.task.k ∧ 0 < R.eMinCoeff ∧ R.eMinCoeff ≤ 1
  loadCases : R.task.values ≠ []
  regions : R.task.dirichlet.length = R.task.values.length
  same : ∀ D ∈ R.task.dirichlet, ∀ D' ∈ R.task.dirichlet, D = D'
  robin : R.task.objective = .heatExchange ∨ R.task.designRobin = true → R.task.robin ≠ none
  direct : ∀ K : Matrix ι ι ℝ, K.det ≠ 0 → (∀ f, R.backend.spsolve K f = .ok (K⁻¹.mulVec f)) ∧
    ∀ fs, R.backend.splu K fs = .ok (fs.map fun f => K⁻¹.mulVec f)
  solver : R.solver.solver = "auto" ∨ R.solver.solver = "spsolve"

/-- The task is defined on the mesh. -/
structure OnMesh (M : Mesh N (Fin nE) (Fin k) d) (R : Ref (Fin k) Q d) (phi : Q → Fin k → ℝ) (T : Task N Q d nE k) : Prop where
  fe : T.fe = scalarBasis M R phi
  t : ∀ a e, T.t a e = M.t e a
  anchored : ∀ D ∈ T.dirichlet, Anchored M D

theorem heatSound_of {M : Mesh N (Fin nE) (Fin k) d} {Rf : Ref (Fin k) Q d} {phi : Q → Fin k → ℝ} (hR : GoodRule Rf phi) (hM : NonDegenerate M Rf)
    (hinj : ∀ e, Function.Injective (M.t e)) {R : HeatSetup N Q d nE k} (hT : OnMesh M Rf phi R.task) (h : HeatConfigured R) : HeatSound R where
  toBasics := h.toBasics
  built := h.built
  weights := by rw [hT.fe]; exact (regular_of hR hM).dx
  shapes := by rw [hT.fe]; exact (regular_of hR hM).val
  partition := by rw [hT.fe]; exact (regular_of hR hM).one
  corners e := by
    have : (fun a => R.task.t a e) = M.t e := funext fun a => hT.t a e
    rw [this]; exact hinj e
  surfaces := h.surfaces
  film := h.film
  material := h.material
  loadCases := h.loadCases
  regions := h.regions
  same := h.same
  connected := by
    intro D hD w hw hs
    rw [hT.fe] at hs
    exact connected_of_anchored hR.sees hM (hT.anchored D hD) w hw hs
  robin := h.robin
  direct := h.direct
  solver := h.solver

omit [Fintype N] in
theorem notFlat_injective {M : Mesh N (Fin nE) (Fin (d + 1)) d} (h : NotFlat M) (e : Fin nE) : Function.Injective (M.t e) := by
  intro c c' hc
  exact (h e).injective (by simp only [hc])

omit [Fintype N] in
theorem boxes_injective {E : Type} {M : Mesh N E (Fin 8) 3} (h : Boxes M) (e : E) : Function.Injective (M.t e) := by
  intro c c' hc
  obtain ⟨o, a, b, c0, hi, hp⟩ := h e
  have hpt : ∀ k, M.p (M.t e k) = o + edges a b c0 *ᵥ hexCorner k := fun k => funext fun i => box_corner hp k i
  have he : edges a b c0 *ᵥ hexCorner c = edges a b c0 *ᵥ hexCorner c' := by
    have h1 := hpt c
    have h2 := hpt c'
    rw [hc] at h1
    exact add_left_cancel (h1.symm.trans h2)
  have hcor : hexCorner c = hexCorner c' := by
    have := congrArg ((edges a b c0)⁻¹ *ᵥ ·) he
    simpa only [Matrix.mulVec_mulVec, Matrix.nonsing_inv_mul _ (Ne.isUnit (edges_det hi)), Matrix.one_mulVec] using this
  have e0 := congrFun hcor 0
  have e1 := congrFun hcor 1
  have e2 := congrFun hcor 2
  fin_cases c <;> fin_cases c' <;> simp [hexCorner] at e0 e1 e2 ⊢

/-- **C145 (whole runs, tetrahedra).** On every mesh of simplices that are not flat, with a prescribed temperature on every piece, OC's `optimize()`
works for every valid configuration and each of the objectives: it returns, the run is completed, and without convergence checking the histories
have exactly the lines `1, …, max_iters`. -/
theorem C145_tetrahedra_run (M : Mesh N (Fin nE) (Fin (d + 1)) d) (hflat : NotFlat M) [Nonempty Q] (X : Q → Fin d → ℝ) (w : Q → ℝ)
    (hX : ∀ q, (∀ l, 0 ≤ X q l) ∧ ∑ l, X q l ≤ 1) (hw : ∀ q, 0 < w q) (R : HeatSetup N Q d nE (d + 1))
    (hT : OnMesh M (p1 d w) (p1Val X) R.task) (hR : HeatConfigured R) (hoc : OCRules R.toCommon)
    (hsign : R.task.objective = .compliance → R.task.robin ≠ none → R.nodal ≠ none) (hnr : R.restart = false)
    (files : List (Snapshot.Name × (Fin nE → ℝ))) :
    ∃ o, optimize (heatSys R) (newHeatRun R files) = (o, .ok ()) ∧ o.completed = true ∧
      (R.checkConvergence = false → o.world.aux.1.log.map Rec.iter = List.range' 1 R.maxIters) :=
  C100_optimize_completes R
    { toHeatSound := heatSound_of (goodRule_p1 X w hX hw) (fun e q => det_p1 M hflat w e q) (notFlat_injective hflat) hT hR, toOCRules := hoc, sign := hsign }
    hnr files

/-- **C145 (whole runs, hexahedra).** -/
theorem C145_hexahedra_run (M : Mesh N (Fin nE) (Fin 8) 3) (hM : NonDegenerate M hex2) (hinj : ∀ e, Function.Injective (M.t e))
    (R : HeatSetup N (Fin 3 → Fin 2) 3 nE 8) (hT : OnMesh M hex2 hex2Val R.task) (hR : HeatConfigured R) (hoc : OCRules R.toCommon)
    (hsign : R.task.objective = .compliance → R.task.robin ≠ none → R.nodal ≠ none) (hnr : R.restart = false)
    (files : List (Snapshot.Name × (Fin nE → ℝ))) :
    ∃ o, optimize (heatSys R) (newHeatRun R files) = (o, .ok ()) ∧ o.completed = true ∧
      (R.checkConvergence = false → o.world.aux.1.log.map Rec.iter = List.range' 1 R.maxIters) :=
  C100_optimize_completes R { toHeatSound := heatSound_of goodRule_hex2 hM hinj hT hR, toOCRules := hoc, sign := hsign } hnr files

/-- **C145 (LogMOC, tetrahedra).** The same for LogMOC, whatever calls are made: none of them raises, and the histories have one line for each
iteration. -/
theorem C145_tetrahedra_logmoc_run (M : Mesh N (Fin nE) (Fin (d + 1)) d) (hflat : NotFlat M) [Nonempty Q] (X : Q → Fin d → ℝ) (w : Q → ℝ)
    (hX : ∀ q, (∀ l, 0 ≤ X q l) ∧ ∑ l, X q l ≤ 1) (hw : ∀ q, 0 < w q) (L : HeatLogSetup N Q d nE (d + 1))
    (hT : OnMesh M (p1 d w) (p1Val X) L.task) (hR : HeatConfigured L.toHeatSetup) (hlog : LogRules L.common) (hnr : L.restart = false)
    (files : List (Snapshot.Name × (Fin nE → ℝ))) (cs : List Call) :
    ∃ o, runCalls (heatLogSys L) cs (newHeatLogRun L files) = (o, .ok ()) ∧
      (o.started = true → o.world.aux.1.log.map LogRec.iter = List.range' 1 (o.iterNext - 1)) := by
  obtain ⟨o, h1, -, h3, -⟩ := C102_well_posed_run L
    { toHeatSound := heatSound_of (goodRule_p1 X w hX hw) (fun e q => det_p1 M hflat w e q) (notFlat_injective hflat) hT hR, toLogRules := hlog }
    hnr files cs
  exact ⟨o, h1, fun hs => (h3 hs).2.2.2.2.1⟩

/-- **C145 (LogMOC, hexahedra).** -/
theorem C145_hexahedra_logmoc_run (M : Mesh N (Fin nE) (Fin 8) 3) (hM : NonDegenerate M hex2) (hinj : ∀ e, Function.Injective (M.t e))
    (L : HeatLogSetup N (Fin 3 → Fin 2) 3 nE 8) (hT : OnMesh M hex2 hex2Val L.task) (hR : HeatConfigured L.toHeatSetup) (hlog : LogRules L.common)
    (hnr : L.restart = false) (files : List (Snapshot.Name × (Fin nE → ℝ))) (cs : List Call) :
    ∃ o, runCalls (heatLogSys L) cs (newHeatLogRun L files) = (o, .ok ()) ∧
      (o.started = true → o.world.aux.1.log.map LogRec.iter = List.range' 1 (o.iterNext - 1)) := by
  obtain ⟨o, h1, -, h3, -⟩ := C102_well_posed_run L { toHeatSound := heatSound_of goodRule_hex2 hM hinj hT hR, toLogRules := hlog } hnr files cs
  exact ⟨o, h1, fun hs => (h3 hs).2.2.2.2.1⟩

open Verif.BoxMesh in
/-- **C145 (box meshes).** The meshes of `create_box_hex` are not degenerate, their hexahedra have eight different corners, and a single node with
prescribed temperature is enough, for all positive lengths and element sizes. -/
theorem C145_box_mesh (x y z h : ℝ) (hx : 0 < x) (hy : 0 < y) (hz : 0 < z) (hh : 0 < h) :
    ∃ M, createBoxHex x y z h = .ok M ∧ ∃ hM, NonDegenerate (ofHex M hM) hex2 ∧ (∀ e, Function.Injective ((ofHex M hM).t e)) ∧
      ∀ D : Finset (Fin M.npoints), D.Nonempty → Anchored (ofHex M hM) D := by
  obtain ⟨M, hM, hused, hbox, hone⟩ := C144_box_mesh x y z h hx hy hz hh
  exact ⟨M, hM, hused, fun e q => det_q1 _ hbox _ _ e q, boxes_injective hbox, fun D hD => C145_one_node _ (by norm_num) hone D hD⟩

/-! ### Examples -/

/-- The two rods as a mesh of one-dimensional simplices. -/
def rodMesh : Mesh (Fin 3) (Fin 2) (Fin 2) 1 where
  p n _ := ((n : ℕ) : ℝ)
  t e a := twoRods a e

theorem rodMesh_notFlat : NotFlat rodMesh := by
  intro e
  have h := affineIndependent_of_ne ℝ (p₁ := rodMesh.p e.castSucc) (p₂ := rodMesh.p e.succ) (by
    intro h; have := congrFun h 0; simp [rodMesh] at this)
  have e1 : (fun c => rodMesh.p (rodMesh.t e c)) = ![rodMesh.p e.castSucc, rodMesh.p e.succ] := by
    funext c
    fin_cases c <;> fin_cases e <;> rfl
  rw [e1]
  exact h

theorem rods_eq : rods = scalarBasis rodMesh (p1 1 fun _ : Fin 1 => 1) (p1Val fun _ _ => 1 / 2) := by
  have d0 : ∀ (q : Fin 1) (l : Fin 1), (p1 1 fun _ : Fin 1 => 1).dphi q 0 l = -1 := fun _ _ => rfl
  have d1 : ∀ (q : Fin 1) (l : Fin 1), (p1 1 fun _ : Fin 1 => 1).dphi q 1 l = 1 := fun _ l => if_pos (Subsingleton.elim _ _)
  have v0 : ∀ q : Fin 1, p1Val (fun (_ : Fin 1) (_ : Fin 1) => (1 / 2 : ℝ)) q 0 = 1 / 2 := by
    intro q
    show (1 : ℝ) - ∑ l : Fin 1, 1 / 2 = 1 / 2
    norm_num
  have v1 : ∀ q : Fin 1, p1Val (fun (_ : Fin 1) (_ : Fin 1) => (1 / 2 : ℝ)) q 1 = 1 / 2 := fun _ => rfl
  have hj : ∀ (e : Fin 2) (q : Fin 1), jac rodMesh (p1 1 fun _ : Fin 1 => 1) e q = 1 := by
    intro e q
    ext i l
    rw [Subsingleton.elim i 0, Subsingleton.elim l 0]
    simp only [jac, Matrix.of_apply, Fin.sum_univ_two, d0, d1, rodMesh, twoRods]
    fin_cases e <;> norm_num
  have hg : ∀ (e : Fin 2) (q : Fin 1) (c : Fin 2) (j : Fin 1), shapeGrad rodMesh (p1 1 fun _ : Fin 1 => 1) e q c j = if c = 0 then -1 else 1 := by
    intro e q c j
    rw [Subsingleton.elim j 0]
    simp only [shapeGrad, hj, Finset.univ_unique, Finset.sum_singleton]
    fin_cases c
    · rw [show (p1 1 fun _ : Fin 1 => 1).dphi q ((fun i => i) ⟨0, by omega⟩) default = -1 from rfl]; simp
    · rw [show (p1 1 fun _ : Fin 1 => 1).dphi q ((fun i => i) ⟨1, by omega⟩) default = 1 from d1 q _]; simp
  have ht : ∀ e c, rodMesh.t e c = twoRods c e := fun _ _ => rfl
  have t0 : ∀ e, twoRods 0 e = e.castSucc := by decide
  have t1 : ∀ e, twoRods 1 e = e.succ := by decide
  have key : ∀ (i : Fin 3) (e : Fin 2) (x y : ℝ), ((if e.castSucc = i then x else 0) + if e.succ = i then y else 0) =
      if i = e.castSucc then x else if i = e.succ then y else 0 := by
    intro i e x y
    by_cases h1 : e.castSucc = i
    · subst h1
      have hne : e.succ ≠ e.castSucc := by revert e; decide
      simp [hne]
    · rw [if_neg h1, if_neg (Ne.symm h1), zero_add]
      simp only [eq_comm]
  unfold rods scalarBasis
  congr 1
  · funext i e q
    simp only [Fin.sum_univ_two, ht, v0, v1, t0, t1]
    have h3 := key i e (1 / 2) (1 / 2)
    by_cases h1 : i = e.castSucc <;> by_cases h2 : i = e.succ <;> simp [h1, h2] at h3 ⊢ <;> simp [h2, h3]
  · funext i e q a
    simp only [Fin.sum_univ_two, hg, ht, t0, t1]
    exact (key i e _ _).symm
  · funext e q
    simp only [hj, Matrix.det_one, abs_one, one_mul]
    rfl

theorem rodMesh_anchored : Anchored rodMesh {0} := by
  intro n
  refine ⟨0, by simp, ?_⟩
  have a : Neighbours rodMesh 1 0 := ⟨0, ⟨1, rfl⟩, 0, rfl⟩
  have b : Neighbours rodMesh 2 1 := ⟨1, ⟨1, rfl⟩, 0, rfl⟩
  fin_cases n
  · exact .refl
  · exact .single a
  · exact (Relation.ReflTransGen.single b).tail a

theorem rodsRun_onMesh (obj : Objective) : OnMesh rodMesh (p1 1 fun _ : Fin 1 => 1) (p1Val fun _ _ => 1 / 2) (rodsRun obj).task where
  fe := rods_eq
  t _ _ := rfl
  anchored := by
    intro D hD
    have : D = {0} := by simpa [rodsRun, rodsTask] using hD
    rw [this]; exact rodMesh_anchored

theorem rodsRun_configured (obj : Objective) : HeatConfigured (rodsRun obj) :=
  let h := rodsRun_sound obj
  { toBasics := h.toBasics
    built := h.built
    surfaces := h.surfaces
    film := h.film
    material := h.material
    loadCases := h.loadCases
    regions := h.regions
    same := h.same
    robin := h.robin
    direct := h.direct
    solver := h.solver }

/-- Non-vacuity of the theorems about whole runs. -/
example := C145_tetrahedra_run rodMesh rodMesh_notFlat (fun _ _ => 1 / 2) (fun _ => 1) (fun q => by norm_num) (fun _ => one_pos) (rodsRun .heatExchange)
  (rodsRun_onMesh _) (rodsRun_configured _) (rodsRun_rules _) (by intro h; cases h) rfl []
example := C145_tetrahedra_logmoc_run rodMesh rodMesh_notFlat (fun _ _ => 1 / 2) (fun _ => 1) (fun q => by norm_num) (fun _ => one_pos)
  (heatLogOf (rodsRun .compliance)) (rodsRun_onMesh _) (rodsRun_configured _) (rodsLog_wellPosed .compliance).toLogRules rfl [] [.optimize]

/-- The two rods without Robin boundaries. -/
noncomputable def plainRods : Task (Fin 3) (Fin 1) 1 2 2 := { rodsTask with robin := none, objective := .compliance }

/-- Non-vacuity of `C145_tetrahedra_unique_iff`: with a prescribed temperature at the left end the rods have exactly one temperature, with none they
do not. -/
example : (∀ v, ∃! u, Spec.Heat.Balanced plainRods.fe (plainRods.ke Material.simp (1 / 1000) (fun _ => 1) 3) plainRods.robin plainRods.regions 3 plainRods.q
      (plainRods.nodal fun _ => 1) {0} v u) ∧
    ¬ ∀ v, ∃! u, Spec.Heat.Balanced plainRods.fe (plainRods.ke Material.simp (1 / 1000) (fun _ => 1) 3) plainRods.robin plainRods.regions 3 plainRods.q
      (plainRods.nodal fun _ => 1) ∅ v u := by
  have h := C145_tetrahedra_unique_iff rodMesh rodMesh_notFlat (fun _ _ => 1 / 2) (fun _ => 1) (fun q => by norm_num) (fun _ => one_pos) plainRods rods_eq
    ⟨plainRods, rfl⟩ rfl Material.simp (1 / 1000) (fun _ => 1) (fun _ => by norm_num) 3 (fun e => by simp [Task.ke, Material.simp, plainRods, rodsTask])
  refine ⟨(h {0}).2 rodMesh_anchored, fun hc => ?_⟩
  obtain ⟨m, hm, -⟩ := (h ∅).1 hc 0
  simp at hm

/-- The right end as a cooled surface. -/
noncomputable def rightEnd : List (SurfacePoint (Fin 2) (Fin 2)) := [{ element := 1, phi := ![0, 1], dx := 1 }]

/-- Rods with a cooled right end. -/
noncomputable def cooledRods : Task (Fin 3) (Fin 1) 1 2 2 :=
  { rodsTask with regions := [surface rodMesh rightEnd], bilinear := [robinForm (surface rodMesh rightEnd) 1 none 0], linear := [robinLoad (surface rodMesh rightEnd) 1 1 none 0] }

/-- Non-vacuity of `C145_tetrahedra_cooled`: cooled at the right end, the rods have exactly one temperature even without prescribed temperatures. -/
example : ∃! u, Spec.Heat.Balanced cooledRods.fe (cooledRods.ke Material.simp (1 / 1000) (fun _ => 1) 3) cooledRods.robin cooledRods.regions 3 cooledRods.q
    (cooledRods.nodal fun _ => 1) ∅ 0 u := by
  refine C145_tetrahedra_cooled rodMesh rodMesh_notFlat (fun _ _ => 1 / 2) (fun _ => 1) (fun q => by norm_num) (fun _ => one_pos) cooledRods rods_eq
    ⟨cooledRods, ?_⟩ [rightEnd] rfl ?_ 1 1 rfl one_pos Material.simp (1 / 1000) (fun _ => 1) (fun _ => by norm_num) 3
    (fun e => by simp [Task.ke, Material.simp, cooledRods, rodsTask]) ∅ (fun n => ?_) 0
  · unfold Task.build cooledRods rodsTask
    simp only [assembleRobin_one, Except.map]
    rfl
  · simp [rightEnd]
  · refine ⟨2, .inr ⟨rightEnd, by simp, _, by simp [rightEnd]; rfl, by norm_num, 1, rfl⟩, ?_⟩
    have a : Neighbours rodMesh 0 1 := ⟨0, ⟨0, rfl⟩, 1, rfl⟩
    have b : Neighbours rodMesh 1 2 := ⟨1, ⟨0, rfl⟩, 1, rfl⟩
    fin_cases n
    · exact (Relation.ReflTransGen.single a).tail b
    · exact .single b
    · exact .refl

/-! ### One integration point is not enough -/

/-- The unit cube with its elements numbered. -/
def cube1 : Mesh (Fin 8) (Fin 1) (Fin 8) 3 where
  p := hexCorner
  t _ c := c

/-- **C145 (one point is not enough).** With one integration point per hexahedron (`intorder=1`, unless `skfem` raises it) a body is not held at its
prescribed temperatures: in the unit cube with a whole side at temperature 0 and no sources, the balance has a solution that is not 0. With two
points per direction it has none. -/
theorem C145_one_point_not_unique (ke : Fin 1 → ℝ) (p : ℝ) (m : ℕ) (rn : Fin 8 → ℝ) (hke : 0 < ke 0) :
    (∃ u, u ≠ 0 ∧ Spec.Heat.Balanced (scalarBasis cube1 hexMid (q1Val fun _ _ => 1 / 2)) ke none [] p m rn {0, 1, 2, 4} 0 u) ∧
    ∀ u, Spec.Heat.Balanced (scalarBasis cube1 hex2 hex2Val) ke none [] p m rn {0, 1, 2, 4} 0 u → u = 0 := by
  have hboxes : Boxes cube1 := fun _ => cube_boxes ()
  constructor
  · refine ⟨![0, 0, 0, 1, 0, -1, -1, 1], fun h => by have := congrFun h 3; simp at this, ?_, fun i _ => ?_⟩
    · intro i hi
      simp only [Finset.mem_insert, Finset.mem_singleton] at hi
      rcases hi with rfl | rfl | rfl | rfl <;> simp
    · have hz : ∀ e q a, Spec.Heat.slope (scalarBasis cube1 hexMid (q1Val fun _ _ => 1 / 2)) ![0, 0, 0, 1, 0, -1, -1, 1] e q a = 0 := by
        intro e q a
        rw [slope_scalar]
        refine Finset.sum_eq_zero fun l _ => mul_eq_zero_of_left ?_ _
        obtain ⟨g0, g1, g2⟩ := hex_grads (fun (_ : Unit) _ => 1 / 2) (fun _ => 1) (fun c => (![0, 0, 0, 1, 0, -1, -1, 1] : Fin 8 → ℝ) (cube1.t e c)) q
        fin_cases l
        · refine g0.trans ?_; simp [cube1]; try norm_num
        · refine g1.trans ?_; simp [cube1]; try norm_num
        · refine g2.trans ?_; simp [cube1]; try norm_num
      simp only [Spec.Heat.conducted, Spec.Heat.losses, hz, zero_mul, Finset.sum_const_zero, mul_zero, add_zero]
  · intro u hu
    let T : Task (Fin 8) (Fin 3 → Fin 2) 3 1 8 :=
      { fe := scalarBasis cube1 hex2 hex2Val, t := fun a e => cube1.t e a, dirichlet := [], values := [], robin := none, regions := [], bilinear := [],
        linear := [], designRobin := false, objective := .compliance, avgWeight := 0, k := 1, q := m }
    have h := (C145_hexahedra_unique_iff cube1 (fun e q => det_q1 _ hboxes _ _ e q) T rfl ⟨T, rfl⟩ rfl (fun _ _ _ _ => ke 0) 0 (fun _ => 0)
      (fun _ => by norm_num) p (fun _ => hke) {0, 1, 2, 4}).2 (C145_one_node cube1 (by norm_num) ⟨fun e e' => by rw [Subsingleton.elim e e'], fun n => ⟨0, n, rfl⟩⟩ _ ⟨0, by simp⟩) 0
    have hk : T.ke (fun _ _ _ _ => ke 0) 0 (fun _ => 0) p = ke := funext fun e => by rw [Subsingleton.elim e 0]; rfl
    rw [hk] at h
    refine h.unique (y₁ := u) (y₂ := 0) hu ⟨fun _ _ => rfl, fun i _ => ?_⟩
    simp [Spec.Heat.conducted, Spec.Heat.losses, Spec.Heat.slope, T]

end Verif.Supported
