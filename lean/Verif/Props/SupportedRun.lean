import Verif.Props.Supported
import Verif.Props.Run

/-! C144: whole runs on meshes, examples, and why one integration point is not enough. -/
namespace Verif.Supported
open Matrix Verif.FEBasis Verif.Elastic Verif.Spec Verif.Spec.Supported Verif.Spec.Entry Verif.Run Verif.Driver

variable {N E Q : Type} {d m : ℕ} [Fintype N] [Fintype E] [Fintype Q]

open Classical in
/-- What is left to ask of a task once its mesh and supports are in order: a valid configuration, material constants with a physical meaning, a load
case, and a direct solver. -/
structure Equipped {ι : Type} [Fintype ι] (R : Setup ι E Q d m) : Prop extends Basics R.toCommon where
  poisson : -1 < R.nu ∧ R.nu < 1 / 2
  modulus : 0 < R.E0 ∧ 0 < R.eMinCoeff ∧ R.eMinCoeff ≤ 1
  loadCases : 0 < m
  direct : ∀ k : Matrix ι ι ℝ, k.det ≠ 0 → (∀ f, R.backend.spsolve k f = .ok (k⁻¹.mulVec f)) ∧
    ∀ fs, R.backend.splu k fs = .ok (fs.map fun f => k⁻¹.mulVec f)
  solver : R.solver.solver = "spsolve" ∨ (R.solver.solver = "auto" ∧ Fintype.card ι < 1000)

/-- … and for OC. -/
structure Configured {ι : Type} [Fintype ι] (R : Setup ι E Q d m) : Prop extends Equipped R, OCRules R.toCommon

theorem sound_of {ι : Type} [Fintype ι] {R : Setup ι E Q d m} (h : Equipped R) (hd : d ≤ 3) (hw : ∀ e q, 0 < R.fe.dx e q)
    (hs : ∀ u : ι → ℝ, (∀ i ∈ R.dirichlet, u i = 0) → (∀ e q, sym (gradOf R.fe u e q) = 0) → u = 0) : Sound R where
  toBasics := h.toBasics
  dim := hd
  weights := hw
  poisson := h.poisson
  modulus := h.modulus
  supports := hs
  loadCases := h.loadCases
  direct := h.direct
  solver := h.solver

open Classical in
/-- **C144 (whole runs, tetrahedra).** On every tetrahedral mesh in one piece without flat elements, with supports that exclude rigid motions, OC's
`optimize()` works for every valid configuration: it returns, the run is completed, and without convergence checking the histories have exactly
the lines `1, …, max_iters`. -/
theorem C144_tetrahedra_run (M : Mesh N E (Fin (d + 1)) d) (hd : d ≤ 3) (hflat : NotFlat M) (hone : OnePiece M) [Nonempty Q] (w : Q → ℝ)
    (hw : ∀ q, 0 < w q) (R : Setup (N × Fin d) E Q d m) (hfe : R.fe = basis M (p1 d w)) (hR : Configured R)
    (hD : NoLooseMotion M.p R.dirichlet) (hnr : R.restart = false) (files : List (Snapshot.Name × (E → ℝ))) :
    ∃ o, optimize (sys R) (newRun R.toCommon files) = (o, .ok ()) ∧ o.completed = true ∧
      (R.checkConvergence = false → o.world.aux.log.map Rec.iter = List.range' 1 R.maxIters) := by
  refine C78_optimize_completes R ⟨sound_of hR.toEquipped hd (by rw [hfe]; exact dx_p1 hflat hw) fun u hu hz => ?_, hR.toOCRules⟩ hnr files
  rw [hfe] at hz
  exact hD u (rigid_of_strain (stiff_p1 M hflat w) hone u hz) hu

open Classical in
/-- **C144 (whole runs, hexahedra).** The same for meshes of boxes with `intorder=2`. -/
theorem C144_hexahedra_run (M : Mesh N E (Fin 8) 3) (hbox : Boxes M) (hone : OnePiece M) (R : Setup (N × Fin 3) E (Fin 3 → Fin 2) 3 m)
    (hfe : R.fe = basis M hex2) (hR : Configured R) (hD : NoLooseMotion M.p R.dirichlet) (hnr : R.restart = false)
    (files : List (Snapshot.Name × (E → ℝ))) :
    ∃ o, optimize (sys R) (newRun R.toCommon files) = (o, .ok ()) ∧ o.completed = true ∧
      (R.checkConvergence = false → o.world.aux.log.map Rec.iter = List.range' 1 R.maxIters) := by
  have hw : ∀ q : Fin 3 → Fin 2, (0 : ℝ) < (fun _ => 1 / 8 : (Fin 3 → Fin 2) → ℝ) q := fun _ => by norm_num
  refine C78_optimize_completes R ⟨sound_of hR.toEquipped le_rfl (by rw [hfe]; exact dx_q1 hbox hw) fun u hu hz => ?_, hR.toOCRules⟩ hnr files
  rw [hfe] at hz
  exact hD u (rigid_of_strain (R := hex2) (stiff_q1 M hbox _ _ grid_gauss2) hone u hz) hu

/-! ### Examples -/

/-- Two tetrahedra with a common side. -/
def twoTets : Mesh (Fin 5) (Fin 2) (Fin 4) 3 where
  p := ![![0, 0, 0], ![1, 0, 0], ![0, 1, 0], ![0, 0, 1], ![1, 1, 1]]
  t := ![![0, 1, 2, 3], ![4, 1, 2, 3]]

theorem affine_of {n : ℕ} {x : Fin (n + 1) → Fin 3 → ℝ} (h : LinearIndependent ℝ fun k : Fin n => x k.succ - x 0) : AffineIndependent ℝ x := by
  rw [affineIndependent_iff_linearIndependent_vsub ℝ _ 0]
  have e : (fun i : { a : Fin (n + 1) // a ≠ 0 } => (x i -ᵥ x 0 : Fin 3 → ℝ)) = (fun k : Fin n => x k.succ - x 0) ∘ fun i => Fin.pred i.1 i.2 := by
    funext i
    simp
  rw [e]
  exact h.comp _ fun a b hab => Subtype.ext (Fin.pred_inj.1 hab)

theorem independent_of {v : Fin 3 → Fin 3 → ℝ} (h : (Matrix.of v).det ≠ 0) : LinearIndependent ℝ v :=
  Matrix.linearIndependent_rows_iff_isUnit.2 ((Matrix.isUnit_iff_isUnit_det _).2 (Ne.isUnit h))

theorem twoTets_notFlat : NotFlat twoTets := by
  intro e
  refine affine_of (n := 3) (independent_of ?_)
  fin_cases e
  · rw [Matrix.det_fin_three]
    simp [twoTets]
  · rw [Matrix.det_fin_three]
    simp [twoTets]

theorem twoTets_side : AffineIndependent ℝ fun k => twoTets.p ((![1, 2, 3] : Fin 3 → Fin 5) k) := by
  refine affine_of (n := 2) ?_
  have h := (independent_of (v := ![![-1, 1, 0], ![-1, 0, 1], ![0, 0, 1]]) (by rw [Matrix.det_fin_three]; simp)).comp
    (fun k : Fin 2 => k.castSucc) (Fin.castSucc_injective 2)
  convert h using 1
  funext k
  fin_cases k <;> (funext i; fin_cases i <;> simp [twoTets])

/-- Non-vacuity: the two tetrahedra meet the hypotheses of `C144_tetrahedra_solvable_iff`; clamped at the common side every load has exactly one
displacement field, fixed only in the first direction not. -/
example : NotFlat twoTets ∧ OnePiece twoTets ∧ NoLooseMotion twoTets.p {x | x.1 = 1 ∨ x.1 = 2 ∨ x.1 = 3} ∧ ¬ NoLooseMotion twoTets.p {x | x.2 = 0} := by
  refine ⟨twoTets_notFlat, ⟨fun e e' => ?_, ?_⟩, ?_, ?_⟩
  · have h : ∀ e e', e ≠ e' → Joined twoTets e e' := fun e e' _ =>
      ⟨![1, 2, 3], fun k => by fin_cases e <;> fin_cases e' <;> fin_cases k <;> exact ⟨by decide, by decide⟩, twoTets_side⟩
    by_cases he : e = e'
    · rw [he]
    · exact .single (h e e' he)
  · intro n
    fin_cases n
    · exact ⟨0, 0, rfl⟩
    · exact ⟨0, 1, rfl⟩
    · exact ⟨0, 2, rfl⟩
    · exact ⟨0, 3, rfl⟩
    · exact ⟨1, 0, rfl⟩
  · exact C144_clamped _ _ ![1, 2, 3] (fun k i => by fin_cases k <;> simp) twoTets_side
  · exact C144_free_direction _ _ 1 (fun n => by simp)

/-- The line 0–1–2–3 as three one-dimensional simplices. -/
def lineMesh : Mesh (Fin 4) (Fin 3) (Fin 2) 1 where
  p n _ := ((n : ℕ) : ℝ)
  t e := ![e.castSucc, e.succ]

/-- `chainRun` on that mesh. -/
noncomputable def lineRun : Setup (Fin 4 × Fin 1) (Fin 3) (Fin 1) 1 2 where
  toCommon := chainRun.toCommon
  fe := basis lineMesh (p1 1 fun _ => 1)
  nu := 0.3
  E0 := 210
  dirichlet := {(0, 0)}
  loads j i := if i.1 = 3 then (if j = 0 then 1 else 2) else 0
  backend :=
    { cgJacobi := fun _ _ _ _ => .error .runtimeError
      cgPyamg := fun _ _ _ _ => .error .runtimeError
      spsolve := fun k f => .ok (k⁻¹.mulVec f)
      petsc := fun _ _ _ _ _ => .error .runtimeError
      splu := fun k fs => .ok (fs.map fun f => k⁻¹.mulVec f)
      petscMulti := fun _ _ _ _ _ => .error .runtimeError }
  solver := { solver := "auto", rtol := 1 / 10 ^ 8 }

theorem lineRun_configured : Configured lineRun where
  toBasics := chainRun_wellPosed.toBasics
  toOCRules := chainRun_wellPosed.toOCRules
  poisson := by norm_num [lineRun]
  modulus := by norm_num [lineRun, chainRun]
  loadCases := by norm_num
  direct := fun k _ => ⟨fun f => by
    show Except.ok _ = Except.ok _
    congr!, fun fs => by
    show Except.ok _ = Except.ok _
    congr!⟩
  solver := Or.inr ⟨rfl, by simp⟩

theorem lineMesh_notFlat : NotFlat lineMesh := by
  intro e
  have h := affineIndependent_of_ne ℝ (p₁ := lineMesh.p e.castSucc) (p₂ := lineMesh.p e.succ) (by
    intro h; have := congrFun h 0; simp [lineMesh] at this)
  have e1 : (fun c => lineMesh.p (lineMesh.t e c)) = ![lineMesh.p e.castSucc, lineMesh.p e.succ] := by
    funext c
    fin_cases c <;> rfl
  rw [e1]
  exact h

theorem lineMesh_onePiece : OnePiece lineMesh := by
  have hj : ∀ e e' : Fin 3, (∃ c c', lineMesh.t e c = lineMesh.t e' c') → Joined lineMesh e e' := by
    rintro e e' ⟨c, c', h⟩
    exact ⟨fun _ => lineMesh.t e c, fun _ => ⟨⟨c, rfl⟩, c', h.symm⟩, affineIndependent_of_subsingleton ℝ _⟩
  have h1 : ∀ e : Fin 3, Joined lineMesh e 1 ∧ Joined lineMesh 1 e := by
    intro e
    fin_cases e
    · exact ⟨hj _ _ ⟨1, 0, rfl⟩, hj _ _ ⟨0, 1, rfl⟩⟩
    · exact ⟨hj _ _ ⟨1, 1, rfl⟩, hj _ _ ⟨1, 1, rfl⟩⟩
    · exact ⟨hj _ _ ⟨0, 1, rfl⟩, hj _ _ ⟨1, 0, rfl⟩⟩
  refine ⟨fun e e' => (Relation.ReflTransGen.single (h1 e).1).tail (h1 e').2, fun n => ?_⟩
  fin_cases n
  · exact ⟨0, 0, rfl⟩
  · exact ⟨1, 0, rfl⟩
  · exact ⟨2, 0, rfl⟩
  · exact ⟨2, 1, rfl⟩

/-- Non-vacuity of `C144_tetrahedra_run`. -/
example := C144_tetrahedra_run lineMesh (by norm_num) lineMesh_notFlat lineMesh_onePiece (fun _ => 1) (fun _ => one_pos) lineRun rfl lineRun_configured
  (C144_clamped _ _ (fun _ => 0) (fun _ i => by simp [lineRun, Subsingleton.elim i 0]) (affineIndependent_of_subsingleton ℝ _)) rfl []

/-! ### One quadrature point is not enough -/

/-- The unit cube as one element. -/
def cube : Mesh (Fin 8) Unit (Fin 8) 3 where
  p := hexCorner
  t _ c := c

theorem cube_boxes : Boxes cube := by
  intro e
  refine ⟨0, ![1, 0, 0], ![0, 1, 0], ![0, 0, 1], independent_of ?_, ?_⟩
  · rw [Matrix.det_fin_three]; simp
  · funext k i
    fin_cases k <;> fin_cases i <;> simp [cube, hexCorner]

theorem cube_onePiece : OnePiece cube := ⟨fun _ _ => .refl, fun n => ⟨(), n, rfl⟩⟩

/-- All components of the corners with first coordinate 0. -/
def cubeSide : Finset (Fin 8 × Fin 3) := {x | x.1 = 0 ∨ x.1 = 1 ∨ x.1 = 2 ∨ x.1 = 4}

theorem cube_clamped : NoLooseMotion cube.p cubeSide := by
  refine C144_clamped _ _ ![0, 1, 2] (fun k i => by fin_cases k <;> simp [cubeSide]) (affine_of (n := 2) ?_)
  have h := (independent_of (v := ![![0, 0, 1], ![0, 1, 0], ![1, 0, 0]]) (by rw [Matrix.det_fin_three]; simp)).comp
    (fun k : Fin 2 => k.castSucc) (Fin.castSucc_injective 2)
  convert h using 1
  funext k
  fin_cases k <;> (funext i; fin_cases i <;> simp [cube, hexCorner])

/-- **C144 (one point is not enough).** With one integration point per hexahedron (`intorder=1`, unless `skfem` raises it) supports cannot hold a body:
the unit cube clamped at a whole side has exactly one displacement for every load with `intorder=2`, but with one point it has a non-zero
displacement without any load. -/
theorem C144_one_point_not_solvable (nu : ℝ) (h0 : -1 < nu) (h1 : nu < 1 / 2) :
    (∀ f, ∃! u, Deformed (basis cube hex2) (fun _ => 1) nu cubeSide f u) ∧
    ∃ u, u ≠ 0 ∧ Deformed (basis cube hexMid) (fun _ => 1) nu cubeSide 0 u := by
  refine ⟨(C144_hexahedra_solvable_iff cube cube_boxes cube_onePiece _ (fun _ => one_pos) nu h0 h1 _).2 cube_clamped, ?_⟩
  let u : Fin 8 × Fin 3 → ℝ := fun x => if x.2 = 0 then (![0, 0, 0, 1, 0, -1, -1, 1] : Fin 8 → ℝ) x.1 else 0
  refine ⟨u, fun h => by have := congrFun h (3, 0); simp [u] at this, ?_, fun w _ => ?_⟩
  · rintro ⟨n, i⟩ hi
    simp only [cubeSide, Finset.mem_filter, Finset.mem_univ, true_and] at hi
    rcases hi with rfl | rfl | rfl | rfl <;> simp [u]
  · have hz : ∀ e q, strain (basis cube hexMid) u e q = 0 := by
      intro e q
      have hr : refGrad cube hexMid u e q = 0 := by
        ext i l
        simp only [refGrad, Matrix.of_apply, Matrix.zero_apply]
        obtain ⟨g0, g1, g2⟩ := hex_grads (fun _ _ => 1 / 2) (fun _ => 1) (fun c => u (cube.t e c, i)) q
        fin_cases l
        · refine g0.trans ?_; fin_cases i <;> (simp [u, cube]; try norm_num)
        · refine g1.trans ?_; fin_cases i <;> (simp [u, cube]; try norm_num)
        · refine g2.trans ?_; fin_cases i <;> (simp [u, cube]; try norm_num)
      rw [← Verif.Entry.strain_sym, gradOf_basis, hr, Matrix.zero_mul]
      simp [sym]
    simp [hz, hookeWork]

end Verif.Supported
