import Verif.Model.Loader
import Mathlib.Tactic.Linarith
import Mathlib.Tactic.FieldSimp
import Mathlib.Tactic.Ring
import Mathlib.Tactic.NormNum
import Mathlib.Tactic.SplitIfs

/-! C119: stiffness matrices and mesh classes of files. -/
namespace Verif.Loader
open Verif Verif.Elastic Matrix Material

variable {ι E Q : Type} [Fintype ι] [Fintype E] [Fintype Q] {d : ℕ}

theorem linearElasticity_eq (L M : ℝ) (gu gv : Matrix (Fin d) (Fin d) ℝ) :
    linearElasticity L M gu gv = L * (sym gu).trace * (sym gv).trace + 2 * M * ddot (sym gu) (sym gv) := by
  unfold linearElasticity ddot eye
  have h : ∀ i j, ((2 * M) • sym gu + (L * (sym gu).trace) • (1 : Matrix (Fin d) (Fin d) ℝ)) i j * sym gv i j =
      (if i = j then L * (sym gu).trace * sym gv i j else 0) + 2 * M * (sym gu i j * sym gv i j) := by
    intro i j
    rw [Matrix.add_apply, Matrix.smul_apply, Matrix.smul_apply, Matrix.one_apply, smul_eq_mul, smul_eq_mul]
    by_cases hij : i = j
    · rw [if_pos hij, if_pos hij]; ring
    · rw [if_neg hij, if_neg hij]; ring
  simp only [h, Finset.sum_add_distrib, Finset.sum_ite_eq, Finset.mem_univ, if_true, Finset.mul_sum]
  congr 1
  rw [← Finset.mul_sum]
  rfl

/-- **C119 (partial: what the matrix is).** `load_stiffness_matrix(mesh, E, nu)` is the stiffness matrix of the material with *Lamé
parameters* `E` and `nu`: Young's modulus `nu (3E + 2nu) / (E + nu)` and Poisson's ratio `E / (2 (E + nu))`. -/
theorem C119_material_of_file_partial (B : FE ι E Q d) (E0 nu : ℝ) (hE : 0 < E0) (hn : 0 < nu) :
    loadStiffness B E0 nu = stiffness B (fun _ => nu * (3 * E0 + 2 * nu) / (E0 + nu)) (E0 / (2 * (E0 + nu))) := by
  have h1 : (lamMu (nu * (3 * E0 + 2 * nu) / (E0 + nu)) (E0 / (2 * (E0 + nu)))) = (E0, nu) := by
    have h2 : E0 + nu ≠ 0 := by positivity
    have h3 : 3 * E0 + 2 * nu ≠ 0 := by positivity
    have a1 : 1 + E0 / (2 * (E0 + nu)) = (3 * E0 + 2 * nu) / (2 * (E0 + nu)) := by field_simp; ring
    have a2 : 1 - 2 * (E0 / (2 * (E0 + nu))) = nu / (E0 + nu) := by field_simp; ring
    unfold lamMu
    rw [a1, a2]
    refine Prod.ext ?_ ?_ <;> simp only <;> field_simp
  funext i j
  unfold loadStiffness stiffness
  refine Finset.sum_congr rfl fun e _ => Finset.sum_congr rfl fun q _ => ?_
  rw [linearElasticity_eq]
  unfold stiffForm
  rw [h1]

theorem sum_single {d : ℕ} (x y : Fin d) : (∑ i, ∑ j, if x = i ∧ y = j then (1 : ℝ) else 0) = 1 := by
  rw [Finset.sum_eq_single x, Finset.sum_eq_single y]
  · simp
  · intro j _ hj; rw [if_neg fun h => hj h.2.symm]
  · simp
  · intro i _ hi
    exact Finset.sum_eq_zero fun j _ => if_neg fun h => hi h.1.symm
  · simp

theorem shear_form (d : ℕ) (hd : 2 ≤ d) : ∃ g : Matrix (Fin d) (Fin d) ℝ, (sym g).trace = 0 ∧ ddot (sym g) (sym g) = 2 := by
  obtain ⟨a, ha⟩ : ∃ a : Fin d, (a : ℕ) = 0 := ⟨⟨0, by omega⟩, rfl⟩
  obtain ⟨b, hb⟩ : ∃ b : Fin d, (b : ℕ) = 1 := ⟨⟨1, by omega⟩, rfl⟩
  have hab : a ≠ b := fun h => by rw [h, hb] at ha; omega
  have hs : sym (Matrix.single a b (1 : ℝ) + Matrix.single b a 1) = Matrix.single a b (1 : ℝ) + Matrix.single b a 1 := by
    unfold sym
    rw [transpose_add, transpose_single, transpose_single, add_comm (Matrix.single b a (1 : ℝ)), ← two_smul ℝ, smul_smul]
    norm_num
  refine ⟨Matrix.single a b 1 + Matrix.single b a 1, ?_, ?_⟩
  · rw [hs, trace_add, trace_single_eq_of_ne _ _ _ hab, trace_single_eq_of_ne _ _ _ hab.symm, add_zero]
  · rw [hs]
    unfold ddot
    have : ∀ i j : Fin d, (Matrix.single a b (1 : ℝ) + Matrix.single b a 1 : Matrix (Fin d) (Fin d) ℝ) i j *
        (Matrix.single a b (1 : ℝ) + Matrix.single b a 1 : Matrix (Fin d) (Fin d) ℝ) i j =
        (Matrix.single a b (1 : ℝ) + Matrix.single b a 1 : Matrix (Fin d) (Fin d) ℝ) i j := by
      intro i j
      simp only [Matrix.add_apply, single_apply]
      by_cases h1 : a = i ∧ b = j <;> by_cases h2 : b = i ∧ a = j
      · exact absurd (h1.1.trans h2.1.symm) hab
      · rw [if_pos h1, if_neg h2]; norm_num
      · rw [if_neg h1, if_pos h2]; norm_num
      · rw [if_neg h1, if_neg h2]; norm_num
    simp only [this]
    simp only [Matrix.add_apply, single_apply, Finset.sum_add_distrib]
    rw [sum_single, sum_single]; norm_num

theorem stretch_form (d : ℕ) (hd : 2 ≤ d) : ∃ g : Matrix (Fin d) (Fin d) ℝ, (sym g).trace = 1 ∧ ddot (sym g) (sym g) = 1 := by
  obtain ⟨a, -⟩ : ∃ a : Fin d, (a : ℕ) = 0 := ⟨⟨0, by omega⟩, rfl⟩
  have hs : sym (Matrix.single a a (1 : ℝ)) = Matrix.single a a 1 := by
    unfold sym
    rw [transpose_single, ← two_smul ℝ, smul_smul]
    norm_num
  refine ⟨Matrix.single a a 1, by rw [hs, trace_single_eq_same], ?_⟩
  rw [hs]
  unfold ddot
  have : ∀ i j : Fin d, Matrix.single a a (1 : ℝ) i j * Matrix.single a a (1 : ℝ) i j = if a = i ∧ a = j then 1 else 0 := by
    intro i j
    rw [single_apply]
    split_ifs <;> norm_num
  simp only [this]
  exact sum_single a a

/-- **C119 (refuted: Young's modulus and Poisson's ratio).** In two or more dimensions the form of `load_stiffness_matrix(mesh, E, nu)` is
that of the material with Young's modulus `E` and Poisson's ratio `nu` for one single pair only: `E = 1` and `nu = (√3 - 1)/2`. -/
theorem C119_wrong_material (hd : 2 ≤ d) (E0 nu : ℝ) (hE : 0 < E0) (h1 : -1 < nu) (h2 : nu < 1 / 2) :
    (∀ gu gv : Matrix (Fin d) (Fin d) ℝ, linearElasticity E0 nu gu gv = stiffForm E0 nu gu gv) ↔
      E0 = 1 ∧ 2 * nu ^ 2 + 2 * nu = 1 := by
  have p1 : (1 + nu) ≠ 0 := by linarith
  have p2 : (1 - 2 * nu) ≠ 0 := by linarith
  constructor
  · intro h
    obtain ⟨g, t1, t2⟩ := shear_form d hd
    obtain ⟨g', s1, s2⟩ := stretch_form d hd
    have a := h g g
    have b := h g' g'
    rw [linearElasticity_eq] at a b
    unfold stiffForm at a b
    rw [t1, t2] at a
    rw [s1, s2] at b
    simp only [lamMu] at a b
    have c1 : nu = E0 / (2 * (1 + nu)) := by linarith
    have c2 : E0 = nu * E0 / ((1 + nu) * (1 - 2 * nu)) := by linarith
    rw [eq_div_iff (by positivity)] at c1
    rw [eq_div_iff (by positivity)] at c2
    have c3 : (1 + nu) * (1 - 2 * nu) = nu := by
      have : E0 * ((1 + nu) * (1 - 2 * nu) - nu) = 0 := by linarith
      rcases mul_eq_zero.1 this with h | h
      · exact absurd h hE.ne'
      · linarith
    constructor
    · nlinarith
    · nlinarith
  · rintro ⟨rfl, hn⟩ gu gv
    rw [linearElasticity_eq]
    unfold stiffForm lamMu
    have c1 : (1 : ℝ) / (2 * (1 + nu)) = nu := by
      rw [div_eq_iff (by positivity)]; linarith
    have c2 : nu * 1 / ((1 + nu) * (1 - 2 * nu)) = 1 := by
      rw [div_eq_iff (by positivity)]; linarith
    simp only [c1, c2]

/-- **C119 (refuted: the default arguments).** With the defaults `E = 1`, `nu = 0.3` the matrix of the file is not the stiffness matrix of
that material: on an element that is only stretched it is too stiff. -/
theorem C119_default_wrong : ∃ B : FE Unit Unit Unit 3, (∀ e q, 0 < B.dx e q) ∧
    stiffness B (fun _ => 1) 0.3 () () < loadStiffness B 1 0.3 () () ∧ 0 < stiffness B (fun _ => 1) 0.3 () () := by
  obtain ⟨g, s1, s2⟩ := stretch_form 3 (by norm_num)
  have h1 : loadStiffness (⟨fun _ _ _ => g, fun _ _ => 1⟩ : FE Unit Unit Unit 3) 1 0.3 () () = 1.6 := by
    simp only [loadStiffness, linearElasticity_eq, s1, s2, Finset.univ_unique, Finset.sum_singleton]
    norm_num
  have h2 : stiffness (⟨fun _ _ _ => g, fun _ _ => 1⟩ : FE Unit Unit Unit 3) (fun _ => 1) 0.3 () () = 35 / 26 := by
    simp only [stiffness, stiffForm, lamMu, s1, s2, Finset.univ_unique, Finset.sum_singleton]
    norm_num
  refine ⟨⟨fun _ _ _ => g, fun _ _ => 1⟩, fun _ _ => one_pos, ?_, ?_⟩
  · rw [h1, h2]; norm_num
  · rw [h2]; norm_num

/-- **C119 (mesh class).** Both loaders accept exactly the files with a hexahedral or a tetrahedral cell block, and agree on every file
with only one of the two; on a file with both, one takes the hexahedra and the other the tetrahedra. -/
theorem C119_mesh_class (cellTypes : List String) :
    ((∃ c, basisFromFile cellTypes = .ok c) ↔ "hexahedron" ∈ cellTypes ∨ "tetra" ∈ cellTypes) ∧
    ((∃ c, loadMeshAuto cellTypes = .ok c) ↔ "hexahedron" ∈ cellTypes ∨ "tetra" ∈ cellTypes) ∧
    (¬ ("hexahedron" ∈ cellTypes ∧ "tetra" ∈ cellTypes) → basisFromFile cellTypes = loadMeshAuto cellTypes) ∧
    (basisFromFile cellTypes = .ok .hex ↔ "hexahedron" ∈ cellTypes) ∧
    (loadMeshAuto cellTypes = .ok .tet ↔ "tetra" ∈ cellTypes) := by
  unfold basisFromFile loadMeshAuto
  by_cases h1 : "hexahedron" ∈ cellTypes <;> by_cases h2 : "tetra" ∈ cellTypes <;> simp [h1, h2]

/-- Non-vacuity: the one pair exists. -/
example : ∃ nu : ℝ, -1 < nu ∧ nu < 1 / 2 ∧ 2 * nu ^ 2 + 2 * nu = 1 := by
  refine ⟨(Real.sqrt 3 - 1) / 2, ?_, ?_, ?_⟩
  · have := Real.sqrt_nonneg 3; linarith
  · have : Real.sqrt 3 < 2 := by rw [Real.sqrt_lt' (by norm_num)]; norm_num
    linarith
  · have := Real.sq_sqrt (show (0 : ℝ) ≤ 3 by norm_num)
    nlinarith

end Verif.Loader
