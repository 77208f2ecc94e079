import Verif.Model.Vtu
import Verif.Spec.Vtu
import Verif.Props.BoxMesh

/-! C118: the mesh files written during a run. -/
namespace Verif.Vtu
open Verif Verif.Geometry Verif.Spec Verif.BoxMesh

/-- **C118 (partial: points, corners and data).** For a tetrahedral or hexahedral mesh with one density and one energy per element the
file is written; it holds the points of the mesh, cell `e` lists the corners of element `e`, and the values of cell `e` are the density
and the energy of element `e`. For tetrahedra the solid VTK shows is the element. -/
theorem C118_file_partial (M : Mesh) (rho energy : List ℝ) (hk : M.kind = .tet ∨ M.kind = .hex) (hr : rho.length = M.t.length)
    (he : energy.length = M.t.length) :
    ∃ f, exportIteration M rho energy = .ok f ∧ f.points = M.points ∧ f.cells = M.t ∧
      f.cellData = [("rho_projected", rho), ("energy", energy)] ∧ f.pointData = [] ∧
      (M.kind = .tet → f.cellType = "tetra" ∧ ∀ e : ℕ,
        tetrahedron (cornersAt f.points (f.cells.getD e [])) = tetrahedron (cornersAt M.points (M.t.getD e []))) ∧ (M.kind = .hex → f.cellType = "hexahedron") := by
  have hd : dataDict (some ["rho_projected", "energy"]) (some [rho, energy]) = [("rho_projected", rho), ("energy", energy)] := by
    simp [dataDict, dset]
  have hn : dataDict none none = [] := rfl
  unfold exportIteration exportMesh
  simp only [hd, hn]
  rcases hk with hk | hk <;> rw [hk] <;> simp [hr, he]

/-- **C118 (rejected).** Any other mesh, or arrays of another length, give ValueError and no file. -/
theorem C118_rejected (M : Mesh) (rho energy : List ℝ)
    (h : M.kind = .other ∨ rho.length ≠ M.t.length ∨ energy.length ≠ M.t.length) :
    exportIteration M rho energy = .error .valueError := by
  have hd : dataDict (some ["rho_projected", "energy"]) (some [rho, energy]) = [("rho_projected", rho), ("energy", energy)] := by
    simp [dataDict, dset]
  have hn : dataDict none none = [] := rfl
  unfold exportIteration exportMesh
  simp only [hd, hn]
  rcases hk : M.kind with _ | _ | _
  · rw [hk] at h
    rcases h with h | h | h
    · cases h
    · simp [h]
    · simp [h]
  · rw [hk] at h
    rcases h with h | h | h
    · cases h
    · simp [h]
    · simp [h]
  · rfl

theorem trilinear_affine (c : Fin 2 → Fin 2 → Fin 2 → Vec) (b u v w : Vec)
    (h : ∀ i j k : Fin 2, c i j k = b + ((i : ℕ) : ℝ) • u + ((j : ℕ) : ℝ) • v + ((k : ℕ) : ℝ) • w) (x y z : ℝ) (hx : 0 ≤ x ∧ x ≤ 1)
    (hy : 0 ≤ y ∧ y ≤ 1) (hz : 0 ≤ z ∧ z ≤ 1) : b + x • u + y • v + z • w ∈ trilinear c := by
  refine ⟨x, y, z, hx, hy, hz, ?_⟩
  simp only [h]
  simp only [Fin.val_zero, Fin.val_one, Nat.cast_zero, Nat.cast_one, zero_smul, one_smul, add_zero]
  module

/-- **C118 (refuted: every parallelepiped).** A hexahedral element that is a parallelepiped is not what the file shows: the cell VTK
builds from the corners in the order of the mesh does not contain a point of the element that lies in its face. -/
theorem C118_hexahedra_twisted (q : Fin 8 → Vec) (b u v w : Vec) (hind : ∀ x y z : ℝ, x • u + y • v + z • w = 0 → x = 0 ∧ y = 0 ∧ z = 0)
    (hq : q = ![b, b + w, b + v, b + u, b + v + w, b + u + w, b + u + v, b + u + v + w]) :
    ∃ p ∈ hexElement q, p ∉ vtkHexahedron q := by
  refine ⟨b + (1 / 2 : ℝ) • u + (1 / 4 : ℝ) • v + (0 : ℝ) • w, ?_, ?_⟩
  · refine trilinear_affine _ b u v w ?_ _ _ _ (by norm_num) (by norm_num) (by norm_num)
    intro i j k
    subst hq
    fin_cases i <;> fin_cases j <;> fin_cases k <;> simp
  · rintro ⟨r, s, t, ⟨hr0, hr1⟩, ⟨hs0, hs1⟩, ⟨ht0, ht1⟩, he⟩
    subst hq
    simp only [Matrix.cons_val_zero, Matrix.cons_val_one, Matrix.cons_val] at he
    have key : ((1 - r) * s + r * t - 1 / 2) • u + (r * s + (1 - r) * t - 1 / 4) • v + (r * (1 - s) + (1 - r) * t) • w = 0 := by
      have h0 := sub_eq_zero.2 he.symm
      rw [← h0]
      module
    obtain ⟨h1, h2, h3⟩ := hind _ _ _ key
    have a1 : r * (1 - s) = 0 := le_antisymm (by nlinarith [mul_nonneg (sub_nonneg.2 hr1) ht0]) (mul_nonneg hr0 (by linarith))
    have a2 : (1 - r) * t = 0 := by linarith
    rcases mul_eq_zero.1 a1 with hr | hs
    · subst hr
      simp at a2 h1 h2
      rw [a2] at h2; norm_num at h2
    · have hs' : s = 1 := by linarith
      subst hs'
      rcases mul_eq_zero.1 a2 with hr | ht
      · have hr' : r = 1 := by linarith
        subst hr'
        norm_num at h2
      · subst ht
        simp at h1 h2
        linarith

/-- **C118 (refuted: every box mesh).** In every mesh made by `create_box_hex`, for every size and resolution, no cell of the exported file
is its element. -/
theorem C118_box_cells_twisted (x y z h : ℝ) (hx : 0 < x) (hy : 0 < y) (hz : 0 < z) (hh : 0 < h) :
    ∃ M, createBoxHex x y z h = .ok M ∧ 0 < M.t.length ∧ ∀ (e : ℕ) t, M.t[e]? = some t →
      ∃ p ∈ hexElement (fun c => M.p (t c)), p ∉ vtkHexahedron fun c => M.p (t c) := by
  obtain ⟨nx, ny, nz, ⟨h1, h2, h3⟩, e, -, -, -⟩ := createBoxHex_eq x y z h hx hy hz hh
  refine ⟨_, e, by rw [length_tensor]; positivity, fun k t ht => ?_⟩
  obtain ⟨hk, rfl⟩ := get_tensor x y z nx ny nz k t ht
  obtain ⟨i1, i2, -⟩ := split_index hk h1 h2
  have hn : (0 : ℝ) < nx ∧ (0 : ℝ) < ny ∧ (0 : ℝ) < nz := ⟨by exact_mod_cast h1, by exact_mod_cast h2, by exact_mod_cast h3⟩
  have dx : x / nx ≠ 0 := (div_pos hx hn.1).ne'
  have dy : y / ny ≠ 0 := (div_pos hy hn.2.1).ne'
  have dz : z / nz ≠ 0 := (div_pos hz hn.2.2).ne'
  obtain ⟨a, ha⟩ : ∃ a : ℝ, a = (k / ny % nx : ℕ) * (x / nx) := ⟨_, rfl⟩
  obtain ⟨b, hb⟩ : ∃ b : ℝ, b = (k % ny : ℕ) * (y / ny) := ⟨_, rfl⟩
  obtain ⟨c, hc⟩ : ∃ c : ℝ, c = (k / ny / nx : ℕ) * (z / nz) := ⟨_, rfl⟩
  have hp := cell_points x y z nx ny nz (k / ny % nx) (k % ny) (k / ny / nx) i1 i2 a b c ha hb hc
  refine C118_hexahedra_twisted _ ![a, b, c] ![0, 0, z / nz] ![x / nx, 0, 0] ![0, y / ny, 0] ?_ (hp.trans ?_)
  · intro α β γ hsum
    have e0 := congrFun hsum 0
    have e1 := congrFun hsum 1
    have e2 := congrFun hsum 2
    simp [dx, dy, dz] at e0 e1 e2
    exact ⟨by tauto, by tauto, by tauto⟩
  · funext k i
    fin_cases k <;> fin_cases i <;> simp

/-- The order in which `skfem`'s own writer lists the corners of a hexahedron. -/
def vtkOrder : Fin 8 → Fin 8 := ![0, 3, 6, 2, 1, 5, 7, 4]

/-- **C118 (what is missing).** Listing the corners in the order of `skfem`'s own writer would make the cell the element, whatever its
shape. -/
theorem C118_reordered (q : Fin 8 → Vec) : vtkHexahedron (fun c => q (vtkOrder c)) = hexElement q := by
  unfold vtkHexahedron hexElement vtkOrder
  simp only [Matrix.cons_val_zero, Matrix.cons_val_one, Matrix.cons_val]

/-- Non-vacuity: a unit cube; the point (1/2, 1/4, 0) belongs to it, but not to the cell of the file. -/
example : ∃ (M : Mesh) (f : File), M.kind = .hex ∧ M.t.length = 1 ∧ exportIteration M [1] [2] = .ok f ∧
    ∃ p ∈ hexElement (cornersAt M.points (M.t.getD 0 [])), p ∉ vtkHexahedron (cornersAt f.points (f.cells.getD 0 [])) := by
  obtain ⟨M, hM⟩ : ∃ M : Mesh, M = ⟨.hex, [![0, 0, 0], ![0, 0, 1], ![0, 1, 0], ![1, 0, 0], ![0, 1, 1], ![1, 0, 1], ![1, 1, 0], ![1, 1, 1]],
    [[0, 1, 2, 3, 4, 5, 6, 7]]⟩ := ⟨_, rfl⟩
  obtain ⟨f, hf, h1, h2, -⟩ := C118_file_partial M [1] [2] (by rw [hM]; exact Or.inr rfl) (by rw [hM]; rfl) (by rw [hM]; rfl)
  refine ⟨M, f, by rw [hM], by rw [hM]; rfl, hf, ?_⟩
  rw [h1, h2]
  refine C118_hexahedra_twisted _ ![0, 0, 0] ![1, 0, 0] ![0, 1, 0] ![0, 0, 1] ?_ ?_
  · intro α β γ hsum
    have e0 := congrFun hsum 0
    have e1 := congrFun hsum 1
    have e2 := congrFun hsum 2
    simp at e0 e1 e2
    exact ⟨e0, e1, e2⟩
  · rw [hM]
    funext k i
    fin_cases k <;> fin_cases i <;> simp [cornersAt]

end Verif.Vtu
