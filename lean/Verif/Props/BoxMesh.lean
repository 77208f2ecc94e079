import Verif.Spec.BoxMesh
import Verif.Props.Geometry
import Mathlib.Tactic.FieldSimp

/-! Theorems about the box meshes of the toy problems (C111). -/
namespace Verif.BoxMesh
open Verif Verif.Geometry Verif.Spec

theorem decode {a m i j : ℕ} (hi : i < m) (h : a = i + m * j) : a % m = i ∧ a / m = j := by
  subst h
  refine ⟨by rw [Nat.add_mul_mod_self_left, Nat.mod_eq_of_lt hi], ?_⟩
  rw [Nat.add_mul_div_left _ _ (by omega), Nat.div_eq_of_lt hi, Nat.zero_add]

theorem point_id (x y z : ℝ) (nx ny nz ix iy iz : ℕ) (hx : ix ≤ nx) (hy : iy ≤ ny) :
    point x y z nx ny nz (pointId nx ny ix iy iz) = ![ix * (x / nx), iy * (y / ny), iz * (z / nz)] := by
  obtain ⟨h1, h2⟩ := decode (a := pointId nx ny ix iy iz) (m := ny + 1) (i := iy) (by omega) rfl
  obtain ⟨h3, h4⟩ := decode (a := ix + (nx + 1) * iz) (m := nx + 1) (i := ix) (by omega) rfl
  unfold point linspace
  rw [h1, h2, h3, h4]

theorem count_pos (x h : ℝ) (hx : 0 < x) (hh : 0 < h) : ∃ n : ℕ, 0 < n ∧ count x h = .ok (n : ℤ) ∧ x / n ≤ h ∧
    (h / 2 < x / n ∨ x / n = x) := by
  have h1 : 0 < ⌈x / h⌉ := Int.ceil_pos.2 (by positivity)
  obtain ⟨n, hn⟩ := Int.eq_ofNat_of_zero_le h1.le
  have hn0 : 0 < n := by omega
  have hnR : (0 : ℝ) < n := by exact_mod_cast hn0
  have hle := Int.le_ceil (x / h)
  have hlt := Int.ceil_lt_add_one (x / h)
  rw [hn] at hle hlt
  simp only [Int.cast_natCast] at hle hlt
  refine ⟨n, hn0, ?_, ?_, ?_⟩
  · unfold count; rw [if_neg hh.ne', hn]
  · rw [div_le_iff₀ hh] at hle
    rw [div_le_iff₀ hnR]; linarith
  · by_cases h1 : n = 1
    · right; simp [h1]
    · left
      have h2 : (2 : ℝ) ≤ n := by exact_mod_cast (by omega : 2 ≤ n)
      rw [lt_div_iff₀ hnR]
      have : h * (n - 1) < x := by
        have := hlt
        rw [← sub_lt_iff_lt_add, lt_div_iff₀ hh] at this
        linarith
      nlinarith

theorem jac_cell (x y z : ℝ) (nx ny nz ix iy iz : ℕ) (hx : ix < nx) (hy : iy < ny) :
    hexJac (point x y z nx ny nz) (cell nx ny ix iy iz) = (x / nx) * (y / ny) * (z / nz) := by
  unfold hexJac cell
  simp only [Matrix.cons_val]
  rw [point_id _ _ _ _ _ _ _ _ _ (by omega) (by omega), point_id _ _ _ _ _ _ _ _ _ (by omega) (by omega),
    point_id _ _ _ _ _ _ _ _ _ (by omega) (by omega), point_id _ _ _ _ _ _ _ _ _ (by omega) (by omega)]
  simp only [triple, Pi.sub_apply, Matrix.cons_val]
  push_cast
  ring

/-- The mesh as generated is left alone by the orientation repair. -/
theorem createBoxHex_of_counts (x y z h : ℝ) (hx : 0 < x) (hy : 0 < y) (hz : 0 < z) (nx ny nz : ℕ) (hnx : 0 < nx) (hny : 0 < ny)
    (cx : count x h = .ok (nx : ℤ)) (cy : count y h = .ok (ny : ℤ)) (cz : count z h = .ok (nz : ℤ)) :
    createBoxHex x y z h = .ok (initTensor x y z nx ny nz) := by
  unfold createBoxHex
  rw [cx, cy, cz]
  simp only
  rw [if_neg (by omega)]
  simp only [Int.toNat_natCast]
  have : (initTensor x y z nx ny nz).t.map (fixHex (initTensor x y z nx ny nz).p) = (initTensor x y z nx ny nz).t := by
    unfold initTensor
    simp only [List.map_map]
    apply List.map_congr_left
    intro e he
    simp only [Function.comp, fixHex]
    rw [if_neg]
    rw [jac_cell]
    · push Not; positivity
    · exact Nat.mod_lt _ hnx
    · exact Nat.mod_lt _ hny
  rw [this]

theorem createBoxHex_eq (x y z h : ℝ) (hx : 0 < x) (hy : 0 < y) (hz : 0 < z) (hh : 0 < h) :
    ∃ nx ny nz : ℕ, (0 < nx ∧ 0 < ny ∧ 0 < nz) ∧ createBoxHex x y z h = .ok (initTensor x y z nx ny nz) ∧
      (x / nx ≤ h ∧ (h / 2 < x / nx ∨ x / nx = x)) ∧ (y / ny ≤ h ∧ (h / 2 < y / ny ∨ y / ny = y)) ∧
      (z / nz ≤ h ∧ (h / 2 < z / nz ∨ z / nz = z)) := by
  obtain ⟨nx, hnx, cx, ex⟩ := count_pos x h hx hh
  obtain ⟨ny, hny, cy, ey⟩ := count_pos y h hy hh
  obtain ⟨nz, hnz, cz, ez⟩ := count_pos z h hz hh
  exact ⟨nx, ny, nz, ⟨hnx, hny, hnz⟩, createBoxHex_of_counts x y z h hx hy hz nx ny nz hnx hny cx cy cz, ex, ey, ez⟩

section Grid
variable (x y z : ℝ) (nx ny nz : ℕ)

/-- lower corner of element `e` -/
noncomputable def lo (e : ℕ) : Vec := ![(e / ny % nx : ℕ) * (x / nx), (e % ny : ℕ) * (y / ny), (e / ny / nx : ℕ) * (z / nz)]

/-- upper corner of element `e` -/
noncomputable def hi (e : ℕ) : Vec :=
  ![((e / ny % nx : ℕ) + 1) * (x / nx), ((e % ny : ℕ) + 1) * (y / ny), ((e / ny / nx : ℕ) + 1) * (z / nz)]

end Grid

theorem find_cell (x : ℝ) (n : ℕ) (hx : 0 < x) (hn : 0 < n) (v : ℝ) (h0 : 0 ≤ v) (h1 : v ≤ x) :
    ∃ i < n, (i : ℝ) * (x / n) ≤ v ∧ v ≤ (i + 1) * (x / n) := by
  have hnR : (0 : ℝ) < n := by exact_mod_cast hn
  have hd : 0 < x / n := by positivity
  by_cases hv : v = x
  · refine ⟨n - 1, by omega, ?_, ?_⟩
    · rw [Nat.cast_sub (by omega), hv]
      have : (n : ℝ) * (x / n) = x := by field_simp
      push_cast; nlinarith
    · rw [Nat.cast_sub (by omega), hv]
      have : (n : ℝ) * (x / n) = x := by field_simp
      push_cast; linarith
  · have hlt : v < x := lt_of_le_of_ne h1 hv
    have hf0 : 0 ≤ v / (x / n) := by positivity
    refine ⟨⌊v / (x / n)⌋₊, ?_, ?_, ?_⟩
    · rw [Nat.floor_lt hf0, div_lt_iff₀ hd]
      have : (n : ℝ) * (x / n) = x := by field_simp
      linarith
    · have := Nat.floor_le hf0
      rwa [le_div_iff₀ hd] at this
    · have := (Nat.lt_floor_add_one (v / (x / n))).le
      rwa [div_le_iff₀ hd] at this

theorem cell_unique (d v : ℝ) (hd : 0 < d) (i j : ℕ) (h1 : i * d < v) (h2 : v < (i + 1) * d) (h3 : j * d < v) (h4 : v < (j + 1) * d) : i = j := by
  have a : (i : ℝ) < j + 1 := by
    by_contra hc; push Not at hc
    nlinarith
  have b : (j : ℝ) < i + 1 := by
    by_contra hc; push Not at hc
    nlinarith
  have a' : i < j + 1 := by exact_mod_cast a
  have b' : j < i + 1 := by exact_mod_cast b
  omega

/-- The corners of a cell. -/
theorem cell_points (x y z : ℝ) (nx ny nz ix iy iz : ℕ) (hix : ix < nx) (hiy : iy < ny) (a b c : ℝ) (ha : a = ix * (x / nx))
    (hb : b = iy * (y / ny)) (hc : c = iz * (z / nz)) :
    (fun k => point x y z nx ny nz (cell nx ny ix iy iz k)) =
      ![![a, b, c], ![a, b + y / ny, c], ![a + x / nx, b, c], ![a, b, c + z / nz], ![a + x / nx, b + y / ny, c],
        ![a, b + y / ny, c + z / nz], ![a + x / nx, b, c + z / nz], ![a + x / nx, b + y / ny, c + z / nz]] := by
  have ha' : ((ix : ℝ) + 1) * (x / nx) = a + x / nx := by rw [ha]; ring
  have hb' : ((iy : ℝ) + 1) * (y / ny) = b + y / ny := by rw [hb]; ring
  have hc' : ((iz : ℝ) + 1) * (z / nz) = c + z / nz := by rw [hc]; ring
  funext k
  fin_cases k <;> simp only [cell, Matrix.cons_val, Fin.zero_eta, Fin.mk_one, Fin.reduceFinMk] <;>
    rw [point_id _ _ _ _ _ _ _ _ _ (by omega) (by omega)] <;> push_cast <;> simp only [ha', hb', hc', ← ha, ← hb, ← hc]

theorem corners_cell (x y z : ℝ) (hx : 0 < x) (hy : 0 < y) (hz : 0 < z) (nx ny nz ix iy iz : ℕ) (hix : ix < nx) (hiy : iy < ny)
    (hiz : iz < nz) :
    Corners (fun c => point x y z nx ny nz (cell nx ny ix iy iz c)) ![ix * (x / nx), iy * (y / ny), iz * (z / nz)]
      ![(ix + 1) * (x / nx), (iy + 1) * (y / ny), (iz + 1) * (z / nz)] := by
  have hnx : (0 : ℝ) < nx := by exact_mod_cast (by omega : 0 < nx)
  have hny : (0 : ℝ) < ny := by exact_mod_cast (by omega : 0 < ny)
  have hnz : (0 : ℝ) < nz := by exact_mod_cast (by omega : 0 < nz)
  have hdx : 0 < x / nx := by positivity
  have hdy : 0 < y / ny := by positivity
  have hdz : 0 < z / nz := by positivity
  obtain ⟨a, ha⟩ : ∃ a, a = ix * (x / nx) := ⟨_, rfl⟩
  obtain ⟨b, hb⟩ : ∃ b, b = iy * (y / ny) := ⟨_, rfl⟩
  obtain ⟨c, hc⟩ : ∃ c, c = iz * (z / nz) := ⟨_, rfl⟩
  have ha' : ((ix : ℝ) + 1) * (x / nx) = a + x / nx := by rw [ha]; ring
  have hb' : ((iy : ℝ) + 1) * (y / ny) = b + y / ny := by rw [hb]; ring
  have hc' : ((iz : ℝ) + 1) * (z / nz) = c + z / nz := by rw [hc]; ring
  have hq := cell_points x y z nx ny nz ix iy iz hix hiy a b c ha hb hc
  rw [hq, ha', hb', hc', ← ha, ← hb, ← hc]
  generalize x / (nx : ℝ) = dx at *
  generalize y / (ny : ℝ) = dy at *
  generalize z / (nz : ℝ) = dz at *
  constructor
  · intro i
    fin_cases i <;> simp <;> assumption
  · intro k l hkl
    have e0 := congrFun hkl 0
    have e1 := congrFun hkl 1
    have e2 := congrFun hkl 2
    fin_cases k <;> fin_cases l <;> first | rfl | (exfalso; simp at e0 e1 e2; linarith)
  · ext v
    simp only [Set.mem_range, Set.mem_setOf_eq]
    constructor
    · rintro ⟨k, rfl⟩ i
      fin_cases k <;> fin_cases i <;> simp
    · intro h
      have hv : v = ![v 0, v 1, v 2] := by funext i; fin_cases i <;> rfl
      have h0 := h 0
      have h1 := h 1
      have h2 := h 2
      simp only [Matrix.cons_val] at h0 h1 h2
      rcases h0 with h0 | h0 <;> rcases h1 with h1 | h1 <;> rcases h2 with h2 | h2 <;> rw [hv, h0, h1, h2]
      · exact ⟨0, rfl⟩
      · exact ⟨3, rfl⟩
      · exact ⟨1, rfl⟩
      · exact ⟨5, rfl⟩
      · exact ⟨2, rfl⟩
      · exact ⟨6, rfl⟩
      · exact ⟨4, rfl⟩
      · exact ⟨7, rfl⟩

theorem split_index {e nx ny nz : ℕ} (h : e < nx * ny * nz) (hnx : 0 < nx) (hny : 0 < ny) :
    e / ny % nx < nx ∧ e % ny < ny ∧ e / ny / nx < nz := by
  refine ⟨Nat.mod_lt _ hnx, Nat.mod_lt _ hny, ?_⟩
  rw [Nat.div_div_eq_div_mul, Nat.div_lt_iff_lt_mul (by positivity)]
  calc e < nx * ny * nz := h
    _ = nz * (ny * nx) := by ring

theorem same_index {e e' nx ny : ℕ} (h1 : e / ny % nx = e' / ny % nx) (h2 : e % ny = e' % ny) (h3 : e / ny / nx = e' / ny / nx) : e = e' := by
  rw [← Nat.mod_add_div e ny, ← Nat.mod_add_div e' ny, h2, ← Nat.mod_add_div (e / ny) nx, ← Nat.mod_add_div (e' / ny) nx, h1, h3]

theorem length_tensor (x y z : ℝ) (nx ny nz : ℕ) : (initTensor x y z nx ny nz).t.length = nx * ny * nz := by
  simp [initTensor]

theorem get_tensor (x y z : ℝ) (nx ny nz e : ℕ) (t : Fin 8 → ℕ) (h : (initTensor x y z nx ny nz).t[e]? = some t) :
    e < nx * ny * nz ∧ t = cell nx ny (e / ny % nx) (e % ny) (e / ny / nx) := by
  have he : e < nx * ny * nz := by
    have := (List.getElem?_eq_some_iff.1 h).1
    rwa [length_tensor] at this
  refine ⟨he, ?_⟩
  unfold initTensor at h
  simp only [List.getElem?_map, List.getElem?_range he, Option.map_some, Option.some.injEq] at h
  exact h.symm

theorem pointId_lt (nx ny nz ix iy iz : ℕ) (hx : ix ≤ nx) (hy : iy ≤ ny) (hz : iz ≤ nz) :
    pointId nx ny ix iy iz < (nx + 1) * (ny + 1) * (nz + 1) := by
  unfold pointId
  have h1 : ix + (nx + 1) * iz ≤ nx + (nx + 1) * nz := Nat.add_le_add hx (Nat.mul_le_mul_left _ hz)
  have h2 := Nat.mul_le_mul_left (ny + 1) h1
  have : (nx + 1) * (ny + 1) * (nz + 1) = (ny + 1) * (nx + (nx + 1) * nz) + (ny + 1) := by ring
  omega

theorem fills_tensor (x y z h : ℝ) (hx : 0 < x) (hy : 0 < y) (hz : 0 < z) (nx ny nz : ℕ) (hnx : 0 < nx) (hny : 0 < ny) (hnz : 0 < nz)
    (ex : x / nx ≤ h ∧ (h / 2 < x / nx ∨ x / nx = x)) (ey : y / ny ≤ h ∧ (h / 2 < y / ny ∨ y / ny = y))
    (ez : z / nz ≤ h ∧ (h / 2 < z / nz ∨ z / nz = z)) :
    Fills (initTensor x y z nx ny nz) x y z h (lo x y z nx ny nz) (hi x y z nx ny nz) := by
  have hnxR : (0 : ℝ) < nx := by exact_mod_cast hnx
  have hnyR : (0 : ℝ) < ny := by exact_mod_cast hny
  have hnzR : (0 : ℝ) < nz := by exact_mod_cast hnz
  have hdx : 0 < x / nx := by positivity
  have hdy : 0 < y / ny := by positivity
  have hdz : 0 < z / nz := by positivity
  have hcx : (nx : ℝ) * (x / nx) = x := by field_simp
  have hcy : (ny : ℝ) * (y / ny) = y := by field_simp
  have hcz : (nz : ℝ) * (z / nz) = z := by field_simp
  refine ⟨?_, ?_, ?_, ?_, ?_, ?_, ?_⟩
  · intro e t ht
    obtain ⟨he, rfl⟩ := get_tensor x y z nx ny nz e t ht
    obtain ⟨h1, h2, h3⟩ := split_index he hnx hny
    exact corners_cell x y z hx hy hz nx ny nz _ _ _ h1 h2 h3
  · intro e t ht c
    obtain ⟨he, rfl⟩ := get_tensor x y z nx ny nz e t ht
    obtain ⟨h1, h2, h3⟩ := split_index he hnx hny
    show _ < (nx + 1) * (ny + 1) * (nz + 1)
    fin_cases c <;> exact pointId_lt _ _ _ _ _ _ (by omega) (by omega) (by omega)
  · intro a b ha hb hab
    have e0 := congrFun hab 0
    have e1 := congrFun hab 1
    have e2 := congrFun hab 2
    simp only [initTensor, point, linspace, Matrix.cons_val] at e0 e1 e2
    exact same_index (nx := nx + 1) (ny := ny + 1) (by exact_mod_cast mul_right_cancel₀ hdx.ne' e0)
      (by exact_mod_cast mul_right_cancel₀ hdy.ne' e1) (by exact_mod_cast mul_right_cancel₀ hdz.ne' e2)
  · intro v
    rw [length_tensor]
    constructor
    · rintro ⟨e, he, hv⟩
      obtain ⟨h1, h2, h3⟩ := split_index he hnx hny
      have v0 := hv 0
      have v1 := hv 1
      have v2 := hv 2
      simp only [lo, hi, Matrix.cons_val] at v0 v1 v2
      have up : ∀ (i n : ℕ) (d w : ℝ), 0 < d → i < n → (i : ℝ) * d ≤ w ∧ w ≤ (i + 1) * d → 0 ≤ w ∧ w ≤ n * d := by
        intro i n d w hd hi hw
        have : ((i : ℝ) + 1) ≤ n := by exact_mod_cast hi
        exact ⟨le_trans (by positivity) hw.1, hw.2.trans (mul_le_mul_of_nonneg_right this hd.le)⟩
      have u0 := up _ _ _ _ hdx h1 v0
      have u1 := up _ _ _ _ hdy h2 v1
      have u2 := up _ _ _ _ hdz h3 v2
      rw [hcx] at u0
      rw [hcy] at u1
      rw [hcz] at u2
      exact ⟨u0, u1, u2⟩
    · rintro ⟨v0, v1, v2⟩
      obtain ⟨ix, hix, a⟩ := find_cell x nx hx hnx (v 0) v0.1 v0.2
      obtain ⟨iy, hiy, b⟩ := find_cell y ny hy hny (v 1) v1.1 v1.2
      obtain ⟨iz, hiz, c⟩ := find_cell z nz hz hnz (v 2) v2.1 v2.2
      obtain ⟨k1, k2⟩ := decode (a := iy + ny * (ix + nx * iz)) hiy rfl
      obtain ⟨k3, k4⟩ := decode (a := ix + nx * iz) hix rfl
      refine ⟨iy + ny * (ix + nx * iz), ?_, ?_⟩
      · have h1 : ix + nx * iz + 1 ≤ nx * nz := by
          have := Nat.mul_le_mul_left nx (Nat.succ_le_of_lt hiz)
          rw [Nat.mul_succ] at this
          omega
        have h2 := Nat.mul_le_mul_left ny h1
        rw [Nat.mul_add, Nat.mul_one] at h2
        have : nx * ny * nz = ny * (nx * nz) := by ring
        omega
      · intro i
        simp only [lo, hi, k1, k2, k3, k4]
        fin_cases i
        · exact a
        · exact b
        · exact c
  · intro e e' he he' hne v hv
    apply hne
    have v0 := hv 0
    have v1 := hv 1
    have v2 := hv 2
    simp only [lo, hi, Matrix.cons_val] at v0 v1 v2
    exact same_index (nx := nx) (ny := ny) (cell_unique _ _ hdx _ _ v0.1.1 v0.1.2 v0.2.1 v0.2.2) (cell_unique _ _ hdy _ _ v1.1.1 v1.1.2 v1.2.1 v1.2.2)
      (cell_unique _ _ hdz _ _ v2.1.1 v2.1.2 v2.2.1 v2.2.2)
  · intro e e' _ _ i
    fin_cases i <;> simp only [lo, hi, Matrix.cons_val, Fin.zero_eta, Fin.mk_one, Fin.reduceFinMk] <;> ring
  · intro e _ i
    have step : ∀ j d : ℝ, (j + 1) * d - j * d = d := fun j d => by ring
    fin_cases i <;> simp only [lo, hi, Matrix.cons_val, Fin.zero_eta, Fin.mk_one, Fin.reduceFinMk, step]
    · exact ex
    · exact ey
    · exact ez

/-- **C111.** For every box and mesh size: `create_box_hex` succeeds and returns a conforming mesh that fills the box exactly with
congruent boxes, none of whose edges is longer than the mesh size. -/
theorem C111_box_mesh_fills_box (x y z h : ℝ) (hx : 0 < x) (hy : 0 < y) (hz : 0 < z) (hh : 0 < h) :
    ∃ M lo hi, createBoxHex x y z h = .ok M ∧ Fills M x y z h lo hi := by
  obtain ⟨nx, ny, nz, ⟨h1, h2, h3⟩, e, ex, ey, ez⟩ := createBoxHex_eq x y z h hx hy hz hh
  exact ⟨_, _, _, e, fills_tensor x y z h hx hy hz nx ny nz h1 h2 h3 ex ey ez⟩

/-- C111 (invalid sizes): an element size of zero raises ZeroDivisionError, and otherwise the only failure is the ValueError of
`np.linspace`, raised exactly when some length is at most minus twice the element size (so in particular a negative element size fails on
every box at least two elements long in some direction). -/
theorem C111_invalid_sizes (x y z h : ℝ) :
    createBoxHex x y z 0 = .error .zeroDivision ∧
    (h ≠ 0 → (createBoxHex x y z h = .error .valueError ↔ x / h ≤ -2 ∨ y / h ≤ -2 ∨ z / h ≤ -2) ∧
      ∀ e, createBoxHex x y z h = .error e → e = .valueError) := by
  refine ⟨by simp [createBoxHex, count], fun hh => ?_⟩
  have hc : ∀ t : ℝ, ⌈t⌉ + 1 < 0 ↔ t ≤ -2 := fun t => by
    have : ⌈t⌉ + 1 < 0 ↔ ⌈t⌉ ≤ -2 := by omega
    rw [this, Int.ceil_le]
    norm_num
  simp only [createBoxHex, count, if_neg hh, hc]
  split_ifs with c
  · exact ⟨⟨fun _ => c, fun _ => rfl⟩, fun e he => by injection he with he; exact he.symm⟩
  · exact ⟨⟨fun hx => by simp at hx, fun hx => absurd hx c⟩, fun e he => by simp at he⟩

/-- A negative element size. -/
example : createBoxHex 3 1 2 (-1) = .error .valueError :=
  ((C111_invalid_sizes 3 1 2 (-1)).2 (by norm_num)).1.2 (by norm_num)

/-- Lengths of mixed sign are accepted as long as they are not below minus twice the element size. -/
example : ∃ M, createBoxHex 3 1 (-1) 1 = .ok M := by
  cases h : createBoxHex 3 1 (-1) 1 with
  | ok M => exact ⟨M, rfl⟩
  | error e =>
    have he := ((C111_invalid_sizes 3 1 (-1) 1).2 (by norm_num)).2 e h
    subst he
    have := ((C111_invalid_sizes 3 1 (-1) 1).2 (by norm_num)).1.1 h
    norm_num at this

/-- Non-vacuity of `Fills`: it determines the number of elements; here 3 x 1 x 2. -/
example : ∃ M, createBoxHex 3 1 2 1 = .ok M ∧ M.t.length = 6 ∧ M.npoints = 24 := by
  have h1 : count 3 1 = .ok 3 := by norm_num [count]
  have h2 : count 1 1 = .ok 1 := by norm_num [count]
  have h3 : count 2 1 = .ok 2 := by norm_num [count]
  unfold createBoxHex
  rw [h1, h2, h3]
  exact ⟨_, rfl, by simp [initTensor], by simp [initTensor]⟩

theorem getD_tensor (x y z : ℝ) (nx ny nz e : ℕ) (he : e < nx * ny * nz) :
    (initTensor x y z nx ny nz).t.getD e (fun _ => 0) = cell nx ny (e / ny % nx) (e % ny) (e / ny / nx) := by
  have h : ((initTensor x y z nx ny nz).t)[e]? = some (cell nx ny (e / ny % nx) (e % ny) (e / ny / nx)) := by
    unfold initTensor
    simp [List.getElem?_range he]
  rw [List.getD_eq_getElem?_getD, h]
  rfl

/-- **C111 (elements).** On a box mesh: selecting the elements whose midpoint lies in the box gives every element, in order; the volumes the
code computes are the same for all elements and add up to five sixths of the volume of the box (C44), so that volume fractions are exact. -/
theorem C111_all_elements_equal (x y z h : ℝ) (hx : 0 < x) (hy : 0 < y) (hz : 0 < z) (hh : 0 < h) :
    ∃ M, createBoxHex x y z h = .ok M ∧ elementsSatisfying M (inRange (0, x) (0, y) (0, z)) = List.range M.t.length ∧
      (∀ t ∈ M.t, volumeHex (fun c => M.p (t c)) = 5 / 6 * (x * y * z) / M.t.length) ∧
      (M.t.map fun t => volumeHex fun c => M.p (t c)).sum = 5 / 6 * (x * y * z) := by
  obtain ⟨nx, ny, nz, ⟨h1, h2, h3⟩, e, ex, ey, ez⟩ := createBoxHex_eq x y z h hx hy hz hh
  have hnxR : (0 : ℝ) < nx := by exact_mod_cast h1
  have hnyR : (0 : ℝ) < ny := by exact_mod_cast h2
  have hnzR : (0 : ℝ) < nz := by exact_mod_cast h3
  have hv : ∀ t ∈ (initTensor x y z nx ny nz).t, volumeHex (fun c => (initTensor x y z nx ny nz).p (t c)) =
      5 / 6 * (x * y * z) / (initTensor x y z nx ny nz).t.length := by
    intro t ht
    obtain ⟨k, hk⟩ := List.mem_iff_getElem?.1 ht
    obtain ⟨hk', rfl⟩ := get_tensor x y z nx ny nz k t hk
    obtain ⟨i1, i2, i3⟩ := split_index hk' h1 h2
    show volumeHex (fun c => point x y z nx ny nz (cell nx ny _ _ _ c)) = _
    rw [cell_points x y z nx ny nz _ _ (k / ny / nx) i1 i2 _ _ _ rfl rfl rfl, length_tensor]
    generalize ((k / ny % nx : ℕ) : ℝ) * (x / nx) = a
    generalize ((k % ny : ℕ) : ℝ) * (y / ny) = b
    generalize ((k / ny / nx : ℕ) : ℝ) * (z / nz) = c
    have := volumeHex_skfem ![a + x / nx, b + y / ny, c + z / nz] ![0, 0, -(z / nz)] ![-(x / nx), 0, 0] ![0, -(y / ny), 0]
    have e2 : skfemCorners ![a + x / nx, b + y / ny, c + z / nz] ![0, 0, -(z / nz)] ![-(x / nx), 0, 0] ![0, -(y / ny), 0] =
        ![![a, b, c], ![a, b + y / ny, c], ![a + x / nx, b, c], ![a, b, c + z / nz], ![a + x / nx, b + y / ny, c],
          ![a, b + y / ny, c + z / nz], ![a + x / nx, b, c + z / nz], ![a + x / nx, b + y / ny, c + z / nz]] := by
      funext k i
      fin_cases k <;> fin_cases i <;> simp [skfemCorners]
    rw [e2] at this
    rw [this]
    have ht : triple ![0, 0, -(z / (nz : ℝ))] ![-(x / nx), 0, 0] ![0, -(y / ny), 0] = -((x / nx) * (y / ny) * (z / nz)) := by
      simp [triple]; ring
    rw [ht, abs_neg, abs_of_pos (by positivity)]
    push_cast
    field_simp
  refine ⟨_, e, ?_, hv, ?_⟩
  · unfold elementsSatisfying
    rw [List.filter_eq_self]
    intro k hk
    rw [List.mem_range, length_tensor] at hk
    obtain ⟨i1, i2, i3⟩ := split_index hk h1 h2
    rw [getD_tensor x y z nx ny nz k hk]
    simp only [decide_eq_true_eq]
    have hm : (1 / 8 : ℝ) • ∑ c, (initTensor x y z nx ny nz).p (cell nx ny (k / ny % nx) (k % ny) (k / ny / nx) c) =
        ![(k / ny % nx : ℕ) * (x / nx) + x / nx / 2, (k % ny : ℕ) * (y / ny) + y / ny / 2, (k / ny / nx : ℕ) * (z / nz) + z / nz / 2] := by
      have hq := cell_points x y z nx ny nz _ _ (k / ny / nx) i1 i2 _ _ _ rfl rfl rfl
      have hq' : ∀ c, (initTensor x y z nx ny nz).p (cell nx ny (k / ny % nx) (k % ny) (k / ny / nx) c) = _ := fun c => congrFun hq c
      simp only [hq', Fin.sum_univ_eight, Matrix.cons_val]
      funext i
      fin_cases i <;> simp <;> ring
    rw [hm]
    refine (fun hs => ⟨hs.1.1, hs.1.2, hs.2.1.1, hs.2.1.2, hs.2.2.1, hs.2.2.2⟩)
      (((fills_tensor x y z h hx hy hz nx ny nz h1 h2 h3 ex ey ez).cover
        ![(k / ny % nx : ℕ) * (x / nx) + x / nx / 2, (k % ny : ℕ) * (y / ny) + y / ny / 2, (k / ny / nx : ℕ) * (z / nz) + z / nz / 2]).1
          ⟨k, by rwa [length_tensor], fun i => ?_⟩)
    · have a1 : 0 < x / nx := by positivity
      have a2 : 0 < y / ny := by positivity
      have a3 : 0 < z / nz := by positivity
      fin_cases i <;> simp only [lo, hi, Matrix.cons_val, Fin.zero_eta, Fin.mk_one, Fin.reduceFinMk] <;> constructor <;> linarith
  · rw [List.map_congr_left hv, List.map_const', List.sum_replicate, nsmul_eq_mul]
    rw [length_tensor]
    push_cast
    field_simp

/-! ### The toy cantilever -/

theorem mem_facets (M : HexMesh) (test : Vec → Prop) (F : ℕ × (Fin 4 → ℕ)) :
    F ∈ facetsSatisfying M test ↔ (∃ e < M.t.length, ∃ f ∈ hexFaces, F = (e, fun c => M.t.getD e (fun _ => 0) (f c))) ∧
      test ((1 / 4 : ℝ) • ∑ c : Fin 4, M.p (F.2 c)) := by
  unfold facetsSatisfying
  simp only [List.mem_filter, List.mem_flatMap, List.mem_map, List.mem_range, decide_eq_true_eq]
  constructor
  · rintro ⟨⟨e, he, f, hf, rfl⟩, h⟩
    exact ⟨⟨e, he, f, hf, rfl⟩, h⟩
  · rintro ⟨⟨e, he, f, hf, rfl⟩, h⟩
    exact ⟨⟨e, he, f, hf, rfl⟩, h⟩

/-- The faces of a cell, with their midpoints. -/
theorem face_points (x y z : ℝ) (nx ny nz e : ℕ) (he : e < nx * ny * nz) (h1 : 0 < nx) (h2 : 0 < ny) (f : Fin 4 → Fin 8) (c : Fin 4) :
    (initTensor x y z nx ny nz).p ((initTensor x y z nx ny nz).t.getD e (fun _ => 0) (f c)) =
      (![![(e / ny % nx : ℕ) * (x / nx), (e % ny : ℕ) * (y / ny), (e / ny / nx : ℕ) * (z / nz)],
        ![(e / ny % nx : ℕ) * (x / nx), (e % ny : ℕ) * (y / ny) + y / ny, (e / ny / nx : ℕ) * (z / nz)],
        ![(e / ny % nx : ℕ) * (x / nx) + x / nx, (e % ny : ℕ) * (y / ny), (e / ny / nx : ℕ) * (z / nz)],
        ![(e / ny % nx : ℕ) * (x / nx), (e % ny : ℕ) * (y / ny), (e / ny / nx : ℕ) * (z / nz) + z / nz],
        ![(e / ny % nx : ℕ) * (x / nx) + x / nx, (e % ny : ℕ) * (y / ny) + y / ny, (e / ny / nx : ℕ) * (z / nz)],
        ![(e / ny % nx : ℕ) * (x / nx), (e % ny : ℕ) * (y / ny) + y / ny, (e / ny / nx : ℕ) * (z / nz) + z / nz],
        ![(e / ny % nx : ℕ) * (x / nx) + x / nx, (e % ny : ℕ) * (y / ny), (e / ny / nx : ℕ) * (z / nz) + z / nz],
        ![(e / ny % nx : ℕ) * (x / nx) + x / nx, (e % ny : ℕ) * (y / ny) + y / ny, (e / ny / nx : ℕ) * (z / nz) + z / nz]] : Fin 8 → Vec) (f c) := by
  obtain ⟨i1, i2, i3⟩ := split_index he h1 h2
  rw [getD_tensor x y z nx ny nz e he]
  exact congrFun (cell_points x y z nx ny nz _ _ (e / ny / nx) i1 i2 _ _ _ rfl rfl rfl) (f c)

theorem step_bounds (n : ℕ) (len : ℝ) (hn : 0 < n) (hl : 0 < len) (i : ℕ) (hi : i < n) :
    0 ≤ (i : ℝ) * (len / n) ∧ (i : ℝ) * (len / n) + len / n ≤ len := by
  have hnR : (0 : ℝ) < n := by exact_mod_cast hn
  have hd : 0 < len / n := by positivity
  have h1 : (i : ℝ) + 1 ≤ n := by exact_mod_cast hi
  have h2 : (n : ℝ) * (len / n) = len := by field_simp
  refine ⟨by positivity, ?_⟩
  nlinarith

theorem toy_eq (h : ℝ) (M : HexMesh) (e : createBoxHex 8 6 4 h = .ok M) : toyBase h = .ok {
    mesh := M
    support := facetsSatisfying M (inRange (0, 3 / 100) (0, 6) (0, 4))
    loaded := facetsSatisfying M (inRange (8 - 12 / 10, 8 + 1 / 10) (6 * 2 / 5, 6 * 3 / 5) (4 - 12 / 10, 4))
    design := elementsSatisfying M (inRange (0, 8) (0, 6) (0, 4)) } := by
  simp only [toyBase, e]

/-- Which corners of a cell lie on the upper side in each direction. -/
def upper : Fin 8 → Fin 3 → Bool :=
  ![![false, false, false], ![false, true, false], ![true, false, false], ![false, false, true], ![true, true, false],
    ![false, true, true], ![true, false, true], ![true, true, true]]

theorem faces_upper (f : Fin 4 → Fin 8) (hf : f ∈ hexFaces) :
    Function.Injective f ∧ ∃ (a : Fin 3) (b : Bool), ∀ c, upper (f c) a = b := by
  simp only [hexFaces, List.mem_cons, List.not_mem_nil, or_false] at hf
  rcases hf with rfl | rfl | rfl | rfl | rfl | rfl <;> decide

theorem upper_faces (a : Fin 3) (b : Bool) : ∃ f ∈ hexFaces, Function.Injective f ∧ ∀ i, upper i a = b ↔ ∃ c, f c = i := by
  fin_cases a <;> cases b
  · exact ⟨![0, 3, 5, 1], by simp [hexFaces], by decide, by decide⟩
  · exact ⟨![2, 4, 7, 6], by simp [hexFaces], by decide, by decide⟩
  · exact ⟨![0, 2, 6, 3], by simp [hexFaces], by decide, by decide⟩
  · exact ⟨![1, 5, 7, 4], by simp [hexFaces], by decide, by decide⟩
  · exact ⟨![0, 1, 4, 2], by simp [hexFaces], by decide, by decide⟩
  · exact ⟨![3, 6, 7, 5], by simp [hexFaces], by decide, by decide⟩

theorem corner_upper (x y z : ℝ) (nx ny nz e : ℕ) (he : e < nx * ny * nz) (h1 : 0 < nx) (h2 : 0 < ny) (i : Fin 8) (a : Fin 3) :
    (initTensor x y z nx ny nz).p ((initTensor x y z nx ny nz).t.getD e (fun _ => 0) i) a =
      (![(e / ny % nx : ℕ) * (x / nx), (e % ny : ℕ) * (y / ny), (e / ny / nx : ℕ) * (z / nz)] : Vec) a +
        if upper i a then (![x / nx, y / ny, z / nz] : Vec) a else 0 := by
  have := congrFun (face_points x y z nx ny nz e he h1 h2 (fun _ => i) 0) a
  rw [this]
  fin_cases i <;> fin_cases a <;> simp [upper]

theorem cell_injective (x y z : ℝ) (hx : 0 < x) (hy : 0 < y) (hz : 0 < z) (nx ny nz e : ℕ) (he : e < nx * ny * nz) (h1 : 0 < nx) (h2 : 0 < ny)
    (h3 : 0 < nz) : Function.Injective ((initTensor x y z nx ny nz).t.getD e (fun _ => 0)) := by
  intro i j hij
  have hnxR : (0 : ℝ) < nx := by exact_mod_cast h1
  have hnyR : (0 : ℝ) < ny := by exact_mod_cast h2
  have hnzR : (0 : ℝ) < nz := by exact_mod_cast h3
  have a1 : 0 < x / nx := by positivity
  have a2 : 0 < y / ny := by positivity
  have a3 : 0 < z / nz := by positivity
  have key : ∀ a, upper i a = upper j a := by
    intro a
    have e1 := corner_upper x y z nx ny nz e he h1 h2 i a
    have e2 := corner_upper x y z nx ny nz e he h1 h2 j a
    rw [hij, e2] at e1
    have hp : 0 < (![x / nx, y / ny, z / nz] : Vec) a := by fin_cases a <;> simpa
    cases hi : upper i a <;> cases hj : upper j a <;> simp only [hi, hj] at e1 ⊢ <;> simp at e1 <;> linarith
  revert key
  revert i j
  have : ∀ i j : Fin 8, (∀ a, upper i a = upper j a) → i = j := by decide
  intro i j _ h
  exact this i j h

theorem side_face (x y z : ℝ) (hx : 0 < x) (hy : 0 < y) (hz : 0 < z) (nx ny nz : ℕ) (h1 : 0 < nx) (h2 : 0 < ny) (h3 : 0 < nz)
    (F : ℕ × (Fin 4 → ℕ)) (hF : Spec.IsSide (initTensor x y z nx ny nz) F) :
    F.1 < nx * ny * nz ∧ ∃ f ∈ hexFaces, Set.range (fun c => (initTensor x y z nx ny nz).t.getD F.1 (fun _ => 0) (f c)) = Set.range F.2 ∧
      ∑ c, (initTensor x y z nx ny nz).p ((initTensor x y z nx ny nz).t.getD F.1 (fun _ => 0) (f c)) = ∑ c, (initTensor x y z nx ny nz).p (F.2 c) := by
  obtain ⟨t, ht, hmem, hinj, a, v, hv⟩ := hF
  have hlt : F.1 < nx * ny * nz := by
    rw [← length_tensor x y z]
    exact (List.getElem?_eq_some_iff.1 ht).1
  have htd : (initTensor x y z nx ny nz).t.getD F.1 (fun _ => 0) = t := by rw [List.getD, ht]; rfl
  have hnxR : (0 : ℝ) < nx := by exact_mod_cast h1
  have hnyR : (0 : ℝ) < ny := by exact_mod_cast h2
  have hnzR : (0 : ℝ) < nz := by exact_mod_cast h3
  have a1 : 0 < x / nx := by positivity
  have a2 : 0 < y / ny := by positivity
  have a3 : 0 < z / nz := by positivity
  choose g hg using hmem
  have hgi : Function.Injective g := by
    intro c d h
    apply hinj
    rw [← hg c, ← hg d, h]
  have hpa : 0 < (![x / nx, y / ny, z / nz] : Vec) a := by fin_cases a <;> simpa
  have hu : ∀ c d, upper (g c) a = upper (g d) a := by
    intro c d
    have e1 := corner_upper x y z nx ny nz F.1 hlt h1 h2 (g c) a
    have e2 := corner_upper x y z nx ny nz F.1 hlt h1 h2 (g d) a
    rw [htd, hg, hv] at e1 e2
    rw [e2] at e1
    cases hi : upper (g c) a <;> cases hj : upper (g d) a <;> simp only [hi, hj] at e1 ⊢ <;> simp at e1 <;> linarith
  obtain ⟨f, hf, hfi, hfa⟩ := upper_faces a (upper (g 0) a)
  choose k hk using fun c => (hfa (g c)).1 (hu c 0)
  have hki : Function.Injective k := by
    intro c d h
    apply hgi
    rw [← hk c, ← hk d, h]
  have hkb : Function.Bijective k := Finite.injective_iff_bijective.1 hki
  have hcomp : F.2 = (fun c => (initTensor x y z nx ny nz).t.getD F.1 (fun _ => 0) (f c)) ∘ k := by
    funext c
    simp only [Function.comp, hk, htd, hg]
  refine ⟨hlt, f, hf, ?_, ?_⟩
  · rw [hcomp, hkb.2.range_comp]
  · rw [hcomp]
    exact (Function.Bijective.sum_comp hkb fun c => (initTensor x y z nx ny nz).p ((initTensor x y z nx ny nz).t.getD F.1 (fun _ => 0) (f c))).symm

theorem face_side (x y z : ℝ) (hx : 0 < x) (hy : 0 < y) (hz : 0 < z) (nx ny nz : ℕ) (h1 : 0 < nx) (h2 : 0 < ny) (h3 : 0 < nz)
    (e : ℕ) (he : e < nx * ny * nz) (f : Fin 4 → Fin 8) (hf : f ∈ hexFaces) :
    Spec.IsSide (initTensor x y z nx ny nz) (e, fun c => (initTensor x y z nx ny nz).t.getD e (fun _ => 0) (f c)) := by
  obtain ⟨hfi, a, b, hb⟩ := faces_upper f hf
  have hl : e < (initTensor x y z nx ny nz).t.length := by rwa [length_tensor]
  refine ⟨(initTensor x y z nx ny nz).t.getD e (fun _ => 0), ?_, fun c => ⟨f c, rfl⟩, ?_, a, ?_⟩
  · simp [List.getD, List.getElem?_eq_getElem hl]
  · exact (cell_injective x y z hx hy hz nx ny nz e he h1 h2 h3).comp hfi
  · have key := fun c => corner_upper x y z nx ny nz e he h1 h2 (f c) a
    simp only [hb] at key
    exact ⟨_, key⟩

/-- **C112 (facet selection).** On every box mesh, `facets_satisfying` returns sides of elements whose middle passes the test, and every
side whose middle passes is returned. -/
theorem C112_faces_are_sides (x y z h : ℝ) (hx : 0 < x) (hy : 0 < y) (hz : 0 < z) (hh : 0 < h) :
    ∃ M, createBoxHex x y z h = .ok M ∧ ∀ test : Vec → Prop,
      (∀ F ∈ facetsSatisfying M test, Spec.IsSide M F ∧ test (Spec.middleOf M F)) ∧
      ∀ F, Spec.IsSide M F → test (Spec.middleOf M F) → ∃ F' ∈ facetsSatisfying M test, Spec.SameSide F' F := by
  obtain ⟨nx, ny, nz, ⟨h1, h2, h3⟩, e, -⟩ := createBoxHex_eq x y z h hx hy hz hh
  refine ⟨_, e, fun test => ⟨?_, ?_⟩⟩
  · intro F hF
    rw [mem_facets] at hF
    obtain ⟨⟨k, hk, f, hf, rfl⟩, ht⟩ := hF
    rw [length_tensor] at hk
    exact ⟨face_side x y z hx hy hz nx ny nz h1 h2 h3 k hk f hf, ht⟩
  · intro F hF ht
    obtain ⟨hlt, f, hf, hr, hs⟩ := side_face x y z hx hy hz nx ny nz h1 h2 h3 F hF
    refine ⟨(F.1, fun c => (initTensor x y z nx ny nz).t.getD F.1 (fun _ => 0) (f c)), ?_, rfl, hr⟩
    rw [mem_facets]
    refine ⟨⟨F.1, by rwa [length_tensor], f, hf, rfl⟩, ?_⟩
    rw [Spec.middleOf, ← hs] at ht
    exact ht

theorem supports_faces (h : ℝ) (hh : 0 < h) :
    ∃ T, toyBase h = .ok T ∧ T.design = List.range T.mesh.t.length ∧
      (∀ e < T.mesh.t.length, ∀ f ∈ hexFaces, (∀ c, T.mesh.p (T.mesh.t.getD e (fun _ => 0) (f c)) 0 = 0) →
        (e, fun c => T.mesh.t.getD e (fun _ => 0) (f c)) ∈ T.support) ∧
      (12 / 100 < h → ∀ F ∈ T.support, ∀ c, T.mesh.p (F.2 c) 0 = 0) := by
  obtain ⟨nx, ny, nz, ⟨h1, h2, h3⟩, e, ex, ey, ez⟩ := createBoxHex_eq 8 6 4 h (by norm_num) (by norm_num) (by norm_num) hh
  obtain ⟨M, hM, hd, -⟩ := C111_all_elements_equal 8 6 4 h (by norm_num) (by norm_num) (by norm_num) hh
  rw [e] at hM
  injection hM with hM
  subst hM
  have hnxR : (0 : ℝ) < nx := by exact_mod_cast h1
  have hnyR : (0 : ℝ) < ny := by exact_mod_cast h2
  have hnzR : (0 : ℝ) < nz := by exact_mod_cast h3
  have a1 : 0 < (8 : ℝ) / nx := by positivity
  have a2 : 0 < (6 : ℝ) / ny := by positivity
  have a3 : 0 < (4 : ℝ) / nz := by positivity
  refine ⟨_, toy_eq h _ e, hd, ?_, ?_⟩
  · intro k hk f hf hx
    rw [mem_facets]
    refine ⟨⟨k, hk, f, hf, rfl⟩, ?_⟩
    rw [length_tensor] at hk
    obtain ⟨i1, i2, i3⟩ := split_index hk h1 h2
    have b1 := step_bounds nx 8 h1 (by norm_num) _ i1
    have b2 := step_bounds ny 6 h2 (by norm_num) _ i2
    have b3 := step_bounds nz 4 h3 (by norm_num) _ i3
    simp only [face_points _ _ _ nx ny nz k hk h1 h2] at hx ⊢
    generalize ((k / ny % nx : ℕ) : ℝ) * (8 / nx) = a at *
    generalize ((k % ny : ℕ) : ℝ) * (6 / ny) = b at *
    generalize ((k / ny / nx : ℕ) : ℝ) * (4 / nz) = c at *
    have g0 := hx 0
    have g1 := hx 1
    have g2 := hx 2
    have g3 := hx 3
    simp only [hexFaces, List.mem_cons, List.not_mem_nil, or_false] at hf
    rcases hf with rfl | rfl | rfl | rfl | rfl | rfl <;> simp at g0 g1 g2 g3 <;>
      simp [inRange, Fin.sum_univ_four] <;> refine ⟨?_, ?_, ?_, ?_, ?_, ?_⟩ <;> linarith
  · intro hlarge F hF
    rw [mem_facets] at hF
    obtain ⟨⟨k, hk, f, hf, rfl⟩, ht⟩ := hF
    rw [length_tensor] at hk
    obtain ⟨i1, i2, i3⟩ := split_index hk h1 h2
    have hdx : 6 / 100 < (8 : ℝ) / nx := by
      rcases ex.2 with h' | h'
      · linarith
      · rw [h']; norm_num
    have b1 := step_bounds nx 8 h1 (by norm_num) _ i1
    have hz : ((k / ny % nx : ℕ) : ℝ) * (8 / nx) ≤ 3 / 100 → ((k / ny % nx : ℕ) : ℝ) * (8 / nx) = 0 := by
      intro hle
      rcases Nat.eq_zero_or_pos (k / ny % nx) with h0 | h0
      · rw [h0]; simp
      · have : (1 : ℝ) ≤ (k / ny % nx : ℕ) := by exact_mod_cast h0
        nlinarith
    intro j
    simp only [face_points _ _ _ nx ny nz k hk h1 h2] at ht ⊢
    generalize ((k / ny % nx : ℕ) : ℝ) * (8 / nx) = a at *
    generalize ((k % ny : ℕ) : ℝ) * (6 / ny) = b at *
    generalize ((k / ny / nx : ℕ) : ℝ) * (4 / nz) = c at *
    have hx := ht.2.1
    simp only [hexFaces, List.mem_cons, List.not_mem_nil, or_false] at hf
    rcases hf with rfl | rfl | rfl | rfl | rfl | rfl <;> simp [Fin.sum_univ_four] at hx
    · exfalso; linarith
    · exfalso; linarith
    · have := hz (by linarith)
      fin_cases j <;> simp [this]
    · exfalso; linarith
    · exfalso; linarith
    · exfalso; linarith

/-- **C112 (supports, design set).** For every mesh size the toy cantilever is built, its design set is the whole mesh and every side of an
element in the plane `x = 0` is a support; for mesh sizes above 0.12 these are the only supports. -/
theorem C112_supports (h : ℝ) (hh : 0 < h) :
    ∃ T, toyBase h = .ok T ∧ T.design = List.range T.mesh.t.length ∧
      (∀ F, Spec.IsSide T.mesh F → (∀ c, T.mesh.p (F.2 c) 0 = 0) → ∃ F' ∈ T.support, Spec.SameSide F' F) ∧
      (12 / 100 < h → ∀ F ∈ T.support, Spec.IsSide T.mesh F ∧ ∀ c, T.mesh.p (F.2 c) 0 = 0) := by
  obtain ⟨T, hT, hd, hs, ho⟩ := supports_faces h hh
  obtain ⟨nx, ny, nz, ⟨h1, h2, h3⟩, e, -⟩ := createBoxHex_eq 8 6 4 h (by norm_num) (by norm_num) (by norm_num) hh
  rw [toy_eq h _ e] at hT
  injection hT with hT
  subst hT
  refine ⟨_, toy_eq h _ e, hd, ?_, ?_⟩
  · intro F hF h0
    obtain ⟨hlt, f, hf, hr, -⟩ := side_face 8 6 4 (by norm_num) (by norm_num) (by norm_num) nx ny nz h1 h2 h3 F hF
    refine ⟨_, hs F.1 (by rwa [length_tensor]) f hf ?_, rfl, hr⟩
    intro c
    obtain ⟨d, hd⟩ : (initTensor 8 6 4 nx ny nz).t.getD F.1 (fun _ => 0) (f c) ∈ Set.range F.2 := hr ▸ ⟨c, rfl⟩
    rw [← hd]
    exact h0 d
  · intro hl F hF
    refine ⟨?_, ho hl F hF⟩
    rw [mem_facets] at hF
    obtain ⟨⟨k, hk, f, hf, rfl⟩, -⟩ := hF
    rw [length_tensor] at hk
    exact face_side 8 6 4 (by norm_num) (by norm_num) (by norm_num) nx ny nz h1 h2 h3 k hk f hf

theorem encode {nx ny nz ix iy iz : ℕ} (hix : ix < nx) (hiy : iy < ny) (hiz : iz < nz) :
    ∃ e < nx * ny * nz, e / ny % nx = ix ∧ e % ny = iy ∧ e / ny / nx = iz := by
  obtain ⟨k1, k2⟩ := decode (a := iy + ny * (ix + nx * iz)) hiy rfl
  obtain ⟨k3, k4⟩ := decode (a := ix + nx * iz) hix rfl
  refine ⟨iy + ny * (ix + nx * iz), ?_, by rw [k2, k3], k1, by rw [k2, k4]⟩
  have h1 : ix + nx * iz + 1 ≤ nx * nz := by
    have := Nat.mul_le_mul_left nx (Nat.succ_le_of_lt hiz)
    rw [Nat.mul_succ] at this
    omega
  have h2 := Nat.mul_le_mul_left ny h1
  rw [Nat.mul_add, Nat.mul_one] at h2
  have : nx * ny * nz = ny * (nx * nz) := by ring
  omega

/-- Some cell has its middle in an interval at least as long as a cell. -/
theorem middle_in (len : ℝ) (n : ℕ) (hn : 0 < n) (hl : 0 < len) (a b : ℝ) (h0 : 0 ≤ a) (hb : b ≤ len) (hlen : len / n ≤ b - a) :
    ∃ i < n, a ≤ (i : ℝ) * (len / n) + len / n / 2 ∧ (i : ℝ) * (len / n) + len / n / 2 ≤ b := by
  have hnR : (0 : ℝ) < n := by exact_mod_cast hn
  have hd : 0 < len / n := by positivity
  have hc : (n : ℝ) * (len / n) = len := by field_simp
  have hmid : 0 ≤ (a + b) / 2 := by linarith
  obtain ⟨i, hi, h1, h2⟩ := find_cell len n hl hn ((a + b) / 2) hmid (by linarith)
  exact ⟨i, hi, by linarith, by linarith⟩

/-- **C112 (partial: the load).** For mesh sizes up to 1.2 the end face `x = 8` carries load, and every loaded face has its midpoint in the
patch `x ≥ 6.8`, `2.4 ≤ y ≤ 3.6`, `z ≥ 2.8`. Missing: that only faces on the surface carry load, and that some do for every mesh size; both
are false, see `C112_interior_faces_loaded` and `C112_coarse_mesh_unloaded`. -/
theorem C112_end_face_loaded_partial (h : ℝ) (hh : 0 < h) (h12 : h ≤ 12 / 10) :
    ∃ T, toyBase h = .ok T ∧ (∃ F ∈ T.loaded, ∀ c, T.mesh.p (F.2 c) 0 = 8) ∧
      ∀ F ∈ T.loaded, inRange (68 / 10, 81 / 10) (24 / 10, 36 / 10) (28 / 10, 4) ((1 / 4 : ℝ) • ∑ c, T.mesh.p (F.2 c)) := by
  obtain ⟨nx, ny, nz, ⟨h1, h2, h3⟩, e, ex, ey, ez⟩ := createBoxHex_eq 8 6 4 h (by norm_num) (by norm_num) (by norm_num) hh
  have hnxR : (0 : ℝ) < nx := by exact_mod_cast h1
  obtain ⟨iy, hiy, y1, y2⟩ := middle_in 6 ny h2 (by norm_num) (24 / 10) (36 / 10) (by norm_num) (by norm_num) (by linarith [ey.1])
  obtain ⟨iz, hiz, z1, z2⟩ := middle_in 4 nz h3 (by norm_num) (28 / 10) 4 (by norm_num) (by norm_num) (by linarith [ez.1])
  obtain ⟨k, hk, e1, e2, e3⟩ := encode (nx := nx) (ix := nx - 1) (by omega) hiy hiz
  have hx : ((nx - 1 : ℕ) : ℝ) * (8 / nx) + 8 / nx = 8 := by
    rw [Nat.cast_sub (by omega)]; push_cast; field_simp; ring
  refine ⟨_, toy_eq h _ e, ⟨(k, fun c => (initTensor 8 6 4 nx ny nz).t.getD k (fun _ => 0) ((![2, 4, 7, 6] : Fin 4 → Fin 8) c)), ?_, ?_⟩, ?_⟩
  · rw [mem_facets]
    refine ⟨⟨k, by rwa [length_tensor], _, by simp [hexFaces], rfl⟩, ?_⟩
    simp only [face_points _ _ _ nx ny nz k hk h1 h2, e1, e2, e3, hx]
    simp [inRange, Fin.sum_univ_four]
    refine ⟨?_, ?_, ?_, ?_, ?_, ?_⟩ <;> linarith
  · intro c
    simp only [face_points _ _ _ nx ny nz k hk h1 h2, e1, e2, e3, hx]
    fin_cases c <;> rfl
  · intro F hF
    rw [mem_facets] at hF
    have := hF.2
    norm_num [inRange] at this ⊢
    exact this

/-- **C112 (refuted: loads on the surface).** For every mesh size up to 1.2 the load of the toy cantilever acts on faces inside the body
as well: on the plane one element before the end face. -/
theorem C112_interior_faces_loaded (h : ℝ) (hh : 0 < h) (h12 : h ≤ 12 / 10) :
    ∃ T, toyBase h = .ok T ∧ ∃ F ∈ T.loaded, ∃ x, (0 < x ∧ x < 8) ∧ ∀ c, T.mesh.p (F.2 c) 0 = x := by
  obtain ⟨nx, ny, nz, ⟨h1, h2, h3⟩, e, ex, ey, ez⟩ := createBoxHex_eq 8 6 4 h (by norm_num) (by norm_num) (by norm_num) hh
  have hnxR : (0 : ℝ) < nx := by exact_mod_cast h1
  have hdx : 0 < (8 : ℝ) / nx := by positivity
  obtain ⟨iy, hiy, y1, y2⟩ := middle_in 6 ny h2 (by norm_num) (24 / 10) (36 / 10) (by norm_num) (by norm_num) (by linarith [ey.1])
  obtain ⟨iz, hiz, z1, z2⟩ := middle_in 4 nz h3 (by norm_num) (28 / 10) 4 (by norm_num) (by norm_num) (by linarith [ez.1])
  obtain ⟨k, hk, e1, e2, e3⟩ := encode (nx := nx) (ix := nx - 1) (by omega) hiy hiz
  have hx : ((nx - 1 : ℕ) : ℝ) * (8 / nx) = 8 - 8 / nx := by
    rw [Nat.cast_sub (by omega)]; push_cast; field_simp
  refine ⟨_, toy_eq h _ e, (k, fun c => (initTensor 8 6 4 nx ny nz).t.getD k (fun _ => 0) ((![0, 3, 5, 1] : Fin 4 → Fin 8) c)), ?_,
    8 - 8 / nx, ⟨by linarith [ex.1], by linarith⟩, ?_⟩
  · rw [mem_facets]
    refine ⟨⟨k, by rwa [length_tensor], _, by simp [hexFaces], rfl⟩, ?_⟩
    simp only [face_points _ _ _ nx ny nz k hk h1 h2, e1, e2, e3, hx]
    have := ex.1
    simp [inRange, Fin.sum_univ_four]
    refine ⟨?_, ?_, ?_, ?_, ?_, ?_⟩ <;> linarith
  · intro c
    simp only [face_points _ _ _ nx ny nz k hk h1 h2, e1, e2, e3, hx]
    fin_cases c <;> rfl

/-- **C112 (refuted: every mesh size).** For mesh sizes from 8 on no face is selected, so that the area the load is divided by is zero. -/
theorem C112_coarse_mesh_unloaded (h : ℝ) (hh : 8 ≤ h) : ∃ T, toyBase h = .ok T ∧ T.loaded = [] := by
  have hc : ∀ len : ℝ, 0 < len → len ≤ 8 → count len h = .ok 1 := by
    intro len h0 h8
    have hp : 0 < h := by linarith
    unfold count
    rw [if_neg hp.ne']
    congr 1
    rw [Int.ceil_eq_iff]
    have : 0 < len / h := by positivity
    have : len / h ≤ 1 := by rw [div_le_one hp]; linarith
    constructor <;> push_cast <;> linarith
  have e := createBoxHex_of_counts 8 6 4 h (by norm_num) (by norm_num) (by norm_num) 1 1 1 (by norm_num) (by norm_num)
    (hc 8 (by norm_num) (by norm_num)) (hc 6 (by norm_num) (by norm_num)) (hc 4 (by norm_num) (by norm_num))
  refine ⟨_, toy_eq h _ e, ?_⟩
  rw [List.eq_nil_iff_forall_not_mem]
  intro F hF
  rw [mem_facets] at hF
  obtain ⟨⟨k, hk, f, hf, rfl⟩, ht⟩ := hF
  rw [length_tensor] at hk
  have hk0 : k = 0 := by omega
  subst hk0
  simp only [face_points 8 6 4 1 1 1 0 (by norm_num) (by norm_num) (by norm_num)] at ht
  simp only [hexFaces, List.mem_cons, List.not_mem_nil, or_false] at hf
  have x1 := ht.1
  have z1 := ht.2.2.2.2.1
  rcases hf with rfl | rfl | rfl | rfl | rfl | rfl <;> simp [Fin.sum_univ_four] at x1 z1 <;> linarith

end Verif.BoxMesh
