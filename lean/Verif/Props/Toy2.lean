import Verif.Model.Toy2
import Verif.Props.SupportedToy

/-! C147: the predefined problem `toy2`. -/
namespace Verif.BoxMesh
open Verif Verif.Geometry Verif.Spec

section
variable (x y z : ℝ) (hx : 0 < x) (hy : 0 < y) (hz : 0 < z) (nx ny nz : ℕ) (h1 : 0 < nx) (h2 : 0 < ny) (h3 : 0 < nz)
include h1 h2

theorem facet_corner (k : ℕ) (hk : k / 6 < nx * ny * nz) (c : Fin 4) (a : Fin 3) :
    (initTensor x y z nx ny nz).p ((facet (initTensor x y z nx ny nz) k).2 c) a =
      (![(k / 6 / ny % nx : ℕ) * (x / nx), (k / 6 % ny : ℕ) * (y / ny), (k / 6 / ny / nx : ℕ) * (z / nz)] : Vec) a +
        if upper (hexFaces.getD (k % 6) (fun _ => 0) c) a then (![x / nx, y / ny, z / nz] : Vec) a else 0 :=
  corner_upper x y z nx ny nz (k / 6) hk h1 h2 _ a

theorem facet_middle (k : ℕ) (hk : k / 6 < nx * ny * nz) :
    ((1 / 4 : ℝ) • ∑ c : Fin 4, (initTensor x y z nx ny nz).p ((facet (initTensor x y z nx ny nz) k).2 c) : Vec) =
      ![(k / 6 / ny % nx : ℕ) * (x / nx) + (if k % 6 = 2 then 0 else if k % 6 = 3 then x / nx else x / nx / 2),
        (k / 6 % ny : ℕ) * (y / ny) + (if k % 6 = 1 then 0 else if k % 6 = 4 then y / ny else y / ny / 2),
        (k / 6 / ny / nx : ℕ) * (z / nz) + (if k % 6 = 0 then 0 else if k % 6 = 5 then z / nz else z / nz / 2)] := by
  funext a
  rw [Pi.smul_apply, Finset.sum_apply]
  simp only [facet_corner x y z nx ny nz h1 h2 k hk]
  have hr : k % 6 < 6 := Nat.mod_lt _ (by norm_num)
  generalize k % 6 = r at hr ⊢
  generalize ((k / 6 / ny % nx : ℕ) : ℝ) * (x / nx) = A
  generalize ((k / 6 % ny : ℕ) : ℝ) * (y / ny) = B
  generalize ((k / 6 / ny / nx : ℕ) : ℝ) * (z / nz) = C
  generalize x / (nx : ℝ) = dx
  generalize y / (ny : ℝ) = dy
  generalize z / (nz : ℝ) = dz
  interval_cases r <;> fin_cases a <;> simp [hexFaces, upper, Fin.sum_univ_four] <;> ring

theorem facet_lt (k : ℕ) (hk : k < 6 * (initTensor x y z nx ny nz).t.length) : k / 6 < nx * ny * nz := by
  rw [length_tensor] at hk
  exact (Nat.div_lt_iff_lt_mul (by norm_num)).2 (by omega)

include hx hy hz h3

/-- The sides in the planes `x = 0` and `x = len`. -/
theorem facet_plane (k : ℕ) (hk : k / 6 < nx * ny * nz) :
    ((∀ c, (initTensor x y z nx ny nz).p ((facet (initTensor x y z nx ny nz) k).2 c) 0 = 0) ↔ k % 6 = 2 ∧ k / 6 / ny % nx = 0) ∧
    ((∀ c, (initTensor x y z nx ny nz).p ((facet (initTensor x y z nx ny nz) k).2 c) 0 = x) ↔ k % 6 = 3 ∧ k / 6 / ny % nx + 1 = nx) := by
  have hnx : (0 : ℝ) < nx := by exact_mod_cast h1
  have hd : 0 < x / nx := by positivity
  have hn : (nx : ℝ) * (x / nx) = x := by field_simp
  obtain ⟨i1, -, -⟩ := split_index hk h1 h2
  have hle : ((k / 6 / ny % nx : ℕ) : ℝ) + 1 ≤ nx := by exact_mod_cast i1
  have hz0 : k / 6 / ny % nx = 0 ↔ ((k / 6 / ny % nx : ℕ) : ℝ) * (x / nx) = 0 := by
    rw [mul_eq_zero, or_iff_left hd.ne', Nat.cast_eq_zero]
  have hz1 : k / 6 / ny % nx + 1 = nx ↔ ((k / 6 / ny % nx : ℕ) : ℝ) * (x / nx) + x / nx = x := by
    constructor
    · intro h
      rw [← add_one_mul, ← Nat.cast_add_one, h, hn]
    · intro h
      rw [← add_one_mul] at h
      have := mul_right_cancel₀ hd.ne' (h.trans hn.symm)
      exact_mod_cast this
  have h0 : 0 ≤ ((k / 6 / ny % nx : ℕ) : ℝ) * (x / nx) := by positivity
  have hX : ((k / 6 / ny % nx : ℕ) : ℝ) * (x / nx) + x / nx ≤ x := by nlinarith
  rw [hz0, hz1]
  simp only [facet_corner x y z nx ny nz h1 h2 k hk]
  have hr : k % 6 < 6 := Nat.mod_lt _ (by norm_num)
  generalize k % 6 = r at hr ⊢
  generalize ((k / 6 / ny % nx : ℕ) : ℝ) * (x / nx) = A at *
  generalize x / (nx : ℝ) = dx at *
  clear hz0 hz1 hk i1 hle
  interval_cases r <;> simp [hexFaces, upper, Fin.forall_fin_succ] <;> grind

/-- The sides in the planes `x = 0` and `x = len` are on the surface. -/
theorem facet_exterior (k : ℕ) (hk : k / 6 < nx * ny * nz) (v : ℝ) (hv : v = 0 ∨ v = x)
    (h : ∀ c, (initTensor x y z nx ny nz).p ((facet (initTensor x y z nx ny nz) k).2 c) 0 = v) : Exterior (initTensor x y z nx ny nz) k := by
  intro j hj hjk
  have hj' := facet_lt x y z nx ny nz h1 h2 j hj
  have hny : (0 : ℝ) < ny := by exact_mod_cast h2
  have hnz : (0 : ℝ) < nz := by exact_mod_cast h3
  have hdy : 0 < y / ny := by positivity
  have hdz : 0 < z / nz := by positivity
  have hP : ∀ c, (initTensor x y z nx ny nz).p ((facet (initTensor x y z nx ny nz) j).2 c) 0 = v := by
    intro c
    obtain ⟨c', hc'⟩ : (facet (initTensor x y z nx ny nz) j).2 c ∈ Set.range (facet (initTensor x y z nx ny nz) k).2 := hjk ▸ ⟨c, rfl⟩
    rw [← hc']
    exact h c'
  have hsame : k % 6 = j % 6 ∧ k / 6 / ny % nx = j / 6 / ny % nx ∧ (k % 6 = 2 ∨ k % 6 = 3) := by
    have pk := facet_plane x y z hx hy hz nx ny nz h1 h2 h3 k hk
    have pj := facet_plane x y z hx hy hz nx ny nz h1 h2 h3 j hj'
    rcases hv with rfl | rfl
    · have a := pk.1.1 h
      have b := pj.1.1 hP
      omega
    · have a := pk.2.1 h
      have b := pj.2.1 hP
      omega
  obtain ⟨hr, hix, hr2⟩ := hsame
  -- the corner with the smallest coordinates
  have low : ∀ i l : ℕ, i / 6 < nx * ny * nz → l / 6 < nx * ny * nz → (i % 6 = 2 ∨ i % 6 = 3) →
      Set.range (facet (initTensor x y z nx ny nz) i).2 = Set.range (facet (initTensor x y z nx ny nz) l).2 →
      l / 6 % ny ≤ i / 6 % ny ∧ l / 6 / ny / nx ≤ i / 6 / ny / nx := by
    intro i l hi hl hr2 hil
    obtain ⟨c', hc'⟩ : (facet (initTensor x y z nx ny nz) i).2 0 ∈ Set.range (facet (initTensor x y z nx ny nz) l).2 := hil ▸ ⟨0, rfl⟩
    have e1 := facet_corner x y z nx ny nz h1 h2 i hi 0 1
    have e2 := facet_corner x y z nx ny nz h1 h2 l hl c' 1
    have g1 := facet_corner x y z nx ny nz h1 h2 i hi 0 2
    have g2 := facet_corner x y z nx ny nz h1 h2 l hl c' 2
    rw [hc', e1] at e2
    rw [hc', g1] at g2
    have u : upper (hexFaces.getD (i % 6) (fun _ => 0) 0) 1 = false ∧ upper (hexFaces.getD (i % 6) (fun _ => 0) 0) 2 = false := by
      rcases hr2 with h | h <;> rw [h] <;> simp [hexFaces, upper]
    rw [u.1] at e2
    rw [u.2] at g2
    simp only [Matrix.cons_val, Bool.false_eq_true, if_false, add_zero] at e2 g2
    have p1 : (0 : ℝ) ≤ if upper (hexFaces.getD (l % 6) (fun _ => 0) c') 1 = true then y / ny else 0 := by split_ifs <;> linarith
    have p2 : (0 : ℝ) ≤ if upper (hexFaces.getD (l % 6) (fun _ => 0) c') 2 = true then z / nz else 0 := by split_ifs <;> linarith
    constructor
    · have : ((l / 6 % ny : ℕ) : ℝ) * (y / ny) ≤ ((i / 6 % ny : ℕ) : ℝ) * (y / ny) := by linarith
      exact_mod_cast le_of_mul_le_mul_right this hdy
    · have : ((l / 6 / ny / nx : ℕ) : ℝ) * (z / nz) ≤ ((i / 6 / ny / nx : ℕ) : ℝ) * (z / nz) := by linarith
      exact_mod_cast le_of_mul_le_mul_right this hdz
  have a := low k j hk hj' hr2 hjk.symm
  have b := low j k hj' hk (hr ▸ hr2) hjk
  have hel : j / 6 = k / 6 := same_index (nx := nx) (ny := ny) hix.symm (le_antisymm a.1 b.1) (le_antisymm a.2 b.2)
  omega

end

theorem mem_boundary (M : HexMesh) (test : Vec → Prop) (k : ℕ) :
    k ∈ boundarySatisfying M test ↔ k < 6 * M.t.length ∧ Exterior M k ∧ test ((1 / 4 : ℝ) • ∑ c : Fin 4, M.p ((facet M k).2 c)) := by
  unfold boundarySatisfying
  simp only [List.mem_filter, List.mem_range, decide_eq_true_eq]

theorem toy2_mesh : createBoxHex 8 8 1 (3 / 10) = .ok (initTensor 8 8 1 27 27 4) := by
  have c8 : count 8 (3 / 10) = .ok ((27 : ℕ) : ℤ) := by
    unfold count
    rw [if_neg (by norm_num)]
    congr 1
    rw [Int.ceil_eq_iff]
    norm_num
  have c1 : count 1 (3 / 10) = .ok ((4 : ℕ) : ℤ) := by
    unfold count
    rw [if_neg (by norm_num)]
    congr 1
    rw [Int.ceil_eq_iff]
    norm_num
  exact createBoxHex_of_counts 8 8 1 (3 / 10) (by norm_num) (by norm_num) (by norm_num) 27 27 4 (by norm_num) (by norm_num) c8 c8 c1

section
variable (nx ny nz : ℕ) (h1 : nx = 27) (h2 : ny = 27) (h3 : nz = 4)
include h1 h2 h3

theorem mesh2_facet (k : ℕ) (hk : k < 6 * (initTensor 8 8 1 nx ny nz).t.length) :
    IsSide (initTensor 8 8 1 nx ny nz) (facet (initTensor 8 8 1 nx ny nz) k) := by
  have hk' := facet_lt 8 8 1 nx ny nz (by omega) (by omega) k hk
  have hr : k % 6 < 6 := Nat.mod_lt _ (by norm_num)
  refine face_side 8 8 1 (by norm_num) (by norm_num) (by norm_num) nx ny nz (by omega) (by omega) (by omega) (k / 6) hk' _ ?_
  generalize k % 6 = r at hr
  interval_cases r <;> simp [hexFaces]

theorem mesh2_side (F : ℕ × (Fin 4 → ℕ)) (hF : IsSide (initTensor 8 8 1 nx ny nz) F) :
    ∃ k < 6 * (initTensor 8 8 1 nx ny nz).t.length, SameSide (facet (initTensor 8 8 1 nx ny nz) k) F := by
  obtain ⟨hlt, f, hf, hr, -⟩ := side_face 8 8 1 (by norm_num) (by norm_num) (by norm_num) nx ny nz (by omega) (by omega) (by omega) F hF
  obtain ⟨i, hi, rfl⟩ := List.mem_iff_getElem.1 hf
  have hi6 : i < 6 := hi
  have hq : (6 * F.1 + i) / 6 = F.1 := by omega
  have hm : (6 * F.1 + i) % 6 = i := by omega
  refine ⟨6 * F.1 + i, ?_, ?_, ?_⟩
  · rw [length_tensor]; omega
  · exact hq
  · simp only [facet, hq, hm]
    rw [← hr]
    simp [List.getD, List.getElem?_eq_getElem hi]

/-- What `toy2` tags, side by side. -/
theorem mesh2_tags (k : ℕ) (hk : k < 6 * (initTensor 8 8 1 nx ny nz).t.length) :
    (k ∈ boundarySatisfying (initTensor 8 8 1 nx ny nz) (inRange (0, 5 / 100) (0, 8) (0, 1)) ↔
      ∀ c, (initTensor 8 8 1 nx ny nz).p ((facet (initTensor 8 8 1 nx ny nz) k).2 c) 0 = 0) ∧
    (k ∈ boundarySatisfying (initTensor 8 8 1 nx ny nz) (inRange (8, 8) (8 - 3 / 10, 8) (0, 1)) ↔
      ∀ c, (initTensor 8 8 1 nx ny nz).p ((facet (initTensor 8 8 1 nx ny nz) k).2 c) 0 = 8 ∧
        8 - 3 / 10 ≤ (initTensor 8 8 1 nx ny nz).p ((facet (initTensor 8 8 1 nx ny nz) k).2 c) 1) ∧
    (k ∈ boundarySatisfying (initTensor 8 8 1 nx ny nz) (inRange (8, 8) (0, 3 / 10) (0, 1)) ↔
      ∀ c, (initTensor 8 8 1 nx ny nz).p ((facet (initTensor 8 8 1 nx ny nz) k).2 c) 0 = 8 ∧
        (initTensor 8 8 1 nx ny nz).p ((facet (initTensor 8 8 1 nx ny nz) k).2 c) 1 ≤ 3 / 10) := by
  have p1 : 0 < nx := by omega
  have p2 : 0 < ny := by omega
  have p3 : 0 < nz := by omega
  have hk' := facet_lt 8 8 1 nx ny nz p1 p2 k hk
  have hp := facet_plane 8 8 1 (by norm_num) (by norm_num) (by norm_num) nx ny nz p1 p2 p3 k hk'
  have hext := facet_exterior 8 8 1 (by norm_num) (by norm_num) (by norm_num) nx ny nz p1 p2 p3 k hk'
  have hc := facet_corner 8 8 1 nx ny nz p1 p2 k hk'
  obtain ⟨i1, i2, i3⟩ := split_index hk' p1 p2
  have b1 := step_bounds nx 8 p1 (by norm_num) _ i1
  have b2 := step_bounds ny 8 p2 (by norm_num) _ i2
  have b3 := step_bounds nz 1 p3 (by norm_num) _ i3
  have hr : k % 6 < 6 := Nat.mod_lt _ (by norm_num)
  have r1 : (nx : ℝ) = 27 := by rw [h1]; norm_num
  have r2 : (ny : ℝ) = 27 := by rw [h2]; norm_num
  have r3 : (nz : ℝ) = 4 := by rw [h3]; norm_num
  simp only [mem_boundary, facet_middle 8 8 1 nx ny nz p1 p2 k hk', inRange, Matrix.cons_val, forall_and]
  have g0 : (∀ c, (initTensor 8 8 1 nx ny nz).p ((facet (initTensor 8 8 1 nx ny nz) k).2 c) 0 = 0) → k % 6 = 2 ∧ k / 6 / ny % nx = 0 := hp.1.1
  have hy : k % 6 = 3 → ∀ c, (initTensor 8 8 1 nx ny nz).p ((facet (initTensor 8 8 1 nx ny nz) k).2 c) 1 =
      (k / 6 % ny : ℕ) * (8 / (ny : ℝ)) + if c = 1 ∨ c = 2 then 8 / (ny : ℝ) else 0 := by
    intro h c
    rw [hc c 1, h]
    fin_cases c <;> simp [hexFaces, upper]
  refine ⟨⟨?_, ?_⟩, ⟨?_, ?_⟩, ⟨?_, ?_⟩⟩
  · rintro ⟨-, -, -, t, -⟩
    rw [hp.1]
    rw [r1] at t b1
    generalize k % 6 = r at *
    generalize k / 6 / ny % nx = i at *
    have : i = 0 ∨ (1 : ℝ) ≤ i := by
      rcases Nat.eq_zero_or_pos i with h | h
      · exact .inl h
      · exact .inr (by exact_mod_cast h)
    rcases this with rfl | h
    · refine ⟨?_, rfl⟩
      by_contra hne
      rw [if_neg hne] at t
      split_ifs at t <;> norm_num at t
    · exfalso
      split_ifs at t <;> linarith
  · intro h
    obtain ⟨hr2, hi⟩ := hp.1.1 h
    refine ⟨hk, hext 0 (.inl rfl) h, ?_⟩
    rw [hr2, hi]
    norm_num
    rw [r2] at b2 ⊢
    rw [r3] at b3 ⊢
    refine ⟨?_, ?_, ?_, ?_⟩ <;> linarith
  · rintro ⟨-, -, tx, -, ty, -⟩
    have hx : k % 6 = 3 ∧ k / 6 / ny % nx + 1 = nx := by
      rw [r1] at tx b1
      generalize k % 6 = r at *
      generalize k / 6 / ny % nx = i at *
      have : r = 3 := by
        by_contra hne
        rw [if_neg hne] at tx
        split_ifs at tx <;> linarith
      refine ⟨this, ?_⟩
      rw [this] at tx
      norm_num at tx
      have : (26 : ℝ) ≤ i := by linarith
      have : 26 ≤ i := by exact_mod_cast this
      omega
    refine ⟨hp.2.2 hx, fun c => ?_⟩
    rw [hy hx.1 c]
    rw [hx.1, r2] at ty
    rw [r2]
    norm_num at ty
    generalize k / 6 % ny = i at *
    have : (25 : ℝ) < i := by linarith
    have : 25 < i := by exact_mod_cast this
    have : (26 : ℝ) ≤ i := by exact_mod_cast this
    split_ifs <;> linarith
  · rintro ⟨hx, hyy⟩
    obtain ⟨hr3, hi⟩ := hp.2.1 hx
    refine ⟨hk, hext 8 (.inr rfl) hx, ?_⟩
    have t := hyy 0
    rw [hy hr3 0, if_neg (by decide)] at t
    norm_num at t
    have hi' : ((k / 6 / ny % nx : ℕ) : ℝ) + 1 = nx := by exact_mod_cast hi
    rw [hr3]
    norm_num
    rw [r1] at hi' ⊢
    rw [r2] at b2 t ⊢
    rw [r3] at b3 ⊢
    refine ⟨?_, ?_, ?_, ?_, ?_, ?_⟩ <;> linarith
  · rintro ⟨-, -, tx, -, -, ty, -⟩
    have hx : k % 6 = 3 ∧ k / 6 / ny % nx + 1 = nx := by
      rw [r1] at tx b1
      generalize k % 6 = r at *
      generalize k / 6 / ny % nx = i at *
      have : r = 3 := by
        by_contra hne
        rw [if_neg hne] at tx
        split_ifs at tx <;> linarith
      refine ⟨this, ?_⟩
      rw [this] at tx
      norm_num at tx
      have : (26 : ℝ) ≤ i := by linarith
      have : 26 ≤ i := by exact_mod_cast this
      omega
    refine ⟨hp.2.2 hx, fun c => ?_⟩
    rw [hy hx.1 c]
    rw [hx.1, r2] at ty
    rw [r2]
    norm_num at ty
    generalize k / 6 % ny = i at *
    have : (i : ℝ) < 1 := by linarith
    have : i < 1 := by exact_mod_cast this
    obtain rfl : i = 0 := by omega
    split_ifs <;> norm_num
  · rintro ⟨hx, hyy⟩
    obtain ⟨hr3, hi⟩ := hp.2.1 hx
    refine ⟨hk, hext 8 (.inr rfl) hx, ?_⟩
    have t := hyy 1
    rw [hy hr3 1, if_pos (by decide)] at t
    norm_num at t
    have hi' : ((k / 6 / ny % nx : ℕ) : ℝ) + 1 = nx := by exact_mod_cast hi
    rw [hr3]
    norm_num
    rw [r1] at hi' ⊢
    rw [r2] at b2 t ⊢
    rw [r3] at b3 ⊢
    refine ⟨?_, ?_, ?_, ?_, ?_, ?_⟩ <;> linarith

end


section
variable (nx ny nz : ℕ) (h1 : nx = 27) (h2 : ny = 27) (h3 : nz = 4)
include h1 h2 h3

theorem mesh2_loaded :
    (∃ k, k ∈ boundarySatisfying (initTensor 8 8 1 nx ny nz) (inRange (8, 8) (8 - 3 / 10, 8) (0, 1))) ∧
    ∃ k, k ∈ boundarySatisfying (initTensor 8 8 1 nx ny nz) (inRange (8, 8) (0, 3 / 10) (0, 1)) := by
  have p1 : 0 < nx := by omega
  have p2 : 0 < ny := by omega
  have p3 : 0 < nz := by omega
  have r2 : (ny : ℝ) = 27 := by rw [h2]; norm_num
  have key : ∀ iy < ny, ∃ k < 6 * (initTensor 8 8 1 nx ny nz).t.length,
      (∀ c, (initTensor 8 8 1 nx ny nz).p ((facet (initTensor 8 8 1 nx ny nz) k).2 c) 0 = 8) ∧
      ∀ c, (initTensor 8 8 1 nx ny nz).p ((facet (initTensor 8 8 1 nx ny nz) k).2 c) 1 = iy * (8 / (ny : ℝ)) ∨
        (initTensor 8 8 1 nx ny nz).p ((facet (initTensor 8 8 1 nx ny nz) k).2 c) 1 = iy * (8 / (ny : ℝ)) + 8 / (ny : ℝ) := by
    intro iy hiy
    obtain ⟨e, he, e1, e2, e3⟩ := encode (nx := nx) (ny := ny) (nz := nz) (ix := nx - 1) (iz := 0) (by omega) hiy p3
    have hq : (6 * e + 3) / 6 = e := by omega
    have hm : (6 * e + 3) % 6 = 3 := by omega
    have hk' : (6 * e + 3) / 6 < nx * ny * nz := by rw [hq]; exact he
    refine ⟨6 * e + 3, ?_, ?_, fun c => ?_⟩
    · rw [length_tensor]; omega
    · rw [(facet_plane 8 8 1 (by norm_num) (by norm_num) (by norm_num) nx ny nz p1 p2 p3 _ hk').2, hq, e1]
      omega
    · rw [facet_corner 8 8 1 nx ny nz p1 p2 _ hk' c 1, hq, hm, e2]
      fin_cases c <;> simp [hexFaces, upper]
  constructor
  · obtain ⟨k, hk, hx, hy⟩ := key 26 (by omega)
    refine ⟨k, (mesh2_tags nx ny nz h1 h2 h3 k hk).2.1.2 fun c => ⟨hx c, ?_⟩⟩
    rcases hy c with h | h <;> rw [h, r2] <;> norm_num
  · obtain ⟨k, hk, hx, hy⟩ := key 0 (by omega)
    refine ⟨k, (mesh2_tags nx ny nz h1 h2 h3 k hk).2.2.2 fun c => ⟨hx c, ?_⟩⟩
    rcases hy c with h | h <;> rw [h, r2] <;> norm_num

end

/-- **C147 (the problem).** `toy2` builds the 8 × 8 × 1 plate. A side of an element is supported (in all components) exactly if it lies in the plane
`x = 0`; there are two load cases in direction `u^2`, of total force −1 and +1, and a side is loaded in the first exactly if it lies in the plane
`x = 8` at `y ≥ 7.7`, in the second exactly if it lies there at `y ≤ 0.3` (there are such sides); every element is offered for design. -/
theorem C147_toy2_problem :
    ∃ T support down up, toy2 = .ok T ∧ createBoxHex 8 8 1 (3 / 10) = .ok T.mesh ∧ T.design = List.range T.mesh.t.length ∧
      T.dirichlet = some (.arr support) ∧ T.dirichletDir = "all" ∧ T.neumann = some (.lst [down, up]) ∧
      T.neumannDir = ["u^2".toList, "u^2".toList] ∧ T.neumannValue = [-1, 1] ∧ down ≠ [] ∧ up ≠ [] ∧
      (∀ k, k ∈ support ∨ k ∈ down ∨ k ∈ up → IsSide T.mesh (facet T.mesh k)) ∧
      ∀ F, IsSide T.mesh F →
        ((∃ k ∈ support, SameSide (facet T.mesh k) F) ↔ ∀ c, T.mesh.p (F.2 c) 0 = 0) ∧
        ((∃ k ∈ down, SameSide (facet T.mesh k) F) ↔ ∀ c, T.mesh.p (F.2 c) 0 = 8 ∧ 8 - 3 / 10 ≤ T.mesh.p (F.2 c) 1) ∧
        ((∃ k ∈ up, SameSide (facet T.mesh k) F) ↔ ∀ c, T.mesh.p (F.2 c) 0 = 8 ∧ T.mesh.p (F.2 c) 1 ≤ 3 / 10) := by
  obtain ⟨nx, nz, hnx, hnz, hm⟩ : ∃ nx nz : ℕ, nx = 27 ∧ nz = 4 ∧ createBoxHex 8 8 1 (3 / 10) = .ok (initTensor 8 8 1 nx nx nz) :=
    ⟨27, 4, rfl, rfl, toy2_mesh⟩
  unfold toy2
  simp only [hm]
  refine ⟨_, boundarySatisfying (initTensor 8 8 1 nx nx nz) (inRange (0, 5 / 100) (0, 8) (0, 1)),
    boundarySatisfying (initTensor 8 8 1 nx nx nz) (inRange (8, 8) (8 - 3 / 10, 8) (0, 1)),
    boundarySatisfying (initTensor 8 8 1 nx nx nz) (inRange (8, 8) (0, 3 / 10) (0, 1)), rfl, rfl, rfl, ?_, rfl, ?_, rfl, rfl,
    fun h => ?_, fun h => ?_, ?_⟩
  · generalize boundarySatisfying (initTensor 8 8 1 nx nx nz) (inRange (0, 5 / 100) (0, 8) (0, 1)) = s
    generalize boundarySatisfying (initTensor 8 8 1 nx nx nz) _ = d
    generalize boundarySatisfying (initTensor 8 8 1 nx nx nz) _ = u
    rfl
  · generalize boundarySatisfying (initTensor 8 8 1 nx nx nz) (inRange (0, 5 / 100) (0, 8) (0, 1)) = s
    generalize boundarySatisfying (initTensor 8 8 1 nx nx nz) (inRange (8, 8) (8 - 3 / 10, 8) (0, 1)) = d
    generalize boundarySatisfying (initTensor 8 8 1 nx nx nz) (inRange (8, 8) (0, 3 / 10) (0, 1)) = u
    rfl
  · obtain ⟨k, hk⟩ := (mesh2_loaded nx nx nz hnx hnx hnz).1
    rw [h] at hk
    exact absurd hk List.not_mem_nil
  · obtain ⟨k, hk⟩ := (mesh2_loaded nx nx nz hnx hnx hnz).2
    rw [h] at hk
    exact absurd hk List.not_mem_nil
  have hlt : ∀ test k, k ∈ boundarySatisfying (initTensor 8 8 1 nx nx nz) test → k < 6 * (initTensor 8 8 1 nx nx nz).t.length :=
    fun test k h => ((mem_boundary _ test k).1 h).1
  refine ⟨fun k hk => ?_, fun F hF => ?_⟩
  · rcases hk with h | h | h <;> exact mesh2_facet nx nx nz hnx hnx hnz k (hlt _ k h)
  · obtain ⟨k, hk, hs⟩ := mesh2_side nx nx nz hnx hnx hnz F hF
    have key : ∀ (test : Vec → Prop) (P : Vec → Prop), (∀ j < 6 * (initTensor 8 8 1 nx nx nz).t.length,
        (j ∈ boundarySatisfying (initTensor 8 8 1 nx nx nz) test ↔
          ∀ c, P ((initTensor 8 8 1 nx nx nz).p ((facet (initTensor 8 8 1 nx nx nz) j).2 c)))) →
        ((∃ j ∈ boundarySatisfying (initTensor 8 8 1 nx nx nz) test, SameSide (facet (initTensor 8 8 1 nx nx nz) j) F) ↔
          ∀ c, P ((initTensor 8 8 1 nx nx nz).p (F.2 c))) := by
      intro test P hP
      constructor
      · rintro ⟨j, hj, hjF⟩ c
        obtain ⟨c', hc'⟩ : F.2 c ∈ Set.range (facet (initTensor 8 8 1 nx nx nz) j).2 := hjF.2 ▸ ⟨c, rfl⟩
        rw [← hc']
        exact (hP j (hlt _ j hj)).1 hj c'
      · intro h
        refine ⟨k, (hP k hk).2 fun c => ?_, hs⟩
        obtain ⟨c', hc'⟩ : (facet (initTensor 8 8 1 nx nx nz) k).2 c ∈ Set.range F.2 := hs.2 ▸ ⟨c, rfl⟩
        rw [← hc']
        exact h c'
    exact ⟨key _ (fun v => v 0 = 0) fun j hj => (mesh2_tags nx nx nz hnx hnx hnz j hj).1,
      key _ (fun v => v 0 = 8 ∧ 8 - 3 / 10 ≤ v 1) fun j hj => (mesh2_tags nx nx nz hnx hnx hnz j hj).2.1,
      key _ (fun v => v 0 = 8 ∧ v 1 ≤ 3 / 10) fun j hj => (mesh2_tags nx nx nz hnx hnx hnz j hj).2.2⟩

open Verif.FEBasis Verif.Supported Verif.Spec.Supported Verif.Spec.Entry in
/-- **C147 (can be analysed).** With the supports of `toy2`, for all positive moduli and every admissible Poisson ratio, every load has exactly one
displacement field. -/
theorem C147_toy2_analysed :
    ∃ T support, toy2 = .ok T ∧ T.dirichlet = some (.arr support) ∧ ∃ hM,
      NoLooseMotion (ofHex T.mesh hM).p (clamped T.mesh (support.map (facet T.mesh))) ∧
      ∀ (Em : Fin T.mesh.t.length → ℝ) (nu : ℝ), (∀ e, 0 < Em e) → -1 < nu → nu < 1 / 2 →
        ∀ f, ∃! u, Deformed (basis (ofHex T.mesh hM) hex2) Em nu (clamped T.mesh (support.map (facet T.mesh))) f u := by
  obtain ⟨T, support, down, up, hT, hmesh, -, hsup, -, -, -, -, -, -, -, hiff⟩ := C147_toy2_problem
  refine ⟨T, support, hT, hsup, ?_⟩
  obtain ⟨nx, ny, nz, ⟨h1, h2, h3⟩, e, -⟩ := createBoxHex_eq 8 8 1 (3 / 10) (by norm_num) (by norm_num) (by norm_num) (by norm_num)
  rw [hmesh] at e
  injection e with e
  rw [e] at hiff ⊢
  have hM := tensor_used 8 8 1 nx ny nz h1 h2
  have hbox := tensor_boxes 8 8 1 (by norm_num) (by norm_num) (by norm_num) nx ny nz h1 h2 h3 hM
  have hone := tensor_onePiece 8 8 1 (by norm_num) (by norm_num) (by norm_num) nx ny nz h1 h2 h3 hM
  have hnyR : (ny : ℝ) ≠ 0 := by exact_mod_cast h2.ne'
  have hnzR : (nz : ℝ) ≠ 0 := by exact_mod_cast h3.ne'
  have hlen := length_tensor 8 8 1 nx ny nz
  have hpos : 0 < (initTensor 8 8 1 nx ny nz).t.length := by rw [hlen]; positivity
  let e0 : Fin (initTensor 8 8 1 nx ny nz).t.length := ⟨0, hpos⟩
  have hget : (initTensor 8 8 1 nx ny nz).t.getD 0 (fun _ => 0) = (initTensor 8 8 1 nx ny nz).t[0] := by
    simp [List.getD, List.getElem?_eq_getElem hpos]
  have hside := face_side 8 8 1 (by norm_num) (by norm_num) (by norm_num) nx ny nz h1 h2 h3 0 (by positivity) ![0, 3, 5, 1] (by simp [hexFaces])
  obtain ⟨k, hk, hsame⟩ := (hiff _ hside).1.2 (fun c => by
    simp only [hget]
    have := tensor_p 8 8 1 nx ny nz h1 h2 hM e0 ((![0, 3, 5, 1] : Fin 4 → Fin 8) c) 0
    refine this.trans ?_
    fin_cases c <;> simp [e0, upper])
  have hloose : NoLooseMotion (ofHex _ hM).p (clamped (initTensor 8 8 1 nx ny nz) (support.map (facet (initTensor 8 8 1 nx ny nz)))) := by
    refine C144_clamped _ _ (fun k => (ofHex _ hM).t e0 ((![0, 1, 3] : Fin 3 → Fin 8) k)) (fun l i => ?_) (affine3 _ 1 2 ?_ ?_ ?_ ?_)
    · simp only [clamped, Finset.mem_filter, Finset.mem_univ, true_and]
      obtain ⟨c, hc⟩ : (initTensor 8 8 1 nx ny nz).t[0] ((![0, 1, 3] : Fin 3 → Fin 8) l) ∈ Set.range (facet (initTensor 8 8 1 nx ny nz) k).2 := by
        rw [hsame.2]
        refine ⟨(![0, 3, 1] : Fin 3 → Fin 4) l, ?_⟩
        simp only [hget]
        fin_cases l <;> rfl
      exact ⟨_, List.mem_map.2 ⟨k, hk, rfl⟩, c, hc⟩
    all_goals simp only [tensor_p 8 8 1 nx ny nz h1 h2 hM]
    all_goals simp [e0, upper, hnyR, hnzR]
  exact ⟨hM, hloose, fun Em nu hE h0 hnu => (C144_hexahedra_solvable_iff _ hbox hone Em hE nu h0 hnu _).2 hloose⟩

end Verif.BoxMesh
