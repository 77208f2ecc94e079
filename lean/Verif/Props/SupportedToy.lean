import Verif.Props.Supported
import Verif.Props.BoxMesh

/-! C144 for the box meshes and the predefined problem `toy_base`. -/
namespace Verif.Supported
open Matrix Verif.FEBasis Verif.Elastic Verif.Spec.Supported Verif.Spec.Entry Verif.BoxMesh

/-- Three points are on no line if two coordinates tell them apart. -/
theorem affine3 (x : Fin 3 → Fin 3 → ℝ) (b c : Fin 3) (h1 : x 1 b ≠ x 0 b) (h2 : x 2 b = x 0 b) (h3 : x 1 c = x 0 c) (h4 : x 2 c ≠ x 0 c) :
    AffineIndependent ℝ x := by
  rw [affineIndependent_iff_of_fintype]
  intro w hw hz
  rw [Finset.weightedVSub_eq_linear_combination (hw := hw)] at hz
  have eb := congrFun hz b
  have ec := congrFun hz c
  simp only [Fin.sum_univ_three, Pi.add_apply, Pi.smul_apply, smul_eq_mul, Pi.zero_apply] at eb ec hw
  rw [h2] at eb
  rw [h3] at ec
  have a1 : w 1 = 0 := by
    apply mul_right_cancel₀ (sub_ne_zero.mpr h1)
    rw [zero_mul]
    linear_combination eb - x 0 b * hw
  have a2 : w 2 = 0 := by
    apply mul_right_cancel₀ (sub_ne_zero.mpr h4)
    rw [zero_mul]
    linear_combination ec - x 0 c * hw
  intro i
  fin_cases i
  · simp only [a1, a2] at hw; simpa using hw
  · exact a1
  · exact a2

theorem joined_symm {N E C : Type} {d : ℕ} {M : Mesh N E C d} {e e' : E} (h : Joined M e e') : Joined M e' e := by
  obtain ⟨n, hn, hi⟩ := h
  exact ⟨n, fun k => ⟨(hn k).2, (hn k).1⟩, hi⟩

theorem chain_symm {N E C : Type} {d : ℕ} {M : Mesh N E C d} {e e' : E} (h : Relation.ReflTransGen (Joined M) e e') :
    Relation.ReflTransGen (Joined M) e' e := by
  induction h with
  | refl => exact .refl
  | tail _ hj ih => exact .head (joined_symm hj) ih

section
variable (x y z : ℝ) (hx : 0 < x) (hy : 0 < y) (hz : 0 < z) (nx ny nz : ℕ) (h1 : 0 < nx) (h2 : 0 < ny) (h3 : 0 < nz)
include h1 h2

theorem tensor_used : ∀ t ∈ (initTensor x y z nx ny nz).t, ∀ c, t c < (initTensor x y z nx ny nz).npoints := by
  intro t ht c
  obtain ⟨k, hk⟩ := List.mem_iff_getElem?.1 ht
  obtain ⟨hk', rfl⟩ := get_tensor x y z nx ny nz k t hk
  obtain ⟨a1, a2, a3⟩ := split_index hk' h1 h2
  fin_cases c <;> exact pointId_lt _ _ _ _ _ _ (by omega) (by omega) (by omega)

omit h1 h2 in
theorem tensor_t (hM : ∀ t ∈ (initTensor x y z nx ny nz).t, ∀ c, t c < (initTensor x y z nx ny nz).npoints)
    (e : Fin (initTensor x y z nx ny nz).t.length) (c : Fin 8) :
    ((ofHex _ hM).t e c : ℕ) = cell nx ny (e / ny % nx) (e % ny) (e / ny / nx) c := by
  have := (get_tensor x y z nx ny nz e _ (List.getElem?_eq_getElem e.isLt)).2
  exact congrFun this c

theorem tensor_p (hM : ∀ t ∈ (initTensor x y z nx ny nz).t, ∀ c, t c < (initTensor x y z nx ny nz).npoints)
    (e : Fin (initTensor x y z nx ny nz).t.length) (c : Fin 8) (a : Fin 3) :
    (ofHex _ hM).p ((ofHex _ hM).t e c) a =
      (![(e / ny % nx : ℕ) * (x / nx), (e % ny : ℕ) * (y / ny), (e / ny / nx : ℕ) * (z / nz)] : Fin 3 → ℝ) a +
        if upper c a then (![x / nx, y / ny, z / nz] : Fin 3 → ℝ) a else 0 := by
  have he : (e : ℕ) < nx * ny * nz := lt_of_lt_of_eq e.isLt (length_tensor x y z nx ny nz)
  rw [← corner_upper x y z nx ny nz e he h1 h2 c a, getD_tensor x y z nx ny nz e he]
  show (initTensor x y z nx ny nz).p ((ofHex _ hM).t e c : ℕ) a = _
  rw [tensor_t]

include hx hy hz h3

theorem tensor_boxes (hM : ∀ t ∈ (initTensor x y z nx ny nz).t, ∀ c, t c < (initTensor x y z nx ny nz).npoints) : Boxes (ofHex _ hM) := by
  intro e
  have hnx : (0 : ℝ) < nx := by exact_mod_cast h1
  have hny : (0 : ℝ) < ny := by exact_mod_cast h2
  have hnz : (0 : ℝ) < nz := by exact_mod_cast h3
  refine ⟨![(e / ny % nx : ℕ) * (x / nx), (e % ny : ℕ) * (y / ny), (e / ny / nx : ℕ) * (z / nz)], ![0, 0, z / nz], ![x / nx, 0, 0], ![0, y / ny, 0], ?_, ?_⟩
  · have hdet : (Matrix.of ![![0, 0, z / nz], ![x / nx, 0, 0], ![0, y / ny, 0]]).det ≠ 0 := by
      rw [Matrix.det_fin_three]
      simp
      exact ⟨⟨⟨hz.ne', h3.ne'⟩, hx.ne', h1.ne'⟩, hy.ne', h2.ne'⟩
    exact Matrix.linearIndependent_rows_iff_isUnit.2 ((Matrix.isUnit_iff_isUnit_det _).2 (Ne.isUnit hdet))
  · funext c a
    rw [tensor_p x y z nx ny nz h1 h2 hM e c a]
    fin_cases c <;> fin_cases a <;> simp [upper]

/-- Neighbouring cells have a common side. -/
theorem tensor_joined (hM : ∀ t ∈ (initTensor x y z nx ny nz).t, ∀ c, t c < (initTensor x y z nx ny nz).npoints)
    (e e' : Fin (initTensor x y z nx ny nz).t.length)
    (h : (e' / ny % nx = e / ny % nx + 1 ∧ (e' : ℕ) % ny = e % ny ∧ e' / ny / nx = e / ny / nx) ∨
      (e' / ny % nx = e / ny % nx ∧ (e' : ℕ) % ny = e % ny + 1 ∧ e' / ny / nx = e / ny / nx) ∨
      (e' / ny % nx = e / ny % nx ∧ (e' : ℕ) % ny = e % ny ∧ e' / ny / nx = e / ny / nx + 1)) : Joined (ofHex _ hM) e e' := by
  have hnx : (0 : ℝ) < nx := by exact_mod_cast h1
  have hny : (0 : ℝ) < ny := by exact_mod_cast h2
  have hnz : (0 : ℝ) < nz := by exact_mod_cast h3
  have dx : x / nx ≠ 0 := by positivity
  have dy : y / ny ≠ 0 := by positivity
  have dz : z / nz ≠ 0 := by positivity
  have key : ∀ (f g : Fin 3 → Fin 8) (b c : Fin 3), (∀ k, cell nx ny (e / ny % nx) (e % ny) (e / ny / nx) (f k) = cell nx ny (e' / ny % nx) (e' % ny) (e' / ny / nx) (g k)) →
      upper (f 0) b = false → upper (f 1) b = true → upper (f 2) b = false → upper (f 0) c = false → upper (f 1) c = false → upper (f 2) c = true →
      Joined (ofHex _ hM) e e' := by
    intro f g b c hfg u0 u1 u2 w0 w1 w2
    refine ⟨fun k => (ofHex _ hM).t e (f k), fun k => ⟨⟨_, rfl⟩, g k, Fin.ext ?_⟩, affine3 _ b c ?_ ?_ ?_ ?_⟩
    · rw [tensor_t, tensor_t]; exact (hfg k).symm
    all_goals simp only [tensor_p x y z nx ny nz h1 h2 hM, u0, u1, u2, w0, w1, w2]
    · fin_cases b <;> simp [hx.ne', hy.ne', hz.ne', h1.ne', h2.ne', h3.ne']
    · fin_cases c <;> simp [hx.ne', hy.ne', hz.ne', h1.ne', h2.ne', h3.ne']
  rcases h with ⟨a, b, c⟩ | ⟨a, b, c⟩ | ⟨a, b, c⟩
  · refine key ![2, 4, 6] ![0, 1, 3] 1 2 (fun k => ?_) rfl rfl rfl rfl rfl rfl
    rw [a, b, c]
    fin_cases k <;> rfl
  · refine key ![1, 4, 5] ![0, 2, 3] 0 2 (fun k => ?_) rfl rfl rfl rfl rfl rfl
    rw [a, b, c]
    fin_cases k <;> rfl
  · refine key ![3, 6, 5] ![0, 2, 1] 0 1 (fun k => ?_) rfl rfl rfl rfl rfl rfl
    rw [a, b, c]
    fin_cases k <;> rfl

theorem tensor_onePiece (hM : ∀ t ∈ (initTensor x y z nx ny nz).t, ∀ c, t c < (initTensor x y z nx ny nz).npoints) : OnePiece (ofHex _ hM) := by
  have hlen := length_tensor x y z nx ny nz
  have hpos : 0 < (initTensor x y z nx ny nz).t.length := by rw [hlen]; positivity
  have hdown : ∀ (m : ℕ) (e : Fin (initTensor x y z nx ny nz).t.length), e / ny % nx + e % ny + e / ny / nx = m →
      Relation.ReflTransGen (Joined (ofHex _ hM)) ⟨0, hpos⟩ e := by
    intro m
    induction m with
    | zero =>
      intro e he
      obtain ⟨hab, hc⟩ := Nat.add_eq_zero_iff.1 he
      obtain ⟨ha, hb⟩ := Nat.add_eq_zero_iff.1 hab
      have : e = ⟨0, hpos⟩ := Fin.ext (same_index (nx := nx) (ny := ny) (by rw [ha]; simp) (by rw [hb]; simp) (by rw [hc]; simp))
      rw [this]
    | succ m ih =>
      intro e he
      have he' : (e : ℕ) < nx * ny * nz := lt_of_lt_of_eq e.isLt hlen
      obtain ⟨a1, a2, a3⟩ := split_index he' h1 h2
      have step : ∀ ix iy iz, ix < nx → iy < ny → iz < nz → ix + iy + iz = m →
          ((e / ny % nx = ix + 1 ∧ (e : ℕ) % ny = iy ∧ e / ny / nx = iz) ∨ (e / ny % nx = ix ∧ (e : ℕ) % ny = iy + 1 ∧ e / ny / nx = iz) ∨
            (e / ny % nx = ix ∧ (e : ℕ) % ny = iy ∧ e / ny / nx = iz + 1)) → Relation.ReflTransGen (Joined (ofHex _ hM)) ⟨0, hpos⟩ e := by
        intro ix iy iz hix hiy hiz hm hc
        obtain ⟨k, hk, e1, e2, e3⟩ := encode hix hiy hiz
        have hk' : k < (initTensor x y z nx ny nz).t.length := by rw [hlen]; exact hk
        refine (ih ⟨k, hk'⟩ (by simp only [e1, e2, e3]; exact hm)).tail (tensor_joined x y z hx hy hz nx ny nz h1 h2 h3 hM _ _ ?_)
        simp only [e1, e2, e3]
        exact hc
      generalize (e : ℕ) / ny % nx = ex, (e : ℕ) % ny = ey, (e : ℕ) / ny / nx = ez at he a1 a2 a3 step
      by_cases c1 : 0 < ex
      · exact step (ex - 1) ey ez (by omega) (by omega) (by omega) (by omega) (.inl ⟨by omega, rfl, rfl⟩)
      by_cases c2 : 0 < ey
      · exact step ex (ey - 1) ez (by omega) (by omega) (by omega) (by omega) (.inr (.inl ⟨rfl, by omega, rfl⟩))
      · exact step ex ey (ez - 1) (by omega) (by omega) (by omega) (by omega) (.inr (.inr ⟨rfl, rfl, by omega⟩))
  refine ⟨fun e e' => ?_, fun n => ?_⟩
  · exact (chain_symm (hdown _ e rfl)).trans (hdown _ e' rfl)
  · -- the indices of the point
    have hn : (n : ℕ) < (nx + 1) * (ny + 1) * (nz + 1) := n.isLt
    obtain ⟨b1, b2, b3⟩ := split_index (e := n) (nx := nx + 1) (ny := ny + 1) (nz := nz + 1) (by simpa [mul_comm, mul_left_comm] using hn) (by omega) (by omega)
    have hid : (n : ℕ) = pointId nx ny (n / (ny + 1) % (nx + 1)) (n % (ny + 1)) (n / (ny + 1) / (nx + 1)) := by
      unfold pointId
      rw [Nat.mod_add_div, Nat.mod_add_div]
    set ix := (n : ℕ) / (ny + 1) % (nx + 1)
    set iy := (n : ℕ) % (ny + 1)
    set iz := (n : ℕ) / (ny + 1) / (nx + 1)
    obtain ⟨k, hk, e1, e2, e3⟩ := encode (nx := nx) (ny := ny) (nz := nz) (ix := ix - 1) (iy := iy - 1) (iz := iz - 1) (by omega) (by omega) (by omega)
    have hk' : k < (initTensor x y z nx ny nz).t.length := by rw [hlen]; exact hk
    have hc : ∃ c : Fin 8, cell nx ny (ix - 1) (iy - 1) (iz - 1) c = pointId nx ny ix iy iz := by
      rcases Nat.eq_zero_or_pos ix with cx | cx <;> rcases Nat.eq_zero_or_pos iy with cy | cy <;> rcases Nat.eq_zero_or_pos iz with cz | cz
      · exact ⟨0, by rw [cx, cy, cz]; rfl⟩
      · exact ⟨3, by rw [cx, cy]; show pointId _ _ _ _ (iz - 1 + 1) = _; rw [Nat.sub_add_cancel cz]⟩
      · exact ⟨1, by rw [cx, cz]; show pointId _ _ _ (iy - 1 + 1) _ = _; rw [Nat.sub_add_cancel cy]⟩
      · exact ⟨5, by rw [cx]; show pointId _ _ _ (iy - 1 + 1) (iz - 1 + 1) = _; rw [Nat.sub_add_cancel cy, Nat.sub_add_cancel cz]⟩
      · exact ⟨2, by rw [cy, cz]; show pointId _ _ (ix - 1 + 1) _ _ = _; rw [Nat.sub_add_cancel cx]⟩
      · exact ⟨6, by rw [cy]; show pointId _ _ (ix - 1 + 1) _ (iz - 1 + 1) = _; rw [Nat.sub_add_cancel cx, Nat.sub_add_cancel cz]⟩
      · exact ⟨4, by rw [cz]; show pointId _ _ (ix - 1 + 1) (iy - 1 + 1) _ = _; rw [Nat.sub_add_cancel cx, Nat.sub_add_cancel cy]⟩
      · exact ⟨7, by show pointId _ _ (ix - 1 + 1) (iy - 1 + 1) (iz - 1 + 1) = _; rw [Nat.sub_add_cancel cx, Nat.sub_add_cancel cy, Nat.sub_add_cancel cz]⟩
    obtain ⟨c, hc⟩ := hc
    refine ⟨⟨k, hk'⟩, c, Fin.ext ?_⟩
    rw [tensor_t]
    simp only [e1, e2, e3, hc]
    exact hid.symm

end

/-- **C144 (box meshes).** For all positive lengths and element sizes, `create_box_hex` returns a mesh of boxes in one piece: with any supports
that exclude rigid motions, any positive moduli and any admissible Poisson ratio, every load has exactly one displacement field. -/
theorem C144_box_mesh (x y z h : ℝ) (hx : 0 < x) (hy : 0 < y) (hz : 0 < z) (hh : 0 < h) :
    ∃ M, createBoxHex x y z h = .ok M ∧ ∃ hM, Boxes (ofHex M hM) ∧ OnePiece (ofHex M hM) := by
  obtain ⟨nx, ny, nz, ⟨h1, h2, h3⟩, e, -⟩ := createBoxHex_eq x y z h hx hy hz hh
  exact ⟨_, e, tensor_used x y z nx ny nz h1 h2, tensor_boxes x y z hx hy hz nx ny nz h1 h2 h3 _, tensor_onePiece x y z hx hy hz nx ny nz h1 h2 h3 _⟩

/-- **C144 (the predefined problem).** For every element size, the problem of `toy_base` (`toy_test`, `toy1`, `toy1_fine`) can be analysed: with the
supports it selects, for all positive moduli and every admissible Poisson ratio, every load has exactly one displacement field. -/
theorem C144_toy_base (h : ℝ) (hh : 0 < h) :
    ∃ T, toyBase h = .ok T ∧ ∃ hM, NoLooseMotion (ofHex T.mesh hM).p (clamped T.mesh T.support) ∧
      ∀ (Em : Fin T.mesh.t.length → ℝ) (nu : ℝ), (∀ e, 0 < Em e) → -1 < nu → nu < 1 / 2 →
        ∀ f, ∃! u, Deformed (basis (ofHex T.mesh hM) hex2) Em nu (clamped T.mesh T.support) f u := by
  obtain ⟨T, hT, -, hs, -⟩ := supports_faces h hh
  obtain ⟨nx, ny, nz, ⟨h1, h2, h3⟩, e, -⟩ := createBoxHex_eq 8 6 4 h (by norm_num) (by norm_num) (by norm_num) hh
  have hmesh : T.mesh = initTensor 8 6 4 nx ny nz := by
    rw [toy_eq h _ e] at hT
    injection hT with hT
    rw [← hT]
  refine ⟨T, hT, ?_⟩
  rw [hmesh] at hs
  rw [hmesh]
  have hM := tensor_used 8 6 4 nx ny nz h1 h2
  have hbox := tensor_boxes 8 6 4 (by norm_num) (by norm_num) (by norm_num) nx ny nz h1 h2 h3 hM
  have hone := tensor_onePiece 8 6 4 (by norm_num) (by norm_num) (by norm_num) nx ny nz h1 h2 h3 hM
  have hnyR : (ny : ℝ) ≠ 0 := by exact_mod_cast h2.ne'
  have hnzR : (nz : ℝ) ≠ 0 := by exact_mod_cast h3.ne'
  have hloose : NoLooseMotion (ofHex _ hM).p (clamped (initTensor 8 6 4 nx ny nz) T.support) := by
    have hlen := length_tensor 8 6 4 nx ny nz
    have hpos : 0 < (initTensor 8 6 4 nx ny nz).t.length := by rw [hlen]; positivity
    let e0 : Fin (initTensor 8 6 4 nx ny nz).t.length := ⟨0, hpos⟩
    have hget : (initTensor 8 6 4 nx ny nz).t.getD 0 (fun _ => 0) = (initTensor 8 6 4 nx ny nz).t[0] := by
      simp [List.getD, List.getElem?_eq_getElem hpos]
    have hmem := hs 0 hpos ![0, 3, 5, 1] (by simp [hexFaces]) (fun c => by
      rw [hget]
      have := tensor_p 8 6 4 nx ny nz h1 h2 hM e0 ((![0, 3, 5, 1] : Fin 4 → Fin 8) c) 0
      refine this.trans ?_
      fin_cases c <;> simp [e0, upper])
    refine C144_clamped _ _ (fun k => (ofHex _ hM).t e0 ((![0, 1, 3] : Fin 3 → Fin 8) k)) (fun k i => ?_) (affine3 _ 1 2 ?_ ?_ ?_ ?_)
    · simp only [clamped, Finset.mem_filter, Finset.mem_univ, true_and]
      refine ⟨_, hmem, ((![0, 3, 1] : Fin 3 → Fin 4) k), ?_⟩
      simp only [hget]
      fin_cases k <;> rfl
    all_goals simp only [tensor_p 8 6 4 nx ny nz h1 h2 hM]
    all_goals simp [e0, upper, hnyR, hnzR]
  exact ⟨hM, hloose, fun Em nu hE h0 hnu => (C144_hexahedra_solvable_iff _ hbox hone Em hE nu h0 hnu _).2 hloose⟩

end Verif.Supported
