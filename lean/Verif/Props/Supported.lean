import Verif.Lemmas.Supported
import Verif.Spec.Run
import Mathlib.Data.Fin.VecNotation

/-! C144: which bodies can be analysed. -/
namespace Verif.Supported
open Matrix Verif.FEBasis Verif.Elastic Verif.Spec.Supported Verif.Spec.Entry

variable {N E Q : Type} {d : ℕ} [Fintype N] [Fintype E] [Fintype Q]

theorem dx_p1 {M : Mesh N E (Fin (d + 1)) d} (hM : NotFlat M) {w : Q → ℝ} (hw : ∀ q, 0 < w q) (e : E) (q : Q) : 0 < (basis M (p1 d w)).dx e q :=
  mul_pos (abs_pos.mpr (det_p1 M hM w e q)) (hw q)

theorem dx_q1 {M : Mesh N E (Fin 8) 3} (hM : Boxes M) {X : Q → Fin 3 → ℝ} {w : Q → ℝ} (hw : ∀ q, 0 < w q) (e : E) (q : Q) :
    0 < (basis M (q1 X w)).dx e q :=
  mul_pos (abs_pos.mpr (det_q1 M hM X w e q)) (hw q)

/-- The unique solvability of all load cases is the same as being held. -/
theorem solvable_iff_held {ι : Type} [Fintype ι] (B : FE ι E Q d) (Em : E → ℝ) (nu : ℝ) (D : Finset ι) :
    (∀ f, ∃! u, Deformed B Em nu D f u) ↔ Held B Em nu D := by
  classical
  constructor
  · intro h u hu
    obtain ⟨v, -, hv⟩ := h 0
    have h0 : Deformed B Em nu D 0 0 := by
      refine ⟨fun _ _ => rfl, fun w _ => ?_⟩
      have hz : ∀ e q, strain B (0 : ι → ℝ) e q = 0 := fun e q => by ext a b; simp [strain]
      simp [hz, hookeWork]
    rw [hv u hu, hv 0 h0]
  · intro h f
    have hdet := Verif.Entry.det_of_held h
    refine ⟨_, Verif.Entry.deformed_of_solves (Verif.Entry.solves_of_inv hdet f), fun w hw => ?_⟩
    set v := (enforceK (stiffness B Em nu) D)⁻¹ *ᵥ enforceF f D with hv
    have hv' : Deformed B Em nu D f v := Verif.Entry.deformed_of_solves (Verif.Entry.solves_of_inv hdet f)
    have hsub : Deformed B Em nu D 0 (w - v) := by
      refine ⟨fun i hi => by rw [Pi.sub_apply, hw.1 i hi, hv'.1 i hi, sub_zero], fun x hx => ?_⟩
      have h1 := hw.2 x hx
      have h2 := hv'.2 x hx
      have hst : ∀ e q, strain B (w - v) e q = strain B w e q - strain B v e q := by
        intro e q
        ext a b
        simp only [strain, Matrix.of_apply, Matrix.sub_apply, Pi.sub_apply, sub_mul, Finset.sum_sub_distrib]
        ring
      have hlin : ∀ e q, hookeWork (Em e) nu (strain B (w - v) e q) (strain B x e q) * B.dx e q =
          hookeWork (Em e) nu (strain B w e q) (strain B x e q) * B.dx e q - hookeWork (Em e) nu (strain B v e q) (strain B x e q) * B.dx e q := by
        intro e q
        rw [hst]
        simp only [hookeWork, Matrix.trace_sub, Matrix.sub_apply, sub_mul, Finset.sum_sub_distrib]
        ring
      simp only [hlin, Finset.sum_sub_distrib, h1, h2, sub_self]
      simp
    exact sub_eq_zero.1 (h _ hsub)

/-- **C144 (tetrahedra).** Let a body be meshed with tetrahedra (simplices of dimension 1 to 3), none of them flat, in one piece, with positive
moduli and an admissible Poisson ratio, and let the degrees of freedom in `D` be fixed. Then every load has exactly one displacement field if
and only if the supports exclude every rigid motion. -/
theorem C144_tetrahedra_solvable_iff (M : Mesh N E (Fin (d + 1)) d) (hd : d ≤ 3) (hflat : NotFlat M) (hone : OnePiece M) [Nonempty Q] (w : Q → ℝ)
    (hw : ∀ q, 0 < w q) (Em : E → ℝ) (hE : ∀ e, 0 < Em e) (nu : ℝ) (h0 : -1 < nu) (h1 : nu < 1 / 2) (D : Finset (N × Fin d)) :
    (∀ f, ∃! u, Deformed (basis M (p1 d w)) Em nu D f u) ↔ NoLooseMotion M.p D := by
  rw [solvable_iff_held, held_iff _ hd (dx_p1 hflat hw) nu h0 h1 Em hE]
  have h := strain_iff_rigid (stiff_p1 M hflat w) (unity_p1 w) hone (det_p1 M hflat w)
  exact ⟨fun H u hu hD => H u hD ((h u).2 hu), fun H u hD hu => H u ((h u).1 hu) hD⟩

/-- **C144 (hexahedra, `intorder=2`).** The same for hexahedral meshes whose elements are boxes, such as those of `create_box_hex`. -/
theorem C144_hexahedra_solvable_iff (M : Mesh N E (Fin 8) 3) (hbox : Boxes M) (hone : OnePiece M) (Em : E → ℝ) (hE : ∀ e, 0 < Em e) (nu : ℝ)
    (h0 : -1 < nu) (h1 : nu < 1 / 2) (D : Finset (N × Fin 3)) :
    (∀ f, ∃! u, Deformed (basis M hex2) Em nu D f u) ↔ NoLooseMotion M.p D := by
  have hw : ∀ q : Fin 3 → Fin 2, (0 : ℝ) < (fun _ => 1 / 8 : (Fin 3 → Fin 2) → ℝ) q := fun _ => by norm_num
  rw [solvable_iff_held, held_iff (basis M hex2) le_rfl (dx_q1 hbox hw) nu h0 h1 Em hE]
  have h := strain_iff_rigid (R := hex2) (stiff_q1 M hbox _ _ grid_gauss2) (unity_q1 _ _) hone (det_q1 M hbox _ _)
  exact ⟨fun H u hu hD => H u hD ((h u).2 hu), fun H u hD hu => H u ((h u).1 hu) hD⟩

/-! ### Which supports exclude rigid motions -/

omit [Fintype N] in
/-- **C144 (clamped).** Fixing all components of `d` nodes on no smaller plane (three nodes not on a line, in space) is enough, whatever else is
fixed. -/
theorem C144_clamped (p : N → Fin d → ℝ) (D : Finset (N × Fin d)) (n : Fin d → N) (hn : ∀ k i, (n k, i) ∈ D) (hi : AffineIndependent ℝ fun k => p (n k)) :
    NoLooseMotion p D := by
  rintro u ⟨b, W, hW, hu⟩ hD
  have hz : ∀ k i, b i + ∑ j, W i j * p (n k) j = 0 := fun k i => by rw [← hu]; exact hD _ (hn k i)
  have hW0 : W = 0 := skew_zero hW hi fun k k' i => by
    simp only [mul_sub, Finset.sum_sub_distrib]
    linarith [hz k i, hz k' i]
  funext ⟨m, i⟩
  have := hz i i
  rw [hu]
  simp only [hW0, Matrix.zero_apply, zero_mul, Finset.sum_const_zero, add_zero, Pi.zero_apply] at this ⊢
  exact this

omit [Fintype N] in
/-- **C144 (one direction is not enough).** If some direction `i` is fixed nowhere (for example `dirichlet_dir='u^1'` on every region), the body
can move in that direction. -/
theorem C144_free_direction [Nonempty N] (p : N → Fin d → ℝ) (D : Finset (N × Fin d)) (i : Fin d) (hD : ∀ n, (n, i) ∉ D) : ¬ NoLooseMotion p D := by
  classical
  intro h
  obtain ⟨n⟩ := ‹Nonempty N›
  have := h (fun x => if x.2 = i then 1 else 0) ⟨fun k => if k = i then 1 else 0, 0, by simp, fun n k => by simp⟩ fun x hx => by
    have : x.2 ≠ i := by rintro rfl; exact hD x.1 hx
    simp [this]
  have := congrFun this (n, i)
  simp at this

omit [Fintype N] in
/-- **C144 (a line is not enough).** In space, if all nodes with a fixed component lie on one line (for example a single node) and some node does
not, the body can turn about that line. -/
theorem C144_turns_about_line (p : N → Fin 3 → ℝ) (D : Finset (N × Fin 3)) (o a : Fin 3 → ℝ) (ha : a ≠ 0)
    (hD : ∀ x ∈ D, ∃ s : ℝ, p x.1 = o + s • a) (n : N) (hn : ∀ s : ℝ, p n ≠ o + s • a) : ¬ NoLooseMotion p D := by
  intro h
  let W : Matrix (Fin 3) (Fin 3) ℝ := !![0, -a 2, a 1; a 2, 0, -a 0; -a 1, a 0, 0]
  have hz := h (fun x => ∑ j, W x.2 j * (p x.1 j - o j)) ⟨fun i => -∑ j, W i j * o j, W, fun i j => by
      fin_cases i <;> fin_cases j <;> simp [W], fun m i => by simp only [mul_sub, Finset.sum_sub_distrib]; ring⟩ fun x hx => by
    obtain ⟨s, hs⟩ := hD x hx
    obtain ⟨m, i⟩ := x
    simp only at hs ⊢
    rw [hs]
    fin_cases i <;> simp [W, Fin.sum_univ_three] <;> ring
  have e0 := congrFun hz (n, 0)
  have e1 := congrFun hz (n, 1)
  have e2 := congrFun hz (n, 2)
  simp [W, Fin.sum_univ_three] at e0 e1 e2
  have hne : ∃ i, a i ≠ 0 := Function.ne_iff.1 ha
  obtain ⟨i, hi⟩ := hne
  fin_cases i
  · refine hn ((p n 0 - o 0) / a 0) ?_
    simp at hi
    funext j
    fin_cases j <;> simp <;> field_simp <;> linarith
  · refine hn ((p n 1 - o 1) / a 1) ?_
    simp at hi
    funext j
    fin_cases j <;> simp <;> field_simp <;> linarith
  · refine hn ((p n 2 - o 2) / a 2) ?_
    simp at hi
    funext j
    fin_cases j <;> simp <;> field_simp <;> linarith

end Verif.Supported
