import Verif.Lemmas.Heated

/-! C145: which bodies have a temperature. -/
namespace Verif.Supported
open Matrix Verif.FEBasis Verif.Heat Verif.Spec.Supported

open Verif.Elastic (enforceK)

variable {N C Q : Type} {d nE k : ℕ} [Fintype N] [Fintype Q] [Fintype C]

/-- What the shape functions and integration points of the first-order elements have in common. -/
structure GoodRule (R : Ref C Q d) (phi : Q → C → ℝ) : Prop where
  sees : Sees R
  unity : Unity R
  weight : ∀ q, 0 < R.weight q
  nonneg : ∀ q c, 0 ≤ phi q c
  one : ∀ q, ∑ c, phi q c = 1

theorem goodRule_p1 [Nonempty Q] (X : Q → Fin d → ℝ) (w : Q → ℝ) (hX : ∀ q, (∀ l, 0 ≤ X q l) ∧ ∑ l, X q l ≤ 1) (hw : ∀ q, 0 < w q) :
    GoodRule (p1 d w) (p1Val X) where
  sees := sees_p1 w
  unity := unity_p1 w
  weight := hw
  nonneg q := p1Val_nonneg (hX q).1 (hX q).2
  one := p1Val_sum X

theorem gauss2_mem (i : Fin 2) : 0 ≤ gauss2 i ∧ gauss2 i ≤ 1 := by
  have h0 : (0 : ℝ) ≤ Real.sqrt 3 := Real.sqrt_nonneg 3
  have h1 : Real.sqrt 3 ≤ 2 := by rw [Real.sqrt_le_left (by norm_num)]; norm_num
  fin_cases i <;> simp [gauss2] <;> constructor <;> linarith

/-- The values of the trilinear shape functions at the points of `hex2`. -/
noncomputable def hex2Val : (Fin 3 → Fin 2) → Fin 8 → ℝ := q1Val fun q k => gauss2 (q k)

theorem goodRule_hex2 : GoodRule hex2 hex2Val where
  sees := sees_q1 _ _ grid_gauss2
  unity := unity_q1 _ _
  weight _ := by norm_num [hex2, q1]
  nonneg q := q1Val_nonneg fun l => gauss2_mem (q l)
  one := q1Val_sum _

omit [Fintype Q] in
theorem regular_of {M : Mesh N (Fin nE) C d} {R : Ref C Q d} {phi : Q → C → ℝ} (hR : GoodRule R phi) (hM : NonDegenerate M R) :
    Regular (scalarBasis M R phi) where
  dx e q := mul_pos (abs_pos.mpr (hM e q)) (hR.weight q)
  val n e q := scalar_nonneg hR.nonneg n e q
  one e q := scalar_one hR.one e q

open Classical in
/-- As `C83_heat_unique_solution`, but the losses may help to fix the temperature. -/
theorem unique_of_losses (T : Task N Q d nE k) (hT : Built T) (hB : Regular T.fe) (law : ℝ → ℝ → ℝ → ℝ → ℝ) (Ec : ℝ) (rho : Fin nE → ℝ) (p : ℝ)
    (hk : ∀ e, 0 < T.ke law Ec rho p e) (D : Finset N) (hl : ∀ u, 0 ≤ lossEnergy T rho p u)
    (hconn : ∀ w : N → ℝ, (∀ i ∈ D, w i = 0) → (∀ e q a, Spec.Heat.slope T.fe w e q a = 0) → lossEnergy T rho p w = 0 → w = 0) :
    (enforceK (T.matrix law Ec rho p) D).det ≠ 0 ∧
    ∀ v, ∃! u, Spec.Heat.Balanced T.fe (T.ke law Ec rho p) T.robin T.regions p T.q (T.nodal rho) D v u := by
  set K := T.matrix law Ec rho p with hK
  have hker : ∀ u : N → ℝ, enforceK K D *ᵥ u = 0 → u = 0 := by
    intro u hu
    have hs : HSolves K D 0 0 u := by
      unfold HSolves; rw [hu]; funext i; simp [enforceRhs]
    rw [hsolves_iff] at hs
    have hz : compliance K u = 0 := by
      unfold compliance
      refine Finset.sum_eq_zero fun i _ => ?_
      by_cases hi : i ∈ D
      · rw [hs.1 i hi]; ring
      · rw [hs.2 i hi]; simp
    rw [hK, C86_compliance_is_dissipation T hT] at hz
    have hen := energy_nonneg T.fe hB (T.ke law Ec rho p) (fun e => (hk e).le) u
    have hsum := Finset.sum_nonneg fun e (_ : e ∈ Finset.univ) => hen e
    have hlu := hl u
    have hs0 : ∑ e, energy T.fe (T.ke law Ec rho p) u e = 0 := by linarith
    refine hconn u hs.1 (fun e q a => ?_) (by linarith)
    have h1 := (Finset.sum_eq_zero_iff_of_nonneg fun e _ => hen e).mp hs0 e (Finset.mem_univ e)
    unfold energy at h1
    have h2 := (Finset.sum_eq_zero_iff_of_nonneg fun q _ => mul_nonneg (mul_nonneg (mul_nonneg (by norm_num) (hk e).le)
      (Finset.sum_nonneg fun a _ => mul_self_nonneg (gradAt T.fe u e q a))) (hB.dx e q).le).mp h1 q (Finset.mem_univ q)
    have h3 : Heat.dot (gradAt T.fe u e q) (gradAt T.fe u e q) = 0 := by
      rcases mul_eq_zero.mp h2 with h | h
      · rcases mul_eq_zero.mp h with h | h
        · have := hk e; linarith
        · exact h
      · exact absurd h (hB.dx e q).ne'
    exact mul_self_eq_zero.mp ((Finset.sum_eq_zero_iff_of_nonneg fun a _ => mul_self_nonneg (gradAt T.fe u e q a)).mp h3 a
      (Finset.mem_univ a))
  have hdet : (enforceK K D).det ≠ 0 := by
    intro hd0
    obtain ⟨u, hu0, hu⟩ := Matrix.exists_mulVec_eq_zero_iff.mpr hd0
    exact hu0 (hker u hu)
  refine ⟨hdet, fun v => ?_⟩
  refine ⟨(enforceK K D)⁻¹ *ᵥ enforceRhs (T.emit rho p) D v, ?_, ?_⟩
  · show Spec.Heat.Balanced _ _ _ _ _ _ _ _ _ _
    rw [← hsolves_balanced hT]
    show enforceK K D *ᵥ _ = _
    rw [Matrix.mulVec_mulVec, Matrix.mul_nonsing_inv _ (Ne.isUnit hdet), Matrix.one_mulVec]
  · intro w hw
    have hw' : enforceK K D *ᵥ w = enforceRhs (T.emit rho p) D v := (hsolves_balanced hT law Ec rho p D v w).mpr hw
    rw [← hw', Matrix.mulVec_mulVec, Matrix.nonsing_inv_mul _ (Ne.isUnit hdet), Matrix.one_mulVec]

/-- Without Robin boundaries. -/
theorem unique_iff {M : Mesh N (Fin nE) C d} {R : Ref C Q d} {phi : Q → C → ℝ} (hR : GoodRule R phi) (hM : NonDegenerate M R) (T : Task N Q d nE k)
    (hfe : T.fe = scalarBasis M R phi) (hT : Built T) (hrob : T.robin = none) (law : ℝ → ℝ → ℝ → ℝ → ℝ) (Ec : ℝ) (rho : Fin nE → ℝ)
    (hr : ∀ e, 0 ≤ rho e ∧ rho e ≤ 1) (p : ℝ) (hk : ∀ e, 0 < T.ke law Ec rho p e) (D : Finset N) :
    (∀ v, ∃! u, Spec.Heat.Balanced T.fe (T.ke law Ec rho p) T.robin T.regions p T.q (T.nodal rho) D v u) ↔ Anchored M D := by
  classical
  constructor
  · intro h
    by_contra hc
    simp only [Anchored, not_forall, not_exists, not_and] at hc
    obtain ⟨n, hn⟩ := hc
    obtain ⟨u, hu, huniq⟩ := h 0
    let z : N → ℝ := fun m => if Relation.ReflTransGen (Neighbours M) n m then 1 else 0
    have hz : ∀ e q a, Spec.Heat.slope T.fe z e q a = 0 := fun e q a => by rw [hfe]; exact slope_piece M hR.unity phi n e q a
    have hadd : ∀ e q a, Spec.Heat.slope T.fe (u + z) e q a = Spec.Heat.slope T.fe u e q a := by
      intro e q a
      have : Spec.Heat.slope T.fe (u + z) e q a = Spec.Heat.slope T.fe u e q a + Spec.Heat.slope T.fe z e q a := by
        simp only [Spec.Heat.slope, Pi.add_apply, add_mul, Finset.sum_add_distrib]
      rw [this, hz, add_zero]
    have h2 : u + z = u := by
      refine huniq _ ⟨fun i hi => ?_, fun i hi => ?_⟩
      · have : z i = 0 := if_neg (hn i hi)
        rw [Pi.add_apply, this, add_zero]
        exact hu.1 i hi
      · have := hu.2 i hi
        simp only [hrob, Spec.Heat.losses, add_zero, Spec.Heat.conducted] at this ⊢
        simpa only [hadd] using this
    have h3 := congrFun h2 n
    simp only [Pi.add_apply, z, if_pos Relation.ReflTransGen.refl] at h3
    linarith
  · intro h
    have hB : Regular T.fe := by rw [hfe]; exact regular_of hR hM
    refine (unique_of_losses T hT hB law Ec rho p hk D (fun u => by simp [lossEnergy, hrob]) fun w hw hs _ => ?_).2
    rw [hfe] at hs
    exact connected_of_anchored hR.sees hM h w hw hs

omit [Fintype Q] in
/-- A surface point where the losses vanish: the temperature of a body without slope is zero at the element behind it. -/
theorem cooled_zero {M : Mesh N (Fin nE) C d} {R : Ref C Q d} {phi : Q → C → ℝ} (hR : GoodRule R phi) (hM : NonDegenerate M R) {u : N → ℝ}
    (hs : ∀ e q a, Spec.Heat.slope (scalarBasis M R phi) u e q a = 0) (x : SurfacePoint (Fin nE) C) (hx : ∑ c, x.phi c = 1)
    (hz : ∑ c, u (M.t x.element c) * x.phi c = 0) (c : C) : u (M.t x.element c) = 0 := by
  have hc : ∀ c', u (M.t x.element c') = u (M.t x.element c) := fun c' =>
    same_of_linked hR.sees hM hs (.single ⟨x.element, ⟨c', rfl⟩, c, rfl⟩)
  simp only [hc, ← Finset.mul_sum, hx, mul_one] at hz
  exact hz

/-- With Robin boundaries. -/
theorem unique_cooled {M : Mesh N (Fin nE) C d} {R : Ref C Q d} {phi : Q → C → ℝ} (hR : GoodRule R phi) (hM : NonDegenerate M R) (T : Task N Q d nE k)
    (hfe : T.fe = scalarBasis M R phi) (hT : Built T) (surfaces : List (List (SurfacePoint (Fin nE) C))) (hreg : T.regions = surfaces.map (surface M))
    (hsurf : ∀ ps ∈ surfaces, ∀ x ∈ ps, 0 ≤ x.dx ∧ ∑ c, x.phi c = 1) (h Tenv : ℝ) (hrob : T.robin = some (h, Tenv)) (hh : 0 < h)
    (law : ℝ → ℝ → ℝ → ℝ → ℝ) (Ec : ℝ) (rho : Fin nE → ℝ) (hr : ∀ e, 0 ≤ rho e ∧ rho e ≤ 1) (p : ℝ) (hk : ∀ e, 0 < T.ke law Ec rho p e)
    (D : Finset N) (hD : ∀ n, ∃ m, (m ∈ D ∨ Cooled M surfaces m) ∧ Relation.ReflTransGen (Neighbours M) n m) (v : ℝ) :
    ∃! u, Spec.Heat.Balanced T.fe (T.ke law Ec rho p) T.robin T.regions p T.q (T.nodal rho) D v u := by
  classical
  have hB : Regular T.fe := by rw [hfe]; exact regular_of hR hM
  have hdx : ∀ G ∈ T.regions, ∀ q, 0 ≤ G.dx q := by
    intro G hG q
    rw [hreg] at hG
    obtain ⟨ps, hps, rfl⟩ := List.mem_map.1 hG
    exact (hsurf ps hps _ (List.getElem_mem _)).1
  have hh' : ∀ h' T', T.robin = some (h', T') → 0 ≤ h' := by
    intro h' T' e
    rw [hrob] at e
    injection e with e
    injection e with e _
    rw [← e]; exact hh.le
  refine (unique_of_losses T hT hB law Ec rho p hk D (lossEnergy_nonneg T hB hdx hh' rho hr p) fun w hw hs hl => ?_).2 v
  funext n
  obtain ⟨m, hm, hlink⟩ := hD n
  have hs' := hs
  rw [hfe] at hs'
  rw [same_of_linked hR.sees hM hs' hlink]
  rcases hm with hm | ⟨ps, hps, x, hx, hpos, c, rfl⟩
  · exact hw m hm
  refine cooled_zero hR hM hs' x (hsurf ps hps x hx).2 ?_ c
  -- the losses are a sum of non-negative terms
  unfold lossEnergy at hl
  rw [hrob] at hl
  simp only at hl
  have hmid : 0 ≤ ∑ e, ∑ q, (h * Spec.Heat.field T.fe (T.nodal rho) e q ^ p * (1 - Spec.Heat.field T.fe (T.nodal rho) e q) ^ T.q) *
        Spec.Heat.steepness T.fe (T.nodal rho) e q * Spec.Heat.field T.fe w e q ^ 2 * T.fe.dx e q := by
    have h0 := lossEnergy_nonneg { T with regions := [] } hB (by simp) hh' rho hr p w
    unfold lossEnergy at h0
    simp only [hrob, List.map_nil, List.sum_nil, zero_add] at h0
    exact h0
  have hterm : ∀ y ∈ T.regions.map fun G => ∑ q, h * (∑ j, w j * G.val j q) ^ 2 * G.dx q, 0 ≤ y := by
    intro y hy
    obtain ⟨G, hG, rfl⟩ := List.mem_map.1 hy
    exact Finset.sum_nonneg fun q _ => mul_nonneg (mul_nonneg hh.le (sq_nonneg _)) (hdx G hG q)
  have hsum : (T.regions.map fun G => ∑ q, h * (∑ j, w j * G.val j q) ^ 2 * G.dx q).sum = 0 := by
    have := List.sum_nonneg hterm
    linarith
  have hG : surface M ps ∈ T.regions := by rw [hreg]; exact List.mem_map_of_mem hps
  have hzero := List.all_zero_of_le_zero_le_of_sum_eq_zero hterm hsum (List.mem_map_of_mem hG)
  obtain ⟨i, hi, rfl⟩ := List.mem_iff_getElem.1 hx
  have hpt := (Finset.sum_eq_zero_iff_of_nonneg fun q _ => mul_nonneg (mul_nonneg hh.le (sq_nonneg _)) (hdx _ hG q)).1 hzero ⟨i, hi⟩ (Finset.mem_univ _)
  have hval : ∑ j, w j * (surface M ps).val j ⟨i, hi⟩ = 0 := by
    rcases mul_eq_zero.1 hpt with h1 | h1
    · rcases mul_eq_zero.1 h1 with h2 | h2
      · exact absurd h2 hh.ne'
      · exact pow_eq_zero_iff (two_ne_zero) |>.1 h2
    · exact absurd h1 hpos.ne'
  rw [← value_scalar M ps[i].phi w ps[i].element, ← hval]
  refine Finset.sum_congr rfl fun n _ => ?_
  simp only [surface]
  congr 1
  exact Finset.sum_congr rfl fun c _ => by congr

/-- **C145 (tetrahedra, without Robin boundaries).** In a mesh of simplices of any dimension, none of them flat, with positive conductivities: the
heat balance has exactly one solution for every prescribed temperature if and only if every piece of the mesh has a node with prescribed
temperature. -/
theorem C145_tetrahedra_unique_iff (M : Mesh N (Fin nE) (Fin (d + 1)) d) (hflat : NotFlat M) [Nonempty Q] (X : Q → Fin d → ℝ) (w : Q → ℝ)
    (hX : ∀ q, (∀ l, 0 ≤ X q l) ∧ ∑ l, X q l ≤ 1) (hw : ∀ q, 0 < w q) (T : Task N Q d nE k) (hfe : T.fe = scalarBasis M (p1 d w) (p1Val X))
    (hT : ∃ T0 : Task N Q d nE k, T0.build = .ok T) (hrob : T.robin = none) (law : ℝ → ℝ → ℝ → ℝ → ℝ) (Ec : ℝ) (rho : Fin nE → ℝ)
    (hr : ∀ e, 0 ≤ rho e ∧ rho e ≤ 1) (p : ℝ) (hk : ∀ e, 0 < T.ke law Ec rho p e) (D : Finset N) :
    (∀ v, ∃! u, Spec.Heat.Balanced T.fe (T.ke law Ec rho p) T.robin T.regions p T.q (T.nodal rho) D v u) ↔ Anchored M D :=
  unique_iff (goodRule_p1 X w hX hw) (fun e q => det_p1 M hflat w e q) T hfe hT hrob law Ec rho hr p hk D

/-- **C145 (hexahedra, without Robin boundaries).** The same for hexahedra of any shape that are not degenerate, with two integration points per
direction. -/
theorem C145_hexahedra_unique_iff (M : Mesh N (Fin nE) (Fin 8) 3) (hM : NonDegenerate M hex2) (T : Task N (Fin 3 → Fin 2) 3 nE k)
    (hfe : T.fe = scalarBasis M hex2 hex2Val) (hT : ∃ T0 : Task N (Fin 3 → Fin 2) 3 nE k, T0.build = .ok T) (hrob : T.robin = none)
    (law : ℝ → ℝ → ℝ → ℝ → ℝ) (Ec : ℝ) (rho : Fin nE → ℝ) (hr : ∀ e, 0 ≤ rho e ∧ rho e ≤ 1) (p : ℝ) (hk : ∀ e, 0 < T.ke law Ec rho p e)
    (D : Finset N) :
    (∀ v, ∃! u, Spec.Heat.Balanced T.fe (T.ke law Ec rho p) T.robin T.regions p T.q (T.nodal rho) D v u) ↔ Anchored M D :=
  unique_iff goodRule_hex2 hM T hfe hT hrob law Ec rho hr p hk D

/-- **C145 (tetrahedra, Robin boundaries).** With Robin boundaries of positive film coefficient it is enough that every piece of the mesh has a node
with prescribed temperature or an element with a cooled surface. -/
theorem C145_tetrahedra_cooled (M : Mesh N (Fin nE) (Fin (d + 1)) d) (hflat : NotFlat M) [Nonempty Q] (X : Q → Fin d → ℝ) (w : Q → ℝ)
    (hX : ∀ q, (∀ l, 0 ≤ X q l) ∧ ∑ l, X q l ≤ 1) (hw : ∀ q, 0 < w q) (T : Task N Q d nE k) (hfe : T.fe = scalarBasis M (p1 d w) (p1Val X))
    (hT : ∃ T0 : Task N Q d nE k, T0.build = .ok T) (surfaces : List (List (SurfacePoint (Fin nE) (Fin (d + 1)))))
    (hreg : T.regions = surfaces.map (surface M)) (hsurf : ∀ ps ∈ surfaces, ∀ x ∈ ps, 0 ≤ x.dx ∧ ∑ c, x.phi c = 1) (h Tenv : ℝ)
    (hrob : T.robin = some (h, Tenv)) (hh : 0 < h) (law : ℝ → ℝ → ℝ → ℝ → ℝ) (Ec : ℝ) (rho : Fin nE → ℝ) (hr : ∀ e, 0 ≤ rho e ∧ rho e ≤ 1) (p : ℝ)
    (hk : ∀ e, 0 < T.ke law Ec rho p e) (D : Finset N)
    (hD : ∀ n, ∃ m, (m ∈ D ∨ Cooled M surfaces m) ∧ Relation.ReflTransGen (Neighbours M) n m) (v : ℝ) :
    ∃! u, Spec.Heat.Balanced T.fe (T.ke law Ec rho p) T.robin T.regions p T.q (T.nodal rho) D v u :=
  unique_cooled (goodRule_p1 X w hX hw) (fun e q => det_p1 M hflat w e q) T hfe hT surfaces hreg hsurf h Tenv hrob hh law Ec rho hr p hk D hD v

/-- **C145 (hexahedra, Robin boundaries).** -/
theorem C145_hexahedra_cooled (M : Mesh N (Fin nE) (Fin 8) 3) (hM : NonDegenerate M hex2) (T : Task N (Fin 3 → Fin 2) 3 nE k)
    (hfe : T.fe = scalarBasis M hex2 hex2Val) (hT : ∃ T0 : Task N (Fin 3 → Fin 2) 3 nE k, T0.build = .ok T)
    (surfaces : List (List (SurfacePoint (Fin nE) (Fin 8)))) (hreg : T.regions = surfaces.map (surface M))
    (hsurf : ∀ ps ∈ surfaces, ∀ x ∈ ps, 0 ≤ x.dx ∧ ∑ c, x.phi c = 1) (h Tenv : ℝ) (hrob : T.robin = some (h, Tenv)) (hh : 0 < h)
    (law : ℝ → ℝ → ℝ → ℝ → ℝ) (Ec : ℝ) (rho : Fin nE → ℝ) (hr : ∀ e, 0 ≤ rho e ∧ rho e ≤ 1) (p : ℝ) (hk : ∀ e, 0 < T.ke law Ec rho p e)
    (D : Finset N) (hD : ∀ n, ∃ m, (m ∈ D ∨ Cooled M surfaces m) ∧ Relation.ReflTransGen (Neighbours M) n m) (v : ℝ) :
    ∃! u, Spec.Heat.Balanced T.fe (T.ke law Ec rho p) T.robin T.regions p T.q (T.nodal rho) D v u :=
  unique_cooled goodRule_hex2 hM T hfe hT surfaces hreg hsurf h Tenv hrob hh law Ec rho hr p hk D hD v

omit [Fintype N] [Fintype C] in
/-- **C145 (one piece).** A mesh in one piece needs a single node with prescribed temperature. -/
theorem C145_one_node (M : Mesh N (Fin nE) C d) (hd : 0 < d) (hone : OnePiece M) (D : Finset N) (hD : D.Nonempty) : Anchored M D := by
  obtain ⟨m, hm⟩ := hD
  intro n
  refine ⟨m, hm, ?_⟩
  obtain ⟨e, c, rfl⟩ := hone.2 n
  obtain ⟨e', c', rfl⟩ := hone.2 m
  have key : ∀ e'', Relation.ReflTransGen (Joined M) e e'' → ∀ c'', Relation.ReflTransGen (Neighbours M) (M.t e c) (M.t e'' c'') := by
    intro e'' h
    induction h with
    | refl => exact fun c'' => .single ⟨e, ⟨c, rfl⟩, c'', rfl⟩
    | tail _ hj ih =>
      rename_i e1 e2 _
      intro c''
      obtain ⟨n, hn, -⟩ := hj
      obtain ⟨⟨c1, h1⟩, c2, h2⟩ := hn ⟨0, hd⟩
      exact (h1 ▸ ih c1).tail ⟨e2, ⟨c2, h2⟩, c'', rfl⟩
  exact key e' (hone.1 e e') c'

end Verif.Supported
