import Verif.Lemmas.Elastic
import Verif.Model.Solver
import Verif.Props.Material
import Verif.Props.Solver
import Mathlib.LinearAlgebra.Matrix.ToLinearEquiv

/-!
Elasticity analysis: load cases are independent (C68), compliance and strain energy (C69), monotonicity in the density (C70), the
compliance sensitivity is the gradient (C71), unique solvability (C73).
-/
namespace Verif.Elastic

open Matrix Material

variable {ι E Q : Type} [Fintype ι] [Fintype E] [Fintype Q] {d : ℕ}

noncomputable section

/-- The moduli of a density field under the SIMP law, `elem_func(rho, E0, Emin, p)`. -/
def simpField (E0 Emin p : ℝ) (rho : E → ℝ) : E → ℝ := fun e => simp (rho e) E0 Emin p

/-! ### C69: compliance and strain energy -/

/-- **C69.** For every mesh, load, support and modulus field, and every exact solution of the enforced system: supported degrees of
freedom do not move, every free one is in equilibrium, the compliance `f · u` equals `u · K u` and twice the sum of the element strain
energies reported for the same field, and one-load and multi-load analyses compute the same number. -/
theorem C69_compliance_is_twice_energy (B : FE ι E Q d) (Em : E → ℝ) (nu : ℝ) (D : Finset ι) (f u : ι → ℝ)
    (h : Solves (stiffness B Em nu) D f u) :
    (∀ i ∈ D, u i = 0) ∧ (∀ i ∉ D, ∑ j, stiffness B Em nu i j * u j = f i) ∧
    complianceSingle D f u = complianceMulti D f u ∧
    complianceSingle D f u = ∑ i, f i * u i ∧
    complianceSingle D f u = ∑ i, u i * ∑ j, stiffness B Em nu i j * u j ∧
    complianceSingle D f u = 2 * ∑ e, elemEnergy B Em nu u e := by
  classical
  have h0 := fun i hi => h.zero (i := i) hi
  have e0 : complianceMulti D f u = ∑ i, f i * u i := by
    unfold complianceMulti
    apply Finset.sum_congr rfl
    intro i _
    by_cases hi : i ∈ D
    · rw [h0 i hi]; ring
    · simp [enforceF, hi]
  have e1 := complianceMulti_test h h0
  refine ⟨h0, fun i hi => h.free hi, compliance_single_eq_multi D f u, ?_, ?_, ?_⟩
  · rw [compliance_single_eq_multi, e0]
  · rw [compliance_single_eq_multi, e1]
  · rw [compliance_single_eq_multi, compliance_self B nu h, Finset.mul_sum]
    apply Finset.sum_congr rfl
    intro e _
    rw [elemEnergy_eq]; ring

/-- **C69 (sign).** Strain energies and compliances are never negative, for every admissible Poisson ratio and non-negative moduli. -/
theorem C69_energy_nonneg (B : FE ι E Q d) (hd : d ≤ 3) (hdx : ∀ e q, 0 ≤ B.dx e q) (Em : E → ℝ) (hE : ∀ e, 0 ≤ Em e) (nu : ℝ)
    (h0 : -1 < nu) (h1 : nu < 1 / 2) (u : ι → ℝ) :
    (∀ e, 0 ≤ elemEnergy B Em nu u e) ∧
    ∀ D f, Solves (stiffness B Em nu) D f u → 0 ≤ complianceSingle D f u := by
  have h : ∀ e, 0 ≤ elemEnergy B Em nu u e := by
    intro e
    rw [elemEnergy_eq]
    have := mul_nonneg (hE e) (unitForm_nonneg B hd hdx h0 h1 u e)
    linarith
  refine ⟨h, fun D f hs => ?_⟩
  rw [(C69_compliance_is_twice_energy B Em nu D f u hs).2.2.2.2.2]
  have := Finset.sum_nonneg fun e (_ : e ∈ Finset.univ) => h e
  linarith

/-- **C69 (load factor).** Multiplying a load by a factor multiplies the displacement by the factor and the compliance and the element
energies by its square. -/
theorem C69_load_factor (B : FE ι E Q d) (Em : E → ℝ) (nu : ℝ) (D : Finset ι) (f u : ι → ℝ) (s : ℝ)
    (h : Solves (stiffness B Em nu) D f u) :
    Solves (stiffness B Em nu) D (fun i => f i * s) (fun i => u i * s) ∧
    complianceSingle D (fun i => f i * s) (fun i => u i * s) = s ^ 2 * complianceSingle D f u ∧
    ∀ e, elemEnergy B Em nu (fun i => u i * s) e = s ^ 2 * elemEnergy B Em nu u e := by
  classical
  refine ⟨?_, ?_, fun e => ?_⟩
  · rw [solves_iff]
    refine ⟨fun i hi => by simp [h.zero hi], fun i hi => ?_⟩
    rw [← h.free hi, Finset.sum_mul]
    exact Finset.sum_congr rfl fun j _ => by ring
  · unfold complianceSingle
    rw [Finset.mul_sum]
    apply Finset.sum_congr rfl
    intro i _
    unfold enforceF
    split_ifs <;> ring
  · rw [elemEnergy_eq, elemEnergy_eq]
    have hg : ∀ q, gradOf B (fun i => u i * s) e q = s • gradOf B u e q := by
      intro q
      unfold gradOf
      rw [Finset.smul_sum]
      exact Finset.sum_congr rfl fun i _ => by rw [smul_smul, mul_comm]
    have : unitForm B nu (fun i => u i * s) (fun i => u i * s) e = s ^ 2 * unitForm B nu u u e := by
      unfold unitForm
      rw [Finset.mul_sum]
      apply Finset.sum_congr rfl
      intro q _
      rw [hg, stiffForm_smul, stiffForm_comm, stiffForm_smul]; ring
    rw [this]; ring

/-! ### C70: adding material never increases compliance -/

/-- **C70.** With the SIMP law, adding material anywhere never increases the compliance of a fixed load: for every mesh, every pair of
density fields `rho ≤ rho'`, every admissible Poisson ratio and every penalty exponent. -/
theorem C70_more_material_never_softer (B : FE ι E Q d) (hd : d ≤ 3) (hdx : ∀ e q, 0 ≤ B.dx e q) (nu : ℝ) (h0 : -1 < nu)
    (h1 : nu < 1 / 2) (E0 Emin p : ℝ) (hE0 : 0 ≤ Emin) (hE : Emin ≤ E0) (hp : 0 < p) (rho rho' : E → ℝ)
    (hr : ∀ e, 0 ≤ rho e ∧ rho e ≤ rho' e) (D : Finset ι) (f u u' : ι → ℝ)
    (h : Solves (stiffness B (simpField E0 Emin p rho) nu) D f u)
    (h' : Solves (stiffness B (simpField E0 Emin p rho') nu) D f u') :
    complianceSingle D f u' ≤ complianceSingle D f u := by
  rw [compliance_single_eq_multi, compliance_single_eq_multi]
  have hmono : ∀ e, simpField E0 Emin p rho e ≤ simpField E0 Emin p rho' e := fun e =>
    (Props.C24_simp_range_and_monotone E0 Emin p hE hp).2.1 _ _ (hr e).1 (hr e).2
  have hnn : ∀ e, 0 ≤ simpField E0 Emin p rho e := by
    intro e
    unfold simpField simp
    have := mul_nonneg (sub_nonneg.mpr hE) (Real.rpow_nonneg (hr e).1 p)
    linarith
  have key : 0 ≤ ∑ e, simpField E0 Emin p rho e * unitForm B nu (u - u') (u - u') e :=
    Finset.sum_nonneg fun e _ => mul_nonneg (hnn e) (unitForm_nonneg B hd hdx h0 h1 _ e)
  have c1 := compliance_self B nu h
  have c2 := compliance_self B nu h'
  have c3 : complianceMulti D f u' = ∑ e, simpField E0 Emin p rho e * unitForm B nu u u' e := by
    rw [complianceMulti_test h (fun i hi => h'.zero hi), stiffness_form]
  have c4 : ∑ e, simpField E0 Emin p rho e * unitForm B nu u' u' e ≤ complianceMulti D f u' := by
    rw [c2]
    exact Finset.sum_le_sum fun e _ => mul_le_mul_of_nonneg_right (hmono e) (unitForm_nonneg B hd hdx h0 h1 _ e)
  have c5 : ∑ e, simpField E0 Emin p rho e * unitForm B nu (u - u') (u - u') e =
      complianceMulti D f u - 2 * complianceMulti D f u' + ∑ e, simpField E0 Emin p rho e * unitForm B nu u' u' e := by
    rw [c1, c3, Finset.mul_sum, ← Finset.sum_sub_distrib, ← Finset.sum_add_distrib]
    apply Finset.sum_congr rfl
    intro e _
    rw [unitForm_sub_sub]; ring
  linarith

/-! ### C71: the sensitivity is the gradient -/

open Classical in
/-- **C71.** For every mesh, load case, support and admissible density field whose system is uniquely solvable, the numbers
`dC_drho_simp(rho, energy, E0, Emin, p)` are the gradient of the compliance: along every differentiable curve of density fields through
`rho` the derivative of the compliance of the exact solutions is the sum of these numbers times the density rates. -/
theorem C71_sensitivity_is_gradient (B : FE ι E Q d) (nu : ℝ) (E0 Emin p : ℝ) (D : Finset ι) (f : ι → ℝ)
    (rho : ℝ → E → ℝ) (v : E → ℝ) (t : ℝ) (hrho : ∀ e, HasDerivAt (fun s => rho s e) (v e) t)
    (hlow : ∀ e, 1 / 10 ^ 6 ≤ rho t e) (hmod : ∀ e, 1 / 10 ^ 12 ≤ simp (rho t e) E0 Emin p)
    (u : ℝ → ι → ℝ) (hu : ∀ᶠ s in nhds t, Solves (stiffness B (simpField E0 Emin p (rho s)) nu) D f (u s))
    (hdet : (enforceK (stiffness B (simpField E0 Emin p (rho t)) nu) D).det ≠ 0) :
    HasDerivAt (fun s => complianceSingle D f (u s))
      (∑ e, dCSimp (rho t e) (elemEnergy B (simpField E0 Emin p (rho t)) nu (u t) e) E0 Emin p * v e) t := by
  have hEd : ∀ e, HasDerivAt (fun s => simpField E0 Emin p (rho s) e) (dESimp (rho t e) E0 Emin p * v e) t := fun e =>
    HasDerivAt.comp (h₂ := fun r => simp r E0 Emin p) t (Props.C25_simp_derivative (rho t e) E0 Emin p (hlow e)) (hrho e)
  have hmain := compliance_hasDerivAt B nu D f (fun s => simpField E0 Emin p (rho s)) _ t hEd hdet u hu
  have hfun : (fun s => complianceSingle D f (u s)) = fun s => complianceMulti D f (u s) := by
    funext s; exact compliance_single_eq_multi D f (u s)
  rw [hfun]
  refine hmain.congr_deriv ?_
  rw [← Finset.sum_neg_distrib]
  apply Finset.sum_congr rfl
  intro e _
  have he : eSimp (rho t e) E0 Emin p = simp (rho t e) E0 Emin p := by
    unfold eSimp simp; rw [max_eq_left]; exact hlow e
  have hE' : floor12 ≤ simp (rho t e) E0 Emin p := hmod e
  have hpos : 0 < simp (rho t e) E0 Emin p := lt_of_lt_of_le (by positivity) (hmod e)
  rw [elemEnergy_eq]
  unfold dCSimp
  simp only
  rw [he, max_eq_left hE']
  unfold simpField
  field_simp

/-! ### C73: unique solvability -/

open Classical in
/-- For positive moduli and supports that admit no motion without strain, the enforced system has exactly one solution for every load. -/
theorem unique_solution_of_pos (B : FE ι E Q d) (hd : d ≤ 3) (hdx : ∀ e q, 0 < B.dx e q) (nu : ℝ) (h0 : -1 < nu)
    (h1 : nu < 1 / 2) (Em : E → ℝ) (hpos : ∀ e, 0 < Em e) (D : Finset ι)
    (hrigid : ∀ u : ι → ℝ, (∀ i ∈ D, u i = 0) → (∀ e q, sym (gradOf B u e q) = 0) → u = 0) :
    (enforceK (stiffness B Em nu) D).det ≠ 0 ∧ ∀ f, ∃! u, Solves (stiffness B Em nu) D f u := by
  have hdx' : ∀ e q, 0 ≤ B.dx e q := fun e q => (hdx e q).le
  have hker : ∀ u : ι → ℝ, enforceK (stiffness B Em nu) D *ᵥ u = 0 → u = 0 := by
    intro u hu
    have hs : Solves (stiffness B Em nu) D 0 u := by
      unfold Solves; rw [hu]; funext i; simp [enforceF]
    apply hrigid u (fun i hi => hs.zero hi)
    have hz : ∑ e, Em e * unitForm B nu u u e = 0 := by
      rw [← compliance_self B nu hs]; simp [complianceMulti, enforceF]
    have hze : ∀ e, Em e * unitForm B nu u u e = 0 := fun e =>
      (Finset.sum_eq_zero_iff_of_nonneg fun e _ => mul_nonneg (hpos e).le (unitForm_nonneg B hd hdx' h0 h1 u e)).mp hz e
        (Finset.mem_univ e)
    intro e q
    have hue : unitForm B nu u u e = 0 := by
      rcases mul_eq_zero.mp (hze e) with h | h
      · exact absurd h (hpos e).ne'
      · exact h
    have hq : stiffForm 1 nu (gradOf B u e q) (gradOf B u e q) * B.dx e q = 0 :=
      (Finset.sum_eq_zero_iff_of_nonneg fun q _ => mul_nonneg (stiffForm_nonneg hd h0 h1 _) (hdx' e q)).mp hue q
        (Finset.mem_univ q)
    have hq' : stiffForm 1 nu (gradOf B u e q) (gradOf B u e q) = 0 := by
      rcases mul_eq_zero.mp hq with h | h
      · exact h
      · exact absurd h (hdx e q).ne'
    exact sym_zero_of_form hd h0 h1 hq'
  have hdet : (enforceK (stiffness B Em nu) D).det ≠ 0 := by
    intro hd0
    obtain ⟨u, hu0, hu⟩ := Matrix.exists_mulVec_eq_zero_iff.mpr hd0
    exact hu0 (hker u hu)
  refine ⟨hdet, fun f => ?_⟩
  refine ⟨(enforceK (stiffness B Em nu) D)⁻¹ *ᵥ enforceF f D, ?_, ?_⟩
  · show enforceK _ D *ᵥ _ = _
    rw [Matrix.mulVec_mulVec, Matrix.mul_nonsing_inv _ (Ne.isUnit hdet), Matrix.one_mulVec]
  · intro w hw
    have hw' : enforceK (stiffness B Em nu) D *ᵥ w = enforceF f D := hw
    rw [← hw', Matrix.mulVec_mulVec, Matrix.nonsing_inv_mul _ (Ne.isUnit hdet), Matrix.one_mulVec]

open Classical in
/-- **C73.** If the supports admit no motion without strain, then for every density field the enforced system has exactly one solution
for every load, as long as `Emin` is positive: void elements never make the analysis singular. -/
theorem C73_unique_solution (B : FE ι E Q d) (hd : d ≤ 3) (hdx : ∀ e q, 0 < B.dx e q) (nu : ℝ) (h0 : -1 < nu)
    (h1 : nu < 1 / 2) (E0 Emin p : ℝ) (hE0 : 0 < Emin) (hE : Emin ≤ E0) (rho : E → ℝ) (hr : ∀ e, 0 ≤ rho e) (D : Finset ι)
    (hrigid : ∀ u : ι → ℝ, (∀ i ∈ D, u i = 0) → (∀ e q, sym (gradOf B u e q) = 0) → u = 0) :
    (enforceK (stiffness B (simpField E0 Emin p rho) nu) D).det ≠ 0 ∧
    ∀ f, ∃! u, Solves (stiffness B (simpField E0 Emin p rho) nu) D f u := by
  refine unique_solution_of_pos B hd hdx nu h0 h1 _ (fun e => ?_) D hrigid
  have := mul_nonneg (sub_nonneg.mpr hE) (Real.rpow_nonneg (hr e) p)
  simp only [simpField, simp]; linarith

/-- **C73 (why `Emin` matters).** With `Emin = 0` and an element at density 0 whose node is not held by other material, the system is
singular: here one element alone at density 0. -/
theorem C73_zero_Emin_singular (B : FE ι E Q d) (nu E0 p : ℝ) (hp : 0 < p) (D : Finset ι) (i : ι) (hi : i ∉ D) :
    ∃ u, Solves (stiffness B (simpField E0 0 p fun _ => 0) nu) D 0 u ∧ u ≠ 0 := by
  classical
  refine ⟨Pi.single i 1, ?_, ?_⟩
  · rw [solves_iff]
    refine ⟨fun j hj => ?_, fun j _ => ?_⟩
    · rw [Pi.single_eq_of_ne]; rintro rfl; exact hi hj
    · have hz : ∀ e : E, simpField E0 0 p (fun _ => 0) e = 0 := by
        intro e; unfold simpField simp; rw [Real.zero_rpow hp.ne']; ring
      have : ∀ k, stiffness B (simpField E0 0 p fun _ => 0) nu j k = 0 := by
        intro k
        unfold stiffness
        apply Finset.sum_eq_zero; intro e _
        apply Finset.sum_eq_zero; intro q _
        rw [hz, stiffForm_scale]; ring
      simp [this]
  · intro h
    have := congrFun h i
    simp at this

/-! ### C68: load cases are independent -/

open Classical in
/-- The direct solvers are exact on nonsingular systems. -/
def ExactDirect (B : Solver.Backend ℝ (Matrix ι ι ℝ) (ι → ℝ)) : Prop :=
  ∀ k : Matrix ι ι ℝ, k.det ≠ 0 → (∀ f, B.spsolve k f = .ok (k⁻¹ *ᵥ f)) ∧ ∀ fs, B.splu k fs = .ok (fs.map fun f => k⁻¹ *ᵥ f)

theorem mapM_ok {α β : Type} (g : α → Res β) (h : α → β) (hg : ∀ a, g a = .ok (h a)) (l : List α) : l.mapM g = .ok (l.map h) := by
  induction l with
  | nil => rfl
  | cons a l ih => rw [List.mapM_cons, hg, ih]; rfl

theorem zipWith_map_self {α β γ : Type} (h : α → β → γ) (g : α → β) (l : List α) :
    List.zipWith h l (l.map g) = l.map fun a => h a (g a) := by
  induction l with
  | nil => rfl
  | cons a l ih => simp only [List.map_cons, List.zipWith_cons_cons, ih]

open Classical in
/-- **C68, partial.** With the direct solver (`spsolve`, or `auto` below 1000 unknowns), analysing any number of load cases together
gives each of them exactly the compliance and the displacement it has when it is analysed alone. Missing: the PETSc solvers, see
`C68_petsc_iteration_limits_differ`. -/
theorem C68_load_cases_independent_partial (B : Solver.Backend ℝ (Matrix ι ι ℝ) (ι → ℝ)) (hB : ExactDirect B) (c : Solver.Cfg ℝ)
    (hc : c.solver = "spsolve" ∨ (c.solver = "auto" ∧ Fintype.card ι < 1000)) (K : Matrix ι ι ℝ) (D : Finset ι)
    (hdet : (enforceK K D).det ≠ 0) (fs : List (ι → ℝ)) (hfs : fs ≠ []) :
    computeMulti B c K D fs = (fs.mapM (computeSingle B c K D)).map fun rs => (rs.map Prod.fst, rs.map Prod.snd) := by
  have hs : ∀ f, computeSingle B c K D f =
      .ok (complianceSingle D f ((enforceK K D)⁻¹ *ᵥ enforceF f D), (enforceK K D)⁻¹ *ᵥ enforceF f D) := by
    intro f
    have h1 : Solver.solveSingle B c (Fintype.card ι) (enforceK K D) (enforceF f D) = B.spsolve (enforceK K D) (enforceF f D) := by
      rcases hc with h | ⟨h, hn⟩
      · have := (Solver.C49_explicit_solver_used_as_is B c (Fintype.card ι) (enforceK K D) (enforceF f D)).1 (.inr (.inr h)) {}
        rw [h] at this
        exact Option.some.inj this
      · exact (Solver.C49_auto B c h _ _ _).1 hn
    unfold computeSingle
    rw [h1, (hB _ hdet).1]; rfl
  rw [mapM_ok _ _ hs]
  match fs, hfs with
  | [f], _ => unfold computeMulti; simp only [hs]; rfl
  | f :: g :: l, _ =>
    unfold computeMulti
    simp only
    rw [(Solver.C49_multi_load B c (Fintype.card ι) (enforceK K D)).2.1 _ (by simp)
      (by rcases hc with h | ⟨h, -⟩; exacts [.inr h, .inl h]), (hB _ hdet).2]
    simp only [Except.map]
    congr 2
    · simp only [List.map_cons, List.zipWith_cons_cons, List.map_map, compliance_single_eq_multi, Function.comp_def]
      rw [zipWith_map_self]
    · simp [List.map_map, Function.comp_def]

/-- **C68 (refuted for PETSc).** Even if PETSc treats every column alike, one load case alone runs with an iteration limit (300 to 1000
by default) and several together without one, so results can differ: here alone the solve fails, together it succeeds. -/
theorem C68_petsc_iteration_limits_differ (K : Matrix ι ι ℝ) (D : Finset ι) (f : ι → ℝ) (rtol : ℝ) :
    ∃ B : Solver.Backend ℝ (Matrix ι ι ℝ) (ι → ℝ),
      (∀ r m o k fs us, B.petscMulti r m o k fs = .ok us ↔ (fs.mapM (B.petsc r m o k)).map List.unzip = .ok us) ∧
      computeSingle B { solver := "petsc", rtol := rtol } K D f = .error .runtimeError ∧
      ∃ r, computeMulti B { solver := "petsc", rtol := rtol } K D [f, f] = .ok r := by
  let one : Option ℕ → (ι → ℝ) → Res ((ι → ℝ) × ℤ) := fun m f => if m = none then .ok (f, 1) else .error .runtimeError
  let B : Solver.Backend ℝ (Matrix ι ι ℝ) (ι → ℝ) :=
    { cgJacobi := fun _ _ _ _ => .error .runtimeError, cgPyamg := fun _ _ _ _ => .error .runtimeError,
      spsolve := fun _ _ => .error .runtimeError,
      petsc := fun _ m _ _ f => one m f,
      splu := fun _ _ => .error .runtimeError,
      petscMulti := fun _ m _ _ fs => (fs.mapM (one m)).map List.unzip }
  refine ⟨B, fun r m o k fs us => Iff.rfl, rfl, ?_⟩
  exact ⟨_, rfl⟩

/-! ### A concrete mesh -/

/-- One bar element with two nodes on a line, one quadrature point: the strain is `u 1 - u 0`. -/
def bar : FE (Fin 2) (Fin 1) (Fin 1) 1 where
  grad i _ _ := Matrix.of fun _ _ => if i = 0 then -1 else 1
  dx _ _ := 1

theorem bar_grad (u : Fin 2 → ℝ) (e q : Fin 1) : gradOf bar u e q = Matrix.of fun _ _ => u 1 - u 0 := by
  ext a b
  simp [gradOf, bar, Matrix.sum_apply, Fin.sum_univ_two]; ring

/-- The hypotheses of C73 hold for a bar held at one end, so those of C69–C71 are met by its solutions. -/
theorem bar_rigid (u : Fin 2 → ℝ) (h : ∀ i ∈ ({0} : Finset (Fin 2)), u i = 0) (hs : ∀ e q, sym (gradOf bar u e q) = 0) :
    u = 0 := by
  have h0 : u 0 = 0 := h 0 (by simp)
  have h1 := congrFun (congrFun (hs 0 0) 0) 0
  rw [bar_grad] at h1
  simp only [sym, Matrix.smul_apply, Matrix.add_apply, Matrix.transpose_apply, Matrix.of_apply, Matrix.zero_apply, smul_eq_mul] at h1
  funext i
  fin_cases i
  · exact h0
  · simp only [Pi.zero_apply]
    change u 1 = 0
    linarith

example : ∃! u, Solves (stiffness bar (simpField 210 0.21 3 fun _ => 0.5) 0.3) {0} (fun _ => 1) u :=
  (C73_unique_solution bar (by norm_num) (fun _ _ => by norm_num [bar]) 0.3 (by norm_num) (by norm_num) 210 0.21 3 (by norm_num)
    (by norm_num) _ (fun _ => by norm_num) {0} bar_rigid).2 _

end
end Verif.Elastic
