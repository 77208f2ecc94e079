import Verif.Model.Entry
import Verif.Spec.Entry
import Verif.Props.Elastic
import Verif.Props.Heat

/-!
The public analysis functions: the compatibility module (C126), precedence of the solver configuration (C127), what the multi-load solver
returns (C128), the direct heat solvers (C129).
-/
namespace Verif.Entry

open Matrix Elastic Solver
open Verif.Spec.Entry

variable {ι E Q : Type} [Fintype ι] [Fintype E] [Fintype Q] {d : ℕ}

noncomputable section

/-! ### Virtual work -/

theorem strain_sym (B : Elastic.FE ι E Q d) (u : ι → ℝ) (e : E) (q : Q) : sym (gradOf B u e q) = strain B u e q := by
  ext a b
  simp only [sym, gradOf, strain, Matrix.smul_apply, Matrix.add_apply, Matrix.transpose_apply, Matrix.sum_apply, Matrix.of_apply,
    smul_eq_mul]
  ring

theorem hooke_form (Em nu : ℝ) (g h : Matrix (Fin d) (Fin d) ℝ) : stiffForm Em nu g h = hookeWork Em nu (sym g) (sym h) := by
  unfold stiffForm hookeWork Material.lamMu ddot
  simp only
  by_cases h0 : 1 + nu = 0
  · simp [h0]
  · congr 2
    field_simp

theorem deformed_of_solves {B : Elastic.FE ι E Q d} {Em : E → ℝ} {nu : ℝ} {D : Finset ι} {f u : ι → ℝ}
    (h : Solves (stiffness B Em nu) D f u) : Deformed B Em nu D f u := by
  rw [solves_iff] at h
  refine ⟨h.1, fun w hw => ?_⟩
  have h1 := stiffness_form B Em nu u w
  have h2 : ∑ e, Em e * unitForm B nu u w e = ∑ e, ∑ q, hookeWork (Em e) nu (strain B u e q) (strain B w e q) * B.dx e q := by
    refine Finset.sum_congr rfl fun e _ => ?_
    unfold unitForm
    rw [Finset.mul_sum]
    refine Finset.sum_congr rfl fun q _ => ?_
    rw [← strain_sym, ← strain_sym, ← hooke_form, stiffForm_scale (Em e)]
    ring
  rw [← h2, ← h1]
  refine Finset.sum_congr rfl fun i _ => ?_
  by_cases hi : i ∈ D
  · rw [hw i hi]; ring
  · rw [h.2 i hi]; ring

open Classical in
theorem det_of_held {B : Elastic.FE ι E Q d} {Em : E → ℝ} {nu : ℝ} {D : Finset ι} (h : Held B Em nu D) :
    (enforceK (stiffness B Em nu) D).det ≠ 0 := by
  intro h0
  obtain ⟨v, hv, hk⟩ := Matrix.exists_mulVec_eq_zero_iff.mpr h0
  refine hv (h v (deformed_of_solves ?_))
  show _ = enforceF 0 D
  rw [hk]
  funext i
  simp [enforceF]

/-- The moduli of a problem: `elem_func(rho, E0, Emin, p)`. -/
def Problem.moduli (P : Problem ι E Q d) (e : E) : ℝ := P.elemFunc (P.rho e) P.E0 P.Emin P.p

theorem solves_of_inv {K : Matrix ι ι ℝ} {D : Finset ι} [DecidableEq ι] (hdet : (enforceK K D).det ≠ 0) (f : ι → ℝ) :
    Solves K D f ((enforceK K D)⁻¹ *ᵥ enforceF f D) := by
  show enforceK K D *ᵥ _ = _
  rw [Matrix.mulVec_mulVec, Matrix.mul_nonsing_inv _ (Ne.isUnit hdet), Matrix.one_mulVec]

/-- A solver choice that solves directly: `spsolve`, or `auto` on a small system. -/
def Direct (n : ℕ) (s : String) : Prop := s = "spsolve" ∨ (s = "auto" ∧ n < 1000)

open Classical in
theorem computeSingle_direct (B : Backend ℝ (Matrix ι ι ℝ) (ι → ℝ)) (hB : ExactDirect B) (c : Cfg ℝ)
    (hc : Direct (Fintype.card ι) c.solver) (K : Matrix ι ι ℝ) (D : Finset ι) (hdet : (enforceK K D).det ≠ 0) (f : ι → ℝ) :
    computeSingle B c K D f = .ok (complianceSingle D f ((enforceK K D)⁻¹ *ᵥ enforceF f D), (enforceK K D)⁻¹ *ᵥ enforceF f D) := by
  have h1 : solveSingle B c (Fintype.card ι) (enforceK K D) (enforceF f D) = B.spsolve (enforceK K D) (enforceF f D) := by
    rcases hc with h | ⟨h, hn⟩
    · have := (Solver.C49_explicit_solver_used_as_is B c (Fintype.card ι) (enforceK K D) (enforceF f D)).1 (.inr (.inr h)) {}
      rw [h] at this
      exact Option.some.inj this
    · exact (Solver.C49_auto B c h _ _ _).1 hn
  unfold computeSingle
  rw [h1, (hB _ hdet).1]; rfl

open Classical in
theorem complianceBasis_direct (B : Backend ℝ (Matrix ι ι ℝ) (ι → ℝ)) (hB : ExactDirect B) (P : Problem ι E Q d) (f : ι → ℝ) (a : Args)
    (hc : Direct (Fintype.card ι) a.cfg.solver) (hP : Held P.fe P.moduli P.nu0 P.dirichlet) :
    ∃ u, complianceBasis B P f a = .ok (∑ i, f i * u i, u) ∧ Deformed P.fe P.moduli P.nu0 P.dirichlet f u := by
  have hdet := det_of_held hP
  have hs := solves_of_inv hdet f
  refine ⟨_, ?_, deformed_of_solves hs⟩
  unfold complianceBasis
  rw [show P.matrix = stiffness P.fe P.moduli P.nu0 from rfl, computeSingle_direct B hB _ hc _ _ hdet, (C69_compliance_is_twice_energy P.fe P.moduli P.nu0 P.dirichlet f _ hs).2.2.2.1]

/-! ### C126: the compatibility module -/

/-- **C126, partial.** For every body that is held, every load, an exact direct solver and a solver choice that solves directly: the
single-load functions of `sktopt.fea.solver` return the displacement of the body under the load and the work of the load, with the moduli of
the given interpolation (`compute_compliance_basis`, `compute_compliance_basis_numba`) or the SIMP law (`compute_compliance_simp_basis`).
Missing: the multi-load functions of the module, see `C126_multi_load_always_raises`. -/
theorem C126_single_load_partial (B : Backend ℝ (Matrix ι ι ℝ) (ι → ℝ)) (hB : ExactDirect B) (P : Problem ι E Q d) (f : ι → ℝ) (s : String)
    (hs : Direct (Fintype.card ι) s) (rtol : ℝ) (maxiter : Option ℕ) :
    (Held P.fe (fun e => P.elemFunc (P.rho e) P.E0 P.Emin P.p) P.nu0 P.dirichlet →
      ∃ u, compatSingle B P f (.name s) rtol maxiter = .ok (∑ i, f i * u i, u) ∧
        compatNumba B P f (.name s) rtol maxiter = .ok (∑ i, f i * u i, u) ∧
        Deformed P.fe (fun e => P.elemFunc (P.rho e) P.E0 P.Emin P.p) P.nu0 P.dirichlet f u) ∧
    (Fintype.card ι < 1000 → Held P.fe (fun e => P.Emin + (P.E0 - P.Emin) * P.rho e ^ P.p) P.nu0 P.dirichlet →
      ∃ u, compatSimp B P f = .ok (∑ i, f i * u i, u) ∧
        Deformed P.fe (fun e => P.Emin + (P.E0 - P.Emin) * P.rho e ^ P.p) P.nu0 P.dirichlet f u) := by
  refine ⟨fun h => ?_, fun hn h => ?_⟩
  · obtain ⟨u, h1, h2⟩ := complianceBasis_direct B hB P f
      { solver := .name s
        rtol := rtol
        maxiter := maxiter } hs h
    exact ⟨u, h1, h1, h2⟩
  · exact complianceBasis_direct B hB { P with elemFunc := Material.simp } f {} (.inr ⟨rfl, hn⟩) h

/-- **C126.** Whatever the numerical libraries do: the single-load functions of the compatibility module give the results (or exceptions) of
the solver module for the same solver, tolerance and iteration limit, and `compute_compliance_simp_basis` those of its defaults. -/
theorem C126_same_as_module (B : Backend ℝ (Matrix ι ι ℝ) (ι → ℝ)) (P : Problem ι E Q d) (f : ι → ℝ) (s : Choice) (rtol : ℝ)
    (maxiter : Option ℕ) :
    compatSingle B P f s rtol maxiter = complianceBasis B P f { solver := s, rtol := rtol, maxiter := maxiter } ∧
    compatNumba B P f s rtol maxiter = complianceBasis B P f { solver := s, rtol := rtol, maxiter := maxiter } ∧
    compatSimp B P f = complianceBasis B { P with elemFunc := Material.simp } f {} := ⟨rfl, rfl, rfl⟩

/-- **C126 (solve_u).** The default choice `"auto"` of `sktopt.fea.solver.solve_u` always solves directly, whatever the size of the system, the
tolerance and the iteration limit: the name is unknown to the solver it calls, whose exception triggers the fallback. Explicit names reach
their library with tolerance and iteration limit and never fall back; unknown names are rejected. -/
theorem C126_solve_u (B : Backend ℝ (Matrix ι ι ℝ) (ι → ℝ)) (K : Matrix ι ι ℝ) (F : ι → ℝ) (rtol : ℝ) (maxiter : Option ℕ) :
    compatSolveU B K F (.name "auto") rtol maxiter = B.spsolve K F ∧
    compatSolveU B K F = B.spsolve K F ∧
    compatSolveU B K F (.name "spsolve") rtol maxiter = B.spsolve K F ∧
    compatSolveU B K F (.name "cg_jacobi") rtol maxiter = (B.cgJacobi rtol maxiter K F).map Prod.fst ∧
    compatSolveU B K F (.name "cg_pyamg") rtol maxiter = (B.cgPyamg rtol maxiter K F).map Prod.fst ∧
    (∀ s, s ≠ "auto" → s ∉ ["cg_jacobi", "cg_pyamg", "spsolve", "petsc", "petsc_spdirect"] →
      compatSolveU B K F (.name s) rtol maxiter = .error .valueError) := by
  refine ⟨rfl, rfl, ?_, ?_, ?_, fun s h1 h2 => ?_⟩
  · show solveU B _ K F = _
    rw [solveU_noFallback B _ rfl]; rfl
  · show solveU B _ K F = _
    rw [solveU_noFallback B _ rfl]; rfl
  · show solveU B _ K F = _
    rw [solveU_noFallback B _ rfl]; rfl
  · simp only [List.mem_cons, List.not_mem_nil, or_false, not_or] at h2
    obtain ⟨a, b, c, e, g⟩ := h2
    simp [compatSolveU, solveU, normalize, compatNormalize, dispatch, a, b, c, e, g, h1]

open Classical in
/-- The multi-load functions of the solver module on a held body with a direct solver. -/
theorem multi_direct (B : Backend ℝ (Matrix ι ι ℝ) (ι → ℝ)) (hB : ExactDirect B) (P : Problem ι E Q d) (f g : ι → ℝ)
    (fs : List (ι → ℝ)) (a : Args) (hc : a.cfg.solver = "spsolve" ∨ a.cfg.solver = "auto") (hP : Held P.fe P.moduli P.nu0 P.dirichlet) :
    ∃ us, solveMultiLoad B P (f :: g :: fs) a = .ok (.loads ((f :: g :: fs).map fun f => enforceF f P.dirichlet), us) ∧
      List.Forall₂ (fun f u => Deformed P.fe P.moduli P.nu0 P.dirichlet f u) (f :: g :: fs) us ∧
      complianceBasisMulti B P (f :: g :: fs) a = .ok (List.zipWith (fun f u => ∑ i, f i * u i) (f :: g :: fs) us, us) := by
  have hdet := det_of_held hP
  have hs := fun f => solves_of_inv hdet f
  set sol : (ι → ℝ) → ι → ℝ := fun f => (enforceK (stiffness P.fe P.moduli P.nu0) P.dirichlet)⁻¹ *ᵥ enforceF f P.dirichlet with hsol
  have hsolve : ∀ c : Cfg ℝ, (c.solver = "spsolve" ∨ c.solver = "auto") →
      solveMulti B c (Fintype.card ι) (enforceK P.matrix P.dirichlet) ((f :: g :: fs).map fun f => enforceF f P.dirichlet) =
      .ok ((f :: g :: fs).map sol) := by
    intro c hc
    rw [(Solver.C49_multi_load B c (Fintype.card ι) (enforceK P.matrix P.dirichlet)).2.1 _ (by simp) hc.symm]
    show B.splu (enforceK (stiffness P.fe P.moduli P.nu0) P.dirichlet) _ = _
    rw [(hB _ hdet).2, List.map_map]
    rfl
  have hload : ∀ b : Args, (b.cfg.solver = "spsolve" ∨ b.cfg.solver = "auto") →
      solveMultiLoad B P (f :: g :: fs) b = .ok (.loads ((f :: g :: fs).map fun f => enforceF f P.dirichlet), (f :: g :: fs).map sol) := by
    intro b hb
    unfold solveMultiLoad
    simp only
    rw [hsolve _ hb]; rfl
  refine ⟨(f :: g :: fs).map sol, hload a hc, ?_, ?_⟩
  · rw [List.forall₂_map_right_iff]
    exact List.forall₂_same.mpr fun f _ => deformed_of_solves (hs f)
  · unfold complianceBasisMulti
    simp only
    rw [hload { config := some a.cfg } hc]
    show Except.ok _ = Except.ok _
    congr 2
    rw [zipWith_map_self, List.zipWith_map]
    have : ∀ l : List (ι → ℝ), List.zipWith (fun a b => ∑ i, enforceF a P.dirichlet i * sol b i) l l = l.map fun f => ∑ i, f i * sol f i := by
      intro l
      induction l with
      | nil => rfl
      | cons a l ih =>
        rw [List.zipWith_cons_cons, ih, List.map_cons]
        congr 1
        have h69 := (C69_compliance_is_twice_energy P.fe P.moduli P.nu0 P.dirichlet a _ (hs a))
        rw [← h69.2.2.2.1, h69.2.2.1]; rfl
    exact this _

/-- **C126 (refuted for several load cases).** `sktopt.fea.solver.solve_multi_load` and `compute_compliance_basis_multi_load` raise `TypeError`
whatever their arguments and whatever the libraries do: they pass `n_joblib`, which the functions they call do not accept. The functions they
stand for succeed, e.g., for every held body, every two or more loads and a direct solver. -/
theorem C126_multi_load_always_raises :
    (∀ (B : Backend ℝ (Matrix ι ι ℝ) (ι → ℝ)) (P : Problem ι E Q d) (fs : List (ι → ℝ)) (s : Choice) (rtol : ℝ) (maxiter : Option ℕ),
      compatMultiLoad B P fs s rtol maxiter = .error .typeError ∧ compatMulti B P fs s rtol maxiter = .error .typeError) ∧
    ∀ (B : Backend ℝ (Matrix ι ι ℝ) (ι → ℝ)) (P : Problem ι E Q d) (f g : ι → ℝ) (fs : List (ι → ℝ)), ExactDirect B →
      Held P.fe (fun e => P.elemFunc (P.rho e) P.E0 P.Emin P.p) P.nu0 P.dirichlet →
      ∃ us, complianceBasisMulti B P (f :: g :: fs) {} = .ok (List.zipWith (fun f u => ∑ i, f i * u i) (f :: g :: fs) us, us) ∧
        List.Forall₂ (fun f u => Deformed P.fe (fun e => P.elemFunc (P.rho e) P.E0 P.Emin P.p) P.nu0 P.dirichlet f u) (f :: g :: fs) us := by
  have hk : keywords multiParameters ["solver", "elem_func", "rtol", "maxiter", "n_joblib"] = .error .typeError := by decide
  refine ⟨fun B P fs s rtol maxiter => ⟨?_, ?_⟩, fun B P f g fs hB hP => ?_⟩
  · unfold compatMultiLoad; rw [hk]; rfl
  · unfold compatMulti; rw [hk]; rfl
  · obtain ⟨us, -, h2, h3⟩ := multi_direct B hB P f g fs {} (.inr rfl) hP
    exact ⟨us, h3, h2⟩

/-! ### C127: precedence of the configuration -/

/-- **C127.** Whatever the libraries do: when `solver_config` is given, `solver`, `rtol`, `maxiter` and `petsc_options` have no influence on any
of the three analysis functions; a configuration given as `solver` has the same effect. -/
theorem C127_config_takes_precedence (B : Backend ℝ (Matrix ι ι ℝ) (ι → ℝ)) (P : Problem ι E Q d) (f : ι → ℝ) (fs : List (ι → ℝ))
    (c : Cfg ℝ) (s : Choice) (rtol : ℝ) (maxiter : Option ℕ) (petsc : Input) :
    (complianceBasis B P f ⟨some c, s, rtol, maxiter, petsc⟩ = complianceBasis B P f { config := some c } ∧
      complianceBasis B P f ⟨none, .config c, rtol, maxiter, petsc⟩ = complianceBasis B P f { config := some c }) ∧
    (solveMultiLoad B P fs ⟨some c, s, rtol, maxiter, petsc⟩ = solveMultiLoad B P fs { config := some c } ∧
      solveMultiLoad B P fs ⟨none, .config c, rtol, maxiter, petsc⟩ = solveMultiLoad B P fs { config := some c }) ∧
    (complianceBasisMulti B P fs ⟨some c, s, rtol, maxiter, petsc⟩ = complianceBasisMulti B P fs { config := some c } ∧
      complianceBasisMulti B P fs ⟨none, .config c, rtol, maxiter, petsc⟩ = complianceBasisMulti B P fs { config := some c }) :=
  ⟨⟨rfl, rfl⟩, ⟨rfl, rfl⟩, rfl, rfl⟩

theorem single_cg (B : Backend ℝ (Matrix ι ι ℝ) (ι → ℝ)) (r : ℝ) (m : ℕ) (fb : Bool) (n : ℕ) (k : Matrix ι ι ℝ) (f : ι → ℝ) :
    solveSingle B { solver := "cg_jacobi", rtol := r, maxiter := some m, allowFallback := fb } n k f =
      (B.cgJacobi r (some m) k f).map Prod.fst := by
  show solveU B _ k f = _
  rw [solveU_noFallback B _ rfl]; rfl

open Classical in
/-- **C127 (tolerance and limit are used).** The tolerance and the iteration limit of the configuration reach the iterative solver, and its
answer is the displacement whose load work is returned. -/
theorem C127_settings_reach_solver_partial (B : Backend ℝ (Matrix ι ι ℝ) (ι → ℝ)) (P : Problem ι E Q d) (f : ι → ℝ) (r : ℝ) (m : ℕ) (fb : Bool)
    (u : ι → ℝ) (info : ℤ) (h : B.cgJacobi r (some m) (enforceK P.matrix P.dirichlet) (enforceF f P.dirichlet) = .ok (u, info)) :
    complianceBasis B P f { config := some { solver := "cg_jacobi", rtol := r, maxiter := some m, allowFallback := fb } } =
      .ok (∑ i ∈ Finset.univ.filter (· ∉ P.dirichlet), f i * u i, u) := by
  unfold complianceBasis computeSingle Args.cfg
  simp only [Option.getD_some]
  rw [single_cg, h]
  show Except.ok (complianceSingle P.dirichlet f u, u) = _
  congr 2
  unfold complianceSingle
  have : (Finset.univ \ P.dirichlet : Finset ι) = Finset.univ.filter (· ∉ P.dirichlet) := by
    ext i; simp
  rw [← Finset.sum_congr this fun i _ => rfl]
  refine Finset.sum_congr (by ext i; simp) fun i hi => ?_
  have : i ∉ P.dirichlet := by simpa using hi
  simp [enforceF, this]

/-- **C127 (refuted for the fallback).** The flag `allow_fallback_to_spsolve` of the configuration is ignored by the analysis: for every
configuration both values give the same result. So an exception of the iterative solver reaches the caller although the configuration allows the
fallback, with which `solve_u` answers. -/
theorem C127_fallback_flag_ignored (B : Backend ℝ (Matrix ι ι ℝ) (ι → ℝ)) (P : Problem ι E Q d) (f : ι → ℝ) :
    (∀ (c : Cfg ℝ) (b : Bool), complianceBasis B P f { config := some { c with allowFallback := b } } =
      complianceBasis B P f { config := some c }) ∧
    ∀ (r : ℝ) (m : ℕ) (e : Err), B.cgJacobi r (some m) (enforceK P.matrix P.dirichlet) (enforceF f P.dirichlet) = .error e →
      complianceBasis B P f { config := some { solver := "cg_jacobi", rtol := r, maxiter := some m, allowFallback := true } } = .error e ∧
      solveU B { solver := "cg_jacobi", rtol := r, maxiter := some m, allowFallback := true } (enforceK P.matrix P.dirichlet)
        (enforceF f P.dirichlet) = B.spsolve (enforceK P.matrix P.dirichlet) (enforceF f P.dirichlet) := by
  refine ⟨fun c b => rfl, fun r m e h => ⟨?_, ?_⟩⟩
  · unfold complianceBasis computeSingle Args.cfg
    simp only [Option.getD_some]
    rw [single_cg, h]; rfl
  · unfold solveU dispatch
    simp [h, Except.map]

/-! ### C128: what the multi-load solver returns -/

open Classical in
/-- **C128, partial.** For two or more load cases, every held body and a direct solver, `solve_multi_load` writes the displacement of every load
case and returns the loads, one per load case, with 0 at the supports; the products of a returned load and its displacement are the compliances
`compute_compliance_basis_multi_load` returns. Missing: one load case, see `C128_one_case_returns_compliance`. -/
theorem C128_loads_returned_partial (B : Backend ℝ (Matrix ι ι ℝ) (ι → ℝ)) (hB : ExactDirect B) (P : Problem ι E Q d) (f g : ι → ℝ)
    (fs : List (ι → ℝ)) (a : Args) (hc : a.cfg.solver = "spsolve" ∨ a.cfg.solver = "auto")
    (hP : Held P.fe (fun e => P.elemFunc (P.rho e) P.E0 P.Emin P.p) P.nu0 P.dirichlet) :
    ∃ F us, solveMultiLoad B P (f :: g :: fs) a = .ok (.loads F, us) ∧
      F = (f :: g :: fs).map (fun f i => if i ∈ P.dirichlet then 0 else f i) ∧
      List.Forall₂ (fun f u => Deformed P.fe (fun e => P.elemFunc (P.rho e) P.E0 P.Emin P.p) P.nu0 P.dirichlet f u) (f :: g :: fs) us ∧
      complianceBasisMulti B P (f :: g :: fs) a = .ok (List.zipWith (fun f u => ∑ i, f i * u i) F us, us) := by
  obtain ⟨us, h1, h2, h3⟩ := multi_direct B hB P f g fs a hc hP
  refine ⟨_, us, h1, rfl, h2, ?_⟩
  rw [h3]
  congr 2
  have : ∀ l us : List (ι → ℝ), List.Forall₂ (fun f u => Deformed P.fe P.moduli P.nu0 P.dirichlet f u) l us →
      List.zipWith (fun f u => ∑ i, f i * u i) l us =
        List.zipWith (fun f u => ∑ i, f i * u i) (l.map fun f => enforceF f P.dirichlet) us := by
    intro l us h
    induction h with
    | nil => rfl
    | @cons f u l us hu _ ih =>
      rw [List.zipWith_cons_cons, ih, List.map_cons, List.zipWith_cons_cons]
      congr 1
      refine Finset.sum_congr rfl fun i _ => ?_
      by_cases hi : i ∈ P.dirichlet
      · rw [hu.1 i hi]; ring
      · simp [enforceF, hi]
  exact this _ _ h2

/-- **C128 (refuted for one load case).** With a single load case `solve_multi_load` never returns the load: whatever the libraries do, a
successful call returns the list with the compliance. -/
theorem C128_one_case_returns_compliance (B : Backend ℝ (Matrix ι ι ℝ) (ι → ℝ)) (P : Problem ι E Q d) (f : ι → ℝ) (a : Args) :
    (∀ r, solveMultiLoad B P [f] a = .ok r → ∃ c, r.1 = .compliances [c]) ∧
    (ExactDirect B → Direct (Fintype.card ι) a.cfg.solver →
      Held P.fe (fun e => P.elemFunc (P.rho e) P.E0 P.Emin P.p) P.nu0 P.dirichlet →
      ∃ u, solveMultiLoad B P [f] a = .ok (.compliances [∑ i, f i * u i], [u]) ∧
        Deformed P.fe (fun e => P.elemFunc (P.rho e) P.E0 P.Emin P.p) P.nu0 P.dirichlet f u) := by
  constructor
  · intro r h
    unfold solveMultiLoad at h
    simp only at h
    rcases hx : complianceBasis B P f { config := some a.cfg } with e | x
    · rw [hx] at h; cases h
    · rw [hx] at h
      cases h
      exact ⟨_, rfl⟩
  · intro hB hc hP
    obtain ⟨u, h1, h2⟩ := complianceBasis_direct B hB P f { config := some a.cfg } hc hP
    refine ⟨u, ?_, h2⟩
    unfold solveMultiLoad
    simp only
    rw [h1]; rfl

/-! ### C129: the direct heat solvers -/

theorem settled_of {K : Matrix ι ι ℝ} {emit : ι → ℝ} {D : Finset ι} {v : ℝ} {u : ι → ℝ} (h : enforceK K D *ᵥ u = Heat.enforceRhs emit D v) :
    Settled K emit D v u := by
  classical
  refine ⟨fun i hi => ?_, fun i hi => ?_⟩
  · have := congrFun h i
    simpa [Matrix.mulVec, dotProduct, enforceK, Heat.enforceRhs, hi] using this
  · have := congrFun h i
    simpa [Matrix.mulVec, dotProduct, enforceK, Heat.enforceRhs, hi] using this

open Classical in
theorem heatColumn_exact (B : Backend ℝ (Matrix ι ι ℝ) (ι → ℝ)) (hB : ExactDirect B) (K : Matrix ι ι ℝ) (emit : ι → ℝ)
    (Ds : List (Finset ι)) (i : ℕ) (v : ℝ) (D : Finset ι) (hD : Ds[i]? = some D) (hdet : (enforceK K D).det ≠ 0) :
    ∃ u, heatColumn B K emit Ds i v = .ok u ∧ Settled K emit D v u := by
  refine ⟨(enforceK K D)⁻¹ *ᵥ Heat.enforceRhs emit D v, ?_, settled_of ?_⟩
  · unfold heatColumn
    rw [hD]
    simp only
    rw [(hB _ hdet).2]; rfl
  · rw [Matrix.mulVec_mulVec, Matrix.mul_nonsing_inv _ (Ne.isUnit hdet), Matrix.one_mulVec]

/-- **C129.** `solve_scipy_heat_multi_enforce` is right for arbitrary Dirichlet sets: for every matrix, heat load and list of load cases, each with
its own set of nodes and temperature, if each case is regular and `u_all` has one column per case, every column has the prescribed temperature
on the nodes of its own case and balances the heat at all other nodes. -/
theorem C129_each_case_right (B : Backend ℝ (Matrix ι ι ℝ) (ι → ℝ)) (hB : ExactDirect B) (K : Matrix ι ι ℝ) (emit : ι → ℝ)
    (cases : List (Finset ι × ℝ)) (hreg : ∀ c ∈ cases, ∀ u, Settled K 0 c.1 0 u → u = 0) :
    ∃ us, heatEnforce B K emit (cases.map Prod.fst) (cases.map Prod.snd) cases.length = .ok us ∧
      List.Forall₂ (fun c u => Settled K emit c.1 c.2 u) cases us := by
  classical
  have hdet : ∀ c ∈ cases, (enforceK K c.1).det ≠ 0 := by
    intro c hc h0
    obtain ⟨v, hv, hk⟩ := Matrix.exists_mulVec_eq_zero_iff.mpr h0
    refine hv (hreg c hc v (settled_of ?_))
    rw [hk]
    funext i
    simp [Heat.enforceRhs]
  have key : ∀ (l : List (Finset ι × ℝ)) (k : ℕ) (Ds : List (Finset ι)), (∀ c ∈ l, (enforceK K c.1).det ≠ 0) →
      (∀ i, Ds[k + i]? = (l.map Prod.fst)[i]?) →
      ∃ us, ((l.map Prod.snd).zipIdx k).mapM (fun x => heatColumn B K emit Ds x.2 x.1) = .ok us ∧
        List.Forall₂ (fun c u => Settled K emit c.1 c.2 u) l us := by
    intro l
    induction l with
    | nil => exact fun k Ds _ _ => ⟨[], rfl, .nil⟩
    | cons c l ih =>
      intro k Ds hd hDs
      obtain ⟨u, h1, h2⟩ := heatColumn_exact B hB K emit Ds k c.2 c.1 (by have := hDs 0; simpa using this) (hd c (by simp))
      obtain ⟨us, h3, h4⟩ := ih (k + 1) Ds (fun c hc => hd c (by simp [hc])) (fun i => by
        have := hDs (i + 1)
        rw [show k + 1 + i = k + (i + 1) by omega, this]; rfl)
      refine ⟨u :: us, ?_, .cons h2 h4⟩
      rw [List.map_cons, List.zipIdx_cons, List.mapM_cons, h1, h3]
      rfl
  obtain ⟨us, h1, h2⟩ := key cases 0 (cases.map Prod.fst) hdet (fun i => by simp)
  refine ⟨us, ?_, h2⟩
  unfold heatEnforce
  rw [if_neg (by simp)]
  exact h1

/-- **C129 (wrong sizes).** The same function rejects a result array of another size with `AssertionError`, and a missing Dirichlet set with
`IndexError` (if the cases before are solved). -/
theorem C129_sizes_checked (B : Backend ℝ (Matrix ι ι ℝ) (ι → ℝ)) (K : Matrix ι ι ℝ) (emit : ι → ℝ) (Ds : List (Finset ι)) (v : ℝ)
    (vals : List ℝ) (m : ℕ) :
    (m ≠ vals.length → heatEnforce B K emit Ds vals m = .error .assertionError) ∧
    heatEnforce B K emit [] (v :: vals) (vals.length + 1) = .error .indexError := by
  constructor
  · intro h
    unfold heatEnforce
    rw [if_pos h]
  · unfold heatEnforce
    rw [if_neg (by simp), List.zipIdx_cons, List.mapM_cons]
    rfl

/-- **C129 (the shared factorisation is the analysis of heat tasks).** For every input, `solve_scipy` with one column per load case computes what
`solve_heat_system_multi` computes with `spsolve` (C82). -/
theorem C129_shared_is_heat_analysis (B : Backend ℝ (Matrix ι ι ℝ) (ι → ℝ)) (K : Matrix ι ι ℝ) (emit : ι → ℝ) (Ds : List (Finset ι))
    (vals : List ℝ) (rtol : ℝ) :
    heatShared B K emit Ds vals vals.length = Heat.solveMulti B { solver := "spsolve", rtol := rtol } K emit Ds vals := by
  unfold heatShared Heat.solveMulti
  by_cases h : vals.length = 0
  · simp [h]
  · cases Ds with
    | nil => simp [h]
    | cons D Ds => simp [h]

open Classical in
/-- **C129, partial.** `solve_scipy`, which factorises once, is right when all load cases prescribe their temperature on the same nodes.
Missing: different nodes, see `C129_shared_wrong`. -/
theorem C129_shared_right_partial (B : Backend ℝ (Matrix ι ι ℝ) (ι → ℝ)) (hB : ExactDirect B) (K : Matrix ι ι ℝ) (emit : ι → ℝ)
    (D : Finset ι) (vals : List ℝ) (hreg : ∀ u, Settled K 0 D 0 u → u = 0) :
    ∃ us, heatShared B K emit (vals.map fun _ => D) vals vals.length = .ok us ∧ List.Forall₂ (fun v u => Settled K emit D v u) vals us := by
  have hdet : (enforceK K D).det ≠ 0 := by
    intro h0
    obtain ⟨v, hv, hk⟩ := Matrix.exists_mulVec_eq_zero_iff.mpr h0
    refine hv (hreg v (settled_of ?_))
    rw [hk]
    funext i
    simp [Heat.enforceRhs]
  refine ⟨vals.map fun v => (enforceK K D)⁻¹ *ᵥ Heat.enforceRhs emit D v, ?_, ?_⟩
  · unfold heatShared
    cases vals with
    | nil => rfl
    | cons v vals =>
      rw [if_neg (by simp), List.map_cons]
      simp only
      rw [(hB _ hdet).2]
      have : List.zipWith (fun D v => Heat.enforceRhs emit D v) (D :: vals.map fun _ => D) (v :: vals) =
          (v :: vals).map fun v => Heat.enforceRhs emit D v := by
        have h : ∀ l : List ℝ, List.zipWith (fun D v => Heat.enforceRhs emit D v) (l.map fun _ => D) l =
            l.map fun v => Heat.enforceRhs emit D v := by
          intro l
          induction l with
          | nil => rfl
          | cons a l ih => rw [List.map_cons, List.zipWith_cons_cons, ih]; rfl
        exact h (v :: vals)
      rw [this, Heat.bind_okay]
      unfold Heat.broadcast
      rw [if_pos (by simp), List.map_map]
      rfl
  · rw [List.forall₂_map_right_iff]
    refine List.forall₂_same.mpr fun v _ => settled_of ?_
    rw [Matrix.mulVec_mulVec, Matrix.mul_nonsing_inv _ (Ne.isUnit hdet), Matrix.one_mulVec]

/-- **C129 (refuted for different nodes).** A rod with conductivity 2 held at temperature 0 at its left end in the first case and at 1 at its right
end in the second: `solve_scipy` returns 1/2 at the right end of the second case, `solve_scipy_heat_multi_enforce` the temperature 1. -/
theorem C129_shared_wrong (B : Backend ℝ (Matrix (Fin 2) (Fin 2) ℝ) (Fin 2 → ℝ)) (hB : ExactDirect B) :
    (∃ u1 u2, heatShared B !![2, -2; -2, 2] 0 [{0}, {1}] [0, 1] 2 = .ok [u1, u2] ∧ u2 1 = 1 / 2) ∧
    ∃ u1 u2, heatEnforce B !![2, -2; -2, 2] 0 [{0}, {1}] [0, 1] 2 = .ok [u1, u2] ∧ u2 1 = 1 := by
  classical
  constructor
  · obtain ⟨-, u1, u2, h1, h2, -⟩ := Heat.C82_other_regions_wrong B hB
    refine ⟨u1, u2, ?_, h2⟩
    have hmat : Heat.twoCases.matrix Material.simp (1 / 1000) (fun _ => 1) 3 = !![2, -2; -2, 2] := by
      have h0 : Heat.twoCases.matrix Material.simp (1 / 1000) (fun _ => 1) 3 =
        Heat.conduction Heat.rod (Heat.twoCases.ke Material.simp (1 / 1000) (fun _ => 1) 3) := rfl
      rw [h0, Heat.rod_conduction]
      simp [Heat.Task.ke, Material.simp, Heat.twoCases]
    rw [← h1, ← hmat]
    exact C129_shared_is_heat_analysis B _ _ [{0}, {1}] [0, 1] 0
  · obtain ⟨us, h1, h2⟩ := C129_each_case_right B hB !![2, -2; -2, 2] 0 [({0}, 0), ({1}, 1)] (by
      intro c hc u hu
      simp only [List.mem_cons, List.not_mem_nil, or_false] at hc
      rcases hc with rfl | rfl
      · have a := hu.1 0 (by simp)
        have b := hu.2 1 (by simp)
        simp [Fin.sum_univ_two, a] at b
        funext i; fin_cases i <;> simp [a, b]
      · have a := hu.1 1 (by simp)
        have b := hu.2 0 (by simp)
        simp [Fin.sum_univ_two, a] at b
        funext i; fin_cases i <;> simp [a, b])
    rcases h2 with _ | ⟨_, _ | ⟨h3, _ | _⟩⟩
    exact ⟨_, _, h1, h3.1 1 (by simp)⟩

/-! ### A concrete body -/

/-- One bar held at its left end, of full density. -/
def barProblem : Problem (Fin 2) (Fin 1) (Fin 1) 1 where
  fe := bar
  dirichlet := {0}
  E0 := 2
  Emin := 1
  p := 3
  nu0 := 0
  rho := fun _ => 1

theorem bar_held : Held bar (fun _ => 2) 0 ({0} : Finset (Fin 2)) := by
  intro u hu
  have h0 : u 0 = 0 := hu.1 0 (by simp)
  have h1 := hu.2 u hu.1
  have : ∑ e, ∑ q, hookeWork (2 : ℝ) 0 (strain bar u e q) (strain bar u e q) * bar.dx e q = 2 * (u 1 * u 1) := by
    simp [hookeWork, strain, bar, Fin.sum_univ_two, h0]
  rw [this] at h1
  have h2 : u 1 = 0 := by
    have : u 1 * u 1 = 0 := by simpa using h1
    simpa using this
  funext i
  fin_cases i <;> simp [h0, h2]

/-- The hypotheses of C126 and C128 are met by a bar pulled with force 4: the right end moves by 2. -/
example (B : Backend ℝ (Matrix (Fin 2) (Fin 2) ℝ) (Fin 2 → ℝ)) (hB : ExactDirect B) :
    ∃ u, compatSingle B barProblem ![0, 4] = .ok (8, u) ∧ u 1 = 2 := by
  have hm : (fun e => barProblem.elemFunc (barProblem.rho e) barProblem.E0 barProblem.Emin barProblem.p) = fun _ => (2 : ℝ) := by
    funext e; simp [barProblem, Material.simp]
  obtain ⟨u, h1, -, h2⟩ := (C126_single_load_partial B hB barProblem ![0, 4] "auto" (.inr ⟨rfl, by simp⟩) (1 / 10 ^ 5) none).1
    (by rw [hm]; exact bar_held)
  rw [hm] at h2
  have h0 : u 0 = 0 := h2.1 0 (by simp [barProblem])
  have hw := h2.2 ![0, 1] (by simp [barProblem])
  have hu : u 1 = 2 := by
    simp [hookeWork, strain, barProblem, bar, Fin.sum_univ_two, h0] at hw
    linarith
  refine ⟨u, ?_, hu⟩
  rw [h1]
  simp [Fin.sum_univ_two, hu]
  norm_num

end
end Verif.Entry
