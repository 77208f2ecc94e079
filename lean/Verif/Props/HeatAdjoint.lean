import Verif.Props.HeatObj
import Verif.Lemmas.RunHeat

/-!
The adjoint fields of the heat-exchange objective with a weighted temperature term (C89), for any number of load cases.
-/
namespace Verif.Spec.Heat
open Verif.Heat

variable {ι Q : Type} [Fintype ι] [Fintype Q] {E : Type} [Fintype E] {d : ℕ}

/-- The load at node `i` of the adjoint problem of the heat exchange: the mean over the interface of `-Tenv` times the film coefficient
`h ρ^p (1-ρ)^m`, taken at the nodes and interpolated, against the shape function of the node. -/
noncomputable def exchangeLoad (B : FE ι E Q d) (h Tenv p : ℝ) (m : ℕ) (rn : ι → ℝ) (i : ι) : ℝ :=
  (∑ e, ∑ q, -Tenv * field B (fun j => h * rn j ^ p * (1 - rn j) ^ m) e q * steepness B rn e q * B.val i e q * B.dx e q) / interfaceSize B rn

/-- `lam` is held at 0 on `D`, and balances the load `f` at all other nodes. -/
def Loaded (K : Matrix ι ι ℝ) (D : Finset ι) (f lam : ι → ℝ) : Prop :=
  (∀ i ∈ D, lam i = 0) ∧ ∀ i ∉ D, ∑ j, K i j * lam j = f i

end Verif.Spec.Heat

namespace Verif.Heat
open Matrix Material Elastic

variable {ι Q : Type} [Fintype ι] [Fintype Q] {d nE k : ℕ}

open Classical in
theorem solveMulti_zero (S : Solver.Backend ℝ (Matrix ι ι ℝ) (ι → ℝ)) (hS : ExactDirect S) (c : Solver.Cfg ℝ)
    (hc : c.solver = "auto" ∨ c.solver = "spsolve") (K : Matrix ι ι ℝ) (f : ι → ℝ) (D : Finset ι) (n : ℕ) (hn : 0 < n)
    (hdet : (enforceK K D).det ≠ 0) :
    ∃ u, solveMulti S c K f (List.replicate n D) (List.replicate n 0) = .ok (List.replicate n u) ∧ Spec.Heat.Loaded K D f u := by
  have hname : (if c.solver = "auto" then "spsolve" else c.solver) = "spsolve" := by
    rcases hc with h | h
    · rw [if_pos h]
    · rw [h]; simp
  refine ⟨(enforceK K D)⁻¹ *ᵥ enforceRhs f D 0, ?_, ?_⟩
  · obtain ⟨m, rfl⟩ : ∃ m, n = m + 1 := ⟨n - 1, by omega⟩
    unfold solveMulti
    simp only [hname]
    rw [if_neg (by simp), if_neg (by simp), List.zipWith_replicate, List.replicate_succ]
    simp only [if_true]
    rw [(hS _ (by convert hdet)).2, bind_okay]
    unfold broadcast
    rw [if_pos (by simp)]
    simp [List.replicate_succ]
  · rw [← show HSolves K D f 0 _ ↔ Spec.Heat.Loaded K D f _ from hsolves_iff]
    show enforceK K D *ᵥ _ = _
    rw [Matrix.mulVec_mulVec, Matrix.mul_nonsing_inv _ (Ne.isUnit hdet), Matrix.one_mulVec]

theorem hxAdjRhs_eq (B : FE ι (Fin nE) Q d) (h1 : ∀ e q, ∑ i, B.val i e q = 1) (h Tenv p : ℝ) (m : ℕ) (rn : ι → ℝ) :
    hxAdjRhs B h Tenv p m rn = Spec.Heat.exchangeLoad B h Tenv p m rn := by
  funext i
  unfold hxAdjRhs Spec.Heat.exchangeLoad
  rw [show hxDen B rn = Spec.Heat.interfaceSize B rn from rfl]
  congr 1
  refine Finset.sum_congr rfl fun e _ => Finset.sum_congr rfl fun q _ => ?_
  rw [valAt_const B h1]
  rfl

theorem _root_.Verif.Spec.Heat.Loaded.comb {K : Matrix ι ι ℝ} {D : Finset ι} {f g x y : ι → ℝ} (hx : Spec.Heat.Loaded K D f x)
    (hy : Spec.Heat.Loaded K D g y) (a b : ℝ) : Spec.Heat.Loaded K D (fun i => f i / a + b * g i) fun i => x i / a + b * y i := by
  refine ⟨fun i hi => by simp only [hx.1 i hi, hy.1 i hi]; simp, fun i hi => ?_⟩
  show ∑ j, K i j * (x j / a + b * y j) = f i / a + b * g i
  rw [← hx.2 i hi, ← hy.2 i hi, Finset.sum_div, Finset.mul_sum, ← Finset.sum_add_distrib]
  exact Finset.sum_congr rfl fun j _ => by ring

open Classical in
/-- **C89.** With the heat-exchange objective, zero prescribed temperatures and an exact solver, for every number of load cases: there is
one adjoint field per load case, held at 0 where the temperature is prescribed. Its load is that of the heat exchange; with a weight
on the temperatures, the weight is added to it at every node for a single load case, while for several load cases both parts are divided
by their scales, the mean absolute exchange and the mean absolute sum of temperatures over the load cases (at least `1e-12`). -/
theorem C89_exchange_adjoint (T : Task ι Q d nE k) (ho : T.objective = .heatExchange) (h Tenv : ℝ) (hr : T.robin = some (h, Tenv))
    (h1 : ∀ e q, ∑ i, T.fe.val i e q = 1) (S : Solver.Backend ℝ (Matrix ι ι ℝ) (ι → ℝ)) (hS : ExactDirect S) (c : Solver.Cfg ℝ)
    (hc : c.solver = "auto" ∨ c.solver = "spsolve") (K : Matrix ι ι ℝ) (rho : Fin nE → ℝ) (p : ℝ) (Ts : List (ι → ℝ)) (hT : Ts ≠ [])
    (D : Finset ι) (hD : T.dirichlet = List.replicate Ts.length D) (hv : T.values = List.replicate Ts.length 0)
    (hdet : (enforceK K D).det ≠ 0) (hs : 1 / 10 ^ 16 < Spec.Heat.interfaceSize T.fe (T.nodal rho)) :
    ∃ lam, T.adjoints S c K rho p Ts = .ok (List.replicate Ts.length lam) ∧
      (T.avgWeight = 0 → Spec.Heat.Loaded K D (Spec.Heat.exchangeLoad T.fe h Tenv p T.q (T.nodal rho)) lam) ∧
      (T.avgWeight ≠ 0 → Ts.length = 1 →
        Spec.Heat.Loaded K D (fun i => Spec.Heat.exchangeLoad T.fe h Tenv p T.q (T.nodal rho) i + T.avgWeight) lam) ∧
      (T.avgWeight ≠ 0 → 1 < Ts.length → ∀ a b,
        a = max ((Ts.map fun u => |Spec.Heat.exchanged T.fe (T.nodal rho) h Tenv u|).sum / Ts.length) (1 / 10 ^ 12) →
        b = max ((Ts.map fun u => |∑ i, u i|).sum / Ts.length) (1 / 10 ^ 12) →
        Spec.Heat.Loaded K D (fun i => Spec.Heat.exchangeLoad T.fe h Tenv p T.q (T.nodal rho) i / a + T.avgWeight / b) lam) := by
  have hn : 0 < Ts.length := List.length_pos_iff.mpr hT
  obtain ⟨x, hx1, hx2⟩ := solveMulti_zero S hS c hc K (hxAdjRhs T.fe h Tenv p T.q (T.nodal rho)) D Ts.length hn hdet
  obtain ⟨y, hy1, hy2⟩ := solveMulti_zero S hS c hc K (fun _ => 1) D Ts.length hn hdet
  rw [hxAdjRhs_eq T.fe h1] at hx2
  have hden : ¬ hxDen T.fe (T.nodal rho) ≤ 1 / 10 ^ 16 := not_le.mpr hs
  have hex : ∀ u, heatExchange T.fe u (T.nodal rho) Tenv h = Spec.Heat.exchanged T.fe (T.nodal rho) h Tenv u :=
    fun u => heatExchange_eq T.fe h1 u _ Tenv h hs
  unfold Task.adjoints
  rw [ho, hr]
  simp only
  rw [if_neg hden, hD, hv, hx1]
  simp only [bind_okay]
  by_cases hw : T.avgWeight = 0
  · rw [if_pos hw]
    exact ⟨x, rfl, fun _ => hx2, fun h => absurd hw h, fun h => absurd hw h⟩
  · rw [if_neg hw, hy1]
    simp only [bind_okay]
    by_cases hl : 1 < Ts.length
    · rw [if_pos hl, List.zipWith_replicate, min_self]
      refine ⟨_, rfl, fun h => absurd h hw, fun _ h => by omega, fun _ _ a b ha hb => ?_⟩
      have := hx2.comb hy2 a (T.avgWeight / b)
      simp only [mul_one] at this
      rw [ha, hb] at this ⊢
      simp only [absScale, hex, sumTemp, List.map_map, Function.comp_def, List.length_map]
      exact this
    · rw [if_neg hl, List.zipWith_replicate, min_self]
      refine ⟨_, rfl, fun h => absurd h hw, fun _ _ => ?_, fun _ h => absurd h hl⟩
      have := hx2.comb hy2 1 T.avgWeight
      simpa using this

/-- Without an interface all adjoint fields of the heat exchange are 0, as is its value. -/
theorem C89_no_interface (T : Task ι Q d nE k) (ho : T.objective = .heatExchange) (h Tenv : ℝ) (hr : T.robin = some (h, Tenv))
    (S : Solver.Backend ℝ (Matrix ι ι ℝ) (ι → ℝ)) (c : Solver.Cfg ℝ) (K : Matrix ι ι ℝ) (rho : Fin nE → ℝ) (p : ℝ) (Ts : List (ι → ℝ))
    (hs : Spec.Heat.interfaceSize T.fe (T.nodal rho) ≤ 1 / 10 ^ 16) :
    T.adjoints S c K rho p Ts = .ok (List.replicate Ts.length 0) ∧ ∀ u, heatExchange T.fe u (T.nodal rho) Tenv h = 0 := by
  have hden : hxDen T.fe (T.nodal rho) ≤ 1 / 10 ^ 16 := hs
  constructor
  · unfold Task.adjoints
    rw [ho, hr]
    simp only
    rw [if_pos hden, List.map_const']
    rfl
  · intro u
    unfold heatExchange
    rw [if_pos hden]

/-- The hypotheses of `C89_exchange_adjoint` are met by two rods with two weighted load cases. -/
example (S : Solver.Backend ℝ (Matrix (Fin 3) (Fin 3) ℝ) (Fin 3 → ℝ)) (hS : ExactDirect S) :
    ∃ lam, ({ rodsTask with values := [0, 0] } : Task (Fin 3) (Fin 1) 1 2 2).adjoints S { solver := "spsolve", rtol := 0 } 1 ![0, 1] 3
      [fun _ => 1 / 2, fun _ => 1 / 4] = .ok [lam, lam] ∧ lam 0 = 0 := by
  classical
  have hdet : (enforceK (1 : Matrix (Fin 3) (Fin 3) ℝ) {0}).det ≠ 0 := by
    have : enforceK (1 : Matrix (Fin 3) (Fin 3) ℝ) {0} = 1 := by
      ext i j
      fin_cases i <;> fin_cases j <;> simp [enforceK, Matrix.one_apply]
    rw [this]; simp
  obtain ⟨lam, h1, -, -, h4⟩ := C89_exchange_adjoint ({ rodsTask with values := [0, 0] } : Task (Fin 3) (Fin 1) 1 2 2) rfl 1 1 rfl rods_one S hS
    { solver := "spsolve", rtol := 0 } (.inr rfl) 1 ![0, 1] 3 [fun _ => 1 / 2, fun _ => 1 / 4] (by simp) {0} rfl rfl (by convert hdet) (by
      rw [show ({ rodsTask with values := [0, 0] } : Task (Fin 3) (Fin 1) 1 2 2).nodal ![0, 1] = ![0, 1 / 2, 1] from rods_nodal]
      show _ < Spec.Heat.interfaceSize rods _
      rw [rods_size]; norm_num)
  exact ⟨lam, h1, (h4 (by show (1 : ℝ) ≠ 0; norm_num) (by simp) _ _ rfl rfl).1 0 (by simp)⟩

/-- **C89 (compliance).** With the compliance objective the adjoint field stored for a load case is the one the adjoint method asks for:
for a symmetric matrix, `-(K lam) · v` is the derivative of the compliance `T · K T` in every direction `v`. (No sensitivity reads it.) -/
theorem C89_compliance_adjoint (T : Task ι Q d nE k) (ho : T.objective = .compliance) (S : Solver.Backend ℝ (Matrix ι ι ℝ) (ι → ℝ))
    (c : Solver.Cfg ℝ) (K : Matrix ι ι ℝ) (hK : K.IsSymm) (rho : Fin nE → ℝ) (p : ℝ) (Ts : List (ι → ℝ)) :
    ∃ lams, T.adjoints S c K rho p Ts = .ok lams ∧ lams.length = Ts.length ∧
      ∀ (j : ℕ) (u lam : ι → ℝ), Ts[j]? = some u → lams[j]? = some lam → ∀ v : ι → ℝ,
        HasDerivAt (fun s : ℝ => (u + s • v) ⬝ᵥ K *ᵥ (u + s • v)) (-(v ⬝ᵥ K *ᵥ lam)) 0 := by
  refine ⟨Ts.map fun u i => -2 * u i, by unfold Task.adjoints; rw [ho], by simp, ?_⟩
  intro j u lam hu hlam v
  rw [List.getElem?_map, hu] at hlam
  simp only [Option.map_some, Option.some.injEq] at hlam
  subst hlam
  have hsym : u ⬝ᵥ K *ᵥ v = v ⬝ᵥ K *ᵥ u := by
    rw [Matrix.dotProduct_mulVec, ← Matrix.mulVec_transpose, hK.eq, dotProduct_comm]
  have hlin : (fun i => -2 * u i) = (-2 : ℝ) • u := by funext i; simp
  rw [hlin, Matrix.mulVec_smul, dotProduct_smul, smul_eq_mul]
  have hf : (fun s : ℝ => (u + s • v) ⬝ᵥ K *ᵥ (u + s • v)) =
      fun s : ℝ => u ⬝ᵥ K *ᵥ u + s * (2 * (v ⬝ᵥ K *ᵥ u)) + s ^ 2 * (v ⬝ᵥ K *ᵥ v) := by
    funext s
    rw [Matrix.mulVec_add, Matrix.mulVec_smul, add_dotProduct, dotProduct_add, dotProduct_add, dotProduct_smul, dotProduct_smul,
      smul_dotProduct, smul_dotProduct, hsym]
    simp only [smul_eq_mul]
    ring
  rw [hf]
  have h1 := ((hasDerivAt_id (0 : ℝ)).mul_const (2 * (v ⬝ᵥ K *ᵥ u))).const_add (u ⬝ᵥ K *ᵥ u)
  have h2 := ((hasDerivAt_id (0 : ℝ)).pow 2).mul_const (v ⬝ᵥ K *ᵥ v)
  refine (h1.add h2).congr_deriv ?_
  simp

/-- Case: the rods of C89 with the compliance objective, two load cases. -/
example (S : Solver.Backend ℝ (Matrix (Fin 3) (Fin 3) ℝ) (Fin 3 → ℝ)) (c : Solver.Cfg ℝ) :=
  C89_compliance_adjoint { rodsTask with objective := .compliance } rfl S c 1 Matrix.isSymm_one ![0, 1] 3 [![1, 2, 3], ![4, 5, 6]]

end Verif.Heat
