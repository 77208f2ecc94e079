import Verif.Lemmas.HeatDeriv
import Verif.Props.Heat

/-! Sensitivities of the heat analysis (C84). -/
namespace Verif.Heat

open Matrix Material Elastic

variable {ι Q : Type} [Fintype ι] [Fintype Q] {d nE k : ℕ}

set_option linter.unusedSectionVars false

noncomputable section

theorem matrix_sym (T : Task ι Q d nE k) (hT : Built T) (law : ℝ → ℝ → ℝ → ℝ → ℝ) (Ec : ℝ) (rho : Fin nE → ℝ) (p : ℝ) (i j : ι) :
    T.matrix law Ec rho p i j = T.matrix law Ec rho p j i := by
  have hc : ∀ ke, ∀ i j, conduction T.fe ke i j = conduction T.fe ke j i := by
    intro ke i j
    unfold conduction dot
    refine Finset.sum_congr rfl fun e _ => Finset.sum_congr rfl fun q _ => ?_
    congr 2
    exact Finset.sum_congr rfl fun a _ => mul_comm _ _
  have hf : ∀ N ∈ T.forms rho p, ∀ i j, N i j = N j i := by
    have ht := hT.terms
    unfold Task.forms
    rcases hr : T.robin with _ | ⟨h, Tenv⟩
    · rw [hr] at ht; simp [ht.1]
    · rw [hr] at ht
      intro N hN i j
      simp only [ht.1, List.mem_append, List.mem_map, List.mem_singleton] at hN
      rcases hN with ⟨R, -, rfl⟩ | rfl
      · unfold robinForm; exact Finset.sum_congr rfl fun q _ => by ring
      · unfold virtualForm; exact Finset.sum_congr rfl fun e _ => Finset.sum_congr rfl fun q _ => by ring
  have key : ∀ (l : List (Matrix ι ι ℝ)) (M : Matrix ι ι ℝ), (∀ i j, M i j = M j i) → (∀ N ∈ l, ∀ i j, N i j = N j i) →
      ∀ i j, (l.foldl (· + ·) M) i j = (l.foldl (· + ·) M) j i := by
    intro l
    induction l with
    | nil => intro M hM _; exact hM
    | cons N l ih =>
      intro M hM hl
      exact ih _ (fun i j => by show (M + N) i j = (M + N) j i; rw [Matrix.add_apply, Matrix.add_apply, hM i j, hl N (by simp) i j]) fun N' h' => hl N' (by simp [h'])
  exact key _ _ (hc _) hf i j

/-- The matrix of a task with Robin boundaries: a part depending on the conductivities, a fixed part, and the interface term. -/
theorem matrix_entry (T : Task ι Q d nE k) (hT : Built T) (h Tenv : ℝ) (hr : T.robin = some (h, Tenv)) (law : ℝ → ℝ → ℝ → ℝ → ℝ)
    (Ec : ℝ) (p : ℝ) (i j : ι) : ∃ c : ℝ, ∀ rho : Fin nE → ℝ, T.matrix law Ec rho p i j =
      conduction T.fe (T.ke law Ec rho p) i j + c + virtualForm T.fe h p T.q (T.nodal rho) i j := by
  have ht := hT.terms
  rw [hr] at ht
  refine ⟨(T.bilinear.map fun N => N i j).sum, fun rho => ?_⟩
  unfold Task.matrix Task.forms
  rw [hr]
  have key : ∀ (l : List (Matrix ι ι ℝ)) (M : Matrix ι ι ℝ), (l.foldl (· + ·) M) i j = M i j + (l.map fun N => N i j).sum := by
    intro l
    induction l with
    | nil => intro M; simp
    | cons N l ih => intro M; rw [List.foldl_cons, ih, List.map_cons, List.sum_cons, Matrix.add_apply]; ring
  rw [key]
  simp only [List.map_append, List.sum_append, List.map_cons, List.map_nil, List.sum_cons, List.sum_nil, add_zero]
  ring

theorem emit_entry (T : Task ι Q d nE k) (h Tenv : ℝ) (hr : T.robin = some (h, Tenv)) (p : ℝ) (i : ι) :
    ∃ c : ℝ, ∀ rho : Fin nE → ℝ, T.emit rho p i = c + virtualLoad T.fe h Tenv p T.q (T.nodal rho) i := by
  refine ⟨(T.linear.map fun g => g i).sum, fun rho => ?_⟩
  unfold Task.emit Task.loads
  rw [hr, foldl_vec]
  simp

/-- At a quadrature point of a design moving along the curve `rho`, the interface term is differentiable at time `t`: the density is
intermediate with a genuine gradient, or pure material or void with a flat density, or the density field stays flat. -/
def Smooth (T : Task ι Q d nE k) (rho : ℝ → Fin nE → ℝ) (t : ℝ) (e : Fin nE) (q : Q) : Prop :=
  (0 < Spec.Heat.field T.fe (T.nodal (rho t)) e q ∧ Spec.Heat.field T.fe (T.nodal (rho t)) e q < 1 ∧
    1 / 10 ^ 12 ≤ Spec.Heat.steepness T.fe (T.nodal (rho t)) e q) ∨
  ((Spec.Heat.field T.fe (T.nodal (rho t)) e q = 0 ∨ Spec.Heat.field T.fe (T.nodal (rho t)) e q = 1) ∧
    ∀ a, Spec.Heat.slope T.fe (T.nodal (rho t)) e q a = 0) ∨
  ∀ᶠ s in nhds t, ∀ a, Spec.Heat.slope T.fe (T.nodal (rho s)) e q a = 0

open Classical in
/-- The derivative of the compliance along a curve of designs, with the nodal densities the code computes. -/
theorem compliance_curve (T : Task ι Q d nE k) (hT : Built T) (h Tenv : ℝ) (hr : T.robin = some (h, Tenv)) (Ec p : ℝ) (hp : 0 < p)
    (hq : 0 < T.q) (hone : ∀ e q, ∑ i, T.fe.val i e q = 1) (D : Finset ι) (rho : ℝ → Fin nE → ℝ) (rho' : Fin nE → ℝ) (t : ℝ)
    (hrho : ∀ e, HasDerivAt (fun s => rho s e) (rho' e) t) (h6 : ∀ e, 1 / 10 ^ 6 ≤ rho t e)
    (hke : ∀ e, 1 / 10 ^ 12 ≤ T.ke simp Ec (rho t) p e) (hsm : ∀ e q, Smooth T rho t e q)
    (hdet : (enforceK (T.matrix simp Ec (rho t) p) D).det ≠ 0) (u : ℝ → ι → ℝ)
    (hu : ∀ᶠ s in nhds t, HSolves (T.matrix simp Ec (rho s) p) D (T.emit (rho s) p) 0 (u s)) :
    HasDerivAt (fun s => compliance (T.matrix simp Ec (rho s) p) (u s))
      (∑ e, dCSimp (rho t e) (energy T.fe (T.ke simp Ec (rho t) p) (u t) e) T.k (T.k * Ec) p * rho' e +
        ∑ i, explicitGrad T.fe h Tenv p T.q (T.nodal (rho t)) (u t) i * T.nodal rho' i) t := by
  have hn : ∀ i, HasDerivAt (fun s => T.nodal (rho s) i) (T.nodal rho' i) t := nodalAverage_deriv T.t rho rho' t hrho
  set W : Fin nE → Q → ℝ := fun e q => weightRate h p T.q (valAt T.fe (T.nodal (rho t)) e q) (valAt T.fe (T.nodal rho') e q)
    (gradAt T.fe (T.nodal (rho t)) e q) (gradAt T.fe (T.nodal rho') e q) with hW
  set ke' : Fin nE → ℝ := fun e => p * (T.k - T.k * Ec) * rho t e ^ (p - 1) * rho' e with hke'
  have hpos : ∀ e, 0 < rho t e := fun e => lt_of_lt_of_le (by positivity) (h6 e)
  have hw : ∀ e q, HasDerivAt (fun s => hEff h p T.q (valAt T.fe (T.nodal (rho s)) e q) * interface T.fe (T.nodal (rho s)) e q) (W e q) t := by
    intro e q
    have hv := valAt_deriv T.fe _ _ t hn e q
    have hg := gradAt_deriv T.fe _ _ t hn e q
    rcases hsm e q with ⟨a1, a2, a3⟩ | ⟨a1, a2⟩ | a1
    · exact weight_deriv_regular h p T.q _ _ (fun s => gradAt T.fe (T.nodal (rho s)) e q) _ t hv hg a1 a2 a3
    · exact weight_deriv_flat h p hp T.q hq _ _ (fun s => gradAt T.fe (T.nodal (rho s)) e q) _ t hv hg a1 (funext a2)
    · exact weight_deriv_still h p T.q (fun s => valAt T.fe (T.nodal (rho s)) e q) _ (fun s => gradAt T.fe (T.nodal (rho s)) e q) _ t
        (a1.mono fun s hs => funext hs)
  have hk : ∀ e, HasDerivAt (fun s => T.ke simp Ec (rho s) p e) (ke' e) t := by
    intro e
    have := HasDerivAt.comp (h₂ := fun r => simp r T.k (T.k * Ec) p) t (hasDerivAt_simp (hpos e)) (hrho e)
    exact this
  have hA : ∀ i j, HasDerivAt (fun s => T.matrix simp Ec (rho s) p i j) ((conduction T.fe ke' + weightForm T.fe W) i j) t := by
    intro i j
    obtain ⟨c, hc⟩ := matrix_entry T hT h Tenv hr simp Ec p i j
    simp only [hc]
    have h1 : HasDerivAt (fun s => conduction T.fe (T.ke simp Ec (rho s) p) i j) (conduction T.fe ke' i j) t := by
      unfold conduction
      exact HasDerivAt.fun_sum fun e _ => HasDerivAt.fun_sum fun q _ => ((hk e).mul_const _).mul_const _
    have h2 : HasDerivAt (fun s => virtualForm T.fe h p T.q (T.nodal (rho s)) i j) (weightForm T.fe W i j) t := by
      unfold virtualForm weightForm
      exact HasDerivAt.fun_sum fun e _ => HasDerivAt.fun_sum fun q _ => (((hw e q).mul_const _).mul_const _).mul_const _
    exact (h1.add_const c).fun_add h2
  have hb : ∀ i, HasDerivAt (fun s => T.emit (rho s) p i) (∑ e, ∑ q, W e q * Tenv * T.fe.val i e q * T.fe.dx e q) t := by
    intro i
    obtain ⟨c, hc⟩ := emit_entry T h Tenv hr p i
    simp only [hc]
    refine HasDerivAt.const_add _ ?_
    unfold virtualLoad
    exact HasDerivAt.fun_sum fun e _ => HasDerivAt.fun_sum fun q _ => (((hw e q).mul_const _).mul_const _).mul_const _
  have main := compliance_deriv _ _ _ _ D t (fun s i j => matrix_sym T hT simp Ec (rho s) p i j) hA hb hdet u hu
  refine main.congr_deriv ?_
  have hquad : ∑ i, u t i * ∑ j, (conduction T.fe ke' + weightForm T.fe W) i j * u t j =
      ∑ e, ∑ q, ke' e * dot (gradAt T.fe (u t) e q) (gradAt T.fe (u t) e q) * T.fe.dx e q +
      ∑ e, ∑ q, W e q * valAt T.fe (u t) e q ^ 2 * T.fe.dx e q := by
    rw [← quad_conduction, ← quad_weight, ← Finset.sum_add_distrib]
    refine Finset.sum_congr rfl fun i _ => ?_
    simp only [Matrix.add_apply, add_mul, Finset.sum_add_distrib]; ring
  have hload : ∑ i, (∑ e, ∑ q, W e q * Tenv * T.fe.val i e q * T.fe.dx e q) * u t i =
      ∑ e, ∑ q, W e q * Tenv * valAt T.fe (u t) e q * T.fe.dx e q := by
    simp only [Finset.sum_mul]
    rw [Finset.sum_comm]
    refine Finset.sum_congr rfl fun e _ => ?_
    rw [Finset.sum_comm]
    refine Finset.sum_congr rfl fun q _ => ?_
    unfold valAt
    rw [Finset.mul_sum, Finset.sum_mul]
    exact Finset.sum_congr rfl fun i _ => by ring
  have hbase : ∑ e, dCSimp (rho t e) (energy T.fe (T.ke simp Ec (rho t) p) (u t) e) T.k (T.k * Ec) p * rho' e =
      - ∑ e, ∑ q, ke' e * dot (gradAt T.fe (u t) e q) (gradAt T.fe (u t) e q) * T.fe.dx e q := by
    rw [← Finset.sum_neg_distrib]
    refine Finset.sum_congr rfl fun e _ => ?_
    have hmax : max (rho t e) floor6 = rho t e := max_eq_left (by unfold floor6; exact h6 e)
    have hE : eSimp (rho t e) T.k (T.k * Ec) p = T.ke simp Ec (rho t) p e := by
      unfold eSimp Task.ke simp; rw [hmax]
    have hm2 : max (T.ke simp Ec (rho t) p e) floor12 = T.ke simp Ec (rho t) p e := max_eq_left (by unfold floor12; exact hke e)
    have hne : T.ke simp Ec (rho t) p e ≠ 0 := (lt_of_lt_of_le (by positivity) (hke e)).ne'
    have hen : energy T.fe (T.ke simp Ec (rho t) p) (u t) e = T.ke simp Ec (rho t) p e *
        ((1 / 2) * ∑ q, dot (gradAt T.fe (u t) e q) (gradAt T.fe (u t) e q) * T.fe.dx e q) := by
      unfold energy
      rw [Finset.mul_sum, Finset.mul_sum]
      exact Finset.sum_congr rfl fun q _ => by ring
    have hs : ∑ q, ke' e * dot (gradAt T.fe (u t) e q) (gradAt T.fe (u t) e q) * T.fe.dx e q =
        ke' e * ∑ q, dot (gradAt T.fe (u t) e q) (gradAt T.fe (u t) e q) * T.fe.dx e q := by
      rw [Finset.mul_sum]; exact Finset.sum_congr rfl fun q _ => by ring
    unfold dCSimp dESimp
    simp only
    rw [hE, hm2, hen, hmax, hs, hke']
    simp only
    field_simp
  have hTe : ∀ e q, valAt T.fe (fun _ => Tenv) e q = Tenv := by
    intro e q; unfold valAt; rw [← Finset.mul_sum, hone, mul_one]
  have hexp : ∑ i, explicitGrad T.fe h Tenv p T.q (T.nodal (rho t)) (u t) i * T.nodal rho' i =
      ∑ e, ∑ q, W e q * (2 * Tenv * valAt T.fe (u t) e q - valAt T.fe (u t) e q ^ 2) * T.fe.dx e q := by
    unfold explicitGrad
    simp only [Finset.sum_mul, hTe]
    rw [Finset.sum_comm]
    refine Finset.sum_congr rfl fun e _ => ?_
    rw [Finset.sum_comm]
    refine Finset.sum_congr rfl fun q _ => ?_
    rw [hW]
    simp only [weightRate]
    have i1 : Real.sqrt (∑ a, gradAt T.fe (T.nodal (rho t)) e q a ^ 2) = interface T.fe (T.nodal (rho t)) e q := rfl
    rw [i1]
    have hd : dot (fun a => gradAt T.fe (T.nodal (rho t)) e q a / max (interface T.fe (T.nodal (rho t)) e q) (1 / 10 ^ 12))
        (gradAt T.fe (T.nodal rho') e q) = ∑ i, T.nodal rho' i * dot (fun a => gradAt T.fe (T.nodal (rho t)) e q a /
          max (interface T.fe (T.nodal (rho t)) e q) (1 / 10 ^ 12)) (T.fe.grad i e q) := by
      unfold dot
      simp only [Finset.mul_sum]
      rw [Finset.sum_comm]
      refine Finset.sum_congr rfl fun a _ => ?_
      rw [show gradAt T.fe (T.nodal rho') e q a = ∑ i, T.nodal rho' i * T.fe.grad i e q a from rfl, Finset.mul_sum]
      exact Finset.sum_congr rfl fun i _ => by ring
    have hv : valAt T.fe (T.nodal rho') e q = ∑ i, T.nodal rho' i * T.fe.val i e q := rfl
    rw [hd, hv, Finset.mul_sum, Finset.mul_sum, ← Finset.sum_add_distrib, Finset.mul_sum, Finset.sum_mul, Finset.sum_mul]
    exact Finset.sum_congr rfl fun i _ => by ring
  rw [hquad, hload, hbase, hexp, Finset.mul_sum]
  have : ∑ e, ∑ q, W e q * (2 * Tenv * valAt T.fe (u t) e q - valAt T.fe (u t) e q ^ 2) * T.fe.dx e q =
      ∑ e, 2 * (∑ q, W e q * Tenv * valAt T.fe (u t) e q * T.fe.dx e q) - ∑ e, ∑ q, W e q * valAt T.fe (u t) e q ^ 2 * T.fe.dx e q := by
    rw [← Finset.sum_sub_distrib]
    refine Finset.sum_congr rfl fun e _ => ?_
    rw [Finset.mul_sum, ← Finset.sum_sub_distrib]
    exact Finset.sum_congr rfl fun q _ => by ring
  rw [this]; ring

open Classical in
/-- **C84, partial.** Thermal compliance, SIMP law, all prescribed temperatures zero: along every curve of designs whose densities are at
least `1e-6` and whose conductivities are at least `1e-12`, and in every direction whose nodal averages are true means, the derivative of
the reported objective is the sum of the reported sensitivities times the rates of the densities. Missing: other prescribed temperatures,
objectives and material laws, for which the claim is false (theorems below), and directions in which the averaging is wrong (C52). -/
theorem C84_compliance_gradient_partial (T : Task ι Q d nE k) (hT : Built T) (h Tenv : ℝ) (hr : T.robin = some (h, Tenv))
    (ho : T.objective = .compliance) (Ec p : ℝ) (hp : 0 < p) (hq : 0 < T.q) (ht : ∀ e, Function.Injective fun a => T.t a e)
    (hone : ∀ e q, ∑ i, T.fe.val i e q = 1) (D : Finset ι) (rho : ℝ → Fin nE → ℝ) (rho' : Fin nE → ℝ) (t : ℝ)
    (hrho : ∀ e, HasDerivAt (fun s => rho s e) (rho' e) t) (h6 : ∀ e, 1 / 10 ^ 6 ≤ rho t e)
    (hke : ∀ e, 1 / 10 ^ 12 ≤ T.ke simp Ec (rho t) p e) (hsm : ∀ e q, Smooth T rho t e q)
    (hmean : ∀ i, (∃ a e, T.t a e = i) → Spec.Heat.IsMean T.t rho' i (T.nodal rho' i))
    (hdet : (enforceK (T.matrix simp Ec (rho t) p) D).det ≠ 0) (u : ℝ → ι → ℝ)
    (hu : ∀ᶠ s in nhds t, Spec.Heat.Balanced T.fe (T.ke simp Ec (rho s) p) T.robin T.regions p T.q (T.nodal (rho s)) D 0 (u s)) :
    HasDerivAt (fun s => compliance (T.matrix simp Ec (rho s) p) (u s)) (∑ e, T.sensitivity simp Ec (rho t) p (u t) e * rho' e) t := by
  have hu' : ∀ᶠ s in nhds t, HSolves (T.matrix simp Ec (rho s) p) D (T.emit (rho s) p) 0 (u s) :=
    hu.mono fun s hs => (hsolves_balanced hT simp Ec (rho s) p D 0 (u s)).mpr hs
  refine (compliance_curve T hT h Tenv hr Ec p hp hq hone D rho rho' t hrho h6 hke hsm hdet u hu').congr_deriv ?_
  rw [toElements_transpose T.t ht _ rho' _ hmean fun i hi => nodalAverage_unused T.t rho' i hi, ← Finset.sum_add_distrib]
  refine Finset.sum_congr rfl fun e _ => ?_
  unfold Task.sensitivity
  rw [ho, hr]
  simp only
  ring

/-! ### Rods with a Robin end -/

/-- The right end of the rod. -/
def rodEnd : Region (Fin 2) where
  n := 1
  val i _ := if i = 1 then 1 else 0
  dx _ := 1

/-- Its only element has the vertices 0 and 1. -/
def rodNodes : Fin 2 → Fin 1 → Fin 2 := ![![0], ![1]]

/-- A rod of length 1 and conductivity 1 (per density): temperature `g` prescribed at the left end, Robin condition with coefficient `h` and
ambient temperature `Tenv` at the right end. -/
def rodTask (obj : Objective) (g h Tenv : ℝ) : Task (Fin 2) (Fin 1) 1 1 2 where
  fe := rod
  t := rodNodes
  dirichlet := [{0}]
  values := [g]
  robin := some (h, Tenv)
  regions := [rodEnd]
  bilinear := [robinForm rodEnd h none 0]
  linear := [robinLoad rodEnd h Tenv none 0]
  designRobin := false
  objective := obj
  avgWeight := 0
  k := 1

theorem rodTask_built (obj : Objective) (g h Tenv : ℝ) : Built (rodTask obj g h Tenv) := by
  refine ⟨rodTask obj g h Tenv, ?_⟩
  unfold Task.build rodTask
  simp only [assembleRobin_one, Except.map]
  rfl

theorem rod_nodal (obj : Objective) (g h Tenv : ℝ) (r : Fin 1 → ℝ) (i : Fin 2) : (rodTask obj g h Tenv).nodal r i = r 0 := by
  have hr : r = fun _ => r 0 := by funext e; rw [Subsingleton.elim e 0]
  have h1 := (C52_constant_density_partial rodNodes (by decide) i (by revert i; decide) (r 0)).2.2
  show nodalAverage rodNodes r i = r 0
  rw [hr]; exact h1

theorem rod_slope (x : ℝ) (e q : Fin 1) (a : Fin 1) : gradAt rod (fun _ => x) e q a = 0 := by
  simp [gradAt, rod]

theorem rod_nodal_slope (obj : Objective) (g h Tenv : ℝ) (r : Fin 1 → ℝ) (e q : Fin 1) (a : Fin 1) :
    gradAt (rodTask obj g h Tenv).fe ((rodTask obj g h Tenv).nodal r) e q a = 0 := by
  rw [show (rodTask obj g h Tenv).nodal r = fun _ => r 0 from funext (rod_nodal obj g h Tenv r)]
  exact rod_slope _ e q a

theorem rod_interface (obj : Objective) (g h Tenv : ℝ) (r : Fin 1 → ℝ) (e q : Fin 1) :
    interface (rodTask obj g h Tenv).fe ((rodTask obj g h Tenv).nodal r) e q = 0 := by
  unfold interface
  simp [rod_nodal_slope]

theorem rod_balanced (obj : Objective) (g h Tenv : ℝ) (c : ℝ) (p : ℝ) (r : Fin 1 → ℝ) (u : Fin 2 → ℝ) :
    Spec.Heat.Balanced rod (fun _ => c) (some (h, Tenv)) [rodEnd] p 4 ((rodTask obj g h Tenv).nodal r) {0} g u ↔
      u 0 = g ∧ c * (u 1 - u 0) + h * (u 1 - Tenv) = 0 := by
  have hI : ∀ i, Spec.Heat.interfaceLoss rod h Tenv p 4 ((rodTask obj g h Tenv).nodal r) u i = 0 := by
    intro i
    unfold Spec.Heat.interfaceLoss
    refine Finset.sum_eq_zero fun e _ => Finset.sum_eq_zero fun q _ => ?_
    have : Spec.Heat.steepness rod ((rodTask obj g h Tenv).nodal r) e q = 0 := rod_interface obj g h Tenv r e q
    rw [this]; ring
  unfold Spec.Heat.Balanced Spec.Heat.losses
  simp only [hI]
  constructor
  · rintro ⟨h1, h2⟩
    refine ⟨h1 0 (by simp), ?_⟩
    have := h2 1 (by simp)
    simp [Spec.Heat.conducted, Spec.Heat.surfaceLoss, Spec.Heat.slope, rod, rodEnd, Fin.sum_univ_two] at this
    linarith
  · rintro ⟨h1, h2⟩
    refine ⟨fun i hi => by rw [Finset.mem_singleton.mp hi]; exact h1, fun i hi => ?_⟩
    have : i = 1 := by fin_cases i <;> simp_all
    subst this
    simp [Spec.Heat.conducted, Spec.Heat.surfaceLoss, Spec.Heat.slope, rod, rodEnd, Fin.sum_univ_two]
    linarith

/-- Temperature of the right end. -/
theorem rod_solution {g h Tenv c : ℝ} (hh : 0 < h) (hc : 0 < c) {u : Fin 2 → ℝ}
    (hu : u 0 = g ∧ c * (u 1 - u 0) + h * (u 1 - Tenv) = 0) : u 0 = g ∧ u 1 = (c * g + h * Tenv) / (c + h) := by
  refine ⟨hu.1, ?_⟩
  rw [eq_div_iff (by positivity)]
  have := hu.2; rw [hu.1] at this; linarith

theorem rod_compliance (obj : Objective) (g h Tenv : ℝ) (law : ℝ → ℝ → ℝ → ℝ → ℝ) (Ec p : ℝ) (r : Fin 1 → ℝ) (u : Fin 2 → ℝ) :
    compliance ((rodTask obj g h Tenv).matrix law Ec r p) u = law (r 0) 1 (1 * Ec) p * (u 1 - u 0) ^ 2 + h * u 1 ^ 2 := by
  rw [C86_compliance_is_dissipation _ (rodTask_built obj g h Tenv)]
  have hz : ∀ e q, Spec.Heat.steepness (rodTask obj g h Tenv).fe ((rodTask obj g h Tenv).nodal r) e q = 0 := rod_interface obj g h Tenv r
  unfold lossEnergy
  simp only [show (rodTask obj g h Tenv).robin = some (h, Tenv) from rfl, hz]
  simp [energy, Task.ke, rodTask, rod, rodEnd, gradAt, dot, Fin.sum_univ_two]
  ring

theorem rod_sensitivity (obj : Objective) (g h Tenv : ℝ) (law : ℝ → ℝ → ℝ → ℝ → ℝ) (Ec p : ℝ) (r : Fin 1 → ℝ) (u : Fin 2 → ℝ) :
    (rodTask obj g h Tenv).sensitivity law Ec r p u 0 =
      dCSimp (r 0) (1 / 2 * law (r 0) 1 (1 * Ec) p * (u 1 - u 0) ^ 2) 1 (1 * Ec) p := by
  have hen : energy (rodTask obj g h Tenv).fe ((rodTask obj g h Tenv).ke law Ec r p) u 0 =
      1 / 2 * law (r 0) 1 (1 * Ec) p * (u 1 - u 0) ^ 2 := by
    simp [energy, Task.ke, rodTask, rod, gradAt, dot, Fin.sum_univ_two]; left; ring
  have hex : ∀ i, explicitGrad (rodTask obj g h Tenv).fe h Tenv p ((rodTask obj g h Tenv).q : ℝ) ((rodTask obj g h Tenv).nodal r) u i = 0 := by
    intro i
    unfold explicitGrad dot
    refine Finset.sum_eq_zero fun e _ => Finset.sum_eq_zero fun q _ => ?_
    simp [rod_interface, rod_nodal_slope]
  unfold Task.sensitivity
  simp only [hen, show (rodTask obj g h Tenv).robin = some (h, Tenv) from rfl, show (rodTask obj g h Tenv).k = 1 from rfl]
  cases hobj : (rodTask obj g h Tenv).objective with
  | compliance =>
    simp only [toElements, hex]
    simp
  | heatExchange => rfl
  | averagedTemp => rfl

/-- The balance of the rod, as it appears in the theorems below. -/
def RodBalance (T : Task (Fin 2) (Fin 1) 1 1 2) (law : ℝ → ℝ → ℝ → ℝ → ℝ) (p g s : ℝ) (u : Fin 2 → ℝ) : Prop :=
  Spec.Heat.Balanced T.fe (T.ke law 0 (fun _ => s) p) T.robin T.regions p T.q (T.nodal fun _ => s) {0} g u

theorem rodBalance_iff (obj : Objective) (g h Tenv : ℝ) (law : ℝ → ℝ → ℝ → ℝ → ℝ) (p s : ℝ) (u : Fin 2 → ℝ) :
    RodBalance (rodTask obj g h Tenv) law p g s u ↔ u 0 = g ∧ law s 1 0 p * (u 1 - u 0) + h * (u 1 - Tenv) = 0 := by
  have hk : (rodTask obj g h Tenv).ke law 0 (fun _ => s) p = fun _ => law s 1 0 p := by
    funext e
    show law s 1 (1 * 0) p = _
    rw [mul_zero]
  unfold RodBalance
  rw [hk]
  exact rod_balanced obj g h Tenv (law s 1 0 p) p (fun _ => s) u

theorem simp_unit (s p : ℝ) : simp s 1 0 p = s ^ p := by unfold simp; ring

theorem dCSimp_unit {s p : ℝ} (hs : 1 / 10 ^ 6 ≤ s) (hc : 1 / 10 ^ 12 ≤ s ^ p) (U : ℝ) :
    dCSimp s U 1 0 p = -2 * U * (p * s ^ (p - 1)) / s ^ p := by
  unfold dCSimp dESimp eSimp
  have hm : max s floor6 = s := max_eq_left (by unfold floor6; exact hs)
  simp only [hm]
  rw [show (0 : ℝ) + (1 - 0) * s ^ p = s ^ p by ring, max_eq_left (by unfold floor12; exact hc)]
  ring

/-- **C84 (refuted for non-zero prescribed temperatures).** A rod with the temperature 1 prescribed at one end and cooled to ambient
temperature 0 at the other: for every density, exponent and film coefficient the thermal compliance *grows* with the density, and the
reported sensitivity is exactly the opposite of its derivative. -/
theorem C84_prescribed_temperature_wrong_sign (h p r : ℝ) (hh : 0 < h) (hp : 0 < p) (hr : 1 / 10 ^ 6 ≤ r) (hc : 1 / 10 ^ 12 ≤ r ^ p)
    (u : ℝ → Fin 2 → ℝ) (hu : ∀ s, 0 < s → RodBalance (rodTask .compliance 1 h 0) simp p 1 s (u s)) :
    ∃ J', 0 < J' ∧
      HasDerivAt (fun s => compliance ((rodTask .compliance 1 h 0).matrix simp 0 (fun _ => s) p) (u s)) J' r ∧
      (rodTask .compliance 1 h 0).sensitivity simp 0 (fun _ => r) p (u r) 0 = -J' := by
  have hpos : 0 < r := lt_of_lt_of_le (by positivity) hr
  have hsol : ∀ s, 0 < s → u s 0 = 1 ∧ u s 1 = s ^ p / (s ^ p + h) := by
    intro s hs
    have h1 := (rodBalance_iff .compliance 1 h 0 simp p s (u s)).mp (hu s hs)
    rw [simp_unit] at h1
    have := rod_solution hh (Real.rpow_pos_of_pos hs p) h1
    simpa using this
  have hcp : 0 < r ^ p := Real.rpow_pos_of_pos hpos p
  refine ⟨p * r ^ (p - 1) * h ^ 2 / (r ^ p + h) ^ 2, by positivity, ?_, ?_⟩
  · have hd : HasDerivAt (fun s : ℝ => s ^ p * h / (s ^ p + h)) (p * r ^ (p - 1) * h ^ 2 / (r ^ p + h) ^ 2) r := by
      have h1 := Real.hasDerivAt_rpow_const (p := p) (Or.inl hpos.ne')
      refine ((h1.mul_const h).fun_div (h1.add_const h) (by positivity)).congr_deriv ?_
      field_simp
      ring
    refine hd.congr_of_eventuallyEq ?_
    filter_upwards [lt_mem_nhds hpos] with s hs
    have hsp : 0 < s ^ p := Real.rpow_pos_of_pos hs p
    rw [rod_compliance, mul_zero, simp_unit, (hsol s hs).1, (hsol s hs).2]
    field_simp
    ring
  · rw [rod_sensitivity, mul_zero, simp_unit, dCSimp_unit hr hc, (hsol r hpos).1, (hsol r hpos).2]
    field_simp
    ring

/-- **C84 (refuted for the averaged temperature).** The sensitivity used for the objective "averaged_temp" is that of the compliance: on a
rod held at 0 and heated by an ambient temperature 1 through the coefficient `h`, it is `h` times the derivative of the reported objective. -/
theorem C84_averaged_temp_wrong (h p r : ℝ) (hh : 0 < h) (hp : 0 < p) (hr : 1 / 10 ^ 6 ≤ r) (hc : 1 / 10 ^ 12 ≤ r ^ p)
    (u : ℝ → Fin 2 → ℝ) (hu : ∀ s, 0 < s → RodBalance (rodTask .averagedTemp 0 h 1) simp p 0 s (u s)) :
    ∃ J', J' ≠ 0 ∧ (∀ s K, (rodTask .averagedTemp 0 h 1).objectiveValues K (fun _ => s) [u s] = .ok [sumTemp (u s)]) ∧
      HasDerivAt (fun s => sumTemp (u s)) J' r ∧
      (rodTask .averagedTemp 0 h 1).sensitivity simp 0 (fun _ => r) p (u r) 0 = h * J' := by
  have hpos : 0 < r := lt_of_lt_of_le (by positivity) hr
  have hsol : ∀ s, 0 < s → u s 0 = 0 ∧ u s 1 = h / (s ^ p + h) := by
    intro s hs
    have h1 := (rodBalance_iff .averagedTemp 0 h 1 simp p s (u s)).mp (hu s hs)
    rw [simp_unit] at h1
    have := rod_solution hh (Real.rpow_pos_of_pos hs p) h1
    simpa using this
  have hcp : 0 < r ^ p := Real.rpow_pos_of_pos hpos p
  have hrp : 0 < r ^ (p - 1) := Real.rpow_pos_of_pos hpos _
  refine ⟨-(p * r ^ (p - 1) * h / (r ^ p + h) ^ 2), by rw [neg_ne_zero]; positivity, fun s K => rfl, ?_, ?_⟩
  · have hd : HasDerivAt (fun s : ℝ => h / (s ^ p + h)) (-(p * r ^ (p - 1) * h / (r ^ p + h) ^ 2)) r := by
      have h1 := Real.hasDerivAt_rpow_const (p := p) (Or.inl hpos.ne')
      refine ((hasDerivAt_const r h).fun_div (h1.add_const h) (by positivity)).congr_deriv ?_
      field_simp
      ring
    refine hd.congr_of_eventuallyEq ?_
    filter_upwards [lt_mem_nhds hpos] with s hs
    simp [sumTemp, Fin.sum_univ_two, (hsol s hs).1, (hsol s hs).2]
  · rw [rod_sensitivity, mul_zero, simp_unit, dCSimp_unit hr hc, (hsol r hpos).1, (hsol r hpos).2]
    field_simp
    ring

/-- **C84 (refuted for heat exchange).** For uniform designs of the same rod the reported heat exchange is constantly zero, but the
sensitivity handed to the optimizer is negative. -/
theorem C84_heat_exchange_wrong (h p r : ℝ) (hh : 0 < h) (hp : 0 < p) (hr : 1 / 10 ^ 6 ≤ r) (hc : 1 / 10 ^ 12 ≤ r ^ p)
    (u : ℝ → Fin 2 → ℝ) (hu : ∀ s, 0 < s → RodBalance (rodTask .heatExchange 0 h 1) simp p 0 s (u s)) :
    (∀ s K, (rodTask .heatExchange 0 h 1).objectiveValues K (fun _ => s) [u s] = .ok [0]) ∧
      (rodTask .heatExchange 0 h 1).sensitivity simp 0 (fun _ => r) p (u r) 0 < 0 := by
  have hpos : 0 < r := lt_of_lt_of_le (by positivity) hr
  have hsol : ∀ s, 0 < s → u s 0 = 0 ∧ u s 1 = h / (s ^ p + h) := by
    intro s hs
    have h1 := (rodBalance_iff .heatExchange 0 h 1 simp p s (u s)).mp (hu s hs)
    rw [simp_unit] at h1
    have := rod_solution hh (Real.rpow_pos_of_pos hs p) h1
    simpa using this
  have hcp : 0 < r ^ p := Real.rpow_pos_of_pos hpos p
  have hrp : 0 < r ^ (p - 1) := Real.rpow_pos_of_pos hpos _
  constructor
  · intro s K
    have hden : hxDen (rodTask .heatExchange 0 h 1).fe ((rodTask .heatExchange 0 h 1).nodal fun _ => s) = 0 := by
      unfold hxDen
      exact Finset.sum_eq_zero fun e _ => Finset.sum_eq_zero fun q _ => by rw [rod_interface]; ring
    unfold Task.objectiveValues
    simp only [show (rodTask .heatExchange 0 h 1).objective = .heatExchange from rfl,
      show (rodTask .heatExchange 0 h 1).robin = some (h, 1) from rfl, hden]
    rw [if_pos (by positivity)]
    rfl
  · rw [rod_sensitivity, mul_zero, simp_unit, dCSimp_unit hr hc, (hsol r hpos).1, (hsol r hpos).2]
    have : -2 * (1 / 2 * r ^ p * (h / (r ^ p + h) - 0) ^ 2) * (p * r ^ (p - 1)) / r ^ p =
        -(p * r ^ (p - 1) * h ^ 2 / (r ^ p + h) ^ 2) := by
      field_simp
      ring
    rw [this, neg_lt_zero]
    positivity

/-- **C84 (refuted for RAMP).** With the RAMP law the derivative of the SIMP law is used: on the same rod of density 1 with the compliance
objective, the reported sensitivity and the derivative of the objective are in the ratio `p : p + 1`. -/
theorem C84_ramp_wrong (h p : ℝ) (hh : 0 < h) (hp : 0 < p) (u : ℝ → Fin 2 → ℝ)
    (hu : ∀ s, 0 < s → s ≤ 1 + 1 / (2 * p) → RodBalance (rodTask .compliance 0 h 1) ramp p 0 s (u s)) :
    ∃ J', J' ≠ 0 ∧
      HasDerivAt (fun s => compliance ((rodTask .compliance 0 h 1).matrix ramp 0 (fun _ => s) p) (u s)) J' 1 ∧
      (p + 1) * (rodTask .compliance 0 h 1).sensitivity ramp 0 (fun _ => 1) p (u 1) 0 = p * J' := by
  have hb : (1 : ℝ) < 1 + 1 / (2 * p) := by have : 0 < 1 / (2 * p) := by positivity
                                            linarith
  have hramp : ∀ s, 0 < s → s ≤ 1 + 1 / (2 * p) → 0 < ramp s 1 0 p := by
    intro s h0 h1
    have : 0 < 1 + p * (1 - s) := by
      have h2 : p * (s - 1) ≤ p * (1 / (2 * p)) := mul_le_mul_of_nonneg_left (by linarith) hp.le
      have h3 : p * (1 / (2 * p)) = 1 / 2 := by field_simp
      nlinarith
    unfold ramp
    have := div_pos h0 this
    linarith
  have hsol : ∀ s, 0 < s → s ≤ 1 + 1 / (2 * p) → u s 0 = 0 ∧ u s 1 = h / (ramp s 1 0 p + h) := by
    intro s h0 h1
    have h2 := (rodBalance_iff .compliance 0 h 1 ramp p s (u s)).mp (hu s h0 h1)
    have := rod_solution hh (hramp s h0 h1) h2
    simpa using this
  have hr1 : ramp 1 1 0 p = 1 := by unfold ramp; simp
  refine ⟨-((1 + p) * h ^ 2 / (1 + h) ^ 2), by rw [neg_ne_zero]; positivity, ?_, ?_⟩
  · have hd : HasDerivAt (fun s : ℝ => h ^ 2 / (ramp s 1 0 p + h)) (-((1 + p) * h ^ 2 / (1 + h) ^ 2)) 1 := by
      have h1 := hasDerivAt_ramp (rho := 1) (E0 := 1) (Emin := 0) (p := p) (by simp)
      refine ((hasDerivAt_const 1 (h ^ 2)).fun_div (h1.add_const h) (by rw [hr1]; positivity)).congr_deriv ?_
      rw [hr1]
      simp
      field_simp
    refine hd.congr_of_eventuallyEq ?_
    filter_upwards [lt_mem_nhds (show (0 : ℝ) < 1 by norm_num), gt_mem_nhds hb] with s h0 h1
    have hsp := hramp s h0 h1.le
    rw [rod_compliance, mul_zero, (hsol s h0 h1.le).1, (hsol s h0 h1.le).2]
    field_simp
    ring
  · rw [rod_sensitivity, mul_zero, hr1, dCSimp_unit (by norm_num) (by rw [Real.one_rpow]; norm_num), (hsol 1 one_pos hb.le).1,
      (hsol 1 one_pos hb.le).2, hr1, Real.one_rpow, Real.one_rpow]
    field_simp
    ring

/-! ### The hypotheses are met -/

/-- The balances assumed above have solutions. -/
theorem rodBalance_exists (obj : Objective) (g h Tenv : ℝ) (law : ℝ → ℝ → ℝ → ℝ → ℝ) (p s : ℝ) (hs : law s 1 0 p + h ≠ 0) :
    ∃ u, RodBalance (rodTask obj g h Tenv) law p g s u := by
  refine ⟨![g, (law s 1 0 p * g + h * Tenv) / (law s 1 0 p + h)], ?_⟩
  rw [rodBalance_iff]
  simp only [Matrix.cons_val_zero, Matrix.cons_val_one, true_and]
  field_simp
  ring

/-- A rod held at 0 and heated by its surroundings meets every hypothesis of `C84_compliance_gradient_partial`, for the uniform designs. -/
example (h : ℝ) (hh : 0 < h) : ∃ u : ℝ → Fin 2 → ℝ,
    HasDerivAt (fun s => compliance ((rodTask .compliance 0 h 1).matrix simp 0 (fun _ => s) 3) (u s))
      (∑ e, (rodTask .compliance 0 h 1).sensitivity simp 0 (fun _ => 1 / 2) 3 (u (1 / 2)) e * (fun _ => (1 : ℝ)) e) (1 / 2) := by
  classical
  have hex : ∀ s : ℝ, ∃ u, 0 < s → RodBalance (rodTask .compliance 0 h 1) simp 3 0 s u := by
    intro s
    by_cases hs : 0 < s
    · obtain ⟨u, hu⟩ := rodBalance_exists .compliance 0 h 1 simp 3 s (by rw [simp_unit]; have := Real.rpow_pos_of_pos hs 3; linarith)
      exact ⟨u, fun _ => hu⟩
    · exact ⟨0, fun h => absurd h hs⟩
  choose u hu using hex
  have hke : (rodTask .compliance 0 h 1).ke simp 0 (fun _ => 1 / 2) 3 = fun _ => 1 / 8 := by
    funext e
    show simp (1 / 2) 1 (1 * 0) 3 = _
    rw [mul_zero, simp_unit, show (3 : ℝ) = ((3 : ℕ) : ℝ) by norm_num, Real.rpow_natCast]; norm_num
  refine ⟨u, C84_compliance_gradient_partial (rodTask .compliance 0 h 1) (rodTask_built _ _ _ _) h 1 rfl rfl 0 3 (by norm_num)
    (by show 0 < 4; decide) (by show ∀ e, Function.Injective fun a => rodNodes a e; decide) ?_ {0} (fun s _ => s) (fun _ => 1) (1 / 2)
    (fun e => hasDerivAt_id _) (fun e => by norm_num) (fun e => by rw [hke]; norm_num) ?_ ?_ ?_ u ?_⟩
  · intro e q; show ∑ i, rod.val i e q = 1; simp [rod]
  · intro e q; right; right; exact Filter.Eventually.of_forall fun s a => rod_nodal_slope .compliance 0 h 1 (fun _ => s) e q a
  · intro i hi
    rw [rod_nodal]
    have h2 := (C52_constant_density_partial rodNodes (by decide) i hi 1)
    rw [h2.2.2] at h2
    exact h2.2.1
  · refine (C83_heat_unique_solution (rodTask .compliance 0 h 1) (rodTask_built _ _ _ _) ⟨?_, ?_, ?_⟩ ?_ ?_ simp 0 (fun _ => 1 / 2) ?_ 3 ?_
      {0} ?_).1
    · intro e q; show (0 : ℝ) < 1; norm_num
    · intro i e q; show (0 : ℝ) ≤ 1 / 2; norm_num
    · intro e q; show ∑ i, rod.val i e q = 1; simp [rod]
    · intro R hR q
      have : R = rodEnd := by simpa [rodTask] using hR
      subst this; show (0 : ℝ) ≤ 1; norm_num
    · intro h' Te he
      have : some (h, (1 : ℝ)) = some (h', Te) := he
      simp at this; linarith [this.1]
    · intro e; norm_num
    · intro e; rw [hke]; norm_num
    · intro w h0 hs
      have h1 := h0 0 (by simp)
      have h2 := hs 0 0 0
      have h3 : w 1 - w 0 = 0 := by
        have : Spec.Heat.slope rod w 0 0 0 = 0 := h2
        simp [Spec.Heat.slope, rod, Fin.sum_univ_two] at this; linarith
      funext i; fin_cases i
      · exact h1
      · show w 1 = 0; linarith
  · filter_upwards [lt_mem_nhds (show (0 : ℝ) < 1 / 2 by norm_num)] with s hs
    exact hu s hs

end
end Verif.Heat
