import Verif.Props.HeatSens
import Mathlib.Data.List.OfFn
import Mathlib.Algebra.BigOperators.Fin

/-!
What the averaging averages (C52), the values reported for the heat objectives (C88) and the adjoint fields (C89).
-/
namespace Verif.Heat

open Matrix Material Elastic

variable {ι Q : Type} [Fintype ι] [Fintype Q] {d nE k : ℕ}

set_option linter.unusedSectionVars false

noncomputable section

/-! ### C52: what is averaged -/

/-- The element whose density is added for vertex `a` of element `e`: entry `a nE + e` of `np.repeat(rho, k)`. -/
def pairedWith (a : Fin k) (e : Fin nE) : Fin nE :=
  ⟨(a * nE + e) / k, Nat.div_lt_of_lt_mul (by
    calc a * nE + e < a * nE + nE := by omega
      _ = (a + 1) * nE := by ring
      _ ≤ k * nE := Nat.mul_le_mul_right _ a.isLt)⟩

theorem repeatEach_ofFn (rho : Fin nE → ℝ) : repeatEach rho k = List.ofFn fun n : Fin (k * nE) => rho ⟨n / k, Nat.div_lt_of_lt_mul n.isLt⟩ := by
  rw [List.ofFn_mul', repeatEach, List.flatMap_def, ← List.ofFn_eq_map]
  congr 2
  funext e
  rw [← List.ofFn_const]
  congr 1
  funext j
  congr 1
  apply Fin.ext
  have hk : 0 < k := lt_of_le_of_lt (Nat.zero_le _) j.isLt
  show (e : ℕ) = (k * e + j) / k
  rw [Nat.mul_add_div hk, Nat.div_eq_of_lt j.isLt, Nat.add_zero]

theorem ravel_ofFn (t : Fin k → Fin nE → ι) :
    ravel t = List.ofFn fun n : Fin (k * nE) => t (finProdFinEquiv.symm n).1 (finProdFinEquiv.symm n).2 := by
  rw [List.ofFn_mul, ravel, List.flatMap_def, ← List.ofFn_eq_map]
  congr 2
  funext a
  rw [← List.ofFn_eq_map]
  congr 1
  funext e
  have : (⟨a * nE + e, by
      calc a * nE + e < a * nE + nE := by omega
        _ = (a + 1) * nE := by ring
        _ ≤ k * nE := Nat.mul_le_mul_right _ a.isLt⟩ : Fin (k * nE)) = finProdFinEquiv (a, e) := by
    apply Fin.ext; show (a * nE + e : ℕ) = e + nE * a; ring
  rw [this, Equiv.symm_apply_apply]

open Classical in
theorem addAt_ofFn (n : ℕ) (f : Fin n → ι) (g : Fin n → ℝ) (i : ι) :
    addAt (List.ofFn f) (List.ofFn g) i = ∑ m, if f m = i then g m else 0 := by
  induction n with
  | zero => simp [addAt]
  | succ n ih =>
    rw [Fin.sum_univ_succ, ← ih (fun m => f m.succ) fun m => g m.succ]
    unfold addAt
    rw [List.ofFn_succ, List.ofFn_succ, List.zip_cons_cons, List.filter_cons]
    by_cases h : f 0 = i
    · simp [h]
    · simp [h]

open Classical in
/-- **C52 (what is averaged).** On every mesh and for every density field: the nodal value adds, for vertex `a` of element `e` at the node,
the density of the element number `⌊(a nE + e) / k⌋` instead of `e`, and divides by the number of elements at the node. -/
theorem C52_what_is_averaged (t : Fin k → Fin nE → ι) (ht : ∀ e, Function.Injective fun a => t a e) (rho : Fin nE → ℝ) (i : ι) :
    nodalAverage t rho i = (∑ a, ∑ e, if t a e = i then rho (pairedWith a e) else 0) /
      max ((Finset.univ.filter fun e => ∃ a, t a e = i).card : ℝ) 1 := by
  unfold nodalAverage
  rw [count_card t ht, ravel_ofFn, repeatEach_ofFn, addAt_ofFn]
  congr 1
  · rw [← finProdFinEquiv.sum_comp, Fintype.sum_prod_type]
    refine Finset.sum_congr rfl fun a _ => Finset.sum_congr rfl fun e _ => ?_
    rw [Equiv.symm_apply_apply]
    have : (⟨(finProdFinEquiv (a, e) : ℕ) / k, Nat.div_lt_of_lt_mul (finProdFinEquiv (a, e)).isLt⟩ : Fin nE) = pairedWith a e := by
      apply Fin.ext; show (e + nE * a : ℕ) / k = (a * nE + e) / k; congr 1; ring
    rw [this]

open Classical in
/-- **C52 (exactly when it is right).** At a node of the mesh, the nodal value is the mean over the elements at the node for *every* density
field exactly if the numbers `⌊(a nE + e) / k⌋` of the vertices at the node run once through those elements. -/
theorem C52_right_iff (t : Fin k → Fin nE → ι) (ht : ∀ e, Function.Injective fun a => t a e) (i : ι) (hi : ∃ a e, t a e = i) :
    (∀ rho, Spec.Heat.IsMean t rho i (nodalAverage t rho i)) ↔
    ∀ e', (∑ a, ∑ e, if t a e = i ∧ pairedWith a e = e' then 1 else 0) = if ∃ a, t a e' = i then 1 else 0 := by
  obtain ⟨a0, e0, h0⟩ := hi
  have hpos : (1 : ℝ) ≤ (Finset.univ.filter fun e => ∃ a, t a e = i).card := by
    exact_mod_cast Finset.card_pos.mpr ⟨e0, by simp only [Finset.mem_filter, Finset.mem_univ, true_and]; exact ⟨a0, h0⟩⟩
  have hm : ∀ rho, Spec.Heat.IsMean t rho i (nodalAverage t rho i) ↔
      (∑ a, ∑ e, if t a e = i then rho (pairedWith a e) else 0) = ∑ e with ∃ a, t a e = i, rho e := by
    intro rho
    unfold Spec.Heat.IsMean
    rw [C52_what_is_averaged t ht, max_eq_left hpos]
    exact div_left_inj' (by linarith)
  simp only [hm]
  constructor
  · intro h e'
    have h1 := h fun e => if e = e' then 1 else 0
    rw [Finset.sum_filter] at h1
    have h2 : ∀ a e, (if t a e = i then (if pairedWith a e = e' then (1 : ℝ) else 0) else 0) =
        if t a e = i ∧ pairedWith a e = e' then 1 else 0 := by intro a e; by_cases h : t a e = i <;> simp [h]
    have h3 : ∑ e, (if ∃ a, t a e = i then (if e = e' then (1 : ℝ) else 0) else 0) = if ∃ a, t a e' = i then 1 else 0 := by
      rw [Finset.sum_eq_single e']
      · simp
      · intro b _ hb; simp [hb]
      · simp
    simp only [h2, h3] at h1
    by_cases hc : ∃ a, t a e' = i
    · rw [if_pos hc] at h1 ⊢; exact_mod_cast h1
    · rw [if_neg hc] at h1 ⊢; exact_mod_cast h1
  · intro h rho
    have h2 : ∀ a e, (if t a e = i then rho (pairedWith a e) else 0) =
        ∑ e', (if t a e = i ∧ pairedWith a e = e' then rho e' else 0) := by
      intro a e
      by_cases hc : t a e = i
      · simp [hc]
      · simp [hc]
    simp only [h2]
    rw [Finset.sum_filter]
    have h3 : ∀ a, (∑ e, ∑ e', if t a e = i ∧ pairedWith a e = e' then rho e' else 0) =
        ∑ e', ∑ e, if t a e = i ∧ pairedWith a e = e' then rho e' else 0 := fun a => Finset.sum_comm
    simp only [h3]
    rw [Finset.sum_comm]
    refine Finset.sum_congr rfl fun e' _ => ?_
    have h4 := congrArg (fun n : ℕ => (n : ℝ) * rho e') (h e')
    simp only [Nat.cast_sum, Finset.sum_mul] at h4
    have h5 : ∀ a e, (((if t a e = i ∧ pairedWith a e = e' then 1 else 0 : ℕ) : ℝ) * rho e') =
        if t a e = i ∧ pairedWith a e = e' then rho e' else 0 := by intro a e; split <;> simp
    simp only [h5] at h4
    rw [h4]
    split <;> simp

open Classical in
/-- **C52 (refuted on most meshes).** The first vertices of the elements number `0 … k-1` all receive the density of element 0. Whenever one
of them is no vertex of element 0, the nodal density there is not a mean over the elements at that node, for some density field. -/
theorem C52_wrong_on_meshes (t : Fin k → Fin nE → ι) (ht : ∀ e, Function.Injective fun a => t a e) (hk : 0 < k) (hn : 0 < nE) (e : Fin nE)
    (he : (e : ℕ) < k) (hout : ∀ a, t a ⟨0, hn⟩ ≠ t ⟨0, hk⟩ e) :
    ∃ rho, ¬ Spec.Heat.IsMean t rho (t ⟨0, hk⟩ e) (nodalAverage t rho (t ⟨0, hk⟩ e)) := by
  by_contra hcon
  have hall : ∀ rho, Spec.Heat.IsMean t rho (t ⟨0, hk⟩ e) (nodalAverage t rho (t ⟨0, hk⟩ e)) := fun rho => by
    by_contra h; exact hcon ⟨rho, h⟩
  have h1 := (C52_right_iff t ht _ ⟨_, e, rfl⟩).mp hall ⟨0, hn⟩
  rw [if_neg (by rintro ⟨a, ha⟩; exact hout a ha)] at h1
  have h2 := Finset.sum_eq_zero_iff.mp (Finset.sum_eq_zero_iff.mp h1 ⟨0, hk⟩ (Finset.mem_univ _)) e (Finset.mem_univ _)
  have hp : pairedWith (⟨0, hk⟩ : Fin k) e = ⟨0, hn⟩ := by
    apply Fin.ext
    show (0 * nE + (e : ℕ)) / k = 0
    rw [Nat.zero_mul, Nat.zero_add, Nat.div_eq_of_lt he]
  simp [hp] at h2

/-- Two triangles `0 1 2` and `3 1 2`. -/
def fan : Fin 3 → Fin 2 → Fin 4 := ![![0, 3], ![1, 1], ![2, 2]]

/-- They meet the hypotheses. -/
example : ∃ rho, ¬ Spec.Heat.IsMean fan rho (fan 0 1) (nodalAverage fan rho (fan 0 1)) :=
  C52_wrong_on_meshes fan (by decide) (by decide) (by decide) 1 (by decide) (by decide)

/-- Two rods `0 1` and `1 2`. -/
def twoRods : Fin 2 → Fin 2 → Fin 3 := ![![0, 1], ![1, 2]]

/-- The condition of `C52_right_iff` holds at their middle node. -/
example (rho : Fin 2 → ℝ) : Spec.Heat.IsMean twoRods rho 1 (nodalAverage twoRods rho 1) := by
  classical
  refine (C52_right_iff twoRods (by decide) 1 ⟨1, 0, by decide⟩).mpr ?_ rho
  intro e'
  have h : ∀ e' : Fin 2, (∑ a, ∑ e, if twoRods a e = 1 ∧ pairedWith a e = e' then 1 else 0) =
      if ∃ a, twoRods a e' = 1 then 1 else 0 := by decide
  have := h e'
  convert this

/-! ### C88: objective values -/

theorem valAt_const (B : FE ι (Fin nE) Q d) (h1 : ∀ e q, ∑ i, B.val i e q = 1) (c : ℝ) (e : Fin nE) (q : Q) : valAt B (fun _ => c) e q = c := by
  unfold valAt; rw [← Finset.mul_sum, h1, mul_one]

theorem heatExchange_eq (B : FE ι (Fin nE) Q d) (h1 : ∀ e q, ∑ i, B.val i e q = 1) (T rn : ι → ℝ) (Tenv h : ℝ)
    (hs : 1 / 10 ^ 16 < Spec.Heat.interfaceSize B rn) : heatExchange B T rn Tenv h = Spec.Heat.exchanged B rn h Tenv T := by
  have hden : hxDen B rn = Spec.Heat.interfaceSize B rn := rfl
  unfold heatExchange Spec.Heat.exchanged
  rw [if_neg (by rw [hden]; exact not_le.mpr hs), hden]
  congr 1
  unfold hxNum
  refine Finset.sum_congr rfl fun e _ => Finset.sum_congr rfl fun q _ => ?_
  rw [valAt_const B h1, valAt_const B h1, show Spec.Heat.steepness B rn e q = interface B rn e q from rfl,
    show Spec.Heat.field B T e q = valAt B T e q from rfl]
  ring

/-- **C88, partial.** For every task as constructed, every density field and temperatures: the reported compliance is the dissipated heat of
every load case; the value reported for "averaged_temp" is the *sum* of the nodal temperatures; the heat exchange of every load case is the
mean of `-Tenv h (T - Tenv)` over the interface (0 if there is no interface), to which, for a single load case, the sum of the temperatures is
added with its weight. Missing: the average (`C88_averaged_temp_is_sum`) and several weighted load cases
(`C88_weighted_objective_constant`). -/
theorem C88_objective_values_partial (T : Task ι Q d nE k) (hT : Built T) (h1 : ∀ e q, ∑ i, T.fe.val i e q = 1)
    (law : ℝ → ℝ → ℝ → ℝ → ℝ) (Ec : ℝ) (rho : Fin nE → ℝ) (p : ℝ) (Ts : List (ι → ℝ)) :
    (T.objective = .compliance → T.objectiveValues (T.matrix law Ec rho p) rho Ts =
      .ok (Ts.map (Spec.Heat.dissipated T.fe (T.ke law Ec rho p) T.robin T.regions p T.q (T.nodal rho)))) ∧
    (T.objective = .averagedTemp → T.objectiveValues (T.matrix law Ec rho p) rho Ts = .ok (Ts.map fun u => ∑ i, u i)) ∧
    (T.objective = .heatExchange → T.robin = none → T.objectiveValues (T.matrix law Ec rho p) rho Ts = .error .runtimeError) ∧
    (∀ h Tenv, T.objective = .heatExchange → T.robin = some (h, Tenv) →
      (Spec.Heat.interfaceSize T.fe (T.nodal rho) ≤ 1 / 10 ^ 16 →
        T.objectiveValues (T.matrix law Ec rho p) rho Ts = .ok (Ts.map fun _ => 0)) ∧
      (1 / 10 ^ 16 < Spec.Heat.interfaceSize T.fe (T.nodal rho) → T.avgWeight = 0 →
        T.objectiveValues (T.matrix law Ec rho p) rho Ts = .ok (Ts.map (Spec.Heat.exchanged T.fe (T.nodal rho) h Tenv))) ∧
      (1 / 10 ^ 16 < Spec.Heat.interfaceSize T.fe (T.nodal rho) → ∀ u, Ts = [u] →
        T.objectiveValues (T.matrix law Ec rho p) rho Ts =
          .ok [Spec.Heat.exchanged T.fe (T.nodal rho) h Tenv u + T.avgWeight * ∑ i, u i])) := by
  refine ⟨fun ho => ?_, fun ho => ?_, fun ho hr => ?_, fun h Tenv ho hr => ⟨fun hs => ?_, fun hs hw => ?_, fun hs u hu => ?_⟩⟩
  · unfold Task.objectiveValues
    rw [ho]
    show Except.ok _ = Except.ok _
    congr 1
    refine List.map_congr_left fun u _ => ?_
    rw [C86_compliance_is_dissipation T hT]
    unfold Spec.Heat.dissipated lossEnergy
    congr 1
    rw [Finset.mul_sum]
    refine Finset.sum_congr rfl fun e _ => ?_
    unfold energy
    rw [Finset.mul_sum]
    refine Finset.sum_congr rfl fun q _ => ?_
    have : dot (gradAt T.fe u e q) (gradAt T.fe u e q) = ∑ a, Spec.Heat.slope T.fe u e q a ^ 2 :=
      Finset.sum_congr rfl fun a _ => (sq _).symm
    rw [this]; ring
  · unfold Task.objectiveValues; rw [ho]; rfl
  · unfold Task.objectiveValues; rw [ho]; simp only [hr]
  · unfold Task.objectiveValues; rw [ho]; simp only [hr]; exact if_pos hs
  · unfold Task.objectiveValues; rw [ho]; simp only [hr]
    rw [if_neg (show ¬ hxDen T.fe (T.nodal rho) ≤ 1 / 10 ^ 16 from not_le.mpr hs), if_pos hw]
    congr 1
    exact List.map_congr_left fun u _ => heatExchange_eq T.fe h1 u _ Tenv h hs
  · subst hu
    unfold Task.objectiveValues; rw [ho]; simp only [hr]
    rw [if_neg (show ¬ hxDen T.fe (T.nodal rho) ≤ 1 / 10 ^ 16 from not_le.mpr hs)]
    simp only [List.map_cons, List.map_nil, List.length_singleton, lt_self_iff_false, if_false, List.zipWith_cons_cons, List.zipWith_nil_left]
    rw [heatExchange_eq T.fe h1 u _ Tenv h hs]
    by_cases hw : T.avgWeight = 0
    · rw [if_pos hw, hw]; simp
    · rw [if_neg hw]; rfl

/-- **C88 (refuted for the averaged temperature).** For the uniform temperature `v` the value reported for "averaged_temp" is the number of
nodes times `v`: it grows with the refinement of the mesh and is the average only for one node or the temperature 0. -/
theorem C88_averaged_temp_is_sum (T : Task ι Q d nE k) (ho : T.objective = .averagedTemp) (K : Matrix ι ι ℝ) (rho : Fin nE → ℝ) (v : ℝ) :
    T.objectiveValues K rho [fun _ => v] = .ok [Fintype.card ι * v] ∧
    ((Fintype.card ι * v = v) ↔ v = 0 ∨ Fintype.card ι = 1) := by
  refine ⟨?_, ?_⟩
  · unfold Task.objectiveValues; rw [ho]
    simp [sumTemp, nsmul_eq_mul]
  · constructor
    · intro h
      by_cases hv : v = 0
      · exact .inl hv
      · right
        have : (Fintype.card ι : ℝ) = 1 := by
          have h2 : ((Fintype.card ι : ℝ) - 1) * v = 0 := by linarith
          rcases mul_eq_zero.mp h2 with h3 | h3
          · linarith
          · exact absurd h3 hv
        exact_mod_cast this
    · rintro (rfl | h)
      · simp
      · rw [h]; simp

theorem sum_abs_sign (l : List ℝ) (s : ℝ) (hs : s = 1 ∨ s = -1) (h : ∀ x ∈ l, 0 ≤ s * x) : (l.map abs).sum = s * l.sum := by
  induction l with
  | nil => simp
  | cons x l ih =>
    have hx := h x (by simp)
    have := ih fun y hy => h y (by simp [hy])
    rw [List.map_cons, List.sum_cons, List.sum_cons, this]
    rcases hs with rfl | rfl
    · rw [abs_of_nonneg (by linarith)]; ring
    · rw [abs_of_nonpos (by linarith)]; ring

theorem sum_zipWith_scaled {α : Type} (l : List α) (f g : α → ℝ) (a b w : ℝ) :
    (List.zipWith (fun x y => x / a + w * (y / b)) (l.map f) (l.map g)).sum = (l.map f).sum / a + w * ((l.map g).sum / b) := by
  induction l with
  | nil => simp
  | cons x l ih => simp only [List.map_cons, List.zipWith_cons_cons, List.sum_cons, ih]; ring

/-- **C88 (refuted for several weighted load cases).** With more than one load case and a weight on the averaged temperature, the mean of the
reported objective values — the objective of the optimization — is the constant `±1 + weight` for *every* design and temperatures, as soon as
the heat exchanges of the load cases have the same sign, the temperature sums are non-negative and neither mean vanishes. -/
theorem C88_weighted_objective_constant (T : Task ι Q d nE k) (h1 : ∀ e q, ∑ i, T.fe.val i e q = 1) (ho : T.objective = .heatExchange)
    (h Tenv : ℝ) (hr : T.robin = some (h, Tenv)) (hw : T.avgWeight ≠ 0) (K : Matrix ι ι ℝ) (rho : Fin nE → ℝ)
    (hs : 1 / 10 ^ 16 < Spec.Heat.interfaceSize T.fe (T.nodal rho)) (Ts : List (ι → ℝ)) (hl : 1 < Ts.length) (s : ℝ) (hsgn : s = 1 ∨ s = -1)
    (hx : ∀ u ∈ Ts, 0 ≤ s * Spec.Heat.exchanged T.fe (T.nodal rho) h Tenv u) (ht : ∀ u ∈ Ts, 0 ≤ ∑ i, u i)
    (hx0 : 1 / 10 ^ 12 ≤ s * (Ts.map (Spec.Heat.exchanged T.fe (T.nodal rho) h Tenv)).sum / Ts.length)
    (ht0 : 1 / 10 ^ 12 ≤ (Ts.map fun u => ∑ i, u i).sum / Ts.length) :
    ∃ Js, T.objectiveValues K rho Ts = .ok Js ∧ Js.length = Ts.length ∧ Js.sum / Js.length = s + T.avgWeight := by
  have hex : ∀ u, heatExchange T.fe u (T.nodal rho) Tenv h = Spec.Heat.exchanged T.fe (T.nodal rho) h Tenv u :=
    fun u => heatExchange_eq T.fe h1 u _ Tenv h hs
  have hn : (0 : ℝ) < Ts.length := by exact_mod_cast (by omega : 0 < Ts.length)
  have hval : T.objectiveValues K rho Ts = .ok (List.zipWith (fun x y =>
      x / absScale (Ts.map (Spec.Heat.exchanged T.fe (T.nodal rho) h Tenv)) + T.avgWeight * (y / absScale (Ts.map sumTemp)))
      (Ts.map (Spec.Heat.exchanged T.fe (T.nodal rho) h Tenv)) (Ts.map sumTemp)) := by
    unfold Task.objectiveValues
    rw [ho]
    simp only [hr]
    rw [if_neg (show ¬ hxDen T.fe (T.nodal rho) ≤ 1 / 10 ^ 16 from not_le.mpr hs), if_neg hw, if_pos hl]
    simp only [hex]
  refine ⟨_, hval, by simp, ?_⟩
  have ha : absScale (Ts.map (Spec.Heat.exchanged T.fe (T.nodal rho) h Tenv)) =
      s * (Ts.map (Spec.Heat.exchanged T.fe (T.nodal rho) h Tenv)).sum / Ts.length := by
    unfold absScale
    rw [sum_abs_sign _ s hsgn (by intro x hx'; obtain ⟨u, hu, rfl⟩ := List.mem_map.mp hx'; exact hx u hu), List.length_map, max_eq_left hx0]
  have hb : absScale (Ts.map sumTemp) = (Ts.map sumTemp).sum / Ts.length := by
    unfold absScale
    rw [sum_abs_sign _ 1 (.inl rfl) (by intro x hx'; obtain ⟨u, hu, rfl⟩ := List.mem_map.mp hx'; rw [one_mul]; exact ht u hu), List.length_map,
      one_mul]
    exact max_eq_left ht0
  have ht0' : 1 / 10 ^ 12 ≤ (Ts.map sumTemp).sum / Ts.length := ht0
  rw [sum_zipWith_scaled, ha, hb]
  simp only [List.length_zipWith, List.length_map, min_self]
  generalize (Ts.map (Spec.Heat.exchanged T.fe (T.nodal rho) h Tenv)).sum = X at *
  generalize (Ts.map sumTemp).sum = Y at *
  have hXp : 0 < s * X / Ts.length := lt_of_lt_of_le (by positivity) hx0
  have hYp : 0 < Y / Ts.length := lt_of_lt_of_le (by positivity) ht0'
  have hX : X ≠ 0 := by rintro rfl; simp at hXp
  have hY : Y ≠ 0 := by rintro rfl; simp at hYp
  have hs2 : s ≠ 0 := by rcases hsgn with rfl | rfl <;> norm_num
  have hss : s * s = 1 := by rcases hsgn with rfl | rfl <;> norm_num
  have e1 : X / (s * X / Ts.length) = s * Ts.length := by
    rw [div_div_eq_mul_div, div_eq_iff (mul_ne_zero hs2 hX)]
    linear_combination -(X * Ts.length) * hss
  have e2 : Y / (Y / Ts.length) = Ts.length := by field_simp
  rw [e1, e2]
  field_simp

/-! ### C89: adjoint fields -/

/-- The adjoint identity: the sum of the temperatures differs by the adjoint field tested with the change of the matrix. -/
theorem adjoint_diff {A A' : Matrix ι ι ℝ} (hsym : ∀ i j, A i j = A j i) {D : Finset ι} {b : ι → ℝ} {v : ℝ} {u u' lam : ι → ℝ}
    (hu : HSolves A D b v u) (hu' : HSolves A' D b v u') (hl : HSolves A D (fun _ => 1) 0 lam) :
    ∑ i, u' i = ∑ i, u i - ∑ i, ∑ j, (A' i j - A i j) * (lam i * u' j) := by
  rw [hsolves_iff] at hu hu' hl
  have h1 : ∑ i, (u' i - u i) = ∑ i, (u' i - u i) * ∑ j, A i j * lam j := by
    refine Finset.sum_congr rfl fun i _ => ?_
    by_cases hi : i ∈ D
    · rw [hu.1 i hi, hu'.1 i hi]; ring
    · rw [hl.2 i hi]; ring
  rw [sum_sym hsym] at h1
  have h2 : ∑ i, lam i * ∑ j, A i j * (u' j - u j) = -∑ i, ∑ j, (A' i j - A i j) * (lam i * u' j) := by
    rw [← Finset.sum_neg_distrib]
    refine Finset.sum_congr rfl fun i _ => ?_
    by_cases hi : i ∈ D
    · rw [hl.1 i hi]; simp
    · have e1 := hu.2 i hi
      have e2 := hu'.2 i hi
      have e3 : ∑ j, A i j * (u' j - u j) = ∑ j, A i j * u' j - ∑ j, A i j * u j := by
        rw [← Finset.sum_sub_distrib]; exact Finset.sum_congr rfl fun j _ => by ring
      have e4 : ∑ j, (A' i j - A i j) * (lam i * u' j) = lam i * (∑ j, A' i j * u' j - ∑ j, A i j * u' j) := by
        rw [← Finset.sum_sub_distrib, Finset.mul_sum]; exact Finset.sum_congr rfl fun j _ => by ring
      rw [e3, e4, e1, e2]; ring
  rw [h2, Finset.sum_sub_distrib] at h1
  linarith

theorem conduction_bilinear (B : FE ι (Fin nE) Q d) (ke : Fin nE → ℝ) (lam u : ι → ℝ) :
    ∑ i, ∑ j, conduction B ke i j * (lam i * u j) = ∑ e, ke e * gradDensity B u lam e := by
  have h0 : ∀ i, ∑ j, conduction B ke i j * (lam i * u j) = lam i * ∑ j, conduction B ke i j * u j := by
    intro i; rw [Finset.mul_sum]; exact Finset.sum_congr rfl fun j _ => by ring
  simp only [h0, conduction_apply, Finset.mul_sum]
  rw [Finset.sum_comm]
  refine Finset.sum_congr rfl fun e _ => ?_
  rw [Finset.sum_comm]
  unfold gradDensity
  rw [Finset.mul_sum]
  refine Finset.sum_congr rfl fun q _ => ?_
  have : dot (gradAt B u e q) (gradAt B lam e q) = ∑ i, lam i * dot (gradAt B u e q) (B.grad i e q) := by
    unfold dot gradAt
    simp only [Finset.mul_sum]
    rw [Finset.sum_comm]
    exact Finset.sum_congr rfl fun i _ => Finset.sum_congr rfl fun a _ => by ring
  rw [this, Finset.sum_mul, Finset.mul_sum]
  exact Finset.sum_congr rfl fun i _ => by ring

open Classical in
theorem solveMulti_single (S : Solver.Backend ℝ (Matrix ι ι ℝ) (ι → ℝ)) (hS : ExactDirect S) (c : Solver.Cfg ℝ)
    (hc : c.solver = "auto" ∨ c.solver = "spsolve") (K : Matrix ι ι ℝ) (f : ι → ℝ) (D : Finset ι) (v : ℝ) (hdet : (enforceK K D).det ≠ 0) :
    ∃ u, solveMulti S c K f [D] [v] = .ok [u] ∧ HSolves K D f v u := by
  have hname : (if c.solver = "auto" then "spsolve" else c.solver) = "spsolve" := by
    rcases hc with h | h <;> rw [h]
    · rw [if_pos rfl]
    · rw [if_neg (by simp)]
  refine ⟨(enforceK K D)⁻¹ *ᵥ enforceRhs f D v, ?_, ?_⟩
  · unfold solveMulti
    simp only [hname]
    rw [if_neg (by simp), if_neg (by simp)]
    simp only [if_true, List.zipWith_cons_cons, List.zipWith_nil_left]
    rw [(hS _ (by convert hdet)).2, bind_okay]
    unfold broadcast
    rw [if_pos (by simp)]
    rfl
  · show enforceK K D *ᵥ _ = _
    rw [Matrix.mulVec_mulVec, Matrix.mul_nonsing_inv _ (Ne.isUnit hdet), Matrix.one_mulVec]

open Classical in
/-- **C89, partial.** For the objective "averaged_temp" with the temperature 0 prescribed: when the element conductivities change along any
differentiable curve (everything else fixed), the derivative of the reported objective is minus the sum of the rates of the conductivities
times the element values returned by `energy_multi_load`. Missing: non-zero prescribed temperatures (`C89_prescribed_temperature_wrong`) and
the heat exchange (`C89_heat_exchange_load_too_small`). -/
theorem C89_conductivity_gradient_partial (T : Task ι Q d nE k) (hT : Built T) (ho : T.objective = .averagedTemp)
    (S : Solver.Backend ℝ (Matrix ι ι ℝ) (ι → ℝ)) (hS : ExactDirect S) (c : Solver.Cfg ℝ) (hc : c.solver = "auto" ∨ c.solver = "spsolve")
    (law : ℝ → ℝ → ℝ → ℝ → ℝ) (Ec : ℝ) (rho : Fin nE → ℝ) (p : ℝ) (D : Finset ι) (hD : T.dirichlet = [D]) (hv : T.values = [0])
    (hdet : (enforceK (T.matrix law Ec rho p) D).det ≠ 0) (ke : ℝ → Fin nE → ℝ) (ke' : Fin nE → ℝ) (t : ℝ)
    (hk : ∀ e, HasDerivAt (fun s => ke s e) (ke' e) t) (hkt : ke t = T.ke law Ec rho p) (u : ℝ → ι → ℝ)
    (hu : ∀ᶠ s in nhds t, Spec.Heat.Balanced T.fe (ke s) T.robin T.regions p T.q (T.nodal rho) D 0 (u s)) :
    ∃ lam, T.adjoints S c (T.matrix law Ec rho p) rho p [u t] = .ok [lam] ∧
      HasDerivAt (fun s => ∑ i, u s i) (-∑ e, ke' e * T.energyColumn law Ec rho p (u t) lam e) t := by
  obtain ⟨lam, hl1, hl2⟩ := solveMulti_single S hS c hc (T.matrix law Ec rho p) (fun _ => 1) D 0 hdet
  refine ⟨lam, by unfold Task.adjoints; rw [ho, hD, hv]; exact hl1, ?_⟩
  obtain ⟨A, hA⟩ : ∃ A : ℝ → Matrix ι ι ℝ, A = fun s => (T.forms rho p).foldl (· + ·) (conduction T.fe (ke s)) := ⟨_, rfl⟩
  have hAt : A t = T.matrix law Ec rho p := by rw [hA]; show _ = (T.forms rho p).foldl _ _; rw [← hkt]
  have hentry : ∀ s i j, A s i j = conduction T.fe (ke s) i j + ((T.forms rho p).map fun N => N i j).sum := by
    intro s i j
    have key : ∀ (l : List (Matrix ι ι ℝ)) (M : Matrix ι ι ℝ), (l.foldl (· + ·) M) i j = M i j + (l.map fun N => N i j).sum := by
      intro l
      induction l with
      | nil => intro M; simp
      | cons N l ih => intro M; rw [List.foldl_cons, ih, List.map_cons, List.sum_cons, Matrix.add_apply]; ring
    rw [hA]; exact key _ _
  have hderiv : ∀ i j, HasDerivAt (fun s => A s i j) (conduction T.fe ke' i j) t := by
    intro i j
    have h1 : HasDerivAt (fun s => conduction T.fe (ke s) i j) (conduction T.fe ke' i j) t := by
      unfold conduction
      refine HasDerivAt.fun_sum fun e _ => HasDerivAt.fun_sum fun q _ => ?_
      exact ((hk e).mul_const _).mul_const _
    have := h1.add_const ((T.forms rho p).map fun N => N i j).sum
    exact this.congr_of_eventuallyEq (Filter.Eventually.of_forall fun s => hentry s i j)
  have hsol : ∀ᶠ s in nhds t, HSolves (A s) D (T.emit rho p) 0 (u s) := by
    filter_upwards [hu] with s hs
    rw [hsolves_iff]
    refine ⟨hs.1, fun i hi => ?_⟩
    have h1 := balance_ke hT (ke s) rho p (u s) i
    rw [hs.2 i hi, sub_eq_zero] at h1
    rw [hA]; exact h1
  have hcont := hsolution_continuousAt A (fun _ => T.emit rho p) D 0 t (fun i j => (hderiv i j).continuousAt) (fun i => continuousAt_const)
    (by rw [hAt]; exact hdet) u hsol
  have hci : ∀ i, ContinuousAt (fun s => u s i) t := fun i => continuousAt_pi.mp hcont i
  have hcol : ∀ e, T.energyColumn law Ec rho p (u t) lam e = gradDensity T.fe (u t) lam e := by
    intro e; unfold Task.energyColumn; rw [ho]
  simp only [hcol]
  rw [← conduction_bilinear]
  have h1 : HasDerivAt (fun s => ∑ i, u t i - ∑ i, ∑ j, (A s i j - A t i j) * (lam i * u s j))
      (-∑ i, ∑ j, conduction T.fe ke' i j * (lam i * u t j)) t := by
    have e2 : HasDerivAt (fun s => ∑ i, ∑ j, (A s i j - A t i j) * (lam i * u s j))
        (∑ i, ∑ j, conduction T.fe ke' i j * (lam i * u t j)) t :=
      HasDerivAt.fun_sum fun i _ => HasDerivAt.fun_sum fun j _ => hasDerivAt_mul_cont (hderiv i j) (continuousAt_const.mul (hci j))
    exact e2.const_sub _
  refine h1.congr_of_eventuallyEq ?_
  filter_upwards [hsol] with s hs
  have ht := hsol.self_of_nhds
  exact adjoint_diff (fun i j => by rw [hAt]; exact matrix_sym T hT law Ec rho p i j) ht hs (by rw [hAt]; exact hl2)

theorem rod_matrix (obj : Objective) (g h Tenv c : ℝ) :
    (rodTask obj g h Tenv).matrix (fun _ _ _ _ => c) 0 (fun _ => 1) 3 = !![c, -c; -c, c + h] := by
  unfold Task.matrix Task.forms
  simp only [show (rodTask obj g h Tenv).robin = some (h, Tenv) from rfl]
  have hv : virtualForm (rodTask obj g h Tenv).fe h 3 (rodTask obj g h Tenv).q ((rodTask obj g h Tenv).nodal fun _ => 1) = 0 := by
    ext i j
    unfold virtualForm
    refine Finset.sum_eq_zero fun e _ => Finset.sum_eq_zero fun q _ => ?_
    rw [rod_interface]; ring
  rw [hv]
  have h1 : conduction (rodTask obj g h Tenv).fe ((rodTask obj g h Tenv).ke (fun _ _ _ _ => c) 0 (fun _ => 1) 3) = !![c, -c; -c, c] :=
    rod_conduction fun _ => c
  rw [h1]
  show ((!![c, -c; -c, c] : Matrix (Fin 2) (Fin 2) ℝ) + robinForm rodEnd h none 0) + 0 = _
  ext i j
  fin_cases i <;> fin_cases j <;> simp [robinForm, robinH, rodEnd]

theorem rod_adjoints (g h Tenv : ℝ) (S : Solver.Backend ℝ (Matrix (Fin 2) (Fin 2) ℝ) (Fin 2 → ℝ)) (c : Solver.Cfg ℝ)
    (K : Matrix (Fin 2) (Fin 2) ℝ) (rho : Fin 1 → ℝ) (p : ℝ) (Ts : List (Fin 2 → ℝ)) :
    (rodTask .averagedTemp g h Tenv).adjoints S c K rho p Ts = solveMulti S c K (fun _ => 1) [{0}] [g] := rfl

theorem rod_column (g h Tenv c : ℝ) (r : Fin 1 → ℝ) (u lam : Fin 2 → ℝ) :
    (rodTask .averagedTemp g h Tenv).energyColumn (fun _ _ _ _ => c) 0 r 3 u lam 0 = (u 1 - u 0) * (lam 1 - lam 0) := by
  show gradDensity rod u lam 0 = _
  simp [gradDensity, dot, gradAt, rod, Fin.sum_univ_two]; ring

theorem rod_adjoint_field (h c : ℝ) (hh : 0 < h) (hc : 0 < c) (S : Solver.Backend ℝ (Matrix (Fin 2) (Fin 2) ℝ) (Fin 2 → ℝ))
    (hS : ExactDirect S) : ∃ lam, solveMulti S { solver := "spsolve", rtol := 0 } !![c, -c; -c, c + h] (fun _ => 1) [{0}] [1] = .ok [lam] ∧
      lam 0 = 1 ∧ lam 1 = (1 + c) / (c + h) := by
  classical
  have hdet : (enforceK (!![c, -c; -c, c + h] : Matrix (Fin 2) (Fin 2) ℝ) {0}).det ≠ 0 := by
    rw [Matrix.det_fin_two]
    simp [enforceK]
    linarith
  obtain ⟨lam, hl1, hl2⟩ := solveMulti_single S hS { solver := "spsolve", rtol := 0 } (.inr rfl) !![c, -c; -c, c + h] (fun _ => 1) {0} 1
    (by convert hdet)
  rw [hsolves_iff] at hl2
  have l0 : lam 0 = 1 := hl2.1 0 (by simp)
  refine ⟨lam, hl1, l0, ?_⟩
  have := hl2.2 1 (by simp)
  simp [Fin.sum_univ_two, l0] at this
  rw [eq_div_iff (by positivity)]; linarith

/-- **C89 (refuted for non-zero prescribed temperatures).** The adjoint field is forced to the prescribed *temperature* on the boundary. On a
rod held at 1 and cooled to 0 through the coefficient `h`, the derivative of the reported objective with respect to the conductivity is
`J'`, and what `energy_multi_load` returns is `-(1 - h) J'`: zero for `h = 1`, of the wrong sign for `h > 1`. -/
theorem C89_prescribed_temperature_wrong (h c : ℝ) (hh : 0 < h) (hc : 0 < c) (u : ℝ → Fin 2 → ℝ)
    (hu : ∀ s, 0 < s → Spec.Heat.Balanced rod (fun _ => s) (some (h, 0)) [rodEnd] 3 4 ((rodTask .averagedTemp 1 h 0).nodal fun _ => 1) {0} 1 (u s))
    (S : Solver.Backend ℝ (Matrix (Fin 2) (Fin 2) ℝ) (Fin 2 → ℝ)) (hS : ExactDirect S) :
    ∃ lam J', 0 < J' ∧ HasDerivAt (fun s => ∑ i, u s i) J' c ∧
      (rodTask .averagedTemp 1 h 0).adjoints S { solver := "spsolve", rtol := 0 }
        ((rodTask .averagedTemp 1 h 0).matrix (fun _ _ _ _ => c) 0 (fun _ => 1) 3) (fun _ => 1) 3 [u c] = .ok [lam] ∧
      -(rodTask .averagedTemp 1 h 0).energyColumn (fun _ _ _ _ => c) 0 (fun _ => 1) 3 (u c) lam 0 = (1 - h) * J' := by
  classical
  have hsol : ∀ s, 0 < s → u s 0 = 1 ∧ u s 1 = s / (s + h) := by
    intro s hs
    have h1 := (rod_balanced .averagedTemp 1 h 0 s 3 (fun _ => 1) (u s)).mp (hu s hs)
    have := rod_solution hh hs h1
    simpa using this
  obtain ⟨lam, hl1, hl2⟩ := rod_adjoint_field h c hh hc S hS
  have l0 := hl2.1
  have l1 := hl2.2
  rw [← rod_adjoints 1 h 0 S _ _ (fun _ => 1) 3 [u c], ← rod_matrix .averagedTemp 1 h 0 c] at hl1
  refine ⟨lam, h / (c + h) ^ 2, by positivity, ?_, hl1, ?_⟩
  · have hd : HasDerivAt (fun s : ℝ => 1 + s / (s + h)) (h / (c + h) ^ 2) c := by
      refine (((hasDerivAt_id c).fun_div ((hasDerivAt_id c).add_const h) (by simp; positivity)).const_add 1).congr_deriv ?_
      simp
    refine hd.congr_of_eventuallyEq ?_
    filter_upwards [lt_mem_nhds hc] with s hs
    simp [Fin.sum_univ_two, (hsol s hs).1, (hsol s hs).2]
  · rw [rod_column, (hsol c hc).1, (hsol c hc).2, l0, l1]
    field_simp
    ring

/-- **C89 (refuted for the heat exchange).** For every basis, every nodal densities in `[0,1]` with an interface and positive `h`, `Tenv`:
uniform heating changes the reported heat exchange at the rate `-Tenv h`, but the entries of the right-hand side of the adjoint system add up
to strictly more, because the film coefficient is scaled by `ρ^p (1-ρ)^q` in the adjoint and not in the objective. -/
theorem C89_heat_exchange_load_too_small (B : FE ι (Fin nE) Q d) (hB : Regular B) (h Tenv p : ℝ) (qe : ℕ) (hq : 0 < qe) (hp : 0 < p)
    (hh : 0 < h) (hT : 0 < Tenv) (rn T : ι → ℝ) (hr : ∀ i, 0 ≤ rn i ∧ rn i ≤ 1) (hs : 1 / 10 ^ 16 < Spec.Heat.interfaceSize B rn) :
    HasDerivAt (fun s => heatExchange B (fun i => T i + s) rn Tenv h) (-(Tenv * h)) 0 ∧
    -(Tenv * h) < ∑ i, hxAdjRhs B h Tenv p qe rn i := by
  have hsz : 0 < Spec.Heat.interfaceSize B rn := lt_trans (by positivity) hs
  constructor
  · have hlin : ∀ s, heatExchange B (fun i => T i + s) rn Tenv h = heatExchange B T rn Tenv h + s * (-(Tenv * h)) := by
      intro s
      rw [heatExchange_eq B hB.one _ _ _ _ hs, heatExchange_eq B hB.one _ _ _ _ hs]
      unfold Spec.Heat.exchanged
      rw [← sub_eq_iff_eq_add', ← sub_div, ← Finset.sum_sub_distrib, div_eq_iff hsz.ne', Spec.Heat.interfaceSize, Finset.mul_sum]
      refine Finset.sum_congr rfl fun e _ => ?_
      rw [← Finset.sum_sub_distrib, Finset.mul_sum]
      refine Finset.sum_congr rfl fun q _ => ?_
      have : Spec.Heat.field B (fun i => T i + s) e q = Spec.Heat.field B T e q + s := by
        unfold Spec.Heat.field
        simp only [add_mul, Finset.sum_add_distrib, ← Finset.mul_sum, hB.one, mul_one]
      rw [this]; ring
    simp only [hlin]
    have := ((hasDerivAt_id (0 : ℝ)).mul_const (-(Tenv * h))).const_add (heatExchange B T rn Tenv h)
    simpa using this
  · have hE : ∀ i, hEff h p qe (rn i) < h := by
      intro i
      have h0 := (hr i).1
      have h1 := (hr i).2
      unfold hEff
      rcases h0.lt_or_eq with h2 | h2
      · have a1 : rn i ^ p ≤ 1 := Real.rpow_le_one h0 h1 hp.le
        have a2 : (1 - rn i) ^ qe < 1 := pow_lt_one₀ (by linarith) (by linarith) hq.ne'
        have a3 : 0 < rn i ^ p := Real.rpow_pos_of_pos h2 p
        have a4 : 0 ≤ (1 - rn i) ^ qe := pow_nonneg (by linarith) _
        have a5 : rn i ^ p * (1 - rn i) ^ qe < 1 := by nlinarith
        rw [mul_assoc]
        nlinarith
      · rw [← h2, Real.zero_rpow hp.ne']; simpa using hh
    have hfield : ∀ e q, valAt B (fun j => hEff h p qe (rn j)) e q < h := by
      intro e q
      have : h = ∑ i, h * B.val i e q := by rw [← Finset.mul_sum, hB.one, mul_one]
      conv_rhs => rw [this]
      unfold valAt
      obtain ⟨i, hi⟩ : ∃ i, 0 < B.val i e q := by
        by_contra hcon
        have : ∑ i, B.val i e q ≤ 0 := Finset.sum_nonpos fun i _ => not_lt.mp fun hi => hcon ⟨i, hi⟩
        rw [hB.one] at this; linarith
      exact Finset.sum_lt_sum (fun j _ => mul_le_mul_of_nonneg_right (hE j).le (hB.val j e q))
        ⟨i, Finset.mem_univ _, mul_lt_mul_of_pos_right (hE i) hi⟩
    have hsum : ∑ i, hxAdjRhs B h Tenv p qe rn i =
        -(Tenv * ∑ e, ∑ q, valAt B (fun j => hEff h p qe (rn j)) e q * interface B rn e q * B.dx e q) / hxDen B rn := by
      unfold hxAdjRhs
      rw [← Finset.sum_div]
      congr 1
      rw [Finset.sum_comm, Finset.mul_sum, ← Finset.sum_neg_distrib]
      refine Finset.sum_congr rfl fun e _ => ?_
      rw [Finset.sum_comm, Finset.mul_sum, ← Finset.sum_neg_distrib]
      refine Finset.sum_congr rfl fun q _ => ?_
      rw [valAt_const B hB.one]
      have : ∀ i, -Tenv * valAt B (fun j => hEff h p qe (rn j)) e q * interface B rn e q * B.val i e q * B.dx e q =
          B.val i e q * (-Tenv * valAt B (fun j => hEff h p qe (rn j)) e q * interface B rn e q * B.dx e q) := fun i => by ring
      simp only [this]
      rw [← Finset.sum_mul, hB.one]; ring
    have hden : hxDen B rn = Spec.Heat.interfaceSize B rn := rfl
    rw [hsum, hden, lt_div_iff₀ hsz]
    have hlt : ∑ e, ∑ q, valAt B (fun j => hEff h p qe (rn j)) e q * interface B rn e q * B.dx e q < h * Spec.Heat.interfaceSize B rn := by
      have hterm : ∀ e q, valAt B (fun j => hEff h p qe (rn j)) e q * interface B rn e q * B.dx e q ≤ h * (interface B rn e q * B.dx e q) := by
        intro e q
        rw [mul_assoc]
        exact mul_le_mul_of_nonneg_right (hfield e q).le (mul_nonneg (Real.sqrt_nonneg _) (hB.dx e q).le)
      obtain ⟨e, he⟩ : ∃ e, 0 < ∑ q, interface B rn e q * B.dx e q := by
        by_contra hcon
        have : Spec.Heat.interfaceSize B rn ≤ 0 := Finset.sum_nonpos fun e _ => not_lt.mp fun he => hcon ⟨e, he⟩
        linarith
      obtain ⟨q, hq'⟩ : ∃ q, 0 < interface B rn e q * B.dx e q := by
        by_contra hcon
        have : ∑ q, interface B rn e q * B.dx e q ≤ 0 := Finset.sum_nonpos fun q _ => not_lt.mp fun he => hcon ⟨q, he⟩
        linarith
      rw [← hden, hxDen, Finset.mul_sum]
      refine Finset.sum_lt_sum (fun e _ => ?_) ⟨e, Finset.mem_univ _, ?_⟩
      · rw [Finset.mul_sum]; exact Finset.sum_le_sum fun q _ => hterm e q
      · rw [Finset.mul_sum]
        refine Finset.sum_lt_sum (fun q _ => hterm e q) ⟨q, Finset.mem_univ _, ?_⟩
        rw [mul_assoc]; exact mul_lt_mul_of_pos_right (hfield e q) hq'
    nlinarith

/-! ### The hypotheses are met -/

/-- Two rods in a row. -/
def rods : FE (Fin 3) (Fin 2) (Fin 1) 1 where
  val i e _ := if i = twoRods 0 e ∨ i = twoRods 1 e then 1 / 2 else 0
  grad i e _ _ := if i = twoRods 0 e then -1 else if i = twoRods 1 e then 1 else 0
  dx _ _ := 1

/-- Two load cases, objective "heat_exchange" with a weight on the temperature. -/
def rodsTask : Task (Fin 3) (Fin 1) 1 2 2 where
  fe := rods
  t := twoRods
  dirichlet := [{0}, {0}]
  values := [0, 1]
  robin := some (1, 1)
  regions := []
  bilinear := []
  linear := []
  designRobin := false
  objective := .heatExchange
  avgWeight := 1
  k := 1

theorem rods_nodal : rodsTask.nodal ![0, 1] = ![0, 1 / 2, 1] := by
  classical
  have hr : ravel twoRods = [0, 1, 1, 2] := by decide
  have hv : repeatEach (![0, 1] : Fin 2 → ℝ) 2 = [0, 0, 1, 1] := by
    simp [repeatEach, List.finRange_succ, List.replicate_succ]
  funext i
  show nodalAverage twoRods ![0, 1] i = _
  unfold nodalAverage count
  rw [hr, hv]
  fin_cases i <;> simp [addAt, List.replicate_succ] <;> norm_num

theorem rods_one (e : Fin 2) (q : Fin 1) : ∑ i, rods.val i e q = 1 := by
  fin_cases e <;> simp [rods, Fin.sum_univ_three, twoRods] <;> norm_num

theorem rods_steep (e : Fin 2) (q : Fin 1) : Spec.Heat.steepness rods ![0, 1 / 2, 1] e q = 1 / 2 := by
  have : ∑ a : Fin 1, Spec.Heat.slope rods ![0, 1 / 2, 1] e q a ^ 2 = (1 / 2) ^ 2 := by
    fin_cases e <;> simp [Spec.Heat.slope, rods, Fin.sum_univ_three, twoRods] <;> norm_num
  unfold Spec.Heat.steepness
  rw [this, Real.sqrt_sq (by norm_num)]

theorem rods_size : Spec.Heat.interfaceSize rods ![0, 1 / 2, 1] = 1 := by
  unfold Spec.Heat.interfaceSize
  simp only [rods_steep]
  simp [rods]

theorem rods_exchanged (v : ℝ) : Spec.Heat.exchanged rods ![0, 1 / 2, 1] 1 1 (fun _ => v) = 1 - v := by
  unfold Spec.Heat.exchanged
  rw [rods_size]
  have : ∀ e q, Spec.Heat.field rods (fun _ => v) e q = v := fun e q => valAt_const rods rods_one v e q
  simp only [this, rods_steep]
  simp [rods]
  ring

/-- A design with an interface and two different load cases: the mean objective is `1 + weight = 2`. -/
example (K : Matrix (Fin 3) (Fin 3) ℝ) : ∃ Js, rodsTask.objectiveValues K ![0, 1] [fun _ => 1 / 2, fun _ => 1 / 4] = .ok Js ∧
    Js.length = 2 ∧ Js.sum / Js.length = 1 + 1 := by
  have hf : rodsTask.fe = rods := rfl
  refine C88_weighted_objective_constant rodsTask rods_one rfl 1 1 rfl (by show (1 : ℝ) ≠ 0; norm_num) K ![0, 1] ?_ _ (by simp) 1 (.inl rfl)
    ?_ ?_ ?_ ?_
  · rw [rods_nodal, hf, rods_size]; norm_num
  · intro u hu
    rw [rods_nodal, hf]
    rcases List.mem_pair.mp hu with rfl | rfl <;> rw [rods_exchanged] <;> norm_num
  · intro u hu
    rcases List.mem_pair.mp hu with rfl | rfl <;> simp
  · rw [rods_nodal, hf]
    simp only [List.map_cons, List.map_nil, rods_exchanged]
    norm_num
  · simp
    norm_num

/-- The hypotheses of `C89_conductivity_gradient_partial` are met by a rod held at 0 whose other end faces the ambient temperature 1. -/
example (h : ℝ) (hh : 0 < h) (S : Solver.Backend ℝ (Matrix (Fin 2) (Fin 2) ℝ) (Fin 2 → ℝ)) (hS : ExactDirect S) :
    ∃ u : ℝ → Fin 2 → ℝ, ∃ lam, HasDerivAt (fun s => ∑ i, u s i)
      (-∑ e, 1 * (rodTask .averagedTemp 0 h 1).energyColumn (fun _ _ _ _ => 2) 0 (fun _ => 1) 3 (u 2) lam e) 2 := by
  classical
  have hex : ∀ s : ℝ, ∃ u : Fin 2 → ℝ, 0 < s → Spec.Heat.Balanced rod (fun _ => s) (some (h, 1)) [rodEnd] 3 4
      ((rodTask .averagedTemp 0 h 1).nodal fun _ => 1) {0} 0 u := by
    intro s
    by_cases hs : 0 < s
    · refine ⟨![0, h / (s + h)], fun _ => (rod_balanced .averagedTemp 0 h 1 s 3 (fun _ => 1) _).mpr ?_⟩
      simp only [Matrix.cons_val_zero, Matrix.cons_val_one, true_and]
      field_simp; ring
    · exact ⟨0, fun h => absurd h hs⟩
  choose u hu using hex
  have hdet0 : (enforceK (!![2, -2; -2, 2 + h] : Matrix (Fin 2) (Fin 2) ℝ) {0}).det ≠ 0 := by
    rw [Matrix.det_fin_two]
    simp [enforceK]
    linarith
  have hdet : ∀ M : Matrix (Fin 2) (Fin 2) ℝ, M = !![2, -2; -2, 2 + h] → (enforceK M {0}).det ≠ 0 := by rintro M rfl; exact hdet0
  obtain ⟨lam, -, hl⟩ := C89_conductivity_gradient_partial (rodTask .averagedTemp 0 h 1) (rodTask_built _ _ _ _) rfl S hS
    { solver := "spsolve", rtol := 0 } (.inr rfl) (fun _ _ _ _ => 2) 0 (fun _ => 1) 3 {0} rfl rfl
    (by convert hdet _ (rod_matrix .averagedTemp 0 h 1 2)) (fun s _ => s) (fun _ => 1) 2
    (fun e => hasDerivAt_id _) rfl u (by
      filter_upwards [lt_mem_nhds (show (0 : ℝ) < 2 by norm_num)] with s hs
      exact hu s hs)
  exact ⟨u, lam, hl⟩

end
end Verif.Heat
