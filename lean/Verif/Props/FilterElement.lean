import Verif.Lemmas.FilterElement
import Verif.Props.Helmholtz
import Mathlib.Tactic.IntervalCases
import Mathlib.Tactic.NormNum

/-! Property theorems C122, C123: the element filter object and its linear solvers. -/
namespace Verif.Props
open Verif
open Verif.Helmholtz (Mesh opA opV vnorm SymmAdj symmAdj_ofFaces opA_lin vnorm_pos)
open Verif.FilterElement Verif.Spec.FilterElement
open Classical

variable {n : ℕ}

/-- **C122 (a)** A filter can be made exactly for the known solver options. -/
theorem C122_created_iff (mesh : Mesh n) (r : ℝ) (o : String) :
    (∃ s, fromDefaults mesh r o = .ok s) ↔ Known o := by
  constructor
  · rintro ⟨s, hs⟩
    by_contra hk
    rw [fromDefaults_bad mesh r o hk] at hs
    cases hs
  · intro hk
    obtain ⟨s, hs, -⟩ := fromDefaults_ok mesh r o hk
    exact ⟨s, hs⟩

/-- **C122 (b)** An unknown option is refused and leaves the object as it was; a known one, or none, is accepted, and so is every
radius. -/
theorem C122_refused_unchanged (mesh : Mesh n) (r : ℝ) (o : String) (s : Filter n) (hs : fromDefaults mesh r o = .ok s)
    (h : List Call) (o' : String) (r' : ℝ) :
    (¬ Known o' → preprocess (run s h) (some o') = (run s h, some .valueError)) ∧
      (Known o' → (preprocess (run s h) (some o')).2 = none) ∧ (preprocess (run s h) none).2 = none ∧
      (updateRadius (run s h) r').2 = none := by
  have hk : Known o := (C122_created_iff mesh r o).1 ⟨s, hs⟩
  obtain ⟨s', hs', hg, -⟩ := fromDefaults_ok mesh r o hk
  obtain rfl : s' = s := by rw [hs] at hs'; injection hs' with e; exact e.symm
  have hg := good_run hg h
  refine ⟨fun hn => ?_, fun hy => ?_, rfl, ?_⟩
  · simp only [preprocess, known_iff, hn, if_false]
  · simp only [preprocess, known_iff, hy, if_true]
  · have := hg.known
    simp only [updateRadius, preprocess, hg.option_eq, known_iff, this, if_true]

/-- What the object answers, in terms of its current radius, option and settings. -/
theorem answers {mesh : Mesh n} {r : ℝ} {o : String} {s : Filter n} (hg : Good mesh r o s) (E : Ext n) (x : Vec n) :
    gradient E s x =
      (if o = "spsolve" then .ok (E.lu (opA mesh r) (opV mesh x))
       else if o = "cg_jacobi" then
        applyCg (opA mesh r) (opV mesh) (some fun x i => 1 / (diagonal (opA mesh r) i + 1 / 10 ^ 8) * x i) s.rtol s.maxiter x
       else .ok (E.amg (opA mesh r) s.rtol (opV mesh x))) ∧
    forward E s x = (gradient E s x).map some := by
  rcases hg.known with h | h | h
  · have := hg.lu_eq h
    simp only [forward, gradient, hg.option_eq, this, h, if_true, applyLu, hg.V_eq]
    exact ⟨trivial, trivial⟩
  · have := hg.M_eq h
    simp only [forward, gradient, hg.option_eq, this, h, hg.V_eq, hg.A_eq]
    exact ⟨rfl, rfl⟩
  · have := hg.amg_eq h
    simp only [forward, gradient, hg.option_eq, this, h, hg.V_eq, applyAmg]
    exact ⟨rfl, rfl⟩

/-- **C122 (c)** The object does not remember its past: after any sequence of `update_radius` and `preprocess` calls, refused ones
included, it answers like a new filter made for the radius asked for last and the known option asked for last, and shows these
as its attributes. -/
theorem C122_like_new (mesh : Mesh n) (r : ℝ) (o : String) (s : Filter n) (hs : fromDefaults mesh r o = .ok s)
    (h : List Call) (hh : NoSettings h) :
    ∃ s', fromDefaults mesh (lastRadius r h) (lastOption o h) = .ok s' ∧
      (run s h).radius = lastRadius r h ∧ (run s h).option = lastOption o h ∧
      ∀ (E : Ext n) (x : Vec n), forward E (run s h) x = forward E s' x ∧ gradient E (run s h) x = gradient E s' x := by
  have hk : Known o := (C122_created_iff mesh r o).1 ⟨s, hs⟩
  obtain ⟨s1, hs1, hg, hp⟩ := fromDefaults_ok mesh r o hk
  obtain rfl : s1 = s := by rw [hs] at hs1; injection hs1 with e; exact e.symm
  have hg' := good_run hg h
  have hp' := plain_run hp h hh
  obtain ⟨s2, hs2, hg2, hp2⟩ := fromDefaults_ok mesh (lastRadius r h) (lastOption o h) hg'.known
  refine ⟨s2, hs2, hg'.radius_eq, hg'.option_eq, fun E x => ?_⟩
  have key : gradient E (run s1 h) x = gradient E s2 x := by
    rw [(answers hg' E x).1, (answers hg2 E x).1, hp'.rtol_eq, hp2.rtol_eq]
    split_ifs with h1 h2
    · rfl
    · rw [hp'.maxiter_eq (hg'.option_eq.trans h2), hp2.maxiter_eq (hg2.option_eq.trans h2)]
    · rfl
  refine ⟨?_, key⟩
  rw [(answers hg' E x).2, (answers hg2 E x).2, key]

/-- **C122 (d)** Whatever was called before (settings included), with a direct solver that solves exactly, `forward` and `gradient`
solve the Helmholtz system of the radius asked for last; so `forward` stays in range and keeps constants. -/
theorem C122_direct_exact (mesh : Mesh n) (hv : ∀ i, 0 < mesh.vol i) (r : ℝ) (o : String) (s : Filter n)
    (hs : fromDefaults mesh r o = .ok s) (h : List Call) (ho : lastOption o h = "spsolve") (E : Ext n)
    (hE : ∀ b, opA mesh (lastRadius r h) (E.lu (opA mesh (lastRadius r h)) b) = b) (x : Vec n) :
    ∃ y, forward E (run s h) x = .ok (some y) ∧ gradient E (run s h) x = .ok y ∧ opA mesh (lastRadius r h) y = opV mesh x ∧
      ∀ lo hi, (∀ i, lo ≤ x i ∧ x i ≤ hi) → ∀ i, lo ≤ y i ∧ y i ≤ hi := by
  have hk : Known o := (C122_created_iff mesh r o).1 ⟨s, hs⟩
  obtain ⟨s1, hs1, hg, hp⟩ := fromDefaults_ok mesh r o hk
  obtain rfl : s1 = s := by rw [hs] at hs1; injection hs1 with e; exact e.symm
  have ha := answers (good_run hg h) E x
  rw [if_pos ho] at ha
  refine ⟨_, by rw [ha.2, ha.1]; rfl, ha.1, hE _, fun lo hi hx i => ?_⟩
  have := (C29_helmholtz_maximum_principle mesh hv (lastRadius r h) (E.lu (opA mesh (lastRadius r h))) hE).1 x lo hi
    (fun i _ => hx i) i (Finset.mem_univ _)
  exact this

/-- **C122 (e)** `forward` and `gradient` always give the same answer for the same vector. -/
theorem C122_gradient_is_forward (mesh : Mesh n) (r : ℝ) (o : String) (s : Filter n) (hs : fromDefaults mesh r o = .ok s)
    (h : List Call) (E : Ext n) (x : Vec n) : forward E (run s h) x = (gradient E (run s h) x).map some := by
  have hk : Known o := (C122_created_iff mesh r o).1 ⟨s, hs⟩
  obtain ⟨s1, hs1, hg, hp⟩ := fromDefaults_ok mesh r o hk
  obtain rfl : s1 = s := by rw [hs] at hs1; injection hs1 with e; exact e.symm
  exact (answers (good_run hg h) E x).2

/-- **C122 (g)** A filter made without naming a solver, and any filter whose last known option is "cg_pyamg", asks `pyamg` to solve the
Helmholtz system of the radius asked for last, with tolerance `1e-5`, and hands its answer on unchecked. -/
theorem C122_default_pyamg (mesh : Mesh n) (r : ℝ) :
    ∃ s, fromDefaults mesh r defaultOption = .ok s ∧ s.option = "cg_pyamg" ∧
      ∀ h, NoSettings h → lastOption defaultOption h = "cg_pyamg" → ∀ (E : Ext n) (x : Vec n),
        forward E (run s h) x = .ok (some (E.amg (opA mesh (lastRadius r h)) (1 / 10 ^ 5) (opV mesh x))) := by
  obtain ⟨s, hs, hg, hp⟩ := fromDefaults_ok mesh r defaultOption (by simp [Known, defaultOption])
  refine ⟨s, hs, hg.option_eq, fun h hh ho E x => ?_⟩
  have ha := answers (good_run hg h) E x
  rw [ha.2, ha.1, ho, (plain_run hp h hh).rtol_eq]
  rfl

/-- **C122 (f)** Assigned tolerances and iteration limits do not survive a change of the radius with the option "cg_jacobi" (they
are reset to `1e-5` and a quarter of the number of elements) but do with the other two. -/
theorem C122_settings_after_update (mesh : Mesh n) (r : ℝ) (o : String) (s : Filter n) (hs : fromDefaults mesh r o = .ok s)
    (h : List Call) (t : ℝ) (k : ℕ) (r' : ℝ) :
    (lastOption o h = "cg_jacobi" → (run s (h ++ [.setRtol t, .setMaxiter k, .updateRadius r'])).rtol = 1 / 10 ^ 5 ∧
      (run s (h ++ [.setRtol t, .setMaxiter k, .updateRadius r'])).maxiter = n / 4) ∧
    (lastOption o h ≠ "cg_jacobi" → (run s (h ++ [.setRtol t, .setMaxiter k, .updateRadius r'])).rtol = t ∧
      (run s (h ++ [.setRtol t, .setMaxiter k, .updateRadius r'])).maxiter = k) := by
  have hk : Known o := (C122_created_iff mesh r o).1 ⟨s, hs⟩
  obtain ⟨s1, hs1, hg, hp⟩ := fromDefaults_ok mesh r o hk
  obtain rfl : s1 = s := by rw [hs] at hs1; injection hs1 with e; exact e.symm
  have hg' := good_run hg h
  have e : run s1 (h ++ [.setRtol t, .setMaxiter k, .updateRadius r']) =
      (updateRadius { run s1 h with rtol := t, maxiter := k } r').1 := by
    simp only [run, List.foldl_append, List.foldl_cons, List.foldl_nil, step]
  rw [e]
  have hk' := hg'.known
  simp only [updateRadius, preprocess, known_iff, hg'.option_eq, hk', if_true]
  constructor
  · intro ho
    simp [build, ho, createLinearOperator]
  · intro ho
    rcases hk' with h1 | h1 | h1
    · simp [build, h1, createSolver]
    · exact absurd h1 ho
    · simp [build, h1, createAmgsolver]

/-- The answer of a "cg_jacobi" filter whose settings were left alone. -/
theorem jacobi_answer (mesh : Mesh n) (r : ℝ) (o : String) (s : Filter n) (hs : fromDefaults mesh r o = .ok s)
    (h : List Call) (hh : NoSettings h) (ho : lastOption o h = "cg_jacobi") (E : Ext n) (x : Vec n) :
    ∃ P : Op n, gradient E (run s h) x =
      applyCg (opA mesh (lastRadius r h)) (opV mesh) (some P) (1 / 10 ^ 5) (n / 4) x := by
  have hk : Known o := (C122_created_iff mesh r o).1 ⟨s, hs⟩
  obtain ⟨s1, hs1, hg, hp⟩ := fromDefaults_ok mesh r o hk
  obtain rfl : s1 = s := by rw [hs] at hs1; injection hs1 with e; exact e.symm
  have hg' := good_run hg h
  have hp' := plain_run hp h hh
  have := (answers hg' E x).1
  rw [hp'.rtol_eq, hp'.maxiter_eq (hg'.option_eq.trans ho), ho] at this
  exact ⟨_, this⟩

/-- **C123 (partial)** On a mesh of at least four elements every answer of a "cg_jacobi" filter satisfies the Helmholtz system of
the current radius up to `1e-5` of the norm of the right-hand side, and is within `1e-5 * |V x| / v` of the exact filtered
density, where `v` is the smallest normalised element volume. Missing: fewer than four elements, where the statement is false
(`C123_small_mesh_zero`). -/
theorem C123_cg_accuracy_partial (c : Fin n → EuclideanSpace ℝ (Fin 3)) (faces : Fin n → List (List ℕ)) (vol : Fin n → ℝ)
    (hn : 4 ≤ n) (r : ℝ) (o : String) (s : Filter n) (hs : fromDefaults (Mesh.ofFaces c faces vol) r o = .ok s)
    (h : List Call) (hh : NoSettings h) (ho : lastOption o h = "cg_jacobi") (E : Ext n) (x y : Vec n)
    (hy : forward E (run s h) x = .ok (some y)) :
    norm2 (fun i => opV (Mesh.ofFaces c faces vol) x i - opA (Mesh.ofFaces c faces vol) (lastRadius r h) y i) ≤
        1 / 10 ^ 5 * norm2 (opV (Mesh.ofFaces c faces vol) x) ∧
      ∀ (v : ℝ) (y' : Vec n), 0 < v → (∀ i, v ≤ vnorm (Mesh.ofFaces c faces vol) i) →
        opA (Mesh.ofFaces c faces vol) (lastRadius r h) y' = opV (Mesh.ofFaces c faces vol) x →
        norm2 (fun i => y' i - y i) ≤ 1 / 10 ^ 5 * norm2 (opV (Mesh.ofFaces c faces vol) x) / v := by
  obtain ⟨M, hM⟩ : ∃ M, M = Mesh.ofFaces c faces vol := ⟨_, rfl⟩
  have hsym : SymmAdj M := hM ▸ symmAdj_ofFaces c faces vol
  rw [← hM] at hs ⊢
  have hlin := opA_isLinear M (lastRadius r h)
  have h1 : norm2 (fun i => opV M x i - opA M (lastRadius r h) y i) ≤ 1 / 10 ^ 5 * norm2 (opV M x) := by
    obtain ⟨P, hP⟩ := jacobi_answer M r o s hs h hh ho E x
    rw [C122_gradient_is_forward M r o s hs h E x, hP] at hy
    simp only [applyCg, Option.getD_some] at hy
    split_ifs at hy with h0
    · cases hy
    simp only [Except.map, Except.ok.injEq, Option.some.injEq] at hy
    have h0 : (cg (opA M (lastRadius r h)) P (opV M x) (1 / 10 ^ 5) (n / 4)).2 = 0 := by omega
    by_cases hb : norm2 (opV M x) = 0
    · have hy0 : y = fun _ => 0 := by
        rw [← hy]; simp only [cg, hb, if_true]; exact norm2_eq_zero.1 hb
      have hz : opA M (lastRadius r h) y = fun _ => 0 := by
        funext i
        have := opA_lin M (lastRadius r h) y y 0 0 i
        rw [hy0] at this ⊢
        simpa using this
      have : (fun i => opV M x i - opA M (lastRadius r h) y i) = fun _ => 0 := by
        funext i
        rw [hz, norm2_eq_zero.1 hb]; simp
      rw [norm2_eq_zero.2 this, hb]; simp
    · simp only [cg, hb, if_false] at hy h0
      have := cgLoop_residual (b := opV M x) hlin P (by omega) (n / 4) true _ (fun i => by
        have := opA_lin M (lastRadius r h) (fun _ => 0) (fun _ => 0) 0 0 i
        simp only [zero_mul, add_zero] at this
        simp [this]) h0
      rw [hy] at this
      exact this.le
  refine ⟨h1, fun v y' hv hvol hy' => ?_⟩
  have h2 := error_le_residual hsym (lastRadius r h) hvol (fun i => y' i - y i)
  have h3 : opA M (lastRadius r h) (fun i => y' i - y i) = fun i => opV M x i - opA M (lastRadius r h) y i := by
    funext i
    have := opA_lin M (lastRadius r h) y' y 1 (-1) i
    rw [← hy']
    simpa [sub_eq_add_neg] using this
  rw [h3] at h2
  rw [le_div_iff₀ hv]
  linarith

/-- **C123 (refuted, a)** On a mesh of fewer than four elements a "cg_jacobi" filter answers every density with zeros. -/
theorem C123_small_mesh_zero (mesh : Mesh n) (hn : n < 4) (r : ℝ) (o : String) (s : Filter n)
    (hs : fromDefaults mesh r o = .ok s) (h : List Call) (hh : NoSettings h) (ho : lastOption o h = "cg_jacobi") (E : Ext n)
    (x : Vec n) : forward E (run s h) x = .ok (some fun _ => 0) := by
  obtain ⟨P, hP⟩ := jacobi_answer mesh r o s hs h hh ho E x
  have h4 : n / 4 = 0 := by omega
  rw [C122_gradient_is_forward mesh r o s hs h E x, hP, h4]
  simp only [applyCg, Option.getD_some, cg]
  split_ifs with h1 h2 h2
  · cases Nat.not_lt_zero _ h2
  · rw [norm2_eq_zero.1 h1]; rfl
  · cases Nat.not_lt_zero _ h2
  · rfl

/-- **C123 (refuted, b)** On a mesh of four to seven elements a "cg_jacobi" filter raises for every density that does not vanish. -/
theorem C123_small_mesh_raises (mesh : Mesh n) (hv : ∀ i, 0 < mesh.vol i) (hn : 4 ≤ n) (hn' : n < 8) (r : ℝ) (o : String)
    (s : Filter n) (hs : fromDefaults mesh r o = .ok s) (h : List Call) (hh : NoSettings h)
    (ho : lastOption o h = "cg_jacobi") (E : Ext n) (x : Vec n) (hx : ∃ i, x i ≠ 0) :
    forward E (run s h) x = .error .runtimeError := by
  obtain ⟨P, hP⟩ := jacobi_answer mesh r o s hs h hh ho E x
  have h4 : n / 4 = 1 := by omega
  have hb : norm2 (opV mesh x) ≠ 0 := by
    rw [Ne, norm2_eq_zero]
    obtain ⟨i, hi⟩ := hx
    intro h0
    have := congrFun h0 i
    unfold opV at this
    exact (mul_ne_zero (vnorm_pos hv i).ne' hi) this
  have hlt : ¬ norm2 (opV mesh x) < 1 / 10 ^ 5 * norm2 (opV mesh x) := by
    have := (norm2_nonneg (opV mesh x)).lt_of_ne' hb
    intro h; linarith
  rw [C122_gradient_is_forward mesh r o s hs h E x, hP, h4]
  simp only [applyCg, Option.getD_some, cg, if_neg hb, cgLoop, if_neg hlt]
  rfl

/-- Eight elements of volume 2 in a row, glued in pairs. -/
noncomputable def pairs : Mesh 8 :=
  Mesh.ofFaces (fun i => WithLp.toLp 2 fun k => if k = 0 then (i : ℝ) else 0) (fun i => [[(i : ℕ) / 2]]) fun _ => 2

/-- The other element of the pair. -/
def partner (i : Fin 8) : Fin 8 := if (i : ℕ) % 2 = 0 then i + 1 else i - 1

theorem pairs_adj : ∀ i, pairs.adj i = [partner i] := by
  show ∀ i, Adjacency.adjacency (fun i : Fin 8 => [[(i : ℕ) / 2]]) i = [partner i]
  decide +kernel

theorem pairs_vnorm (i : Fin 8) : vnorm pairs i = 1 := by
  simp [vnorm, pairs, Mesh.ofFaces]

theorem pairs_dist (i : Fin 8) : dist (pairs.centers i) (pairs.centers (partner i)) = 1 := by
  rw [EuclideanSpace.dist_eq]
  fin_cases i <;> simp [pairs, Mesh.ofFaces, partner, Fin.sum_univ_three, Real.dist_eq] <;> norm_num

theorem pairs_opA (r : ℝ) (x : Vec 8) (i : Fin 8) :
    opA pairs r x i = x i + r ^ 2 * (r ^ 2 * Real.exp (-1 / (2 * r ^ 2)) * (x i - x (partner i))) := by
  have hw : Helmholtz.weight pairs r i (partner i) = Real.exp (-1 / (2 * r ^ 2)) := by
    unfold Helmholtz.weight
    rw [pairs_dist, if_neg (by norm_num)]; norm_num
  simp only [opA, Helmholtz.laplacian, pairs_adj, List.map_cons, List.map_nil, List.sum_cons, List.sum_nil, hw, pairs_vnorm]
  ring

/-- With a system matrix that keeps `b` and a preconditioner that multiplies by a number, conjugate gradients need one pass. -/
theorem cg_eigen (A : Op n) (b : Vec n) (γ rtol : ℝ) (m : ℕ) (hA : Spec.IsLinear A) (hb : A b = b) (h0 : norm2 b ≠ 0)
    (hγ : γ ≠ 0) (hr : 0 < rtol) (hr1 : rtol ≤ 1) : cg A (fun x i => γ * x i) b rtol (m + 2) = (b, 0) := by
  have hn : 0 < norm2 b := (norm2_nonneg b).lt_of_ne' h0
  have hlt : ¬ norm2 b < rtol * norm2 b := by intro h; nlinarith
  have hAp : A (fun i => γ * b i) = fun i => γ * b i := by
    have := hA b b γ 0
    simpa [hb] using this
  have hbb : dot b b ≠ 0 := by
    have := norm2_sq b
    have e : dot b b = norm2 b ^ 2 := by rw [this]; simp [dot, sq]
    rw [e]; positivity
  have hα : dot b (fun i => γ * b i) / dot (fun i => γ * b i) (fun i => γ * b i) = 1 / γ := by
    have e1 : dot b (fun i => γ * b i) = γ * dot b b := by
      simp only [dot, Finset.mul_sum]; exact Finset.sum_congr rfl fun i _ => by ring
    have e2 : dot (fun i => γ * b i) (fun i => γ * b i) = γ * (γ * dot b b) := by
      simp only [dot, Finset.mul_sum]; exact Finset.sum_congr rfl fun i _ => by ring
    rw [e1, e2]
    have : γ * dot b b ≠ 0 := mul_ne_zero hγ hbb
    field_simp
  have hz : norm2 (fun i => b i - 1 / γ * (γ * b i)) = 0 := by
    rw [norm2_eq_zero]; funext i; field_simp; simp
  simp only [cg, if_neg h0, cgLoop, if_neg hlt, cgStep, if_true, hAp, hα, hz]
  rw [if_pos (by positivity)]
  congr 1
  funext i; field_simp; simp

/-- The hypotheses of `C123_cg_accuracy_partial` on the glued pairs, after a change of radius, of option and a refused call: the
constant density 1 is answered, by itself. -/
theorem pairs_answer (E : Ext 8) :
    ∃ s : Filter 8, fromDefaults pairs (1 / 2) defaultOption = .ok s ∧
      NoSettings [.preprocess (some "jacobi"), .preprocess (some "cg_jacobi"), .updateRadius 1] ∧
      lastOption defaultOption [.preprocess (some "jacobi"), .preprocess (some "cg_jacobi"), .updateRadius 1] = "cg_jacobi" ∧
      forward E (run s [.preprocess (some "jacobi"), .preprocess (some "cg_jacobi"), .updateRadius 1]) (fun _ => 1) =
        .ok (some fun _ => 1) := by
  obtain ⟨s, hs, hg, hp⟩ := fromDefaults_ok pairs (1 / 2) defaultOption (by simp [Known, defaultOption])
  have hh : NoSettings [.preprocess (some "jacobi"), .preprocess (some "cg_jacobi"), .updateRadius 1] := by
    intro c hc
    simp only [List.mem_cons, List.not_mem_nil, or_false] at hc
    rcases hc with rfl | rfl | rfl <;> exact ⟨fun _ h => (nomatch h), fun _ h => (nomatch h)⟩
  have ho : lastOption defaultOption [.preprocess (some "jacobi"), .preprocess (some "cg_jacobi"), .updateRadius 1] =
      "cg_jacobi" := by simp [lastOption, Known]
  refine ⟨s, hs, hh, ho, ?_⟩
  have hg' := good_run hg [.preprocess (some "jacobi"), .preprocess (some "cg_jacobi"), .updateRadius 1]
  have hp' := plain_run hp _ hh
  have ha := answers hg' E fun _ => 1
  have hr : lastRadius (1 / 2) [.preprocess (some "jacobi"), .preprocess (some "cg_jacobi"), .updateRadius 1] = 1 := rfl
  rw [ha.2, ha.1, ho, hr, hp'.rtol_eq, hp'.maxiter_eq (hg'.option_eq.trans ho)]
  have hd : ∀ i, diagonal (opA pairs 1) i = 1 + Real.exp (-1 / 2) := by
    intro i
    have hpi : partner i ≠ i := by revert i; decide
    unfold diagonal
    rw [pairs_opA]
    simp [Pi.single_eq_of_ne hpi]
  have hV : opV pairs (fun _ => 1) = fun _ => 1 := by funext i; simp [opV, pairs_vnorm]
  have hone : opA pairs 1 (fun _ => 1) = fun _ => 1 := by funext i; rw [pairs_opA]; simp
  have hcg := cg_eigen (opA pairs 1) (fun _ => 1) (1 / (1 + Real.exp (-1 / 2) + 1 / 10 ^ 8)) (1 / 10 ^ 5) 0
    (opA_isLinear pairs 1) hone (by rw [Ne, norm2_eq_zero]; intro h; exact one_ne_zero (congrFun h 0))
    (by have := Real.exp_pos (-1 / 2); positivity) (by norm_num) (by norm_num)
  simp only [applyCg, Option.getD_some, hV, hd]
  have e : (8 : ℕ) / 4 = 0 + 2 := rfl
  rw [e, hcg]
  rfl

/- The accuracy theorem applies to this history. -/
example (E : Ext 8) : ∃ s : Filter 8, fromDefaults pairs (1 / 2) defaultOption = .ok s ∧
    norm2 (fun i => opV pairs (fun _ => 1) i - opA pairs 1 (fun _ => 1) i) ≤ 1 / 10 ^ 5 * norm2 (opV pairs fun _ => 1) := by
  obtain ⟨s, hs, hh, ho, hy⟩ := pairs_answer E
  exact ⟨s, hs, (C123_cg_accuracy_partial _ _ _ (by norm_num) _ _ s hs _ hh ho E _ _ hy).1⟩

/-- Three elements in a row. -/
noncomputable def three : Mesh 3 :=
  Mesh.ofFaces (fun i => WithLp.toLp 2 fun k => if k = 0 then (i : ℝ) else 0)
    (fun i => [[(i : ℕ)], [(i : ℕ) + 1]]) fun _ => 1

/- A "cg_jacobi" filter on three elements: the constant density 1 becomes 0, while the exact filter keeps it. -/
example (E : Ext 3) : ∃ s : Filter 3, fromDefaults three 1 "cg_jacobi" = .ok s ∧
    forward E (run s []) (fun _ => 1) = .ok (some fun _ => 0) ∧ opA three 1 (fun _ => 1) = opV three fun _ => 1 := by
  obtain ⟨s, hs, -⟩ := fromDefaults_ok three 1 "cg_jacobi" (by simp [Known])
  refine ⟨s, hs, C123_small_mesh_zero three (by norm_num) 1 _ s hs [] (by intro c hc; cases hc) rfl E _, ?_⟩
  funext i
  simp only [opA, opV]
  rw [Helmholtz.laplacian_eq]; simp

/- `C122_direct_exact` on the glued pairs with a solver that exists. -/
example : ∃ (E : Ext 8) (s : Filter 8), fromDefaults pairs 1 defaultOption = .ok s ∧
    lastOption defaultOption [.updateRadius 2, .preprocess (some "spsolve"), .preprocess (some "lu")] = "spsolve" ∧
    ∀ b, opA pairs 2 (E.lu (opA pairs 2) b) = b := by
  obtain ⟨s, hs, -⟩ := fromDefaults_ok pairs 1 defaultOption (by simp [Known, defaultOption])
  have hsurj := Helmholtz.opA_surjective (M := pairs) (fun i => by simp [pairs, Mesh.ofFaces]) 2
  refine ⟨⟨fun _ b => (hsurj b).choose, fun _ _ b => b⟩, s, hs, by simp [lastOption, Known], fun b => (hsurj b).choose_spec⟩

end Verif.Props
