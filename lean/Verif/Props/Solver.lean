import Verif.Model.Solver
import Mathlib.Tactic.Push
import Mathlib.Tactic.SplitIfs

/-!
Solver selection (C49), PETSc options (C50) and reporting of unconverged solves (C67).
-/
namespace Verif.Solver

variable {R K V : Type}

/-! ### C49: solver selection -/

/-- Specification: what the library a solver name stands for answers, for a run whose PETSc options are `o`. -/
def answer (B : Backend R K V) (rtol : R) (maxiter : Option Nat) (o : Opts) (k : K) (f : V) : String → Option (Res V)
  | "cg_jacobi" => some ((B.cgJacobi rtol maxiter k f).map Prod.fst)
  | "cg_pyamg" => some ((B.cgPyamg rtol maxiter k f).map Prod.fst)
  | "spsolve" => some (B.spsolve k f)
  | "petsc" => some ((B.petsc rtol maxiter o k f).map Prod.fst)
  | "petsc_spdirect" => some ((B.petsc rtol maxiter o k f).map Prod.fst)
  | _ => none

theorem solveU_noFallback (B : Backend R K V) (c : Cfg R) (h : c.allowFallback = false) (k : K) (f : V) :
    solveU B c k f = dispatch B c k f := by
  unfold solveU
  cases dispatch B c k f <;> simp [h]

theorem solveSingle_explicit (B : Backend R K V) (c : Cfg R) (h : c.solver ≠ "auto") (n : Nat) (k : K) (f : V) :
    solveSingle B c n k f = dispatch B { c with maxiter := iterLimit c.maxiter n } k f := by
  unfold solveSingle
  rw [solveU_noFallback _ _ (by simp [h])]
  simp [dispatch, choose, h]

/-- **C49 (explicit solvers).** A solver named explicitly is the one that answers: its solution is returned as it is and its
exception propagates unchanged. For the two PETSc solvers the options are those resolved for that solver. -/
theorem C49_explicit_solver_used_as_is (B : Backend R K V) (c : Cfg R) (n : Nat) (k : K) (f : V) :
    (c.solver = "cg_jacobi" ∨ c.solver = "cg_pyamg" ∨ c.solver = "spsolve" →
      ∀ o, some (solveSingle B c n k f) = answer B c.rtol (iterLimit c.maxiter n) o k f c.solver) ∧
    (c.solver = "petsc" → some (solveSingle B c n k f) =
      answer B c.rtol (iterLimit c.maxiter n) (normalizeOpts c.petsc false) k f c.solver) ∧
    (c.solver = "petsc_spdirect" →
      (∀ e, optsForSolver c.solver c.petsc = .error e → solveSingle B c n k f = .error e) ∧
      (∀ o, optsForSolver c.solver c.petsc = .ok (some o) → some (solveSingle B c n k f) =
        answer B c.rtol (iterLimit c.maxiter n) o k f c.solver)) := by
  refine ⟨?_, ?_, ?_⟩
  · rintro (h | h | h) o <;> rw [solveSingle_explicit _ _ (by simp [h])] <;> simp [dispatch, h, answer]
  · intro h; rw [solveSingle_explicit _ _ (by simp [h])]; simp [dispatch, h, answer]
  · intro h
    refine ⟨fun e he => ?_, fun o ho => ?_⟩ <;> rw [solveSingle_explicit _ _ (by simp [h])] <;> rw [h] at *
    · simp [dispatch, h, he]
    · simp [dispatch, h, ho, answer]

/-- **C49 (no other solver is consulted).** With an explicit solver other than `spsolve`, the outcome does not depend on the direct
solver at all: there is no hidden fallback, whatever `allow_fallback_to_spsolve` says. -/
theorem C49_no_fallback_unless_auto (B : Backend R K V) (c : Cfg R) (h : c.solver ≠ "auto") (hs : c.solver ≠ "spsolve")
    (n : Nat) (k : K) (f : V) (g : K → V → Res V) (b : Bool) :
    solveSingle { B with spsolve := g } { c with allowFallback := b } n k f = solveSingle B c n k f := by
  rw [solveSingle_explicit _ _ h, solveSingle_explicit _ _ (by simpa using h)]
  simp [dispatch, hs]

/-- **C49 (unknown names).** A name that is none of the six solvers is rejected with a `ValueError` for one load case and with a
`NotImplementedError` for several, whatever the libraries would do. -/
theorem C49_unknown_rejected (B : Backend R K V) (c : Cfg R)
    (h : c.solver ∉ ["auto", "cg_jacobi", "cg_pyamg", "spsolve", "petsc", "petsc_spdirect"]) (n : Nat) (k : K) :
    (∀ f, solveSingle B c n k f = .error .valueError) ∧
    (∀ fs : List V, fs.length ≠ 1 → solveMulti B c n k fs = .error .notImplemented) := by
  simp only [List.mem_cons, List.not_mem_nil, or_false, not_or] at h
  obtain ⟨h1, h2, h3, h4, h5, h6⟩ := h
  refine ⟨fun f => ?_, fun fs hf => ?_⟩
  · rw [solveSingle_explicit _ _ h1]; simp [dispatch, h2, h3, h4, h5, h6]
  · match fs, hf with
    | [], _ => simp [solveMulti, h1, h4, h5, h6]
    | _ :: _ :: _, _ => simp [solveMulti, h1, h4, h5, h6]

/-- **C49 (automatic choice).** In automatic mode systems with fewer than 1000 unknowns are solved directly; larger ones are solved
by CG with algebraic multigrid and, only if that raises, directly. -/
theorem C49_auto (B : Backend R K V) (c : Cfg R) (h : c.solver = "auto") (n : Nat) (k : K) (f : V) :
    (n < 1000 → solveSingle B c n k f = B.spsolve k f) ∧
    (1000 ≤ n → ∀ u i, B.cgPyamg c.rtol (iterLimit c.maxiter n) k f = .ok (u, i) → solveSingle B c n k f = .ok u) ∧
    (1000 ≤ n → ∀ e, B.cgPyamg c.rtol (iterLimit c.maxiter n) k f = .error e → solveSingle B c n k f = B.spsolve k f) := by
  refine ⟨fun hn => ?_, fun hn u i hu => ?_, fun hn e he => ?_⟩
  · unfold solveSingle solveU
    simp only [dispatch, choose, h, if_pos hn]
    simp
    cases B.spsolve k f <;> rfl
  · unfold solveSingle solveU
    simp [dispatch, choose, h, show ¬ n < 1000 by omega, hu, Except.map]
  · unfold solveSingle solveU
    simp [dispatch, choose, h, show ¬ n < 1000 by omega, he, Except.map]

/-- **C49 (automatic choice is total).** Automatic mode succeeds whenever the direct solver can solve the system. -/
theorem C49_auto_total (B : Backend R K V) (c : Cfg R) (h : c.solver = "auto") (n : Nat) (k : K) (f : V)
    {u : V} (hu : B.spsolve k f = .ok u) : ∃ v, solveSingle B c n k f = .ok v := by
  obtain ⟨h1, h2, h3⟩ := C49_auto B c h n k f
  rcases Nat.lt_or_ge n 1000 with hn | hn
  · exact ⟨u, by rw [h1 hn, hu]⟩
  · cases hp : B.cgPyamg c.rtol (iterLimit c.maxiter n) k f with
    | error e => exact ⟨u, by rw [h3 hn e hp, hu]⟩
    | ok p => exact ⟨p.1, h2 hn p.1 p.2 hp⟩

/-- **C49 (several load cases).** With two or more load cases the SciPy iterative solvers are rejected, `auto` and `spsolve` use one
LU factorisation, the PETSc solvers use PETSc, and no exception is replaced by a fallback. A list with one load case behaves like
the single-load analysis; an empty list is an error. -/
theorem C49_multi_load (B : Backend R K V) (c : Cfg R) (n : Nat) (k : K) :
    (∀ fs : List V, 2 ≤ fs.length → c.solver = "cg_jacobi" ∨ c.solver = "cg_pyamg" →
      solveMulti B c n k fs = .error .notImplemented) ∧
    (∀ fs : List V, 2 ≤ fs.length → c.solver = "auto" ∨ c.solver = "spsolve" → solveMulti B c n k fs = B.splu k fs) ∧
    (∀ fs : List V, 2 ≤ fs.length → c.solver = "petsc" ∨ c.solver = "petsc_spdirect" →
      (∀ e, optsForSolver c.solver c.petsc = .error e → solveMulti B c n k fs = .error e) ∧
      (∀ o, optsForSolver c.solver c.petsc = .ok o →
        solveMulti B c n k fs = (B.petscMulti c.rtol c.maxiter (o.getD {}) k fs).map Prod.fst)) ∧
    (∀ f, solveMulti B c n k [f] = (solveSingle B c n k f).map fun u => [u]) ∧
    (∃ e, solveMulti B c n k ([] : List V) = .error e) := by
  refine ⟨fun fs hf h => ?_, fun fs hf h => ?_, fun fs hf h => ?_, fun f => rfl, ?_⟩
  · match fs, hf with
    | _ :: _ :: _, _ => rcases h with h | h <;> simp [solveMulti, h]
  · match fs, hf with
    | _ :: _ :: _, _ => rcases h with h | h <;> simp [solveMulti, h]
  · match fs, hf with
    | _ :: _ :: _, _ =>
      refine ⟨fun e he => ?_, fun o ho => ?_⟩ <;> rcases h with h | h
      · rw [h] at he; simp [solveMulti, h, he]
      · rw [h] at he; simp [solveMulti, h, he]
      · rw [h] at ho; simp [solveMulti, h, ho]
      · rw [h] at ho; simp [solveMulti, h, ho]
  · by_cases h : c.solver ≠ "auto" ∧ c.solver ≠ "spsolve" ∧ c.solver ≠ "petsc" ∧ c.solver ≠ "petsc_spdirect"
    · exact ⟨.notImplemented, by unfold solveMulti; simp only; rw [if_pos h]⟩
    · exact ⟨.indexError, by unfold solveMulti; simp only; rw [if_neg h]; rfl⟩

/-- A library in which multigrid fails and the direct solver works. -/
def exampleBackend : Backend Nat Nat Nat where
  cgJacobi _ _ _ f := .ok (f, 7)
  cgPyamg _ _ _ _ := .error .runtimeError
  spsolve _ f := .ok (f + 1)
  petsc _ _ _ _ _ := .error .runtimeError
  splu _ fs := .ok (fs.map (· + 1))
  petscMulti _ _ _ _ _ := .error .runtimeError

example : solveSingle exampleBackend { solver := "auto", rtol := 0 } 5000 0 3 = .ok 4 ∧
    solveSingle exampleBackend { solver := "cg_pyamg", rtol := 0, allowFallback := true } 5000 0 3 = .error .runtimeError ∧
    solveMulti exampleBackend { solver := "cg_pyamg", rtol := 0 } 5000 0 [3, 4] = .error .notImplemented ∧
    solveMulti exampleBackend { solver := "auto", rtol := 0 } 5000 0 [3, 4] = .ok [4, 5] := by
  exact ⟨rfl, rfl, rfl, rfl⟩

/-- **C49 (`solve_u` itself).** Called directly, `solve_u` does not know `auto`, and with `allow_fallback_to_spsolve=True` it answers
any failure of the named solver, even an unknown name, with the direct solver. -/
theorem C49_solve_u (B : Backend R K V) (c : Cfg R) (k : K) (f : V) :
    (c.allowFallback = false → c.solver ∉ ["cg_jacobi", "cg_pyamg", "spsolve", "petsc", "petsc_spdirect"] →
      solveU B c k f = .error .valueError) ∧
    (c.allowFallback = true → c.solver ∉ ["cg_jacobi", "cg_pyamg", "spsolve", "petsc", "petsc_spdirect"] →
      solveU B c k f = B.spsolve k f) ∧
    (c.allowFallback = true → ∀ e, B.spsolve k f = .error e → ∀ u, solveU B c k f = .ok u →
      ∃ o, answer B c.rtol c.maxiter o k f c.solver = some (.ok u)) := by
  refine ⟨fun ha h => ?_, fun ha h => ?_, fun ha e he u hu => ?_⟩
  · simp only [List.mem_cons, List.not_mem_nil, or_false, not_or] at h
    rw [solveU_noFallback _ _ ha]; simp [dispatch, h]
  · simp only [List.mem_cons, List.not_mem_nil, or_false, not_or] at h
    simp [solveU, dispatch, h, ha]
  · unfold solveU at hu
    cases hd : dispatch B c k f with
    | error e' => simp [hd, ha, he] at hu
    | ok v =>
      simp only [hd] at hu
      cases hu
      unfold dispatch at hd
      split_ifs at hd with h1 h2 h3 h4 h5
      · exact ⟨{}, by simp [answer, h1, hd]⟩
      · exact ⟨{}, by simp [answer, h2, hd]⟩
      · exact ⟨{}, by simp [answer, h3, hd]⟩
      · exact ⟨_, by simp [answer, h4]; exact hd⟩
      · cases ho : optsForSolver c.solver c.petsc with
        | error e'' => simp [ho] at hd
        | ok o =>
          cases o with
          | none => exact ⟨{}, by simp [ho] at hd; simp [answer, h5, hd]⟩
          | some o => exact ⟨o, by simp [ho] at hd; simp [answer, h5, hd]⟩

/-! ### C67: unconverged solves -/

/-- The same library reporting other status codes. -/
def withStatus (B : Backend R K V) (s : Int) : Backend R K V where
  cgJacobi r m k f := (B.cgJacobi r m k f).map fun p => (p.1, s)
  cgPyamg r m k f := (B.cgPyamg r m k f).map fun p => (p.1, s)
  spsolve := B.spsolve
  petsc r m o k f := (B.petsc r m o k f).map fun p => (p.1, s)
  splu := B.splu
  petscMulti r m o k fs := (B.petscMulti r m o k fs).map fun p => (p.1, p.2.map fun _ => s)

theorem map_fst {α β : Type} (x : Res (α × β)) (s : β) : (x.map fun p => (p.1, s)).map Prod.fst = x.map Prod.fst := by
  cases x <;> rfl

theorem map_fst' {α β γ : Type} (x : Res (α × β)) (g : β → γ) : (x.map fun p => (p.1, g p.2)).map Prod.fst = x.map Prod.fst := by
  cases x <;> rfl

theorem dispatch_withStatus (B : Backend R K V) (s : Int) (c : Cfg R) (k : K) (f : V) :
    dispatch (withStatus B s) c k f = dispatch B c k f := by
  unfold dispatch withStatus
  simp only [map_fst]

/-- **C67 (refuted).** The result of a solve never depends on the convergence status the iterative solver reports: an analysis whose
solver says "not converged" (any status at all) returns exactly what it returns when the solver says "converged". Nothing is raised
and no fallback takes place, in automatic mode, with an explicit solver, for one load case and for many. -/
theorem C67_status_ignored (B : Backend R K V) (s : Int) (c : Cfg R) (n : Nat) (k : K) :
    (∀ f, solveU (withStatus B s) c k f = solveU B c k f) ∧
    (∀ f, solveSingle (withStatus B s) c n k f = solveSingle B c n k f) ∧
    (∀ fs : List V, solveMulti (withStatus B s) c n k fs = solveMulti B c n k fs) := by
  have h1 : ∀ c : Cfg R, ∀ f, solveU (withStatus B s) c k f = solveU B c k f := by
    intro c f; unfold solveU; rw [dispatch_withStatus]; rfl
  have h2 : ∀ f, solveSingle (withStatus B s) c n k f = solveSingle B c n k f := fun f => h1 _ f
  refine ⟨h1 c, h2, fun fs => ?_⟩
  match fs with
  | [f] => simp only [solveMulti, h2]
  | [] => rfl
  | a :: b :: l =>
    unfold solveMulti
    simp only [withStatus, map_fst']

/-- A CG solve that stops at its iteration limit (status 7): its last iterate is returned as the solution. -/
example : solveSingle exampleBackend { solver := "cg_jacobi", rtol := 0 } 5000 0 3 = .ok 3 := rfl

/-- **C67, partial.** What is true: every solver that cannot report non-convergence through a status (the direct solvers, in one-load
and multi-load analyses) either returns its solution or raises, and an exception always reaches the caller. Missing: the status of the
iterative solvers is not turned into an error. -/
theorem C67_exceptions_reported_partial (B : Backend R K V) (c : Cfg R) (n : Nat) (k : K) (f : V) (e : Err)
    (h : c.solver = "spsolve" ∨ (c.solver = "auto" ∧ n < 1000)) (he : B.spsolve k f = .error e) :
    solveSingle B c n k f = .error e := by
  rcases h with h | ⟨h, hn⟩
  · rw [solveSingle_explicit _ _ (by simp [h])]; simp [dispatch, h, he]
  · rw [(C49_auto B c h n k f).1 hn, he]

/-! ### C50: PETSc options -/

/-- Feeding resolved options back in. -/
def Input.of : Option Opts → Input
  | .none => .none
  | .some o => .obj o

/-- **C50 (idempotence).** Resolving the options a second time changes nothing, for every solver name and every input. -/
theorem C50_resolution_idempotent (solver : String) (i : Input) {r : Option Opts} (h : optsForSolver solver i = .ok r) :
    optsForSolver solver (.of r) = .ok r := by
  unfold optsForSolver at h
  split_ifs at h with h1 h2 h3 h4 h5
  · cases h; simp [optsForSolver, h1, Input.of]
  · cases h; simp [optsForSolver, h1, Input.of, normalizeOpts]
  · cases h; push Not at h1; subst h1; rfl
  · cases h
    push Not at h1 h4 h5
    subst h1
    simp only [Input.of]
    generalize mergeOpts directOpts i = m at *
    unfold optsForSolver
    simp [mergeOpts, mergeObj, directOpts] at h4 h5 ⊢
    simp [h4, h5]

/-- **C50 (the direct solver is direct).** Options resolved for `petsc_spdirect` always say `preonly` and `lu`; requests for anything
else are rejected with a `ValueError`; no other error occurs. -/
theorem C50_spdirect (i : Input) :
    (∃ o, optsForSolver "petsc_spdirect" i = .ok (some o) ∧ o.ksp = "preonly" ∧ o.pc = "lu") ∨
    optsForSolver "petsc_spdirect" i = .error .valueError := by
  unfold optsForSolver
  rw [if_neg (by simp)]
  by_cases h1 : i = .none
  · rw [if_pos h1]; exact .inl ⟨_, rfl, rfl, rfl⟩
  rw [if_neg h1]
  by_cases h2 : (mergeOpts directOpts i).ksp ≠ directOpts.ksp
  · rw [if_pos h2]; exact .inr rfl
  rw [if_neg h2]
  by_cases h3 : (mergeOpts directOpts i).pc ≠ directOpts.pc
  · rw [if_pos h3]; exact .inr rfl
  rw [if_neg h3]
  push Not at h2 h3
  exact .inl ⟨_, rfl, h2, h3⟩

/-- Specification: the value a dictionary asks for under a text key, if it asks for one: a text is taken as it is, any other value by
its Python text. -/
def asked : Option Val → Option String
  | some (.str s) => some s
  | some (.bool b) => some (if b then "True" else "False")
  | some .none => some "None"
  | none => none

/-- Specification: an optional text, where `None` counts as not given. -/
def askedOpt (v : Option Val) : Option String := if v = some .none then none else asked v

/-- Specification: a flag, on unless the value given is false in Python: `False`, `None` or the empty text. -/
def askedFlag (v : Option Val) : Bool := v ≠ some (.bool false) ∧ v ≠ some .none ∧ v ≠ some (.str "")

private theorem asked_text (v : Option Val) : asked v = v.map Val.toStr := by
  rcases v with _ | (_ | (_ | _) | _) <;> rfl

private theorem askedOpt_text (v : Option Val) : optStr v = askedOpt v := by
  rcases v with _ | (_ | (_ | _) | _) <;> rfl

private theorem askedFlag_truth (v : Option Val) : (v.map Val.truthy).getD true = askedFlag v := by
  rcases v with _ | (s | (_ | _) | _) <;> simp [askedFlag, Val.truthy]

/-- **C50 (exact acceptance).** A dictionary is accepted for `petsc_spdirect` exactly if it does not ask for another Krylov method or
preconditioner; an options object exactly if it is `preonly` with `lu`. -/
theorem C50_spdirect_accepts (d : Dict) (o : Opts) :
    ((∃ r, optsForSolver "petsc_spdirect" (.dict d) = .ok r) ↔
      (∀ s, asked d.ksp = some s → s = "preonly") ∧ (∀ s, asked d.pc = some s → s = "lu")) ∧
    ((∃ r, optsForSolver "petsc_spdirect" (.obj o) = .ok r) ↔ o.ksp = "preonly" ∧ o.pc = "lu") := by
  constructor
  · have e1 : (mergeOpts directOpts (.dict d)).ksp = (asked d.ksp).getD "preonly" := by
      rw [asked_text]; cases hk : d.ksp <;> simp [mergeOpts, mergeDict, directOpts, hk]
    have e2 : (mergeOpts directOpts (.dict d)).pc = (asked d.pc).getD "lu" := by
      rw [asked_text]; cases hk : d.pc <;> simp [mergeOpts, mergeDict, directOpts, hk]
    unfold optsForSolver
    rw [if_neg (by simp), if_neg (by simp), e1, e2]
    cases asked d.ksp <;> cases asked d.pc <;> simp [directOpts] <;> split_ifs <;> simp_all
    rename_i a b _
    by_cases hb : b = "lu" <;> simp [hb]
  · unfold optsForSolver
    rw [if_neg (by simp), if_neg (by simp)]
    simp [mergeOpts, mergeObj, directOpts]
    by_cases h : o.ksp = "preonly" <;> by_cases h' : o.pc = "lu" <;> simp [h, h']

/-- **C50 (user options win).** For `petsc`, an options object is used unchanged and every key of a dictionary overrides its default
(text values as text); for `petsc_spdirect`, every accepted input keeps its factorisation package, its prefix and its
`use_set_from_options`. -/
theorem C50_user_options_win (o : Opts) (d : Dict) :
    optsForSolver "petsc" (.obj o) = .ok (some o) ∧
    optsForSolver "petsc" (.dict d) = .ok (some
      { ksp := (asked d.ksp).getD "cg", pc := (asked d.pc).getD "gamg", factor := askedOpt d.factor, pfx := askedOpt d.pfx,
        useSet := askedFlag d.useSet }) ∧
    (∀ r, optsForSolver "petsc_spdirect" (.obj o) = .ok r → r = some o) ∧
    (∀ r, optsForSolver "petsc_spdirect" (.dict d) = .ok r → r = some
      { ksp := "preonly", pc := "lu", factor := askedOpt d.factor, pfx := askedOpt d.pfx,
        useSet := askedFlag d.useSet }) := by
  refine ⟨rfl, ?_, fun r hr => ?_, fun r hr => ?_⟩
  · have e1 : (d.ksp.map Val.toStr).getD "cg" = (asked d.ksp).getD "cg" := by rw [asked_text]
    have e2 : (d.pc.map Val.toStr).getD "gamg" = (asked d.pc).getD "gamg" := by rw [asked_text]
    simp [optsForSolver, normalizeOpts, dictOpts, e1, e2, askedOpt_text, askedFlag_truth]
  · obtain ⟨h1, h2⟩ := (C50_spdirect_accepts d o).2.1 ⟨r, hr⟩
    obtain ⟨ksp, pc, factor, pfx, useSet⟩ := o
    simp only at h1 h2
    subst h1 h2
    simp [optsForSolver, mergeOpts, mergeObj, directOpts] at hr
    exact hr.symm
  · obtain ⟨h1, h2⟩ := (C50_spdirect_accepts d o).1.1 ⟨r, hr⟩
    have e1 : (d.ksp.map Val.toStr).getD "preonly" = "preonly" := by
      cases hk : d.ksp with
      | none => rfl
      | some v => exact h1 _ (by rw [asked_text, hk]; rfl)
    have e2 : (d.pc.map Val.toStr).getD "lu" = "lu" := by
      cases hk : d.pc with
      | none => rfl
      | some v => exact h2 _ (by rw [asked_text, hk]; rfl)
    simp [optsForSolver, mergeOpts, mergeObj, mergeDict, directOpts, e1, e2] at hr
    rw [← hr, ← askedOpt_text, ← askedOpt_text, ← askedFlag_truth]

/-- **C50 (configuration).** Building an optimizer configuration and then solving resolves the options twice; the solve uses exactly
the options the configuration shows. -/
theorem C50_config_then_solve (solver : String) (i : Input) {r : Option Opts} (h : configOpts true solver i = .ok r) :
    (solver = "petsc" ∨ solver = "petsc_spdirect" → optsForSolver solver (.of r) = .ok r) ∧
    (solver = "petsc_spdirect" → ∃ o, r = some o ∧ o.ksp = "preonly" ∧ o.pc = "lu") := by
  unfold configOpts at h
  simp only [if_true] at h
  constructor
  · rintro (rfl | rfl)
    · simp at h; exact C50_resolution_idempotent _ _ h
    · simp at h; exact C50_resolution_idempotent _ _ h
  · rintro rfl
    simp at h
    rcases C50_spdirect (overrideInput i) with ⟨o, ho, h1, h2⟩ | he
    · rw [ho] at h; cases h; exact ⟨o, rfl, h1, h2⟩
    · rw [he] at h; cases h

/-- **C50 (configuration, options objects).** A configuration with `petsc_spdirect` accepts an options object exactly if its Krylov
method is `preonly` or the default `cg` and its preconditioner `lu` or the default `gamg`; it then keeps the other three fields. So
an explicit request for `cg` with `gamg` is replaced by the direct solver, while `petsc_options_for_solver` rejects it. -/
theorem C50_config_spdirect_objects (o : Opts) :
    ((o.ksp = "preonly" ∨ o.ksp = "cg") ∧ (o.pc = "lu" ∨ o.pc = "gamg") →
      configOpts true "petsc_spdirect" (.obj o) = .ok (some { o with ksp := "preonly", pc := "lu" })) ∧
    (¬ ((o.ksp = "preonly" ∨ o.ksp = "cg") ∧ (o.pc = "lu" ∨ o.pc = "gamg")) →
      configOpts true "petsc_spdirect" (.obj o) = .error .valueError) ∧
    optsForSolver "petsc_spdirect" (.obj {}) = .error .valueError := by
  obtain ⟨ksp, pc, factor, pfx, useSet⟩ := o
  refine ⟨?_, ?_, rfl⟩
  · rintro ⟨h1, h2⟩
    rcases h1 with h1 | h1 <;> rcases h2 with h2 | h2 <;> simp only at h1 h2 <;> subst h1 <;> subst h2 <;>
      cases factor <;> cases pfx <;> cases useSet <;>
      simp [configOpts, overrideInput, overrideDict, optsForSolver, mergeOpts, mergeDict, mergeObj, directOpts, optStr, Val.toStr,
        Val.truthy]
  · intro h
    simp only at h
    have hne : overrideInput (.obj ⟨ksp, pc, factor, pfx, useSet⟩) = .dict (overrideDict ⟨ksp, pc, factor, pfx, useSet⟩) := by
      unfold overrideInput
      simp only
      rw [if_neg]
      intro h0
      by_cases hk : ksp = "cg"
      · by_cases hp : pc = "gamg"
        · exact h ⟨.inr hk, .inr hp⟩
        · simp [overrideDict, hp] at h0
      · simp [overrideDict, hk] at h0
    simp only [configOpts, if_true, hne]
    unfold optsForSolver
    rw [if_neg (by simp), if_neg (by simp)]
    by_cases hk : ksp = "cg"
    · by_cases hp : pc = "gamg"
      · exact absurd ⟨.inr hk, .inr hp⟩ h
      · have hl : pc ≠ "lu" := fun hl => h ⟨.inr hk, .inl hl⟩
        simp [mergeOpts, mergeDict, overrideDict, directOpts, hk, hp, hl, Val.toStr]
    · by_cases hq : ksp = "preonly"
      · by_cases hp : pc = "gamg"
        · exact absurd ⟨.inl hq, .inr hp⟩ h
        · have hl : pc ≠ "lu" := fun hl => h ⟨.inl hq, .inl hl⟩
          simp [mergeOpts, mergeDict, overrideDict, directOpts, hq, hp, hl, Val.toStr]
      · simp [mergeOpts, mergeDict, overrideDict, directOpts, hk, hq, Val.toStr]

/-- **C50 (PETSc missing).** Without PETSc support, configurations that ask for PETSc fail when they are built, all others are
accepted and keep their options. -/
theorem C50_config_without_petsc (solver : String) (i : Input) :
    (solver = "petsc" ∨ solver = "petsc_spdirect" → configOpts false solver i = .error .runtimeError) ∧
    (solver ≠ "petsc" → solver ≠ "petsc_spdirect" → configOpts false solver i = configOpts true solver i ∧
      ∃ r, configOpts false solver i = .ok r) := by
  refine ⟨?_, fun h1 h2 => ?_⟩
  · rintro (rfl | rfl) <;> simp [configOpts, optsForSolverMissing]
  · simp [configOpts, h1, h2]

/-- **C50 (PETSc missing, resolution).** Without PETSc support the options of a solver that is not PETSc are resolved as with it: none
stay none, given ones are completed by the defaults. A PETSc solver is refused. -/
theorem C50_resolution_without_petsc (solver : String) (i : Input) :
    (solver = "petsc" ∨ solver = "petsc_spdirect" → optsForSolverMissing solver i = .error .runtimeError) ∧
    (solver ≠ "petsc" → solver ≠ "petsc_spdirect" → optsForSolverMissing solver i = optsForSolver solver i ∧
      (i = .none → optsForSolverMissing solver i = .ok none) ∧ (∀ o, i = .obj o → optsForSolverMissing solver i = .ok (some o))) := by
  refine ⟨?_, fun h1 h2 => ?_⟩
  · rintro (rfl | rfl) <;> simp [optsForSolverMissing]
  · have e : optsForSolverMissing solver i = optsForSolver solver i := by
      unfold optsForSolverMissing optsForSolver
      rw [if_pos ⟨h1, h2⟩, if_pos h2]
    refine ⟨e, ?_, ?_⟩
    · rintro rfl; simp [optsForSolverMissing, h1, h2]
    · rintro o rfl; simp [optsForSolverMissing, h1, h2, normalizeOpts]

example : optsForSolver "petsc_spdirect" (.dict { factor := some (.str "mumps"), useSet := some (.bool false) }) =
    .ok (some { ksp := "preonly", pc := "lu", factor := some "mumps", useSet := false }) := rfl

example : configOpts true "petsc_spdirect" (.obj { factor := some "mumps" }) =
    .ok (some { ksp := "preonly", pc := "lu", factor := some "mumps" }) := rfl

end Verif.Solver
