import Verif.Model.Petsc

/-! Property theorems C155: the settings given for the PETSc solvers are the settings PETSc works with. -/
namespace Verif.Props.Petsc
open Verif Verif.Solver Verif.Petsc

variable {R K V : Type}

/-- The prefix under which the option database is read. -/
def readPrefix (L : Lib R K V) (A : K) (o : Opts) : Option String :=
  match o.pfx, L.hasPrefix with
  | some p, true => some p
  | _, _ => (L.fresh A).pfx

/-- **C155 (a)** Where every setting of the solver comes from: matrix, Krylov method, preconditioner, tolerance and iteration limit are those
asked for (the library's own limit when none is), unless `use_set_from_options` is on and the option database, under the given
prefix, has an entry: then that entry. -/
theorem C155_settings (L : Lib R K V) (A : K) (hop : (L.fresh A).op = A) (rtol : R) (m : Option Nat) (o : Opts) :
    let s := createKsp L A rtol m o
    let e := if o.useSet then L.db (readPrefix L A o) else {}
    s.op = A ∧ s.pfx = readPrefix L A o ∧ s.ksp = e.ksp.getD o.ksp ∧ s.pc = e.pc.getD o.pc ∧ s.rtol = e.rtol.getD rtol ∧
      s.maxIt = e.maxIt.getD (m.getD (L.fresh A).maxIt) := by
  obtain ⟨k, pc, f, p, us⟩ := o
  obtain ⟨av, db, hp, hf, fz, fresh, sv⟩ := L
  simp only at hop
  cases us <;> cases p <;> cases f <;> cases hp <;> cases hf <;>
    simp only [createKsp, readPrefix, Ksp.setPcType, Ksp.setFactorType, Ksp.setTolerances, Ksp.setFromOptions] <;>
    grind

/-- **C155 (b)** The factorization package asked for is the one used whenever the preconditioner asked for factorizes and the option database
says nothing about preconditioner or package; it is dropped when the preconditioner does not factorize. -/
theorem C155_factor_package (L : Lib R K V) (A : K) (hf : L.hasFactor = true) (rtol : R) (m : Option Nat) (o : Opts) (t : String)
    (ht : o.factor = some t) (hdb : o.useSet = true → (L.db (readPrefix L A o)).pc = none ∧ (L.db (readPrefix L A o)).factor = none)
    (hfresh : (L.fresh A).factor = none) :
    (createKsp L A rtol m o).factor = if L.factorizes o.pc then some t else none := by
  obtain ⟨k, pc, f, p, us⟩ := o
  obtain ⟨av, db, hp, hf', fz, fresh, sv⟩ := L
  simp only at hf ht hfresh hdb
  subst hf ht
  cases us <;> cases p <;> cases hp <;>
    simp only [createKsp, readPrefix, Ksp.setPcType, Ksp.setFactorType, Ksp.setTolerances, Ksp.setFromOptions] at hdb ⊢ <;>
    grind

/-- **C155 (b')** With `use_set_from_options` on, an entry of the option database for the package wins whenever the preconditioner in the end
factorizes; an entry that replaces the preconditioner by another one, without naming a package, undoes the package asked for (PETSc
then uses its own). -/
theorem C155_package_under_database (L : Lib R K V) (A : K) (hop : (L.fresh A).op = A) (rtol : R) (m : Option Nat) (o : Opts)
    (hu : o.useSet = true) :
    (∀ t, (L.db (readPrefix L A o)).factor = some t → L.factorizes ((L.db (readPrefix L A o)).pc.getD o.pc) = true →
      (createKsp L A rtol m o).factor = some t) ∧
    (∀ t, (L.db (readPrefix L A o)).factor = none → (L.db (readPrefix L A o)).pc = some t → t ≠ o.pc →
      (createKsp L A rtol m o).pc = t ∧ (createKsp L A rtol m o).factor = none) := by
  obtain ⟨k, pc, f, p, us⟩ := o
  obtain ⟨av, db, hp, hf', fz, fresh, sv⟩ := L
  simp only at hu
  subst hu
  cases p <;> cases f <;> cases hp <;> cases hf' <;>
    simp only [createKsp, readPrefix, Ksp.setPcType, Ksp.setFactorType, Ksp.setTolerances, Ksp.setFromOptions] <;>
    grind

/-- The columns loop, with what was already found. -/
private theorem columns_eq (L : Lib R K V) (s : Ksp R K) (fs : List V) (acc : List V × List Int) :
    solveColumns L s fs acc = (fs.mapM (L.solve s)).map fun rs => (acc.1 ++ rs.map Prod.fst, acc.2 ++ rs.map Prod.snd) := by
  induction fs generalizing acc with
  | nil => simp [solveColumns, pure, Except.pure, Except.map]
  | cons f fs ih =>
    cases h : L.solve s f with
    | error e => simp [solveColumns, h, bind, Except.bind, Except.map]
    | ok r =>
      simp only [solveColumns, h, bind, Except.bind, ih, List.mapM_cons]
      cases fs.mapM (L.solve s) with
      | error e => rfl
      | ok rs => simp [Except.map, pure, Except.pure]

/-- **C155 (c)** Several right-hand sides: with the library present, solution and status of every column are those of `solve_u_petsc` for that
column alone, in order; the call fails exactly when one of those does, with the first such failure. -/
theorem C155_columns (L : Lib R K V) (hL : L.available = true) (A : K) (fs : List V) (rtol : R) (m : Option Nat) (i : Input) :
    solveMany L A (.columns fs) rtol m i =
      (fs.mapM fun f => solveOne L A f rtol m i).map fun rs => (rs.map Prod.fst, rs.map Prod.snd) := by
  have h1 : (fun f => solveOne L A f rtol m i) = L.solve (createKsp L A rtol m (normalizeOpts i false)) := by
    funext f
    simp [solveOne, hL]
  rw [h1]
  simp [solveMany, hL, columns_eq]

/-- **C155 (d)** One vector as right-hand side is one column. -/
theorem C155_vector (L : Lib R K V) (A : K) (f : V) (rtol : R) (m : Option Nat) (i : Input) :
    solveMany L A (.vector f) rtol m i = (solveOne L A f rtol m i).map (fun r => ([r.1], [r.2])) ∧
    solveMany L A (.vector f) rtol m i = solveMany L A (.columns [f]) rtol m i := by
  have hn : normalizeOpts (.obj (normalizeOpts i false)) false = normalizeOpts i false := rfl
  cases hL : L.available with
  | false => simp [solveMany, solveOne, hL, Except.map]
  | true =>
    simp only [solveMany, solveOne, hL, hn, solveColumns, bind, Except.bind]
    cases L.solve (createKsp L A rtol m (normalizeOpts i false)) f <;> simp [Except.map]

/-- **C155 (e)** Without a working petsc4py both raise RuntimeError and solve nothing. -/
theorem C155_unavailable (L : Lib R K V) (hL : L.available = false) (A : K) (f : V) (rhs : Rhs V) (rtol : R) (m : Option Nat) (i : Input) :
    solveOne L A f rtol m i = .error .runtimeError ∧ solveMany L A rhs rtol m i = .error .runtimeError := by
  simp [solveOne, solveMany, hL]

/-- **C155 (f)** `petsc_spdirect` asks for a direct solve (`preonly` with `lu`), and this is what the library does provided the option
database has no entry for the method or the preconditioner, or the user switched it off. -/
theorem C155_spdirect_partial (L : Lib R K V) (A : K) (hop : (L.fresh A).op = A) (rtol : R) (m : Option Nat) (i : Input) (o : Opts)
    (h : optsForSolver "petsc_spdirect" i = .ok (some o))
    (hdb : o.useSet = true → (L.db (readPrefix L A o)).ksp = none ∧ (L.db (readPrefix L A o)).pc = none) :
    (createKsp L A rtol m o).ksp = "preonly" ∧ (createKsp L A rtol m o).pc = "lu" := by
  have hk : o.ksp = "preonly" ∧ o.pc = "lu" := by
    unfold optsForSolver at h
    rw [if_neg (by simp)] at h
    by_cases hi : i = .none
    · rw [if_pos hi] at h
      cases h
      exact ⟨rfl, rfl⟩
    · rw [if_neg hi] at h
      by_cases h1 : (mergeOpts directOpts i).ksp ≠ directOpts.ksp
      · rw [if_pos h1] at h; cases h
      · rw [if_neg h1] at h
        by_cases h2 : (mergeOpts directOpts i).pc ≠ directOpts.pc
        · rw [if_pos h2] at h; cases h
        · rw [if_neg h2] at h
          cases h
          exact ⟨Decidable.not_not.mp h1, Decidable.not_not.mp h2⟩
  obtain ⟨-, -, e1, e2, -, -⟩ := C155_settings L A hop rtol m o
  rw [e1, e2]
  cases hu : o.useSet with
  | false => simp [hk]
  | true =>
    obtain ⟨d1, d2⟩ := hdb hu
    simp [d1, d2, hk]

/-- **C155 (g)** An entry of the option database undoes it: with the default `petsc_spdirect` options (no prefix, `use_set_from_options` on) a
global `-ksp_type` entry replaces the direct method; the check that rejects other methods in the options does not see it. -/
theorem C155_spdirect_overridden (L : Lib R K V) (A : K) (hop : (L.fresh A).op = A) (rtol : R) (m : Option Nat) (t : String)
    (hdb : (L.db (L.fresh A).pfx).ksp = some t) :
    ∃ o, optsForSolver "petsc_spdirect" .none = .ok (some o) ∧ (createKsp L A rtol m o).ksp = t ∧
      optsForSolver "petsc_spdirect" (.dict { ksp := some (.str "cg") }) = .error .valueError := by
  refine ⟨directOpts, rfl, ?_, rfl⟩
  obtain ⟨-, -, e1, -, -, -⟩ := C155_settings L A hop rtol m directOpts
  rw [e1]
  have hp : readPrefix L A directOpts = (L.fresh A).pfx := by
    unfold readPrefix
    cases L.hasPrefix <;> rfl
  simp [directOpts] at hp ⊢
  simp [hp, hdb]

/-- **C155 (h)** Consequence for the elastic analysis: with solver `petsc` and several load cases, the displacement of every load case is what
`solve_u` finds for that load alone under the same configuration. -/
theorem C155_load_cases_partial (B : Backend R K V) (L : Lib R K V) (hL : L.available = true) (c : Cfg R) (hc : c.solver = "petsc") (n : Nat) (A : K)
    (fs : List V) (hfs : 2 ≤ fs.length) :
    solveMulti (backend B L) c n A fs = fs.mapM (fun f => solveU (backend B L) { c with allowFallback := false } A f) := by
  have hU : (fun f => solveU (backend B L) { c with allowFallback := false } A f) =
      fun f => (solveOne L A f c.rtol c.maxiter c.petsc).map Prod.fst := by
    funext f
    simp only [solveU, dispatch, hc, backend]
    have hn : solveOne L A f c.rtol c.maxiter (.obj (normalizeOpts c.petsc false)) = solveOne L A f c.rtol c.maxiter c.petsc := rfl
    rw [hn]
    cases solveOne L A f c.rtol c.maxiter c.petsc <;> simp [Except.map]
  rw [hU]
  have hmap : ∀ fs : List V, (fs.mapM fun f => (solveOne L A f c.rtol c.maxiter c.petsc).map Prod.fst) =
      ((fs.mapM fun f => solveOne L A f c.rtol c.maxiter c.petsc).map fun rs => rs.map Prod.fst) := by
    intro fs
    induction fs with
    | nil => rfl
    | cons f fs ih =>
      simp only [List.mapM_cons, ih, bind, Except.bind]
      cases solveOne L A f c.rtol c.maxiter c.petsc with
      | error e => rfl
      | ok r => cases fs.mapM (fun f => solveOne L A f c.rtol c.maxiter c.petsc) <;> rfl
  obtain ⟨f, g, fs', rfl⟩ : ∃ f g fs', fs = f :: g :: fs' := by
    match fs, hfs with
    | f :: g :: fs', _ => exact ⟨f, g, fs', rfl⟩
  have hsm : ∀ o : Opts, (normalizeOpts c.petsc false = o) →
      (solveMany L A (.columns (f :: g :: fs')) c.rtol c.maxiter (.obj o)) =
        solveMany L A (.columns (f :: g :: fs')) c.rtol c.maxiter c.petsc := by
    intro o ho
    subst ho
    rfl
  have ho : ∃ o, optsForSolver "petsc" c.petsc = .ok o ∧ o.getD {} = normalizeOpts c.petsc false := by
    unfold optsForSolver
    rw [if_pos (by decide)]
    refine ⟨_, rfl, ?_⟩
    by_cases hi : c.petsc = .none
    · rw [hi]; rfl
    · rw [if_neg hi]; rfl
  obtain ⟨o, ho1, ho2⟩ := ho
  have e0 : solveMulti (backend B L) c n A (f :: g :: fs') =
      (solveMany L A (.columns (f :: g :: fs')) c.rtol c.maxiter (.obj (o.getD {}))).map Prod.fst := by
    simp [solveMulti, hc, ho1, backend]
  rw [e0, hsm _ ho2.symm, C155_columns L hL, hmap]
  cases List.mapM (fun f => solveOne L A f c.rtol c.maxiter c.petsc) (f :: g :: fs') <;> rfl

/-- **C155 (i)** A load case solved alone is another matter: without a configured limit `compute_compliance_basis` allows at most 1000
iterations, while among several load cases the same load gets the library's own limit. -/
theorem C155_iteration_limits_differ (B : Backend R K V) (L : Lib R K V) (hL : L.available = true) (c : Cfg R) (hc : c.solver = "petsc")
    (hm : c.maxiter = none) (n : Nat) (A : K) (f g : V) :
    let o := normalizeOpts c.petsc false
    let alone := createKsp L A c.rtol (some (min 1000 (max 300 (n / 5)))) o
    let among := createKsp L A c.rtol none o
    solveMulti (backend B L) c n A [f] = ((L.solve alone f).map fun r => [r.1]) ∧
    solveMulti (backend B L) c n A [f, g] = ((do let u ← L.solve among f; let v ← L.solve among g; pure [u.1, v.1]) : Res (List V)) ∧
    (o.useSet = false → alone.maxIt = min 1000 (max 300 (n / 5)) ∧ among.maxIt = (L.fresh A).maxIt) := by
  refine ⟨?_, ?_, ?_⟩
  · have hch : choose "petsc" n = "petsc" := by unfold choose; rw [if_neg (by decide)]
    simp only [solveMulti, solveSingle, solveU, dispatch, hc, hch, backend, hm, iterLimit, solveOne, hL]
    have hn : normalizeOpts (.obj (normalizeOpts c.petsc false)) false = normalizeOpts c.petsc false := rfl
    simp only [hn]
    cases L.solve (createKsp L A c.rtol (some (min 1000 (max 300 (n / 5)))) (normalizeOpts c.petsc false)) f <;> simp [Except.map]
  · rw [C155_load_cases_partial B L hL c hc n A [f, g] (by simp)]
    have hn : normalizeOpts (.obj (normalizeOpts c.petsc false)) false = normalizeOpts c.petsc false := rfl
    simp only [List.mapM_cons, List.mapM_nil, solveU, dispatch, hc, backend, hm, solveOne, hL, hn, bind, Except.bind]
    cases L.solve (createKsp L A c.rtol none (normalizeOpts c.petsc false)) f with
    | error e => simp [Except.map]
    | ok u =>
      cases L.solve (createKsp L A c.rtol none (normalizeOpts c.petsc false)) g <;> simp [Except.map, pure, Except.pure]
  · intro hu
    generalize normalizeOpts c.petsc false = o at hu
    obtain ⟨k, pc, f, p, us⟩ := o
    simp only at hu
    subst hu
    cases p <;> cases f <;> simp only [createKsp, Ksp.setPcType, Ksp.setFactorType, Ksp.setTolerances] <;> grind

/-! ### Non-vacuity -/

/-- A library present with prefix and package support, whose database holds a global `-ksp_type minres` and, under the prefix `el_`, a
tolerance; its solver returns the number of iterations it was allowed. -/
def demoLib : Lib Nat Unit Nat where
  available := true
  db p := if p = some "el_" then { rtol := some 3 } else { ksp := some "minres" }
  hasPrefix := true
  hasFactor := true
  factorizes t := t = "lu" ∨ t = "cholesky"
  fresh _ := { op := (), pfx := none, ksp := "gmres", pc := "ilu", factor := none, rtol := 5, maxIt := 10000 }
  solve s _ := .ok (s.maxIt, 4)

example : (createKsp demoLib () 8 none {}).ksp = "minres" ∧ (createKsp demoLib () 8 none { pfx := some "el_" }).ksp = "cg" ∧
    (createKsp demoLib () 8 none { pfx := some "el_" }).rtol = 3 ∧ (createKsp demoLib () 8 (some 50) {}).maxIt = 50 ∧
    (createKsp demoLib () 8 none { directOpts with factor := some "mumps" }).factor = some "mumps" ∧
    (createKsp demoLib () 8 none { factor := some "mumps" }).factor = none ∧
    (createKsp demoLib () 8 none directOpts).ksp = "minres" ∧
    (createKsp demoLib () 8 none { directOpts with useSet := false }).ksp = "preonly" := by decide

/-- In this library the same load case has one displacement alone and another one among several. -/
example (B : Backend Nat Unit Nat) :
    solveMulti (backend B demoLib) { solver := "petsc", rtol := 8, petsc := .obj { useSet := false } } 100 () [1] = .ok [300] ∧
    solveMulti (backend B demoLib) { solver := "petsc", rtol := 8, petsc := .obj { useSet := false } } 100 () [1, 2] = .ok [10000, 10000] := by
  constructor
  · exact (C155_iteration_limits_differ B demoLib rfl { solver := "petsc", rtol := 8, petsc := .obj { useSet := false } } rfl rfl 100 () 1 1).1
  · exact (C155_iteration_limits_differ B demoLib rfl { solver := "petsc", rtol := 8, petsc := .obj { useSet := false } } rfl rfl 100 () 1 2).2.1

end Verif.Props.Petsc
