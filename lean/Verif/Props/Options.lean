import Verif.Props.Solver

/-! C49 and C50 continued: the iteration limit actually used, and option merging field by field. -/
namespace Verif.Solver

variable {R K V : Type}

/-- **C49 (iteration limit).** A configured iteration limit reaches the named SciPy solver unchanged; without one the limit is a
fifth of the number of unknowns, but at least 300 and at most 1000. -/
theorem C49_iteration_limit (B : Backend R K V) (c : Cfg R) (n : Nat) (k : K) (f : V) :
    (∀ m, c.maxiter = some m →
      (c.solver = "cg_jacobi" → solveSingle B c n k f = (B.cgJacobi c.rtol (some m) k f).map Prod.fst) ∧
      (c.solver = "cg_pyamg" → solveSingle B c n k f = (B.cgPyamg c.rtol (some m) k f).map Prod.fst)) ∧
    (c.maxiter = none → ∃ L, 300 ≤ L ∧ L ≤ 1000 ∧ (1500 ≤ n → n < 5005 → L = n / 5) ∧ (n < 1500 → L = 300) ∧ (5000 ≤ n → L = 1000) ∧
      (c.solver = "cg_jacobi" → solveSingle B c n k f = (B.cgJacobi c.rtol (some L) k f).map Prod.fst) ∧
      (c.solver = "cg_pyamg" → solveSingle B c n k f = (B.cgPyamg c.rtol (some L) k f).map Prod.fst)) := by
  have h := (C49_explicit_solver_used_as_is B c n k f).1
  constructor
  · intro m hm
    rw [hm] at h
    refine ⟨fun hs => ?_, fun hs => ?_⟩
    · have := h (.inl hs) {}
      rw [hs] at this
      simpa [answer, iterLimit] using this
    · have := h (.inr (.inl hs)) {}
      rw [hs] at this
      simpa [answer, iterLimit] using this
  · intro hm
    rw [hm] at h
    refine ⟨min 1000 (max 300 (n / 5)), by omega, by omega, by omega, by omega, by omega, fun hs => ?_, fun hs => ?_⟩
    · have := h (.inl hs) {}
      rw [hs] at this
      simpa [answer, iterLimit] using this
    · have := h (.inr (.inl hs)) {}
      rw [hs] at this
      simpa [answer, iterLimit] using this

/-- Non-vacuity: a backend whose answer shows the limit it was given. -/
example : let B : Backend Nat Nat (Option Nat) :=
      ⟨fun _ m _ _ => .ok (m, 0), fun _ m _ _ => .ok (m, 0), fun _ f => .ok f, fun _ m _ _ _ => .ok (m, 0), fun _ f => .ok f,
        fun _ _ _ _ f => .ok (f, [])⟩
    solveSingle B { solver := "cg_jacobi", rtol := 0, maxiter := some 7 } 2000 0 none = .ok (some 7) ∧
    solveSingle B { solver := "cg_jacobi", rtol := 0 } 2000 0 none = .ok (some 400) := ⟨rfl, rfl⟩

/-- Specification: a text-valued field after overriding: the given text, or the base value. -/
def OverriddenText (base : String) (given : Option Val) (result : String) : Prop :=
  (given = none → result = base) ∧ ∀ s, given = some (.str s) → result = s

/-- Specification: an optional text field after overriding: the given text; `None` counts as not given. -/
def OverriddenOpt (base : Option String) (given : Option Val) (result : Option String) : Prop :=
  (given = none ∨ given = some .none → result = base) ∧ ∀ s, given = some (.str s) → result = some s

/-- Specification: a flag after overriding, with Python truth values. -/
def OverriddenFlag (base : Bool) (given : Option Val) (result : Bool) : Prop :=
  (given = none → result = base) ∧ (∀ b, given = some (.bool b) → result = b) ∧ (given = some .none → result = false) ∧
    ∀ s, given = some (.str s) → (result = true ↔ s ≠ "")

/-- **C50 (merging).** `merge_petsc_options` overrides a base field by field: what a dictionary gives wins, what it leaves out keeps
the base value; an options object wins except for an unset factorisation package or prefix, which keep the base value; `None`
changes nothing. -/
theorem C50_merge_field_by_field (base : Opts) (d : Dict) (o : Opts) :
    mergeOpts base .none = base ∧
    (OverriddenText base.ksp d.ksp (mergeOpts base (.dict d)).ksp ∧ OverriddenText base.pc d.pc (mergeOpts base (.dict d)).pc ∧
      OverriddenOpt base.factor d.factor (mergeOpts base (.dict d)).factor ∧ OverriddenOpt base.pfx d.pfx (mergeOpts base (.dict d)).pfx ∧
      OverriddenFlag base.useSet d.useSet (mergeOpts base (.dict d)).useSet) ∧
    ((mergeOpts base (.obj o)).ksp = o.ksp ∧ (mergeOpts base (.obj o)).pc = o.pc ∧ (mergeOpts base (.obj o)).useSet = o.useSet ∧
      (o.factor = none → (mergeOpts base (.obj o)).factor = base.factor) ∧
      (∀ s, o.factor = some s → (mergeOpts base (.obj o)).factor = some s) ∧
      (o.pfx = none → (mergeOpts base (.obj o)).pfx = base.pfx) ∧
      (∀ s, o.pfx = some s → (mergeOpts base (.obj o)).pfx = some s)) := by
  refine ⟨rfl, ⟨⟨?_, ?_⟩, ⟨?_, ?_⟩, ⟨?_, ?_⟩, ⟨?_, ?_⟩, ?_, ?_, ?_, ?_⟩, rfl, rfl, rfl, ?_, ?_, ?_, ?_⟩
  · intro h; simp [mergeOpts, mergeDict, h]
  · intro s h; simp [mergeOpts, mergeDict, h, Val.toStr]
  · intro h; simp [mergeOpts, mergeDict, h]
  · intro s h; simp [mergeOpts, mergeDict, h, Val.toStr]
  · rintro (h | h) <;> simp [mergeOpts, mergeDict, h, optStr]
  · intro s h; simp [mergeOpts, mergeDict, h, optStr, Val.toStr]
  · rintro (h | h) <;> simp [mergeOpts, mergeDict, h, optStr]
  · intro s h; simp [mergeOpts, mergeDict, h, optStr, Val.toStr]
  · intro h; simp [mergeOpts, mergeDict, h]
  · intro b h; simp [mergeOpts, mergeDict, h, Val.truthy]
  · intro h; simp [mergeOpts, mergeDict, h, Val.truthy]
  · intro s h; simp [mergeOpts, mergeDict, h, Val.truthy]
  · intro h; simp [mergeOpts, mergeObj, h]
  · intro s h; simp [mergeOpts, mergeObj, h]
  · intro h; simp [mergeOpts, mergeObj, h]
  · intro s h; simp [mergeOpts, mergeObj, h]

/-- **C50 (normalising).** Without options, or for the keys a dictionary leaves out, `normalize_petsc_options` uses `cg` with `gamg`, or
`preonly` with `lu` if a direct solve is requested; given keys win. -/
theorem C50_normalize_field_by_field (direct : Bool) (d : Dict) (o : Opts) :
    normalizeOpts (.obj o) direct = o ∧
    normalizeOpts .none direct = ⟨if direct then "preonly" else "cg", if direct then "lu" else "gamg", none, none, true⟩ ∧
    OverriddenText (if direct then "preonly" else "cg") d.ksp (normalizeOpts (.dict d) direct).ksp ∧
    OverriddenText (if direct then "lu" else "gamg") d.pc (normalizeOpts (.dict d) direct).pc ∧
    OverriddenOpt none d.factor (normalizeOpts (.dict d) direct).factor ∧
    OverriddenOpt none d.pfx (normalizeOpts (.dict d) direct).pfx ∧
    OverriddenFlag true d.useSet (normalizeOpts (.dict d) direct).useSet := by
  cases direct
  all_goals
    refine ⟨rfl, rfl, ⟨?_, ?_⟩, ⟨?_, ?_⟩, ⟨?_, ?_⟩, ⟨?_, ?_⟩, ?_, ?_, ?_, ?_⟩
    · intro h; simp [normalizeOpts, dictOpts, directOpts, h]
    · intro s h; simp [normalizeOpts, dictOpts, directOpts, h, Val.toStr]
    · intro h; simp [normalizeOpts, dictOpts, directOpts, h]
    · intro s h; simp [normalizeOpts, dictOpts, directOpts, h, Val.toStr]
    · rintro (h | h) <;> simp [normalizeOpts, dictOpts, h, optStr]
    · intro s h; simp [normalizeOpts, dictOpts, h, optStr, Val.toStr]
    · rintro (h | h) <;> simp [normalizeOpts, dictOpts, h, optStr]
    · intro s h; simp [normalizeOpts, dictOpts, h, optStr, Val.toStr]
    · intro h; simp [normalizeOpts, dictOpts, directOpts, h]
    · intro b h; simp [normalizeOpts, dictOpts, h, Val.truthy]
    · intro h; simp [normalizeOpts, dictOpts, h, Val.truthy]
    · intro s h; simp [normalizeOpts, dictOpts, h, Val.truthy]

end Verif.Solver
