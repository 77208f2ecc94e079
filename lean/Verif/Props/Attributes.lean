import Verif.Model.Attributes
import Verif.Props.Task
import Mathlib.Tactic.SplitIfs

/-! C142: the attributes of a task under their public names. -/
namespace Verif.Attributes
open Verif.Load Verif.Task
open Verif.Mesh.Spec (Lists)

variable {V : Type} {n : ℕ}

/-- What a user expects of an attribute: it reads as it was last written, whatever else was written in between. -/
def ReadsAsWritten (V : Type) (n : ℕ) (a : Alias) : Prop :=
  ∀ (o : Fields V n) (v : V) (later : List (Alias × V)), (∀ w ∈ later, w.1 ≠ a) →
    get (later.foldl (fun o w => set o w.1 w.2) (set o a v)) a = v

theorem fold_elements (later : List (Alias × V)) (h : ∀ w ∈ later, w.1 ≠ .forceElements) (o : Fields V n) :
    (later.foldl (fun o w => set o w.1 w.2) o).neumannElements = o.neumannElements := by
  induction later generalizing o with
  | nil => rfl
  | cons w ws ih =>
    rw [List.foldl_cons, ih (fun x hx => h x (List.mem_cons_of_mem _ hx))]
    have := h w (by simp)
    rcases w with ⟨a | a | a, v⟩ <;> simp_all [set]

theorem fold_dirichlet (later : List (Alias × V)) (h : ∀ w ∈ later, w.1 ≠ .dirichletForceElements) (o : Fields V n) :
    (later.foldl (fun o w => set o w.1 w.2) o).dirichletNeumannElements = o.dirichletNeumannElements := by
  induction later generalizing o with
  | nil => rfl
  | cons w ws ih =>
    rw [List.foldl_cons, ih (fun x hx => h x (List.mem_cons_of_mem _ hx))]
    have := h w (by simp)
    rcases w with ⟨a | a | a, v⟩ <;> simp_all [set]

/-- **C142 (a), what holds.** The loaded elements and the clamped-or-loaded elements read as they were last written. Missing: the
nodes, see `C142_force_nodes_lost`. -/
theorem C142_elements_read_as_written_partial (V : Type) (n : ℕ) :
    ReadsAsWritten V n .forceElements ∧ ReadsAsWritten V n .dirichletForceElements :=
  ⟨fun o v later h => fold_elements later h (set o .forceElements v),
    fun o v later h => fold_dirichlet later h (set o .dirichletForceElements v)⟩

/-- **C142 (b), negation.** Writing `force_nodes` never changes what `force_nodes` reads: it reads the loaded elements. So it does not read
as written as soon as there are two values. -/
theorem C142_force_nodes_lost (V : Type) [Nontrivial V] (n : ℕ) :
    (∀ (o : Fields V n) (v : V), get (set o .forceNodes v) .forceNodes = get o .forceNodes ∧
      get o .forceNodes = o.neumannElements) ∧ ¬ ReadsAsWritten V n .forceNodes := by
  refine ⟨fun o v => ⟨rfl, rfl⟩, fun h => ?_⟩
  obtain ⟨x, y, hxy⟩ := exists_pair_ne V
  exact hxy (h ⟨x, x, x, .list []⟩ y [] (by simp))

/-- **C142 (c), negation.** Reading `force_elements_all` raises an AttributeError on every task. -/
theorem C142_force_elements_all_raises (o : Fields V n) : forceElementsAll o = .error .attributeError := by
  simp [forceElementsAll, attr]

/-- The value of `force` as it can be assigned. -/
def Force.toLoads : Force n → Option (Loads n)
  | .list ls => some (.list ls)
  | .vector v => some (.bare v)
  | .number _ => none

/-- **C142 (d).** Reading `force` and writing it back never changes the loads that are solved for. -/
theorem C142_force_roundtrip_solves_the_same (o : Fields V n) (f : Loads n) (h : (force o).toLoads = some f) :
    solved (setForce o f) = solved o := by
  unfold force at h
  unfold setForce solved
  split at h
  · next v hv => simp only [Force.toLoads, Option.some.injEq] at h; subst h; simp only [hv]
  · next ls hv => simp only [Force.toLoads, Option.some.injEq] at h; subst h; simp only [hv]
  · next v hv =>
    split_ifs at h
    · simp [Force.toLoads] at h
    · simp only [Force.toLoads, Option.some.injEq] at h; subst h; simp only [hv]

/-- **C142 (e), what holds.** With two or more load cases the number of tasks survives writing `force` back. Missing: one load case,
see `C142_single_force_roundtrip_multiplies_tasks`. -/
theorem C142_force_roundtrip_tasks_partial (o : Fields V n) (ls : List (Fin n → ℝ)) (hl : o.neumannLinear = .list ls)
    (h2 : ls.length ≠ 1) : (force o).toLoads = some (.list ls) ∧ setForce o (.list ls) = o ∧ nTasks o = ls.length := by
  refine ⟨?_, ?_, ?_⟩
  · unfold force
    rw [hl]
    rcases ls with _ | ⟨a, _ | ⟨b, rest⟩⟩
    · rfl
    · simp at h2
    · rfl
  · unfold setForce; rw [← hl]
  · unfold nTasks; rw [hl]

/-- **C142 (f), negation.** With one load case, writing `force` back turns the number of tasks from 1 into the number of degrees of
freedom, although one load is solved for. -/
theorem C142_single_force_roundtrip_multiplies_tasks (o : Fields V n) (v : Fin n → ℝ) (hl : o.neumannLinear = .list [v]) :
    (force o).toLoads = some (.bare v) ∧ nTasks o = 1 ∧ nTasks (setForce o (.bare v)) = n ∧
      (solved (setForce o (.bare v))).length = 1 := by
  refine ⟨?_, ?_, rfl, rfl⟩
  · unfold force; rw [hl]; rfl
  · unfold nTasks; rw [hl]; rfl

/-- **C142 (g).** On every task that was built, also after an optimizer took the clamped elements out of the design, `design_mask` has one entry
per element, and selecting with it gives exactly the elements of the mesh that are design elements, in increasing order. -/
theorem C142_design_mask {b : Basis} {a : Args} {T : Task} (h : fromNodes b a = .ok T) (dd : Bool) :
    let T' := T.construct dd
    (designMask T'.all T'.design).length = b.t.length ∧
      Lists (nonzero (designMask T'.all T'.design)) fun e => e < b.t.length ∧ e ∈ T'.design := by
  intro T'
  have hall : T'.all = List.range b.t.length := by
    have := (C41_design_fixed_partition h).2.2.2
    simp only [T', Task.construct]
    split_ifs <;> exact this
  have hlen : (designMask T'.all T'.design).length = b.t.length := by simp [designMask, hall]
  refine ⟨hlen, List.pairwise_lt_range.filter _, fun e => ?_⟩
  unfold nonzero
  rw [List.mem_filter, List.mem_range, hlen]
  refine and_congr_right fun he => ?_
  simp [designMask, hall, List.getD_eq_getElem?_getD, he]

/-- The hypotheses are met: the strip of four squares, and a task with one load on two degrees of freedom. -/
example : ∃ T, fromNodes quadStrip quadArgs = .ok T ∧
    nonzero (designMask (T.construct false).all (T.construct false).design) = (T.construct false).design := ⟨_, rfl, by decide⟩

example : let o : Fields ℕ 2 := ⟨0, 0, 0, .list [fun _ => 1]⟩
    nTasks o = 1 ∧ nTasks (setForce o (.bare fun _ => 1)) = 2 := ⟨rfl, rfl⟩

end Verif.Attributes
