import Verif.Model.ConfigFile
import Verif.Props.Cli
import Verif.Props.Solver

/-!
C92: the configuration file.
-/
namespace Verif.ConfigFile

open Verif.Sched
open Verif.Snapshot (Name)
open Verif.History (dset dget)
open Verif.Cli (Val dget_cons)

theorem dget_map {α β : Type} (l : List (Name × α)) (f : Name → α → β) (k : Name) :
    dget (l.map fun x => (x.1, f x.1 x.2)) k = (dget l k).map (f k) := by
  induction l with
  | nil => rfl
  | cons a l ih =>
    rw [List.map_cons, dget_cons, dget_cons, ih]
    by_cases h : a.1 = k
    · subst h; simp
    · simp [h]

theorem dget_some_mem {β : Type} (l : List (Name × β)) (k : Name) (v : β) (h : dget l k = some v) : k ∈ l.map Prod.fst := by
  induction l with
  | nil => cases h
  | cons a l ih =>
    rw [dget_cons] at h
    by_cases hk : a.1 = k
    · simp [hk]
    · rw [if_neg hk] at h; simp [ih h]

theorem dget_mem_some {β : Type} (l : List (Name × β)) (k : Name) (h : k ∈ l.map Prod.fst) : ∃ v, dget l k = some v := by
  induction l with
  | nil => cases h
  | cons a l ih =>
    rw [dget_cons]
    by_cases hk : a.1 = k
    · exact ⟨_, if_pos hk⟩
    · rw [if_neg hk]
      refine ih ?_
      rcases List.mem_cons.1 h with h | h
      · exact absurd h.symm hk
      · exact h

theorem dget_none {β : Type} (l : List (Name × β)) (k : Name) (h : k ∉ l.map Prod.fst) : dget l k = none := by
  cases hv : dget l k with
  | none => rfl
  | some v => exact absurd (dget_some_mem l k v hv) h

/-- The fields before `__post_init__`. -/
noncomputable def given (defaults kw : List (Name × Attr)) : List (Name × Attr) := defaults.map fun y => (y.1, (dget kw y.1).getD y.2)

theorem construct_eq (avail : Bool) (defaults kw : List (Name × Attr)) (hk : ∀ x ∈ kw, x.1 ∈ defaults.map Prod.fst) (o : Option Solver.Opts)
    (ho : Solver.configOpts avail (solverName (dget (given defaults kw) "solver_option".toList))
      (petscInput (dget (given defaults kw) "petsc_options".toList)) = .ok o) :
    construct avail defaults kw =
      .ok ((given defaults kw).map fun x => (x.1, if x.1 = "petsc_options".toList then optsAttr o else x.2)) := by
  have h : (kw.all fun x => defaults.any fun y => y.1 = x.1) = true := by
    simp only [List.all_eq_true, List.any_eq_true, decide_eq_true_eq]
    intro x hx
    obtain ⟨y, hy, he⟩ := List.mem_map.1 (hk x hx)
    exact ⟨y, hy, he⟩
  rw [construct, if_pos h]
  simp only [given] at ho ⊢
  rw [ho]
  refine congrArg Except.ok (List.map_congr_left fun x _ => ?_)
  by_cases hx : x.1 = "petsc_options".toList
  · rw [if_pos hx, if_pos hx]
  · rw [if_neg hx, if_neg hx]

theorem construct_inv {avail : Bool} {defaults kw c : List (Name × Attr)} (h : construct avail defaults kw = .ok c) :
    ∃ o, Solver.configOpts avail (solverName (dget (given defaults kw) "solver_option".toList))
      (petscInput (dget (given defaults kw) "petsc_options".toList)) = .ok o ∧
      c = (given defaults kw).map fun x => (x.1, if x.1 = "petsc_options".toList then optsAttr o else x.2) := by
  unfold construct at h
  split at h
  · simp only at h
    split at h
    · cases h
    · next o ho =>
      refine ⟨o, ho, ?_⟩
      rw [← Except.ok.inj h]
      refine List.map_congr_left fun x _ => ?_
      by_cases hx : x.1 = "petsc_options".toList
      · rw [if_pos hx, if_pos hx]
      · rw [if_neg hx, if_neg hx]
  · cases h

theorem dget_given (defaults kw : List (Name × Attr)) (k : Name) :
    dget (given defaults kw) k = (dget defaults k).map fun y => (dget kw k).getD y := by
  rw [given, dget_map defaults (fun k v => (dget kw k).getD v)]

theorem petscVal_optStr (x : Option String) : Solver.optStr (petscVal (optStr x)) = x := by
  cases x <;> rfl

/-- The options dictionary read back from the file. -/
noncomputable def optsInput (o : Solver.Opts) : Solver.Dict where
  ksp := some (.str o.ksp)
  pc := some (.str o.pc)
  factor := petscVal (optStr o.factor)
  pfx := petscVal (optStr o.pfx)
  useSet := some (.bool o.useSet)

theorem petscInput_some (o : Solver.Opts) : petscInput (some (optsAttr (some o)).toJson.toAttr) = .dict (optsInput o) := rfl

theorem petscInput_none : petscInput (some (optsAttr none).toJson.toAttr) = .none := rfl

theorem normalize_again (o : Solver.Opts) : Solver.normalizeOpts (.dict (optsInput o)) false = o := by
  obtain ⟨ksp, pc, factor, pfx, useSet⟩ := o
  simp [Solver.normalizeOpts, Solver.dictOpts, optsInput, petscVal_optStr, Solver.Val.toStr, Solver.Val.truthy]

theorem direct_again (o : Solver.Opts) (h1 : o.ksp = "preonly") (h2 : o.pc = "lu") :
    Solver.optsForSolver "petsc_spdirect" (.dict (optsInput o)) = .ok (some o) := by
  obtain ⟨ksp, pc, factor, pfx, useSet⟩ := o
  simp only at h1 h2
  subst h1 h2
  have hm : Solver.mergeOpts Solver.directOpts (.dict (optsInput ⟨"preonly", "lu", factor, pfx, useSet⟩)) =
      ⟨"preonly", "lu", factor, pfx, useSet⟩ := by
    simp only [Solver.mergeOpts, Solver.mergeDict, optsInput, petscVal_optStr, Solver.Val.toStr, Solver.Val.truthy, Solver.directOpts]
    cases factor <;> cases pfx <;> rfl
  unfold Solver.optsForSolver
  rw [if_neg (by simp), if_neg (by simp), hm]
  simp only [Solver.mergeOpts, Solver.mergeObj, Solver.directOpts]
  cases factor <;> cases pfx <;> rfl

theorem petsc_again (avail : Bool) (s : String) (i : Solver.Input) (o : Option Solver.Opts) (h : Solver.configOpts avail s i = .ok o) :
    Solver.configOpts avail s (petscInput (some (optsAttr o).toJson.toAttr)) = .ok o := by
  by_cases hd : s = "petsc_spdirect"
  · subst hd
    cases avail with
    | false => rw [(Solver.C50_config_without_petsc _ i).1 (.inr rfl)] at h; cases h
    | true =>
      obtain ⟨o', rfl, h1, h2⟩ := (Solver.C50_config_then_solve _ i h).2 rfl
      rw [petscInput_some]
      exact direct_again o' h1 h2
  · by_cases hp : s = "petsc"
    · subst hp
      cases avail with
      | false => rw [(Solver.C50_config_without_petsc _ i).1 (.inl rfl)] at h; cases h
      | true =>
        cases o with
        | none => rfl
        | some o =>
          rw [petscInput_some]
          have : Solver.configOpts true "petsc" (.dict (optsInput o)) =
            .ok (some (Solver.normalizeOpts (.dict (optsInput o)) false)) := rfl
          rw [this, normalize_again]
    · have hc : ∀ j, Solver.configOpts avail s j = .ok (some (Solver.normalizeOpts j false)) := by
        intro j; unfold Solver.configOpts; simp only; rw [if_neg hd, if_neg hp]
      rw [hc] at h
      cases h
      rw [petscInput_some, hc, normalize_again]

theorem solverName_conv (x : Option Attr) : solverName (x.map fun a => a.toJson.toAttr) = solverName x := by
  cases x with
  | none => rfl
  | some a => cases a <;> rfl

/-- The imported configuration, field by field. -/
theorem import_get (avail : Bool) (defaults kw c : List (Name × Attr)) (hr : "record_timing".toList ∉ defaults.map Prod.fst)
    (hp : "petsc_options".toList ∈ defaults.map Prod.fst) (h : construct avail defaults kw = .ok c) :
    ∃ c', importFrom avail defaults (exportCfg c) = .ok c' ∧ c'.map Prod.fst = c.map Prod.fst ∧
      ∀ k, dget c' k = if k = "petsc_options".toList then dget c k else (dget c k).map fun a => a.toJson.toAttr := by
  obtain ⟨o, ho, rfl⟩ := construct_inv h
  obtain ⟨c0, hc0⟩ : ∃ c0, c0 = (given defaults kw).map fun x => (x.1, if x.1 = "petsc_options".toList then optsAttr o else x.2) := ⟨_, rfl⟩
  rw [← hc0]
  have hkeys : c0.map Prod.fst = defaults.map Prod.fst := by
    rw [hc0, List.map_map, given, List.map_map]; rfl
  have hget : ∀ k, dget c0 k = (dget (given defaults kw) k).map fun v => if k = "petsc_options".toList then optsAttr o else v := by
    intro k; rw [hc0, dget_map (given defaults kw) (fun k v => if k = "petsc_options".toList then optsAttr o else v)]
  have hpet : dget c0 "petsc_options".toList = some (optsAttr o) := by
    have hp' : "petsc_options".toList ∈ (given defaults kw).map Prod.fst := by rw [given, List.map_map]; exact hp
    obtain ⟨v, hv⟩ := dget_mem_some _ _ hp'
    rw [hget, hv]; rfl
  have hfil : (exportCfg c0).filter (fun x => x.1 ≠ "record_timing".toList) = exportCfg c0 := by
    rw [List.filter_eq_self]
    intro x hx
    simp only [decide_not, Bool.not_eq_true', decide_eq_false_iff_not]
    intro he
    apply hr
    rw [← hkeys, ← he]
    obtain ⟨y, hy, rfl⟩ := List.mem_map.1 hx
    exact List.mem_map.2 ⟨y, hy, rfl⟩
  obtain ⟨kw', hkw'⟩ : ∃ kw', kw' = c0.map fun x => (x.1, x.2.toJson.toAttr) := ⟨_, rfl⟩
  have himp : importFrom avail defaults (exportCfg c0) = construct avail defaults kw' := by
    rw [importFrom, hfil, hkw', exportCfg, List.map_map]; rfl
  have hkget : ∀ k, dget kw' k = (dget c0 k).map fun a => a.toJson.toAttr := by
    intro k; rw [hkw', dget_map c0 (fun _ a => a.toJson.toAttr)]
  have hgg : ∀ k, dget (given defaults kw') k = dget kw' k := by
    intro k
    rw [dget_given]
    by_cases hk : k ∈ defaults.map Prod.fst
    · obtain ⟨y, hy⟩ := dget_mem_some _ _ hk
      obtain ⟨z, hz⟩ := dget_mem_some c0 k (by rw [hkeys]; exact hk)
      rw [hy, hkget, hz]; rfl
    · rw [dget_none _ _ hk, hkget, dget_none c0 k (by rw [hkeys]; exact hk)]; rfl
  have hsol : dget c0 "solver_option".toList = dget (given defaults kw) "solver_option".toList := by
    rw [hget]
    cases dget (given defaults kw) "solver_option".toList with
    | none => rfl
    | some v => rw [Option.map_some, if_neg (by decide)]
  have ho' : Solver.configOpts avail (solverName (dget (given defaults kw') "solver_option".toList))
      (petscInput (dget (given defaults kw') "petsc_options".toList)) = .ok o := by
    rw [hgg, hgg, hkget, hkget, solverName_conv, hsol, hpet, Option.map_some]
    exact petsc_again avail _ _ o ho
  have hcon := construct_eq avail defaults kw' (by
    intro x hx
    rw [hkw'] at hx
    obtain ⟨y, hy, rfl⟩ := List.mem_map.1 hx
    rw [← hkeys]; exact List.mem_map.2 ⟨y, hy, rfl⟩) o ho'
  refine ⟨_, himp.trans hcon, ?_, fun k => ?_⟩
  · rw [hkeys, List.map_map, given, List.map_map]; rfl
  · rw [dget_map (given defaults kw') (fun k v => if k = "petsc_options".toList then optsAttr o else v), hgg, hkget]
    by_cases hk : k = "petsc_options".toList
    · subst hk; rw [if_pos rfl, hpet]; rfl
    · rw [if_neg hk]
      simp only [if_neg hk, Option.map_map]
      rfl

/-- C92, what survives: for every configuration, `import_from` on the exported file succeeds; every field that is a number, string, Boolean or
`None` and the PETSc options come back unchanged; every schedule comes back as a plain dictionary with the schedule's seven entries, from which
the schedule can be rebuilt by hand. -/
theorem C92_plain_fields_survive_partial (avail : Bool) (defaults kw c : List (Name × Attr))
    (hr : "record_timing".toList ∉ defaults.map Prod.fst) (hp : "petsc_options".toList ∈ defaults.map Prod.fst)
    (h : construct avail defaults kw = .ok c) :
    ∃ c', importFrom avail defaults (exportCfg c) = .ok c' ∧
      c'.map Prod.fst = c.map Prod.fst ∧
      (∀ k v, dget c k = some (.raw v) → dget c' k = some (.raw v)) ∧
      (∀ o, dget c "petsc_options".toList = some (.opts o) → dget c' "petsc_options".toList = some (.opts o)) ∧
      (∀ k s, k ≠ "petsc_options".toList → dget c k = some (.sched s) → ∃ d, dget c' k = some (.dict d) ∧ schedOfDict d = some s) := by
  obtain ⟨c', h1, h2, h3⟩ := import_get avail defaults kw c hr hp h
  refine ⟨c', h1, h2, ?_, ?_, ?_⟩
  · intro k v hv
    rw [h3, hv]
    by_cases hk : k = "petsc_options".toList
    · rw [if_pos hk]
    · rw [if_neg hk]; rfl
  · intro o ho
    rw [h3, if_pos rfl, ho]
  · intro k s hk hs
    refine ⟨schedDict s, by rw [h3, if_neg hk, hs]; rfl, ?_⟩
    obtain ⟨n, i, t, k, m, c, st⟩ := s
    cases n <;> cases i <;> cases t <;> cases k <;> cases m <;> cases c <;> rfl

/-- C92 is false: an imported configuration never equals the exported one if that has a schedule (every optimizer configuration has), and an
optimizer built with it fails with AttributeError as soon as its schedules are set up. -/
theorem C92_imported_configuration_unusable (avail : Bool) (defaults kw c : List (Name × Attr))
    (hr : "record_timing".toList ∉ defaults.map Prod.fst) (hp : "petsc_options".toList ∈ defaults.map Prod.fst)
    (h : construct avail defaults kw = .ok c) (s : Config) (hs : dget c "p".toList = some (.sched s)) :
    ∃ c', importFrom avail defaults (exportCfg c) = .ok c' ∧ c' ≠ c ∧ initFirst c' = .error .attributeError := by
  obtain ⟨c', h1, h2, h3⟩ := import_get avail defaults kw c hr hp h
  have hd : dget c' "p".toList = some (.dict (schedDict s)) := by
    rw [h3, if_neg (by decide), hs]; rfl
  refine ⟨c', h1, ?_, ?_⟩
  · rintro rfl
    rw [hs] at hd
    cases hd
  · have : addField c' [] "p" = .error .attributeError := by
      unfold addField; rw [hd]
    rw [initFirst, List.foldlM_cons, this]; rfl

theorem fromConfig_named (c : Config) (h : c.schedType ∈ ["Constant", "ConstantOne", "None", "Step", "StepToOne", "StepAccelerating",
    "StepDecelerating", "StepAcceleratingToOne", "StepDeceleratingToOne", "SawtoothDecay"]) : ∃ s c', fromConfig c = .ok (s, c') ∧ s.name = c.name := by
  simp only [List.mem_cons, List.not_mem_nil, or_false] at h
  unfold fromConfig
  rcases h with h | h | h | h | h | h | h | h | h | h <;> rw [h] <;> simp [mkScheduler, toOneMutate]

/-- **C92.** The configuration the optimizer was built with is usable: if its six schedules have one of the documented types, setting them up
succeeds and registers them under their names, in the order in which the loop reads them. -/
theorem C92_own_configuration_usable (c : List (Name × Attr))
    (h : ∀ f ∈ ["p", "vol_frac", "move_limit", "beta", "percentile", "filter_radius"], ∃ s, dget c f.toList = some (.sched s) ∧
      s.schedType ∈ ["Constant", "ConstantOne", "None", "Step", "StepToOne", "StepAccelerating", "StepDecelerating", "StepAcceleratingToOne",
        "StepDeceleratingToOne", "SawtoothDecay"]) :
    ∃ ss, initFirst c = .ok ss ∧
      ss.map Scheduler.name = [some "p", some "vol_frac", some "move_limit", some "beta", some "percentile", some "filter_radius"] := by
  have key : ∀ (fs : List String), (∀ f ∈ fs, ∃ s, dget c f.toList = some (.sched s) ∧
      s.schedType ∈ ["Constant", "ConstantOne", "None", "Step", "StepToOne", "StepAccelerating", "StepDecelerating", "StepAcceleratingToOne",
        "StepDeceleratingToOne", "SawtoothDecay"]) → ∀ ss0 : Schedulers, ∃ ss, fs.foldlM (addField c) ss0 = .ok ss ∧
      ss.map Scheduler.name = ss0.map Scheduler.name ++ fs.map some := by
    intro fs
    induction fs with
    | nil => intro _ ss0; exact ⟨ss0, rfl, by simp⟩
    | cons f fs ih =>
      intro h ss0
      obtain ⟨s, hs, ht⟩ := h f (by simp)
      obtain ⟨sc, c', h1, h2⟩ := fromConfig_named { s with name := some f } ht
      have ha : addField c ss0 f = .ok (ss0 ++ [sc]) := by
        unfold addField
        rw [hs]
        simp only [Schedulers.addFromConfig, h1, bind, Except.bind, pure, Except.pure, Except.map, Schedulers.addObject]
      obtain ⟨ss, h3, h4⟩ := ih (fun g hg => h g (List.mem_cons_of_mem _ hg)) (ss0 ++ [sc])
      refine ⟨ss, ?_, ?_⟩
      · rw [List.foldlM_cons, ha]; exact h3
      · rw [h4, List.map_append, List.map_cons, h2]; simp
  obtain ⟨ss, h1, h2⟩ := key _ h []
  exact ⟨ss, h1, h2⟩

/-- The file of another class, with a field the class does not have, is rejected with TypeError; the obsolete key `record_timing` is
ignored. -/
theorem C92_unknown_keys (avail : Bool) (defaults : List (Name × Attr)) (data : List (Name × Json)) :
    (∀ x ∈ data, x.1 ∉ defaults.map Prod.fst → x.1 ≠ "record_timing".toList → importFrom avail defaults data = .error .typeError) ∧
    (∀ j, importFrom avail defaults (data ++ [("record_timing".toList, j)]) = importFrom avail defaults data) := by
  constructor
  · intro x hx hk hn
    rw [importFrom, construct, if_neg]
    simp only [List.all_eq_true, List.any_eq_true, decide_eq_true_eq, not_forall]
    refine ⟨(x.1, x.2.toAttr), List.mem_map.2 ⟨x, List.mem_filter.2 ⟨hx, decide_eq_true hn⟩, rfl⟩, ?_⟩
    rintro ⟨y, hy, he⟩
    exact hk (List.mem_map.2 ⟨y, hy, he⟩)
  · intro j
    rw [importFrom, importFrom, List.filter_append]
    have : List.filter (fun x : Name × Json => decide (x.1 ≠ "record_timing".toList)) [("record_timing".toList, j)] = [] := by
      refine List.filter_cons_of_neg ?_
      exact fun h => (of_decide_eq_true h : "record_timing".toList ≠ "record_timing".toList) rfl
    rw [this, List.append_nil]

/-- A small configuration class: an iteration count, a schedule, a solver and its options. -/
noncomputable def sampleClass : List (Name × Attr) :=
  [("max_iters".toList, .raw (.int 200)), ("p".toList, .sched { initValue := some 1, targetValue := some 3, numSteps := some 3, schedType := "Step" }),
   ("solver_option".toList, .raw (.str "petsc_spdirect")), ("petsc_options".toList, .opts {})]

/-- The hypotheses of C92 are met. -/
example : ∃ c, construct true sampleClass [("max_iters".toList, .raw (.int 50))] = .ok c ∧ dget c "max_iters".toList = some (.raw (.int 50)) ∧
    dget c "petsc_options".toList = some (.opts { ksp := "preonly", pc := "lu" }) ∧ ∃ s, dget c "p".toList = some (.sched s) :=
  ⟨_, rfl, rfl, rfl, _, rfl⟩

example : "record_timing".toList ∉ sampleClass.map Prod.fst ∧ "petsc_options".toList ∈ sampleClass.map Prod.fst := by
  constructor <;> decide

/-- Six constant schedules. -/
example := C92_own_configuration_usable
  (["p", "vol_frac", "move_limit", "beta", "percentile", "filter_radius"].map fun f => (f.toList, Attr.sched { targetValue := some 1 }))
  (fun f hf => ⟨{ targetValue := some 1 }, by
    simp only [List.mem_cons, List.not_mem_nil, or_false] at hf
    rcases hf with rfl | rfl | rfl | rfl | rfl | rfl <;> rfl, by simp⟩)

end Verif.ConfigFile
