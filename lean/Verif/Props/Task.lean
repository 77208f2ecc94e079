import Verif.Lemmas.Task
import Verif.Props.Snapshot

/-! Theorems about task construction (C41, C62, C63). -/
namespace Verif.Task
open Verif.Mesh Verif.Mesh.Spec

/-- Element `e` of the mesh touches one of the nodes of an optional argument. -/
def TouchesArg (b : Basis) (arg : Option Arrays) (e : ℕ) : Prop :=
  ∃ a, arg = some a ∧ Touches b.t (match a with | .arr l => l | .lst ls => ls.flatten) e

theorem touchesArg_iff {b : Basis} {nodes : Option Arrays} {r : Option (List ℕ)}
    (h : boundaryElements b nodes = .ok r) (e : ℕ) : e ∈ r.getD [] ↔ TouchesArg b nodes e := by
  rw [boundary_mem h]
  unfold TouchesArg
  constructor <;> rintro ⟨a, ha, h⟩ <;> refine ⟨a, ha, ?_⟩ <;> cases a <;> exact h

/-- **C41 (partition).** In every task built by `from_nodes`, no element is both design and fixed, every element of the
mesh is one of both, and the fixed elements are elements of the mesh. -/
theorem C41_design_fixed_partition {b : Basis} {a : Args} {T : Task} (h : fromNodes b a = .ok T) :
    (∀ e, ¬ (e ∈ T.design ∧ e ∈ T.fixed)) ∧ (∀ e < b.t.length, e ∈ T.design ∨ e ∈ T.fixed) ∧
      (∀ e ∈ T.fixed, e < b.t.length) ∧ T.all = List.range b.t.length := by
  obtain ⟨d, n, r, ex, fd, -, -, -, -, -, -, -, rfl⟩ := fromNodes_ok h
  refine ⟨?_, ?_, ?_, rfl⟩
  · rintro e ⟨h1, h2⟩; exact (mem_setdiff1d.1 h2).2 h1
  · intro e he
    by_cases hd : e ∈ setdiff1d a.design ex
    · exact Or.inl hd
    · exact Or.inr (mem_setdiff1d.2 ⟨List.mem_range.2 he, hd⟩)
  · intro e he; exact List.mem_range.1 (mem_setdiff1d.1 he).1

/-- **C41 (design elements).** The design elements are exactly the requested ones that touch no load node and, if the
Robin boundary is not to be designed, no Robin node; there is at least one. -/
theorem C41_design_exact {b : Basis} {a : Args} {T : Task} (h : fromNodes b a = .ok T) :
    T.design ≠ [] ∧ ∀ e, e ∈ T.design ↔ e ∈ a.design ∧ ¬ TouchesArg b a.neumannNodes e ∧
      ¬ (a.designRobin = some false ∧ TouchesArg b a.robinNodes e) := by
  obtain ⟨d, n, r, ex, fd, -, hn, hr, hex, hne, -, -, rfl⟩ := fromNodes_ok h
  refine ⟨hne, fun e => ?_⟩
  simp only [mem_setdiff1d, excluded_ok hex, touchesArg_iff hn, touchesArg_iff hr, not_or]

/-- **C41 (loads).** The load elements are exactly the elements touching a load node, in increasing order, there is at
least one if load nodes were given, and no load element is a design element. -/
theorem C41_loaded_not_design {b : Basis} {a : Args} {T : Task} (h : fromNodes b a = .ok T) :
    (a.neumannNodes = none ↔ T.neumannElements = none) ∧
    ∀ els, T.neumannElements = some els →
      els ≠ [] ∧ Lists els (TouchesArg b a.neumannNodes) ∧ ∀ e ∈ els, e ∉ T.design := by
  have hd := (C41_design_exact h).2
  obtain ⟨d, n, r, ex, fd, -, hn, hr, hex, hne, -, -, rfl⟩ := fromNodes_ok h
  rcases boundaryElements_ok hn with ⟨h1, rfl⟩ | ⟨x, els, h1, rfl, h2, rfl⟩
  · exact ⟨by simp [h1], by simp⟩
  · refine ⟨by simp [h1], ?_⟩
    intro els hels
    simp only [Option.some.injEq] at hels
    subst hels
    have hmem : ∀ e, e ∈ elementsByNodes b.t x.nodes ↔ TouchesArg b a.neumannNodes e := fun e => by
      have := touchesArg_iff hn e
      simpa using this
    refine ⟨h2, ⟨(collect_lists b.t x.nodes).1, hmem⟩, fun e he hde => ?_⟩
    exact ((hd e).1 hde).2.1 ((hmem e).1 he)

/-- **C41 (failure, one Dirichlet region).** Elasticity with one Dirichlet array and valid direction, load nodes that touch
the mesh, no Robin boundary, a mesh with valid volumes: construction raises `ValueError` exactly when every requested
design element touches a load node, and otherwise succeeds. -/
theorem C41_fails_iff_no_design {b : Basis} {a : Args} {l : List ℕ} {s : String} {dofs : List ℕ} {ln : Arrays}
    (h1 : a.dirichletNodes = some (.arr l)) (h2 : a.dirichletDir = some (.one s)) (h3 : dofsFor b l s = .ok dofs)
    (h4 : a.neumannNodes = some ln) (h5 : ∃ e, TouchesArg b a.neumannNodes e) (h6 : a.robinNodes = none)
    (h7 : a.designRobin = none) (h8 : b.volumes = .ok ()) :
    (fromNodes b a = .error .valueError ↔ ∀ e ∈ a.design, TouchesArg b a.neumannNodes e) ∧
    ((∃ T, fromNodes b a = .ok T) ↔ ∃ e ∈ a.design, ¬ TouchesArg b a.neumannNodes e) := by
  have hd : dirichletPart b a = .ok (some (.arr dofs), some (elementsByNodes b.t l)) := by
    simp [dirichletPart, h1, h2, checkDirichlet, dirichletDofs, h3, Arrays.stacked, bind, Except.bind, Except.map,
      pure, Except.pure]
  have hln : ∃ els, boundaryElements b a.neumannNodes = .ok (some els) := by
    obtain ⟨e, x, hx, he⟩ := h5
    rw [h4] at hx
    simp only [Option.some.injEq] at hx
    subst hx
    rw [h4]
    have hcat : ln.concatenated = .ok ln.nodes := by
      cases ln with
      | arr l => rfl
      | lst ls =>
        rcases ls with _ | ⟨x, xs⟩
        · obtain ⟨n, hn, -⟩ := he; simp at hn
        · rfl
    have hmem : e ∈ elementsByNodes b.t ln.nodes := mem_elementsByNodes.2 (by cases ln <;> exact he)
    refine ⟨elementsByNodes b.t ln.nodes, ?_⟩
    simp only [boundaryElements, hcat, bind, Except.bind]
    rw [if_neg]
    intro hemp
    rw [List.isEmpty_iff] at hemp
    rw [hemp] at hmem; simp at hmem
  obtain ⟨els, hels⟩ := hln
  have hmem : ∀ e, e ∈ els ↔ TouchesArg b a.neumannNodes e := fun e => by
    have := touchesArg_iff hels e
    simpa using this
  have hr : boundaryElements b a.robinNodes = .ok none := by rw [h6]; rfl
  have hex : excluded (some els) none a.designRobin = .ok els := by simp [excluded, h7]
  have hform : fromNodes b a = if (setdiff1d a.design els).isEmpty then .error .valueError else
      (fromNodes b a) := by
    split_ifs with he
    · simp only [fromNodes, hd, hels, hr, hex, bind, Except.bind]
      rw [if_pos he]
    · rfl
  have hok : ¬ (setdiff1d a.design els).isEmpty → ∃ T, fromNodes b a = .ok T := by
    intro he
    simp only [fromNodes, hd, hels, hr, hex, bind, Except.bind, constrainedDofs, Arrays.stacked, h8, pure, Except.pure]
    rw [if_neg he]
    exact ⟨_, rfl⟩
  have hemp : (setdiff1d a.design els).isEmpty = true ↔ ∀ e ∈ a.design, TouchesArg b a.neumannNodes e := by
    rw [List.isEmpty_iff, List.eq_nil_iff_forall_not_mem]
    simp only [mem_setdiff1d, hmem, not_and, not_not]
  constructor
  · rw [← hemp]
    constructor
    · intro h
      by_contra hne
      obtain ⟨T, hT⟩ := hok hne
      rw [hT] at h; simp at h
    · intro he; rw [hform, if_pos he]
  · constructor
    · rintro ⟨T, hT⟩
      by_contra hcon
      push Not at hcon
      rw [hform, if_pos (hemp.2 hcon)] at hT
      simp at hT
    · rintro ⟨e, he, hne⟩
      exact hok fun hcon => hne (hemp.1 hcon e he)

/-- A strip of four squares, numbered nodes 0–4 below and 5–9 above, three degrees of freedom per node, for the examples. -/
def quadStrip : Basis where
  t := [[0, 1, 6, 5], [1, 2, 7, 6], [2, 3, 8, 7], [3, 4, 9, 8]]
  facets := [[0, 5], [4, 9], [0, 1], [8, 9], [3, 4]]
  nDofs := 30
  dofsAll := fun l => l.flatMap fun n => [3 * n, 3 * n + 1, 3 * n + 2]
  dofsDir := fun l d => if d = "u^1" then .ok (l.map (3 * ·)) else if d = "u^2" then .ok (l.map (3 * · + 1))
    else if d = "u^3" then .ok (l.map (3 * · + 2)) else .error .keyError
  volumes := .ok ()

/-- Clamped at the left end, loaded at node 4, all elements to be designed. -/
def quadArgs : Args :=
  { dirichletNodes := some (.arr [0, 5]), dirichletDir := some (.one "all"), dirichletValues := none
    neumannNodes := some (.arr [4]), robinNodes := none, designRobin := none, design := [0, 1, 2, 3] }

/-- Non-vacuity: a task with design elements 0, 1, 2, fixed element 3; and one without design elements. -/
example : (∃ T, fromNodes quadStrip quadArgs = .ok T ∧ T.design = [0, 1, 2] ∧ T.fixed = [3] ∧
    T.neumannElements = some [3] ∧ T.dirichletNeumann = [0, 3]) ∧
    fromNodes quadStrip { quadArgs with design := [3] } = .error .valueError :=
  ⟨⟨_, rfl, by decide, by decide, by decide, by decide⟩, rfl⟩

/-- **C41 (degrees of freedom).** The free degrees of freedom are exactly those that are not constrained. -/
theorem C41_free_dofs_exact {b : Basis} {a : Args} {T : Task} (h : fromNodes b a = .ok T) :
    Lists T.freeDofs fun i => i < b.nDofs ∧
      ¬ ∃ dofs, T.dirichletDofs = some dofs ∧ i ∈ (match dofs with | .arr l => l | .lst ls => ls.flatten) := by
  obtain ⟨d, n, r, ex, fd, -, hn, hr, hex, hne, -, hfd, rfl⟩ := fromNodes_ok h
  refine ⟨List.pairwise_lt_range.filter _, fun i => ?_⟩
  simp only [mem_setdiff1d, List.mem_range]
  rcases d with ⟨_ | dofs, d2⟩
  · simp only [constrainedDofs, Except.ok.injEq] at hfd; subst hfd; simp
  · simp only [constrainedDofs] at hfd
    have := stacked_ok hfd
    subst this
    simp only [Option.some.injEq, exists_eq_left']
    cases dofs <;> rfl

/-- **C41 (refuted for several Dirichlet regions).** If two Dirichlet regions have different numbers of nodes, construction
always fails, whatever the other arguments are. -/
theorem C41_unequal_dirichlet_regions_rejected (b : Basis) (a : Args) (ls : List (List ℕ))
    (h : a.dirichletNodes = some (.lst ls)) (hdiff : ∃ l ∈ ls, ∃ l' ∈ ls, l.length ≠ l'.length) :
    ∃ e, fromNodes b a = .error e := by
  have hst : Arrays.stacked (.lst ls) = .error .valueError := by
    show stack ls = _
    unfold stack
    rw [if_neg]
    intro hall
    rw [List.all_eq_true] at hall
    obtain ⟨l, hl, l', hl', hne⟩ := hdiff
    have h1 := hall l hl
    have h2 := hall l' hl'
    simp only [beq_iff_eq] at h1 h2
    exact hne (h1.trans h2.symm)
  rcases hT : fromNodes b a with e | T
  · exact ⟨e, rfl⟩
  · exfalso
    obtain ⟨d, n, r, ex, fd, hd, -⟩ := fromNodes_ok hT
    unfold dirichletPart at hd
    rw [h] at hd
    simp only at hd
    obtain ⟨_, _, hd⟩ := bind_ok hd
    obtain ⟨_, _, hd⟩ := bind_ok hd
    obtain ⟨_, hs, _⟩ := bind_ok hd
    rw [hst] at hs; simp at hs

/-- Non-vacuity: clamping both ends with regions of equal size works, with regions of different size it does not. -/
example : let two := fun ls : List (List ℕ) =>
      { quadArgs with dirichletNodes := some (.lst ls), dirichletDir := some (.many ["all", "all"]) }
    (∃ T, fromNodes quadStrip (two [[0, 5], [1, 6]]) = .ok T) ∧
    fromNodes quadStrip (two [[0, 5], [1]]) = .error .valueError := ⟨⟨_, rfl⟩, rfl⟩

/-! ### C62: the optimizer's view of the task -/

/-- **C62.** After constructing an optimizer on a freshly built task, with the Dirichlet boundary designed or not: every
element of the mesh is a design element, an element whose density is kept at 1, or a fixed element; fixed elements,
load elements and, if the Dirichlet boundary is not designed, Dirichlet elements are not design elements. -/
theorem C62_every_element_accounted {b : Basis} {a : Args} {T : Task} (h : fromNodes b a = .ok T) (dd : Bool) :
    let T' := T.construct dd
    (∀ e < b.t.length, e ∈ T'.design ∨ (∃ s, T'.pinned dd = some s ∧ e ∈ s) ∨ e ∈ T'.fixed) ∧
    (∀ e ∈ T'.fixed, e ∉ T'.design) ∧
    (∀ e ∈ T'.design, ¬ TouchesArg b a.neumannNodes e ∧ (dd = false → ¬ TouchesArg b a.dirichletNodes e)) := by
  obtain ⟨hp1, hp2, -, -⟩ := C41_design_fixed_partition h
  have hex := (C41_design_exact h).2
  have hsub : ∀ e, e ∈ (T.construct dd).design → e ∈ T.design := by
    intro e; unfold Task.construct; split_ifs
    · exact id
    · intro he; exact (mem_setdiff1d.1 he).1
  have hfix : (T.construct dd).fixed = T.fixed := by unfold Task.construct; split_ifs <;> rfl
  intro T'
  refine ⟨fun e he => ?_, fun e he hd => hp1 e ⟨hsub e hd, hfix ▸ he⟩, fun e he => ⟨((hex e).1 (hsub e he)).2.1, ?_⟩⟩
  · rcases hp2 e he with hd | hf
    · cases dd with
      | true => exact Or.inl hd
      | false =>
        by_cases hdir : e ∈ T.dirichletElements.getD []
        · refine Or.inr (Or.inl ⟨T'.dirichletNeumann, rfl, ?_⟩)
          obtain ⟨d, n, r, ex, fd, -, -, -, -, -, -, -, rfl⟩ := fromNodes_ok h
          exact List.mem_append_left _ hdir
        · exact Or.inl (mem_setdiff1d.2 ⟨hd, hdir⟩)
    · exact Or.inr (Or.inr (hfix ▸ hf))
  · rintro rfl ⟨x, hx, ht⟩
    have hnd := (mem_setdiff1d.1 he).2
    apply hnd
    obtain ⟨d, n, r, ex, fd, hd, -, -, -, -, -, -, rfl⟩ := fromNodes_ok h
    rcases dirichletPart_ok hd with ⟨h1, -⟩ | ⟨nodes, dofs, h1, -, rfl⟩
    · rw [h1] at hx; simp at hx
    · rw [h1] at hx
      simp only [Option.some.injEq] at hx
      subst hx
      exact mem_elementsByNodes.2 (by cases nodes <;> exact ht)

/-- The driver's system belongs to a task: its element sets are those of the task after constructing the optimizer. -/
structure OfTask {D X : Type} (b : Basis) (T : Task) (dd : Bool) (S : Driver.Sys (Fin b.t.length) D X) : Prop where
  design : ∀ e, e ∈ S.design ↔ e.val ∈ (T.construct dd).design
  fixed : ∀ e, e ∈ S.fixed ↔ e.val ∈ (T.construct dd).fixed
  pinned : (S.pinned = none ↔ (T.construct dd).pinned dd = none) ∧
    ∀ s l, S.pinned = some s → (T.construct dd).pinned dd = some l → ∀ e, e ∈ s ↔ e.val ∈ l

/-- **C62 (densities outside the design domain).** In every run of an optimizer on a freshly built task (any program of
calls), once initialised, every element that is not a design element has density exactly 1. -/
theorem C62_non_design_density_one {D X : Type} [Zero D] [One D] [Max D] [Min D] {b : Basis} {a : Args} {T : Task}
    (h : fromNodes b a = .ok T) (dd : Bool) {S : Driver.Sys (Fin b.t.length) D X} (hS : OfTask b T dd S)
    {o : Driver.Opt (Fin b.t.length) D X} (hr : Driver.Reachable S o) (hs : o.started = true) (e : Fin b.t.length)
    (he : e.val ∉ (T.construct dd).design) : o.world.rho e = 1 := by
  rcases hp : S.pinned with _ | s
  · exact Driver.C58_no_load_elements_pins_everything hr hs hp e
  · obtain ⟨h1, h2, -⟩ := C62_every_element_accounted h dd
    refine Driver.C36_loaded_and_fixed_have_density_one hr hs hp e ?_
    rcases h1 e.val e.isLt with hd | ⟨l, hl, hel⟩ | hf
    · exact absurd hd he
    · exact Or.inl ((hS.pinned.2 s l hp hl e).2 hel)
    · exact Or.inr ⟨(hS.fixed e).2 hf, fun hd => he ((hS.design e).1 hd)⟩

/-- **C62 (restart).** For an optimizer on a freshly built task with load elements the restart theorem C39 applies without
further assumptions on the element sets: restarting from the last snapshot restores all densities. -/
theorem C62_restart_restores {D X : Type} [Zero D] [One D] [Max D] [Min D] {b : Basis} {a : Args} {T : Task}
    (h : fromNodes b a = .ok T) (dd : Bool) {S R : Driver.Sys (Fin b.t.length) D X} (hS : OfTask b T dd S)
    (c : Driver.Call) {o o' : Driver.Opt (Fin b.t.length) D X} (hreach : Driver.Reachable S o)
    (hrun : c.run S o = (o', .ok ())) (hran : o'.world.trace ≠ o.world.trace)
    {k : ℕ} (hk : o'.world.trace.getLast? = some k) (hk1 : 0 < k) (hs' : o'.started = true)
    (hpin : S.pinned ≠ none) (hR : R = { S with restart := true, restartFrom := k }) :
    Driver.initializeDensity R o'.world.files = .ok (o'.world.rho, k + 1) := by
  obtain ⟨h1, h2, -⟩ := C62_every_element_accounted h dd
  obtain ⟨s, hs⟩ := Option.ne_none_iff_exists'.1 hpin
  refine Driver.C39_save_restart_round_trip S R c hreach hrun hran hk hk1 hs' hs (by simp [hR]) (by simp [hR])
    (by simp [hR]) (by simp [hR]) (by simp [hR]) ?_ ?_
  · intro e
    rcases h1 e.val e.isLt with hd | ⟨l, hl, hel⟩ | hf
    · exact Or.inl ((hS.design e).2 hd)
    · exact Or.inr (Or.inl ((hS.pinned.2 s l hs hl e).2 hel))
    · exact Or.inr (Or.inr ((hS.fixed e).2 hf))
  · intro e he hd
    exact h2 e.val ((hS.fixed e).1 he) ((hS.design e).1 hd)

/-- **C62 (refuted when a task is used twice).** Constructing an optimizer with `design_dirichlet=False` takes the Dirichlet
elements out of the task's design elements without making them fixed elements. A second optimizer on the same task,
with `design_dirichlet=True`, neither designs element 0 nor keeps its density at 1, although it was requested as a
design element and the configuration asks for the Dirichlet boundary to be designed. -/
theorem C62_second_optimizer_loses_elements :
    ∃ T, fromNodes quadStrip quadArgs = .ok T ∧ 0 ∈ (T.construct true).design ∧
      let T2 := (T.construct false).construct true
      0 ∉ T2.design ∧ T2.pinned true = some [3] ∧ 0 ∉ T2.fixed :=
  ⟨_, rfl, by decide, by decide, by decide, by decide⟩

/-- Non-vacuity of `OfTask`: the system of the strip. -/
example : ∃ T, fromNodes quadStrip quadArgs = .ok T ∧ ∃ S : Driver.Sys (Fin 4) ℕ Unit, OfTask quadStrip T false S ∧
    S.pinned ≠ none :=
  ⟨_, rfl, { maxIters := 5, recordTimes := 1, restart := false, restartFrom := -1, valInit := 1, rhoMin := 0,
             rhoMax := 1, design := {1, 2}, pinned := some {0, 3}, fixed := {3},
             step := fun _ rho x => (x, .ok rho), record := fun _ _ _ x => (x, .ok false), exportHist := id,
             importHist := id, initSched := fun x => (x, .ok ()) },
    ⟨by decide, by decide, by decide, by
      intro s l hs hl
      injection hs with hs
      subst hs
      have : l = [0, 3] := by
        have h : some [0, 3] = some l := by rw [← hl]; rfl
        simpa using h.symm
      subst this
      show ∀ e : Fin 4, e ∈ ({0, 3} : Finset (Fin 4)) ↔ e.val ∈ [0, 3]
      decide⟩, by simp⟩

end Verif.Task
