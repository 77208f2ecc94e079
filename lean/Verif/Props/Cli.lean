import Verif.Model.Cli
import Verif.Lemmas.History
import Mathlib.Tactic.Push

/-! The command line and the configuration (C53, C87). -/
namespace Verif.Cli

open Verif.Sched
open Verif.Snapshot (Name)
open Verif.History (dset dget dget_of_mem dget_none)

noncomputable section

theorem dget_cons {β : Type} (a : Name × β) (d : List (Name × β)) (k : Name) : dget (a :: d) k = if a.1 = k then some a.2 else dget d k := by
  unfold dget
  by_cases h : a.1 = k
  · simp [h]
  · have : (a.1 == k) = false := by simpa using h
    simp [List.find?_cons, this, h]

theorem dget_set {β : Type} (d : List (Name × β)) (k k' : Name) (v : β) : dget (dset d k v) k' = if k = k' then some v else dget d k' := by
  by_cases hk : k ∈ d.map Prod.fst
  · have hany : d.any (fun x => x.1 == k) = true := by
      obtain ⟨x, hx, hxk⟩ := List.mem_map.mp hk
      exact List.any_eq_true.mpr ⟨x, hx, by simp [hxk]⟩
    unfold dset
    rw [if_pos hany]
    clear hany
    induction d with
    | nil => simp at hk
    | cons a d ih =>
      rw [List.map_cons, dget_cons, dget_cons]
      by_cases ha : a.1 = k
      · simp only [ha, if_true]
        by_cases hkk : k = k'
        · simp [hkk]
        · simp only [if_neg hkk]
          by_cases hm : k ∈ d.map Prod.fst
          · rw [ih hm, if_neg hkk]
          · congr 1
            conv_rhs => rw [← List.map_id d]
            refine List.map_congr_left fun x hx => ?_
            rw [if_neg]; rfl
            intro h; exact hm (List.mem_map.mpr ⟨x, hx, h⟩)
      · have hm : k ∈ d.map Prod.fst := by
          simp only [List.map_cons, List.mem_cons] at hk
          exact hk.resolve_left (Ne.symm ha)
        simp only [if_neg ha]
        rw [ih hm]
        by_cases h1 : a.1 = k'
        · have : ¬ k = k' := fun h => ha (h1.trans h.symm)
          simp [h1, this]
        · simp [h1]
  · have hany : d.any (fun x => x.1 == k) = false := by
      rw [List.any_eq_false]
      intro x hx; simp only [beq_iff_eq]
      intro h; exact hk (List.mem_map.mpr ⟨x, hx, h⟩)
    unfold dset
    rw [hany]
    simp only [Bool.false_eq_true, if_false]
    clear hany
    induction d with
    | nil => simp [dget_cons, dget]
    | cons a d ih =>
      simp only [List.map_cons, List.mem_cons, not_or] at hk
      rw [List.cons_append, dget_cons, dget_cons, ih hk.2]
      by_cases h1 : a.1 = k'
      · have : ¬ k = k' := fun h => hk.1 (h.trans h1.symm)
        simp [h1, this]
      · simp [h1]

theorem dget_append_two {β : Type} (l : List (Name × β)) (k1 k2 : Name) (v1 v2 : β) (k : Name) (h1 : k1 ≠ k) (h2 : k2 ≠ k) :
    dget (l ++ [(k1, v1), (k2, v2)]) k = dget l k := by
  induction l with
  | nil => rw [List.nil_append, dget_cons, if_neg h1, dget_cons, if_neg h2]
  | cons a l ih => rw [List.cons_append, dget_cons, dget_cons, ih]

/-- The keys that survive: not beginning with the name of a scheduler group, or `beta_eta`. -/
def Kept (k : Name) : Prop := k = "beta_eta".toList ∨ ∀ kw ∈ keywords, ¬ kw <+: k

theorem matches_iff (k : Name) : matches? k = true ↔ ∃ kw ∈ keywords, kw <+: k := by
  unfold matches?
  simp [List.any_eq_true]

theorem copyRest_get (args : Args) (hn : (args.map Prod.fst).Nodup) (ret : List (Name × Entry)) (k : Name) :
    (Kept k → dget (copyRest args ret) k = ((dget args k).map Entry.raw).or (dget ret k)) ∧
    (¬ Kept k → dget (copyRest args ret) k = dget ret k) := by
  induction args generalizing ret with
  | nil => exact ⟨fun _ => rfl, fun _ => rfl⟩
  | cons a args ih =>
    rw [List.map_cons, List.nodup_cons] at hn
    have hstep : copyRest (a :: args) ret = copyRest args (if a.1 = "beta_eta".toList ∨ ¬ matches? a.1 = true then dset ret a.1 (.raw a.2) else ret) := by
      unfold copyRest
      rw [List.foldl_cons]
      congr 1
      by_cases h1 : a.1 = "beta_eta".toList
      · have hm : matches? a.1 = true := by rw [h1]; decide
        simp only [if_pos h1, if_pos hm, if_pos (Or.inl h1 : a.1 = "beta_eta".toList ∨ ¬ matches? a.1 = true)]
      · by_cases h2 : matches? a.1 = true
        · have hno : ¬ (a.1 = "beta_eta".toList ∨ ¬ matches? a.1 = true) := fun h => h.elim h1 fun h => h h2
          simp only [if_neg h1, if_pos h2, if_neg hno]
        · have hyes : a.1 = "beta_eta".toList ∨ ¬ matches? a.1 = true := Or.inr h2
          simp only [if_neg h1, if_neg h2, if_pos hyes]
    have hk : Kept a.1 ↔ (a.1 = "beta_eta".toList ∨ ¬ matches? a.1 = true) := by
      unfold Kept; rw [matches_iff]; push Not; exact Iff.rfl
    rw [hstep]
    obtain ⟨i1, i2⟩ := ih hn.2 (if a.1 = "beta_eta".toList ∨ ¬ matches? a.1 = true then dset ret a.1 (.raw a.2) else ret)
    constructor
    · intro hK
      rw [i1 hK, dget_cons]
      by_cases hak : a.1 = k
      · have hdn : dget args k = none := dget_none (by rw [← hak]; exact hn.1)
        rw [if_pos hak, hdn, if_pos (hk.mp (by rw [hak]; exact hK)), dget_set, if_pos hak]
        rfl
      · rw [if_neg hak]
        congr 1
        split
        · rw [dget_set, if_neg hak]
        · rfl
    · intro hK
      rw [i2 hK]
      split
      · next h =>
        rw [dget_set, if_neg]
        intro hak; exact hK (hak ▸ hk.mpr h)
      · rfl

/-! ### The groups -/

theorem bind_okv {α β : Type} (a : α) (f : α → Res β) : ((Except.ok a : Res α) >>= f) = f a := rfl

/-- What a group of options should become. -/
def wanted (name : String) (ini target : Option ℝ) (steps : Option ℤ) (curv : Option ℝ) (type : String) : Config where
  name := some name
  initValue := ini
  targetValue := target
  numSteps := steps
  curvature := curv
  schedType := type

theorem group_filter_radius (a : Parsed) : group a.vars "filter_radius".toList =
    .ok (wanted "filter_radius" (some a.filterRadiusInit) (some a.filterRadius) (some a.filterRadiusStep) none "Step") := rfl

theorem group_move_limit (a : Parsed) : group a.vars "move_limit".toList =
    .ok (wanted "move_limit" (some a.moveLimitInit) (some a.moveLimit) (some a.moveLimitStep) none "SawtoothDecay") := rfl

theorem group_vol_frac (a : Parsed) : group a.vars "vol_frac".toList =
    match a.volFracStep with
    | none => .error .valueError
    | some n => .ok (wanted "vol_frac" (some a.volFracInit) (some a.volFrac) (some n) none "Step") := by
  obtain ⟨s, hs⟩ : ∃ s, s = a.volFracStep := ⟨_, rfl⟩
  rw [← hs]
  cases s with
  | none => show (Val.toSteps (optSteps a.volFracStep) >>= _) = _; rw [← hs]; rfl
  | some n => show (Val.toSteps (optSteps a.volFracStep) >>= _) = _; rw [← hs]; rfl

theorem group_p (a : Parsed) : group a.vars "p".toList =
    match a.pStep with
    | none => .error .valueError
    | some n => .ok (wanted "p" (some a.pInit) (some a.p) (some n) none "Step") := by
  obtain ⟨s, hs⟩ : ∃ s, s = a.pStep := ⟨_, rfl⟩
  rw [← hs]
  cases s with
  | none => show (Val.toSteps (optSteps a.pStep) >>= _) = _; rw [← hs]; rfl
  | some n => show (Val.toSteps (optSteps a.pStep) >>= _) = _; rw [← hs]; rfl

theorem group_beta (a : Parsed) : group a.vars "beta".toList =
    match a.betaStep with
    | none => .error .valueError
    | some n => .ok (wanted "beta" (some a.betaInit) (some a.beta) (some n) (some a.betaCurvature) "StepAccelerating") := by
  obtain ⟨s, hs⟩ : ∃ s, s = a.betaStep := ⟨_, rfl⟩
  rw [← hs]
  cases s with
  | none => show (Val.toSteps (optSteps a.betaStep) >>= _) = _; rw [← hs]; rfl
  | some n => show (Val.toSteps (optSteps a.betaStep) >>= _) = _; rw [← hs]; rfl

theorem group_percentile (a : Parsed) : group a.vars "percentile".toList =
    match a.percentile, a.percentileInit, a.percentileStep with
    | none, y, n => .ok (wanted "percentile" y none n none "None")
    | some x, some y, some n => .ok (wanted "percentile" (some y) (some x) (some n) none "Step")
    | some _, _, _ => .error .valueError := by
  rcases a with ⟨_, _, _, _, _, _, _, _, _, _, _, _, _, _, _, _, _, _, _, _, _, y, n, x⟩
  cases x <;> cases y <;> cases n <;> rfl

/-- All groups of options together. -/
theorem toKwargs_eq (a : Parsed) : toKwargs a.vars =
    (group a.vars "vol_frac".toList >>= fun v => group a.vars "p".toList >>= fun p => group a.vars "beta".toList >>= fun b =>
      group a.vars "percentile".toList >>= fun c => .ok (copyRest a.vars
        [("filter_radius".toList, .sched (wanted "filter_radius" (some a.filterRadiusInit) (some a.filterRadius) (some a.filterRadiusStep) none "Step")),
         ("move_limit".toList, .sched (wanted "move_limit" (some a.moveLimitInit) (some a.moveLimit) (some a.moveLimitStep) none "SawtoothDecay")),
         ("vol_frac".toList, .sched v), ("p".toList, .sched p), ("beta".toList, .sched b), ("percentile".toList, .sched c)])) := by
  unfold toKwargs keywords
  simp only [List.foldlM_cons, List.foldlM_nil, group_filter_radius, group_move_limit, bind_assoc]
  rcases group a.vars "vol_frac".toList with e | v
  · rfl
  rcases group a.vars "p".toList with e | p
  · rfl
  rcases group a.vars "beta".toList with e | b
  · rfl
  rcases group a.vars "percentile".toList with e | c
  · rfl
  rfl

theorem vars_nodup (a : Parsed) : (a.vars.map Prod.fst).Nodup := by
  rw [show a.vars.map Prod.fst = ({} : Parsed).vars.map Prod.fst from rfl]
  decide

/-- The configuration of the schedule of the percentile. -/
def wantedPercentile (a : Parsed) : Config :=
  wanted "percentile" a.percentileInit a.percentile a.percentileStep none (if a.percentile.isNone then "None" else "Step")

/-- The six groups. -/
def retOf (a : Parsed) (nv np nb : ℤ) : List (Name × Entry) :=
  [("filter_radius".toList, .sched (wanted "filter_radius" (some a.filterRadiusInit) (some a.filterRadius) (some a.filterRadiusStep) none "Step")),
   ("move_limit".toList, .sched (wanted "move_limit" (some a.moveLimitInit) (some a.moveLimit) (some a.moveLimitStep) none "SawtoothDecay")),
   ("vol_frac".toList, .sched (wanted "vol_frac" (some a.volFracInit) (some a.volFrac) (some nv) none "Step")),
   ("p".toList, .sched (wanted "p" (some a.pInit) (some a.p) (some np) none "Step")),
   ("beta".toList, .sched (wanted "beta" (some a.betaInit) (some a.beta) (some nb) (some a.betaCurvature) "StepAccelerating")),
   ("percentile".toList, .sched (wantedPercentile a))]

theorem toKwargs_ok (a : Parsed) (nv np nb : ℤ) (hv : a.volFracStep = some nv) (hp : a.pStep = some np)
    (hb : a.betaStep = some nb) (hc : a.percentile ≠ none → a.percentileInit ≠ none ∧ a.percentileStep ≠ none) :
    toKwargs a.vars = .ok (copyRest a.vars (retOf a nv np nb)) := by
  have hcfg : group a.vars "percentile".toList = .ok (wantedPercentile a) := by
    rw [group_percentile]
    unfold wantedPercentile
    rcases h : a.percentile with _ | x
    · rfl
    · obtain ⟨h1, h2⟩ := hc (by rw [h]; simp)
      rcases hy : a.percentileInit with _ | y
      · exact absurd hy h1
      rcases hn : a.percentileStep with _ | n
      · exact absurd hn h2
      rfl
  rw [toKwargs_eq, group_vol_frac, hv, group_p, hp, group_beta, hb, hcfg]; rfl

/-- The options without a schedule that are fields of `OC_Config`, with what the user gave. -/
def settings (a : Parsed) : List (String × Val) :=
  [("dst_path", .str a.dstPath), ("interpolation", .str a.interpolation), ("record_times", .int a.recordTimes), ("max_iters", .int a.maxIters),
   ("beta_eta", .real a.betaEta), ("eta", .real a.eta), ("filter_type", .str a.filterType), ("E_min_coeff", .real a.eMinCoeff),
   ("rho_min", .real a.rhoMin), ("restart", .bool a.restart), ("restart_from", .int a.restartFrom), ("export_img", .bool a.exportImg),
   ("design_dirichlet", .bool a.designDirichlet), ("sensitivity_filter", .bool a.sensitivityFilter), ("solver_option", .str a.solverOption),
   ("lambda_lower", .real a.lambdaLower), ("lambda_upper", .real a.lambdaUpper)]

/-- **C53.** Every command line that gives the numbers of steps of `vol_frac`, `p` and `beta` — and, if it gives a percentile, its initial value
and number of steps — is accepted, and the resulting keyword arguments name exactly what was given: each of the six groups becomes the schedule
with the given initial value, target and number of steps (and curvature for `beta`), and every other option is passed on unchanged. -/
theorem C53_command_line_kept (a : Parsed) (nv np nb : ℤ) (hv : a.volFracStep = some nv) (hp : a.pStep = some np)
    (hb : a.betaStep = some nb) (hc : a.percentile ≠ none → a.percentileInit ≠ none ∧ a.percentileStep ≠ none) :
    ∃ kw, toKwargs a.vars = .ok kw ∧
      dget kw "filter_radius".toList =
        some (.sched (wanted "filter_radius" (some a.filterRadiusInit) (some a.filterRadius) (some a.filterRadiusStep) none "Step")) ∧
      dget kw "move_limit".toList =
        some (.sched (wanted "move_limit" (some a.moveLimitInit) (some a.moveLimit) (some a.moveLimitStep) none "SawtoothDecay")) ∧
      dget kw "vol_frac".toList = some (.sched (wanted "vol_frac" (some a.volFracInit) (some a.volFrac) (some nv) none "Step")) ∧
      dget kw "p".toList = some (.sched (wanted "p" (some a.pInit) (some a.p) (some np) none "Step")) ∧
      dget kw "beta".toList =
        some (.sched (wanted "beta" (some a.betaInit) (some a.beta) (some nb) (some a.betaCurvature) "StepAccelerating")) ∧
      dget kw "percentile".toList = some (.sched (wantedPercentile a)) ∧
      (∀ x ∈ settings a, dget kw x.1.toList = some (.raw x.2)) ∧
      dget kw "task_name".toList = some (.raw (.str a.taskName)) ∧ dget kw "mesh_path".toList = some (.raw (.str a.meshPath)) := by
  refine ⟨_, toKwargs_ok a nv np nb hv hp hb hc, ?_⟩
  have key := copyRest_get a.vars (vars_nodup a)
  have hnk : ∀ k, (∃ kw ∈ keywords, kw <+: k) → k ≠ "beta_eta".toList → ¬ Kept k := by
    rintro k ⟨kw, h1, h2⟩ h3 h4
    rcases h4 with h4 | h4
    · exact h3 h4
    · exact h4 kw h1 h2
  refine ⟨?_, ?_, ?_, ?_, ?_, ?_, ?_⟩
  · rw [(key _ _).2 (hnk _ ⟨_, by decide, List.prefix_refl _⟩ (by decide))]; rfl
  · rw [(key _ _).2 (hnk _ ⟨_, by decide, List.prefix_refl _⟩ (by decide))]; rfl
  · rw [(key _ _).2 (hnk _ ⟨_, by decide, List.prefix_refl _⟩ (by decide))]; rfl
  · rw [(key _ _).2 (hnk _ ⟨_, by decide, List.prefix_refl _⟩ (by decide))]; rfl
  · rw [(key _ _).2 (hnk _ ⟨_, by decide, List.prefix_refl _⟩ (by decide))]; rfl
  · rw [(key _ _).2 (hnk _ ⟨_, by decide, List.prefix_refl _⟩ (by decide))]; rfl
  · suffices hall : ∀ x ∈ a.plain, dget (copyRest a.vars (retOf a nv np nb)) x.1 = some (.raw x.2) by
      refine ⟨fun x hx => hall (x.1.toList, x.2) ?_, hall ("task_name".toList, .str a.taskName) (by simp [Parsed.plain]),
        hall ("mesh_path".toList, .str a.meshPath) (by simp [Parsed.plain])⟩
      simp only [settings, List.mem_cons, List.not_mem_nil, or_false] at hx
      rcases hx with rfl | rfl | rfl | rfl | rfl | rfl | rfl | rfl | rfl | rfl | rfl | rfl | rfl | rfl | rfl | rfl | rfl <;> simp [Parsed.plain]
    intro x hx
    have hK : ∀ k ∈ a.plain.map Prod.fst, k = "beta_eta".toList ∨ matches? k = false := by
      rw [show a.plain.map Prod.fst = ({} : Parsed).plain.map Prod.fst from rfl]
      decide
    have hKept : Kept x.1 := by
      rcases hK x.1 (List.mem_map.mpr ⟨x, hx, rfl⟩) with h | h
      · exact Or.inl h
      · refine Or.inr fun kw h1 h2 => ?_
        have := (matches_iff x.1).mpr ⟨kw, h1, h2⟩
        rw [h] at this; cases this
    rw [(key _ _).1 hKept, dget_of_mem (vars_nodup a) (v := x.2) (List.mem_append_right _ hx)]
    rfl

/-- **C53 (refuted: optional options are not optional).** A command line is rejected with ValueError exactly if it leaves out the number of
steps of `vol_frac`, `p` or `beta` — although the parser declares `None` as their default — or gives a percentile without its initial value or
number of steps. In particular the command line without any option is rejected. -/
theorem C53_rejected_iff (a : Parsed) :
    (toKwargs a.vars = .error .valueError ↔ a.volFracStep = none ∨ a.pStep = none ∨ a.betaStep = none ∨
      (a.percentile ≠ none ∧ (a.percentileInit = none ∨ a.percentileStep = none))) ∧
    toKwargs ({} : Parsed).vars = .error .valueError := by
  constructor
  · rw [toKwargs_eq, group_vol_frac, group_p, group_beta, group_percentile]
    rcases a.volFracStep with _ | nv
    · simp only [true_or, iff_true]; rfl
    rcases a.pStep with _ | np
    · simp only [true_or, or_true, iff_true]; rfl
    rcases a.betaStep with _ | nb
    · simp only [true_or, or_true, iff_true]; rfl
    rcases a.percentile with _ | x
    · constructor
      · intro h; cases h
      · intro h; simp at h
    · rcases a.percentileInit with _ | y
      · refine ⟨fun _ => by simp, fun _ => rfl⟩
      · rcases a.percentileStep with _ | n
        · refine ⟨fun _ => by simp, fun _ => rfl⟩
        · constructor
          · intro h; cases h
          · intro h; simp at h
  · rw [toKwargs_eq, group_vol_frac]; rfl

/-- **C53 (refuted for options beginning with the name of a group).** For every dictionary of arguments that is accepted: an option is passed on
if its name does not begin with the name of a scheduler group (or is `beta_eta`), and is silently dropped otherwise — for instance
`petsc_options`, which begins with `p`. -/
theorem C53_prefix_dropped (args : Args) (hn : (args.map Prod.fst).Nodup) (kw : List (Name × Entry)) (h : toKwargs args = .ok kw) :
    (∀ k v, (k, v) ∈ args → (k = "beta_eta".toList ∨ ∀ g ∈ keywords, ¬ g <+: k) → dget kw k = some (.raw v)) ∧
    (∀ k, k ∉ keywords → k ≠ "beta_eta".toList → (∃ g ∈ keywords, g <+: k) → dget kw k = none) ∧
    dget kw "petsc_options".toList = none := by
  have hret : ∃ ret : List (Name × Entry), kw = copyRest args ret ∧ ∀ k, k ∉ keywords → dget ret k = none := by
    unfold toKwargs at h
    have hgen : ∀ (l : List Name) (r r' : List (Name × Entry)), (∀ k, k ∉ keywords → dget r k = none) → (∀ x ∈ l, x ∈ keywords) →
        l.foldlM (fun ret g => do let c ← group args g; pure (dset ret g (Entry.sched c))) r = (.ok r' : Res _) →
        ∀ k, k ∉ keywords → dget r' k = none := by
      intro l
      induction l with
      | nil => intro r r' hr _ he; injection he with he; subst he; exact hr
      | cons g l ih =>
        intro r r' hr hl he
        rw [List.foldlM_cons] at he
        rcases hg : group args g with e | c
        · rw [hg] at he; cases he
        · rw [hg] at he
          refine ih _ r' ?_ (fun x hx => hl x (List.mem_cons_of_mem _ hx)) he
          intro k hk
          rw [dget_set, if_neg]
          · exact hr k hk
          · intro hgk; exact hk (hgk ▸ hl g List.mem_cons_self)
    rcases hf : keywords.foldlM (fun ret g => do let c ← group args g; pure (dset ret g (Entry.sched c))) ([] : List (Name × Entry)) with e | r
    · rw [hf] at h; cases h
    · rw [hf] at h
      injection h with h
      exact ⟨r, h.symm, hgen keywords [] r (fun _ _ => rfl) (fun _ hx => hx) hf⟩
  obtain ⟨ret, rfl, hr⟩ := hret
  have key := copyRest_get args hn ret
  have h2 : ∀ k, k ∉ keywords → k ≠ "beta_eta".toList → (∃ g ∈ keywords, g <+: k) → dget (copyRest args ret) k = none := by
    rintro k h1 h3 ⟨g, hg, hgk⟩
    rw [(key k).2, hr k h1]
    rintro (h4 | h4)
    · exact h3 h4
    · exact h4 g hg hgk
  refine ⟨fun k v hv hk => ?_, h2, h2 _ (by decide) (by decide) ⟨"p".toList, by decide, by decide⟩⟩
  rw [(key k).1 hk, dget_of_mem hn hv]; rfl

/-! ### `from_defaults` -/

theorem filter_get (defaults kw : List (Name × Entry)) (k : Name) (hk : ∃ y ∈ defaults, y.1 = k) :
    dget (kw.filter fun x => defaults.any fun y => y.1 = x.1) k = dget kw k := by
  induction kw with
  | nil => rfl
  | cons a kw ih =>
    rw [List.filter_cons]
    by_cases ha : (defaults.any fun y => decide (y.1 = a.1)) = true
    · rw [if_pos ha, dget_cons, dget_cons, ih]
    · rw [if_neg ha, ih, dget_cons, if_neg]
      intro hak
      apply ha
      obtain ⟨y, hy, hyk⟩ := hk
      exact List.any_eq_true.mpr ⟨y, hy, by simp [hyk, hak]⟩

theorem fromKwargs_get (defaults kw : List (Name × Entry)) (k : Name) :
    dget (fromKwargs defaults kw) k = (dget defaults k).map fun y => (dget kw k).getD y := by
  have hfil := filter_get defaults kw
  unfold fromKwargs
  simp only
  have hgen : ∀ l : List (Name × Entry), (∀ y ∈ l, y ∈ defaults) →
      dget (l.map fun y => (y.1, (dget (kw.filter fun x => defaults.any fun y => y.1 = x.1) y.1).getD y.2)) k =
        (dget l k).map fun y => (dget kw k).getD y := by
    intro l
    induction l with
    | nil => intro _; rfl
    | cons y l ih =>
      intro hl
      rw [List.map_cons, dget_cons, dget_cons]
      by_cases hy : y.1 = k
      · rw [if_pos hy, if_pos hy, Option.map_some, hfil y.1 ⟨y, hl y List.mem_cons_self, rfl⟩, hy]
      · rw [if_neg hy, if_neg hy]
        exact ih fun z hz => hl z (List.mem_cons_of_mem _ hz)
  exact hgen defaults fun y hy => hy

/-- **C87, partial.** For every set of keyword arguments: the configuration has exactly the fields of the class; a field given is set to the
given value, every other one keeps its default. Missing: arguments naming no field should be rejected (`C87_unknown_ignored`). -/
theorem C87_fields_set_partial (defaults kw : List (Name × Entry)) :
    (fromKwargs defaults kw).map Prod.fst = defaults.map Prod.fst ∧
    ∀ k d, dget defaults k = some d →
      (∀ v, dget kw k = some v → dget (fromKwargs defaults kw) k = some v) ∧
      (dget kw k = none → dget (fromKwargs defaults kw) k = some d) := by
  refine ⟨by unfold fromKwargs; simp [Function.comp_def], fun k d hd => ⟨fun v hv => ?_, fun hv => ?_⟩⟩
  · rw [fromKwargs_get, hd, hv]; rfl
  · rw [fromKwargs_get, hd, hv]; rfl

/-- **C87 (refuted).** A misspelt option is silently ignored: adding arguments that name no field never changes the configuration. -/
theorem C87_unknown_ignored (defaults kw extra : List (Name × Entry)) (h : ∀ x ∈ extra, x.1 ∉ defaults.map Prod.fst) :
    fromKwargs defaults (kw ++ extra) = fromKwargs defaults kw := by
  unfold fromKwargs
  have : extra.filter (fun x => defaults.any fun y => y.1 = x.1) = [] := by
    rw [List.filter_eq_nil_iff]
    intro x hx hany
    obtain ⟨y, hy, hyx⟩ := List.any_eq_true.mp hany
    exact h x hx (List.mem_map.mpr ⟨y, hy, by simpa using hyx⟩)
  simp only [List.filter_append, this, List.append_nil]

/-- **C53 (the whole way).** For an accepted command line, every option that names a field of `OC_Config` has the given value in the
configuration; `--eta_init` and `--eta_step` have no effect. -/
theorem C53_configuration (a : Parsed) (nv np nb : ℤ) (hv : a.volFracStep = some nv) (hp : a.pStep = some np)
    (hb : a.betaStep = some nb) (hc : a.percentile ≠ none → a.percentileInit ≠ none ∧ a.percentileStep ≠ none)
    (defaults : List (Name × Entry)) (hd : defaults.map Prod.fst = fields) :
    ∃ kw, toKwargs a.vars = .ok kw ∧
      (∀ x ∈ settings a, dget (fromKwargs defaults kw) x.1.toList = some (.raw x.2)) ∧
      dget (fromKwargs defaults kw) "p".toList = some (.sched (wanted "p" (some a.pInit) (some a.p) (some np) none "Step")) ∧
      dget (fromKwargs defaults kw) "vol_frac".toList =
        some (.sched (wanted "vol_frac" (some a.volFracInit) (some a.volFrac) (some nv) none "Step")) ∧
      dget (fromKwargs defaults kw) "beta".toList =
        some (.sched (wanted "beta" (some a.betaInit) (some a.beta) (some nb) (some a.betaCurvature) "StepAccelerating")) ∧
      dget (fromKwargs defaults kw) "filter_radius".toList =
        some (.sched (wanted "filter_radius" (some a.filterRadiusInit) (some a.filterRadius) (some a.filterRadiusStep) none "Step")) ∧
      dget (fromKwargs defaults kw) "move_limit".toList =
        some (.sched (wanted "move_limit" (some a.moveLimitInit) (some a.moveLimit) (some a.moveLimitStep) none "SawtoothDecay")) ∧
      dget (fromKwargs defaults kw) "percentile".toList = some (.sched (wantedPercentile a)) ∧
      ∀ x y, ∃ kw', toKwargs ({ a with etaInit := x, etaStep := y } : Parsed).vars = .ok kw' ∧
        fromKwargs defaults kw' = fromKwargs defaults kw := by
  obtain ⟨kw, hkw, h1, h2, h3, h4, h5, h6, h7⟩ := C53_command_line_kept a nv np nb hv hp hb hc
  have hmem : ∀ k ∈ fields, ∃ d, dget defaults k = some d := by
    intro k hk
    rw [← hd] at hk
    obtain ⟨y, hy, hyk⟩ := List.mem_map.mp hk
    have hne : defaults.find? (fun x => x.1 == k) ≠ none := by
      intro h
      rw [List.find?_eq_none] at h
      exact h y hy (by simp [hyk])
    obtain ⟨z, hz⟩ := Option.ne_none_iff_exists'.mp hne
    exact ⟨z.2, by unfold dget; rw [hz]; rfl⟩
  have set : ∀ k v, k ∈ fields → dget kw k = some v → dget (fromKwargs defaults kw) k = some v := by
    intro k v hk hkv
    obtain ⟨d, hd⟩ := hmem k hk
    exact ((C87_fields_set_partial defaults kw).2 k d hd).1 v hkv
  have hset : ∀ x ∈ settings a, x.1.toList ∈ fields := by
    have hk : ∀ k ∈ (settings ({} : Parsed)).map Prod.fst, k.toList ∈ fields := by decide
    intro x hx
    exact hk x.1 (List.mem_map.mpr ⟨x, hx, rfl⟩ : x.1 ∈ (settings a).map Prod.fst)
  refine ⟨kw, hkw, fun x hx => set _ _ (hset x hx) (h7.1 x hx), set _ _ (by decide) h4, set _ _ (by decide) h3, set _ _ (by decide) h5,
    set _ _ (by decide) h1, set _ _ (by decide) h2, set _ _ (by decide) h6, fun x y => ?_⟩
  obtain ⟨kw', hkw', g1, g2, g3, g4, g5, g6, g7⟩ :=
    C53_command_line_kept ({ a with etaInit := x, etaStep := y } : Parsed) nv np nb hv hp hb hc
  refine ⟨kw', hkw', ?_⟩
  have hsame : ∀ k ∈ fields, dget kw' k = dget kw k := by
    intro k hk
    have e1 := toKwargs_ok a nv np nb hv hp hb hc
    have e2 := toKwargs_ok ({ a with etaInit := x, etaStep := y } : Parsed) nv np nb hv hp hb hc
    rw [hkw] at e1
    rw [hkw'] at e2
    injection e1 with e1
    injection e2 with e2
    have hne : k ≠ "eta_init".toList ∧ k ≠ "eta_step".toList := by revert k; decide
    have hvars : dget ({ a with etaInit := x, etaStep := y } : Parsed).vars k = dget a.vars k := by
      have t := dget_append_two (a.scheduled ++ a.plain.take 19) "eta_init".toList "eta_step".toList
      exact (t (.real x) (.real y) k (Ne.symm hne.1) (Ne.symm hne.2)).trans
        (t (.real a.etaInit) (.real a.etaStep) k (Ne.symm hne.1) (Ne.symm hne.2)).symm
    rw [e1, e2]
    by_cases hK : Kept k
    · rw [(copyRest_get _ (vars_nodup _) _ k).1 hK, (copyRest_get _ (vars_nodup _) _ k).1 hK, hvars]
      rfl
    · rw [(copyRest_get _ (vars_nodup _) _ k).2 hK, (copyRest_get _ (vars_nodup _) _ k).2 hK]
      rfl
  unfold fromKwargs
  simp only
  refine List.map_congr_left fun z hz => ?_
  rw [filter_get _ _ _ ⟨z, hz, rfl⟩, filter_get _ _ _ ⟨z, hz, rfl⟩,
    hsame z.1 (by rw [← hd]; exact List.mem_map.mpr ⟨z, hz, rfl⟩)]

/-! ### Non-vacuity -/

/-- `--vol_frac_step 3 --p_step 2 --beta_step 4` is accepted. -/
example : ∃ kw, toKwargs ({ volFracStep := some 3, pStep := some 2, betaStep := some 4 } : Parsed).vars = .ok kw := by
  obtain ⟨kw, h, _⟩ := C53_command_line_kept { volFracStep := some 3, pStep := some 2, betaStep := some 4 } 3 2 4 rfl rfl rfl
    (fun h => absurd rfl h)
  exact ⟨kw, h⟩

end
end Verif.Cli
