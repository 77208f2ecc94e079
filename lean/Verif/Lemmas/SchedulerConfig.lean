import Verif.Lemmas.Scheduler
import Verif.Spec.Scheduler

/-! Helper lemmas about scheduler configurations and the collection of schedulers. -/
namespace Verif.Sched
open Verif Verif.Spec

/-- The known scheduler types. -/
def knownTypes : List String :=
  ["Constant", "ConstantOne", "Step", "StepToOne", "StepAcceleratingToOne", "StepDeceleratingToOne",
   "StepAccelerating", "StepDecelerating", "SawtoothDecay", "None"]

/-- Case analysis on a scheduler type string. -/
theorem type_cases {P : String → Prop} (h1 : P "Constant") (h2 : P "ConstantOne") (h3 : P "Step")
    (h4 : P "StepToOne") (h5 : P "StepAcceleratingToOne") (h6 : P "StepDeceleratingToOne")
    (h7 : P "StepAccelerating") (h8 : P "StepDecelerating") (h9 : P "SawtoothDecay") (h10 : P "None")
    (h : ∀ ty, ty ∉ knownTypes → P ty) (ty : String) : P ty := by
  by_cases hk : ty ∈ knownTypes
  · simp only [knownTypes, List.mem_cons, List.not_mem_nil, or_false] at hk
    rcases hk with rfl | rfl | rfl | rfl | rfl | rfl | rfl | rfl | rfl | rfl <;> assumption
  · exact h ty hk

theorem fromDefaults_unknown {c : Config} (h : c.schedType ∉ knownTypes) :
    fromDefaults c = .error .valueError := by
  simp only [knownTypes, List.mem_cons, List.not_mem_nil, or_false, not_or] at h
  simp [fromDefaults, h]

theorem fromConfig_unknown {c : Config} (h : c.schedType ∉ knownTypes) :
    fromConfig c = .error .valueError := by
  simp only [knownTypes, List.mem_cons, List.not_mem_nil, or_false, not_or] at h
  simp [fromConfig, h]

theorem complete_unknown {c : Config} (h : c.schedType ∉ knownTypes) : ¬ CompleteConfig c := by
  simp only [knownTypes, List.mem_cons, List.not_mem_nil, or_false, not_or] at h
  unfold CompleteConfig
  split <;> simp_all

theorem toOne_ok (c : Config) (b : Bool) :
    (∃ c', toOneBranch c b = .ok c') ↔
      ((∃ n, c.numSteps = some n ∧ 0 < n) ∧ (∀ t, c.targetValue = some t → isCloseOne t) ∧
        (b = true → c.curvature.isSome)) := by
  unfold toOneBranch
  cases hn : c.numSteps with
  | none => simp
  | some n =>
    simp only [Option.some.injEq]
    split_ifs with h1 h2 h3
    · simp; intro h; omega
    · simp_all
    · simp only [reduceCtorEq, exists_false, false_iff]
      rintro ⟨-, h, -⟩
      obtain ⟨t, ht, hc⟩ := h3
      exact hc (h t ht)
    · push Not at h1 h3
      simp only [Except.ok.injEq, exists_eq', true_iff]
      refine ⟨⟨n, rfl, h1⟩, h3, ?_⟩
      intro hb
      by_contra hcv
      exact h2 ⟨hb, by simpa using hcv⟩

theorem toOne_result {c c' : Config} {b : Bool} (hb : toOneBranch c b = .ok c') :
    ∃ n, c.numSteps = some n ∧ 0 < n ∧
      c' = { c with targetValue := some 1, initValue := some (1 / (n : ℝ)) } := by
  unfold toOneBranch at hb
  cases hn : c.numSteps with
  | none => simp [hn] at hb
  | some n =>
    simp only [hn] at hb
    split_ifs at hb with h1
    injection hb with hb
    exact ⟨n, rfl, by omega, by rw [← hb, ← hn]⟩

theorem toOne_error {c : Config} {b : Bool} {e : Err} (h : toOneBranch c b = .error e) : e = .valueError := by
  unfold toOneBranch at h
  cases hn : c.numSteps with
  | none => simp [hn] at h; exact h.symm
  | some n =>
    simp only [hn] at h
    split_ifs at h <;> (injection h with h; exact h.symm)

theorem fromDefaults_error {c : Config} {e : Err} : fromDefaults c = .error e → e = .valueError := by
  obtain ⟨nm, ini, tgt, ns, im, cu, ty⟩ := c
  revert ty
  apply type_cases
  case h =>
    intro ty hty h
    rw [fromDefaults_unknown (c := ⟨nm, ini, tgt, ns, im, cu, ty⟩) hty] at h
    injection h with h; exact h.symm
  case h1 => cases tgt <;> simp [fromDefaults, eq_comm]
  case h2 => simp [fromDefaults]
  case h3 => cases ini <;> cases tgt <;> cases ns <;> simp [fromDefaults, eq_comm]
  case h4 => intro h; simp only [fromDefaults] at h; simp at h; exact toOne_error h
  case h5 => intro h; simp only [fromDefaults] at h; simp at h; exact toOne_error h
  case h6 => intro h; simp only [fromDefaults] at h; simp at h; exact toOne_error h
  case h7 => cases ini <;> cases tgt <;> cases ns <;> cases cu <;> simp [fromDefaults, eq_comm]
  case h8 => cases ini <;> cases tgt <;> cases ns <;> cases cu <;> simp [fromDefaults, eq_comm]
  case h9 => cases ini <;> cases tgt <;> cases ns <;> simp [fromDefaults, eq_comm]
  case h10 => simp [fromDefaults]

/-- Overwriting an entry of the association list. -/
theorem lookup_update (d : List (Option String × Option ℝ)) (k k' : Option String) (v : Option ℝ) :
    (if d.any (fun e => e.1 == k) then d.map (fun e => if e.1 == k then (e.1, v) else e)
      else d ++ [(k, v)]).lookup k' = if k' = k then some v else d.lookup k' := by
  split_ifs with h1 h2 h2
  · subst h2
    induction d with
    | nil => simp at h1
    | cons e d ih =>
      obtain ⟨a, b⟩ := e
      rw [List.map_cons]
      by_cases he : a = k'
      · simp [he]
      · have hne : (k' == a) = false := by simpa using fun h => he h.symm
        have : d.any (fun e => e.1 == k') = true := by simpa [he] using h1
        have ih := ih this
        simp only [beq_iff_eq] at ih
        simp [he, List.lookup_cons, hne, ih]
  · clear h1
    induction d with
    | nil => simp
    | cons e d ih =>
      obtain ⟨a, b⟩ := e
      rw [List.map_cons]
      simp only [beq_iff_eq] at ih
      by_cases he : a = k
      · have hne : (k' == k) = false := by simpa using h2
        simp [he, List.lookup_cons, hne, ih]
      · simp [he, List.lookup_cons, ih]
  · subst h2
    have : d.lookup k' = none := by
      rw [List.lookup_eq_none_iff]
      intro p hp
      simp only [List.any_eq_true, not_exists, not_and, beq_iff_eq] at h1
      simpa using fun h => h1 p hp h.symm
    rw [List.lookup_append]
    simp [this]
  · rw [List.lookup_append]
    have hne : (k' == k) = false := by simpa using h2
    simp [List.lookup_cons, hne]

end Verif.Sched
