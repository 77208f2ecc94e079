import Verif.Model.Env

/-! C115: an OC run leaves the user's environment as it found it, and does not depend on the user's sensitivity mode. -/
namespace Verif.Env
open Verif

theorem withMode_eq {α : Type} (body : Action α) (e : Vars) : withMode body e =
    ((body (e.put modeKey (some "current"))).1.put modeKey (e modeKey), (body (e.put modeKey (some "current"))).2) := by
  unfold withMode
  rcases h : e modeKey with _ | v <;> rfl

theorem put_self (e : Vars) (v : Option String) : e.put modeKey v "SCITOPT_SENSITIVITY_MODE" = v := if_pos rfl

/-- **C115 (restored).** After `optimize` or `optimize_steps` of OC, returned or raised, whatever the iterations did, the
variable `SCITOPT_SENSITIVITY_MODE` is what it was before: the same string, or not set. -/
theorem C115_mode_restored {α : Type} (base : Action α) (baseSteps : Nat → Action α) (n : Nat) (e : Vars) :
    (ocOptimize base e).1 "SCITOPT_SENSITIVITY_MODE" = e "SCITOPT_SENSITIVITY_MODE" ∧
    (ocOptimizeSteps baseSteps n e).1 "SCITOPT_SENSITIVITY_MODE" = e "SCITOPT_SENSITIVITY_MODE" := by
  have h : ∀ body : Action α, (withMode body e).1 "SCITOPT_SENSITIVITY_MODE" = e "SCITOPT_SENSITIVITY_MODE" := fun body => by
    rw [withMode_eq]
    exact put_self (body (e.put modeKey (some "current"))).1 (e modeKey)
  exact ⟨h _, h _⟩

/-- **C115 (nothing else).** The run itself sees the user's environment with the mode set to `current`; its result or
exception is handed on unchanged; every other variable is left as the run left it. -/
theorem C115_nothing_else {α : Type} (base : Action α) (baseSteps : Nat → Action α) (n : Nat) (e : Vars) :
    ∃ e1 : Vars, e1 "SCITOPT_SENSITIVITY_MODE" = some "current" ∧ (∀ k, k ≠ "SCITOPT_SENSITIVITY_MODE" → e1 k = e k) ∧
      (ocOptimize base e).2 = (base e1).2 ∧
      (∀ k, k ≠ "SCITOPT_SENSITIVITY_MODE" → (ocOptimize base e).1 k = (base e1).1 k) ∧
      (ocOptimizeSteps baseSteps n e).2 = (baseSteps n e1).2 ∧
      (∀ k, k ≠ "SCITOPT_SENSITIVITY_MODE" → (ocOptimizeSteps baseSteps n e).1 k = (baseSteps n e1).1 k) := by
  have off : ∀ (e : Vars) v k, k ≠ "SCITOPT_SENSITIVITY_MODE" → e.put modeKey v k = e k := fun e v k hk => if_neg hk
  refine ⟨e.put modeKey (some "current"), if_pos rfl, off _ _, ?_, fun k hk => ?_, ?_, fun k hk => ?_⟩
  · unfold ocOptimize; rw [withMode_eq]
  · unfold ocOptimize; rw [withMode_eq]; exact off _ _ k hk
  · unfold ocOptimizeSteps; rw [withMode_eq]
  · unfold ocOptimizeSteps; rw [withMode_eq]; exact off _ _ k hk

/-- **C115 (independent).** Two environments that differ in `SCITOPT_SENSITIVITY_MODE` only, whatever is in it (nothing, a
mode, or rubbish), give the same outcome of an OC call and the same other variables afterwards. -/
theorem C115_mode_irrelevant {α : Type} (base : Action α) (baseSteps : Nat → Action α) (n : Nat) (e e' : Vars)
    (h : ∀ k, k ≠ "SCITOPT_SENSITIVITY_MODE" → e k = e' k) :
    (ocOptimize base e).2 = (ocOptimize base e').2 ∧
    (∀ k, k ≠ "SCITOPT_SENSITIVITY_MODE" → (ocOptimize base e).1 k = (ocOptimize base e').1 k) ∧
    (ocOptimizeSteps baseSteps n e).2 = (ocOptimizeSteps baseSteps n e').2 ∧
    (∀ k, k ≠ "SCITOPT_SENSITIVITY_MODE" → (ocOptimizeSteps baseSteps n e).1 k = (ocOptimizeSteps baseSteps n e').1 k) := by
  have he : e.put modeKey (some "current") = e'.put modeKey (some "current") := by
    funext k
    unfold Vars.put
    by_cases hk : k = modeKey
    · rw [if_pos hk, if_pos hk]
    · rw [if_neg hk, if_neg hk]; exact h k hk
  have off : ∀ (e : Vars) v k, k ≠ "SCITOPT_SENSITIVITY_MODE" → e.put modeKey v k = e k := fun e v k hk => if_neg hk
  unfold ocOptimize ocOptimizeSteps
  simp only [withMode_eq, he]
  refine ⟨trivial, fun k hk => ?_, trivial, fun k hk => ?_⟩ <;> rw [off _ _ k hk, off _ _ k hk]

/-- **C115 (sessions).** A session of any number of OC calls, some of which may raise, of runs that do not write the
environment themselves ends in exactly the environment it started in, and every call behaves as it would alone. -/
theorem C115_session {α : Type} (calls : List (Action α)) (e : Vars)
    (hc : ∀ a ∈ calls, ∃ base : Action α, (∀ e, (base e).1 = e) ∧ (a = ocOptimize base ∨ ∃ n, a = ocOptimizeSteps (fun _ => base) n)) :
    session calls e = (e, calls.map fun a => (a e).2) := by
  induction calls with
  | nil => rfl
  | cons a rest ih =>
    obtain ⟨base, hb, ha⟩ := hc a (by simp)
    have hw : (withMode base e).1 = e := by
      rw [withMode_eq]
      funext k
      show Vars.put _ modeKey _ k = e k
      rw [hb]
      unfold Vars.put
      by_cases hk : k = modeKey
      · rw [if_pos hk, hk]
      · rw [if_neg hk, if_neg hk]
    have h1 : (a e).1 = e := by
      rcases ha with rfl | ⟨n, rfl⟩ <;> exact hw
    have ih' := ih fun a ha => hc a (by simp [ha])
    unfold session
    rcases hae : a e with ⟨e', r⟩
    rw [hae] at h1
    simp only at h1
    subst h1
    simp only [ih', List.map_cons, hae]

/-- Non-vacuity: a run that raises after having changed both the mode and another variable. -/
def rude : Action Nat := fun e => ((e.put modeKey none).put "HOME" (some "/tmp"), .error .valueError)

example : let e : Vars := fun k => if k = modeKey then some "rubbish" else none
    (ocOptimize rude e).1 modeKey = some "rubbish" ∧ (rude e).1 modeKey = none ∧
    (ocOptimize rude e).1 "HOME" = some "/tmp" ∧ (ocOptimize rude e).2 = .error .valueError := by
  refine ⟨by decide, by decide, by decide, rfl⟩

/-- Non-vacuity of the sessions: two calls, the first of which raises. -/
example : let boom : Action Nat := fun e => (e, .error .valueError)
    let fine : Action Nat := fun e => (e, .ok 7)
    ∀ e : Vars, session [ocOptimize boom, ocOptimizeSteps (fun _ => fine) 3] e = (e, [.error .valueError, .ok 7]) := by
  intro boom fine e
  rw [C115_session]
  · rfl
  · intro a ha
    simp only [List.mem_cons, List.not_mem_nil, or_false] at ha
    rcases ha with rfl | rfl
    · exact ⟨boom, fun _ => rfl, Or.inl rfl⟩
    · exact ⟨fine, fun _ => rfl, Or.inr ⟨3, rfl⟩⟩

end Verif.Env
