import Verif.Props.Run
import Verif.Props.RunLog

/-!
C153: how often snapshots are taken has no influence on the optimization.
-/
namespace Verif.Driver
open Verif Verif.Snapshot

variable {E D X : Type} [DecidableEq E] [Zero D] [One D] [Max D] [Min D]

/-- The same optimization with another `record_times`. -/
abbrev Sys.recording (S : Sys E D X) (r : ℕ) : Sys E D X := { S with recordTimes := r }

/-- Two optimizer objects that differ at most in the snapshot files, and not in those before the optimization has started. -/
structure SameButFiles (o o' : Opt E D X) : Prop where
  rho : o'.world.rho = o.world.rho
  aux : o'.world.aux = o.world.aux
  trace : o'.world.trace = o.world.trace
  started : o'.started = o.started
  iterNext : o'.iterNext = o.iterNext
  completed : o'.completed = o.completed
  final : o'.final = o.final
  files : o.started = false → o'.world.files = o.world.files

theorem sameButFiles_iff {o o' : Opt E D X} : SameButFiles o o' ↔ (∃ f, o' = { o with world := { o.world with files := f } }) ∧
    (o.started = false → o' = o) := by
  constructor
  · rintro ⟨h1, h2, h3, h4, h5, h6, h7, h8⟩
    obtain ⟨⟨a1, a2, a3, a4⟩, a5, a6, a7, a8⟩ := o
    obtain ⟨⟨b1, b2, b3, b4⟩, b5, b6, b7, b8⟩ := o'
    simp only at h1 h2 h3 h4 h5 h6 h7 h8
    subst h1 h2 h3 h4 h5 h6 h7
    exact ⟨⟨_, rfl⟩, fun hs => by rw [h8 hs]⟩
  · rintro ⟨⟨f, rfl⟩, h⟩
    exact ⟨rfl, rfl, rfl, rfl, rfl, rfl, rfl, fun hs => by rw [h hs]⟩

omit [Max D] [Min D] in
theorem iterate_recording (S : Sys E D X) {r : ℕ} (h1 : 1 ≤ S.recordTimes ∧ S.recordTimes ≤ S.maxIters) (h2 : 1 ≤ r ∧ r ≤ S.maxIters) (last : Bool) (k : ℕ)
    (w : World E D X) (f : List (Name × (E → D))) :
    ∃ g, iterate (S.recording r) last k { w with files := f } =
      ({ (iterate S last k w).1 with files := g }, (iterate S last k w).2) := by
  have d1 : S.maxIters / S.recordTimes ≠ 0 := (Nat.div_pos h1.2 h1.1).ne'
  have d2 : S.maxIters / r ≠ 0 := (Nat.div_pos h2.2 h2.1).ne'
  unfold iterate
  simp only
  rcases hs : S.step k w.rho w.aux with ⟨x, e | new⟩
  · exact ⟨f, rfl⟩
  · simp only
    rcases hr : S.record k w.rho (pin S.pinned (setDesign S.design new w.rho)) x with ⟨y, e | conv⟩
    · exact ⟨f, rfl⟩
    · simp only
      rw [if_neg d1, if_neg d2]
      split_ifs <;> exact ⟨_, rfl⟩

omit [Max D] [Min D] in
theorem loop_recording (S : Sys E D X) {r : ℕ} (h1 : 1 ≤ S.recordTimes ∧ S.recordTimes ≤ S.maxIters) (h2 : 1 ≤ r ∧ r ≤ S.maxIters) :
    ∀ (n k : ℕ) (w : World E D X) (f : List (Name × (E → D))),
      ∃ g, loop (S.recording r) n k { w with files := f } = ({ (loop S n k w).1 with files := g }, (loop S n k w).2)
  | 0, k, w, f => ⟨f, rfl⟩
  | n + 1, k, w, f => by
    obtain ⟨g, hg⟩ := iterate_recording S h1 h2 (n == 0) k w f
    unfold loop
    rw [hg]
    rcases hi : iterate S (n == 0) k w with ⟨w1, e | c⟩
    · exact ⟨g, rfl⟩
    · cases c with
      | true => exact ⟨g, rfl⟩
      | false => exact loop_recording S h1 h2 n (k + 1) w1 g

theorem continue_recording (S : Sys E D X) {r : ℕ} (h1 : 1 ≤ S.recordTimes ∧ S.recordTimes ≤ S.maxIters) (h2 : 1 ≤ r ∧ r ≤ S.maxIters) (m : Option ℕ)
    (o : Opt E D X) (f : List (Name × (E → D))) :
    ∃ g, continueRun (S.recording r) m { o with world := { o.world with files := f } } =
      ({ (continueRun S m o).1 with world := { (continueRun S m o).1.world with files := g } }, (continueRun S m o).2) := by
  unfold continueRun
  simp only
  by_cases hd : S.maxIters + 1 ≤ o.iterNext
  · rw [if_pos hd, if_pos hd]
    exact ⟨f, rfl⟩
  · rw [if_neg hd, if_neg hd]
    obtain ⟨n, hn⟩ : ∃ n, n = (match m with
      | none => S.maxIters + 1
      | some n => min (o.iterNext + n) (S.maxIters + 1)) - o.iterNext := ⟨_, rfl⟩
    obtain ⟨g, hg⟩ := loop_recording S h1 h2 n o.iterNext o.world f
    rw [hn] at hg
    cases m with
    | none =>
      simp only at hg ⊢
      rw [hg]
      rcases loop S (S.maxIters + 1 - o.iterNext) o.iterNext o.world with ⟨w, e | ⟨k, conv⟩⟩
      · exact ⟨g, rfl⟩
      · simp only
        split_ifs <;> exact ⟨g, rfl⟩
    | some j =>
      simp only at hg ⊢
      rw [hg]
      rcases loop S (min (o.iterNext + j) (S.maxIters + 1) - o.iterNext) o.iterNext o.world with ⟨w, e | ⟨k, conv⟩⟩
      · exact ⟨g, rfl⟩
      · simp only
        split_ifs <;> exact ⟨g, rfl⟩

theorem init_recording (S : Sys E D X) (r : ℕ) (o : Opt E D X) : ensureInit (S.recording r) o = ensureInit S o := rfl

theorem continue_started (S : Sys E D X) (m : Option ℕ) (o : Opt E D X) : (continueRun S m o).1.started = o.started := by
  have main : ∀ n, (match loop S n o.iterNext o.world with
      | (w, .error e) => (({ o with world := w } : Opt E D X), (.error e : Res Unit))
      | (w, .ok (k, conv)) =>
        if conv = true ∨ S.maxIters + 1 ≤ k then (finalize S { o with world := w, iterNext := k }, .ok ())
        else ({ o with world := w, iterNext := k }, .ok ())).1.started = o.started := by
    intro n
    rcases loop S n o.iterNext o.world with ⟨w, e | ⟨k, conv⟩⟩
    · rfl
    · simp only
      split_ifs <;> rfl
  unfold continueRun
  split_ifs
  · rfl
  · cases m with
    | none => exact main (S.maxIters + 1 - o.iterNext)
    | some j => exact main (min (o.iterNext + j) (S.maxIters + 1) - o.iterNext)

theorem impl_recording (S : Sys E D X) {r : ℕ} (h1 : 1 ≤ S.recordTimes ∧ S.recordTimes ≤ S.maxIters) (h2 : 1 ≤ r ∧ r ≤ S.maxIters) (m : Option ℕ)
    {o o' : Opt E D X} (h : SameButFiles o o') :
    SameButFiles (optimizeImpl S m o).1 (optimizeImpl (S.recording r) m o').1 ∧ (optimizeImpl (S.recording r) m o').2 = (optimizeImpl S m o).2 := by
  rw [optimizeImpl_eq, optimizeImpl_eq]
  by_cases hc : o.completed = true
  · rw [if_pos hc, if_pos (h.completed.trans hc)]
    exact ⟨h, rfl⟩
  rw [if_neg hc, if_neg (by rw [h.completed]; exact hc), init_recording S r o']
  obtain ⟨⟨f, hf⟩, hsame⟩ := sameButFiles_iff.mp h
  have key : ∀ (p : Opt E D X) (f : List (Name × (E → D))), p.started = true →
      SameButFiles (continueRun S m p).1 (continueRun (S.recording r) m { p with world := { p.world with files := f } }).1 ∧
        (continueRun (S.recording r) m { p with world := { p.world with files := f } }).2 = (continueRun S m p).2 := by
    intro p f hp
    obtain ⟨g, hg⟩ := continue_recording S h1 h2 m p f
    rw [hg]
    refine ⟨sameButFiles_iff.mpr ⟨⟨g, rfl⟩, fun hs => ?_⟩, rfl⟩
    rw [continue_started, hp] at hs
    cases hs
  by_cases hs : o.started = true
  · rw [ensureInit_started S hs, ensureInit_started S (h.started.trans hs)]
    subst hf
    exact key o f hs
  · have hsf : o.started = false := by simpa using hs
    rw [hsame hsf]
    rcases he : ensureInit S o with ⟨o1, e | u⟩
    · refine ⟨sameButFiles_iff.mpr ⟨⟨o1.world.files, rfl⟩, fun _ => rfl⟩, rfl⟩
    · cases u
      exact key o1 o1.world.files (ensureInit_ok he).1

/-- **C153.** One call: two optimizers with admissible numbers of recordings (from 1 to `max_iters`) that agree except in the snapshot files
still do so after any call of `optimize` or `optimize_steps`, which also returns or raises the same. -/
theorem C153_call (S : Sys E D X) (r : ℕ) (h1 : 1 ≤ S.recordTimes ∧ S.recordTimes ≤ S.maxIters) (h2 : 1 ≤ r ∧ r ≤ S.maxIters) (c : Call)
    (o o' : Opt E D X) (h : SameButFiles o o') :
    SameButFiles (c.run S o).1 (c.run (S.recording r) o').1 ∧ (c.run (S.recording r) o').2 = (c.run S o).2 := by
  cases c with
  | optimize => exact impl_recording S h1 h2 none h
  | steps n =>
    simp only [Call.run, optimizeSteps]
    split_ifs
    · exact ⟨h, rfl⟩
    · exact impl_recording S h1 h2 _ h

/-- Every call of a list is made, whatever the earlier ones raised: the object after it, and the outcomes. -/
def allCalls (S : Sys E D X) : List Call → Opt E D X → Opt E D X × List (Res Unit)
  | [], o => (o, [])
  | c :: cs, o =>
    let a := c.run S o
    let b := allCalls S cs a.1
    (b.1, a.2 :: b.2)

/-- **C153.** How often snapshots are taken has no influence: whatever the optimizer, the task, the filter and the convergence behaviour are,
and whatever calls are made — also after calls that raised — an optimization with another admissible `record_times` has the same
densities, the same histories and schedules, executes the same iterations, raises the same exceptions and completes at the same time. -/
theorem C153_recording_harmless (S : Sys E D X) (r : ℕ) (h1 : 1 ≤ S.recordTimes ∧ S.recordTimes ≤ S.maxIters) (h2 : 1 ≤ r ∧ r ≤ S.maxIters)
    (rho0 : E → D) (x : X) (files : List (Name × (E → D))) (cs : List Call) :
    SameButFiles (allCalls S cs (fresh rho0 x files)).1 (allCalls (S.recording r) cs (fresh rho0 x files)).1 ∧
      (allCalls (S.recording r) cs (fresh rho0 x files)).2 = (allCalls S cs (fresh rho0 x files)).2 := by
  have main : ∀ (cs : List Call) (o o' : Opt E D X), SameButFiles o o' →
      SameButFiles (allCalls S cs o).1 (allCalls (S.recording r) cs o').1 ∧ (allCalls (S.recording r) cs o').2 = (allCalls S cs o).2 := by
    intro cs
    induction cs with
    | nil => exact fun o o' h => ⟨h, rfl⟩
    | cons c cs ih =>
      intro o o' h
      obtain ⟨g1, g2⟩ := C153_call S r h1 h2 c o o' h
      obtain ⟨k1, k2⟩ := ih _ _ g1
      unfold allCalls
      exact ⟨k1, by simp only; rw [g2, k2]⟩
  exact main cs _ _ ⟨rfl, rfl, rfl, rfl, rfl, rfl, rfl, fun _ => rfl⟩

end Verif.Driver

namespace Verif.Run
open Verif Verif.Spec Verif.Driver

noncomputable section
open Classical

variable {ι E Q : Type} [Fintype ι] [Fintype E] [Fintype Q] {d m : ℕ}

/-- **C153.** In particular for well-posed OC runs: same densities and histories. -/
theorem C153_oc (R : Setup ι E Q d m) (h : WellPosed R) (r : ℕ) (hr : 1 ≤ r ∧ r ≤ R.maxIters) (files : List (Snapshot.Name × (E → ℝ))) (cs : List Call) :
    SameButFiles (allCalls (sys R) cs (newRun R.toCommon files)).1
      (allCalls (sys { R with recordTimes := r }) cs (newRun { R with recordTimes := r : Setup ι E Q d m }.toCommon files)).1 :=
  (C153_recording_harmless (sys R) r h.record hr _ _ _ cs).1

example := C153_oc chainRun chainRun_wellPosed 20 ⟨by norm_num, by norm_num [chainRun]⟩ [] [.steps 3, .optimize]

end
end Verif.Run
