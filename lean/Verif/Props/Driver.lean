import Verif.Lemmas.Driver

/-!
Theorems about the iteration driver (C33–C38, C58, C59).

They hold for every update rule, solver, filter, recorder and convergence test (`Sys.step`,
`Sys.record` are arbitrary), every configuration and every directory content.
-/
namespace Verif.Driver
open Verif.Snapshot

set_option linter.unusedSectionVars false

variable {E D X : Type} [DecidableEq E] [Zero D] [One D] [Max D] [Min D]

/-! ### A concrete system used to show that hypotheses can be met

Three elements, element 0 is loaded (pinned, not design), 1 and 2 are design elements; every
iteration adds 1 to the design densities and appends its number to the history. -/

/-- `maxIters` iterations, `recordTimes` records; converges at iteration `convAt`; raises at
iteration `failAt` the first time it is reached (`X = (history, already failed)`). -/
def demo (maxIters recordTimes convAt failAt : ℕ) : Sys (Fin 3) ℕ (List ℕ × Bool) where
  maxIters := maxIters
  recordTimes := recordTimes
  restart := false
  restartFrom := -1
  valInit := 5
  rhoMin := 0
  rhoMax := 100
  design := {1, 2}
  pinned := some {0}
  fixed := {0}
  step := fun k rho x =>
    if k = failAt ∧ x.2 = false then ((x.1, true), .error .runtimeError)
    else (x, .ok (fun e => rho e + 1))
  record := fun k _ _ x => ((x.1 ++ [k], x.2), .ok (k == convAt))
  exportHist := id
  importHist := id
  initSched := fun x => (x, .ok ())

/-- A new optimizer in an empty directory. -/
def demo0 : Opt (Fin 3) ℕ (List ℕ × Bool) := fresh (fun _ => 0) ([], false) []

/-! ### C33 -/

/-- Every started optimizer has an iteration counter of at least 1. -/
theorem reachable_counter {S : Sys E D X} {o : Opt E D X} (h : Reachable S o) :
    o.started = true → 1 ≤ o.iterNext := by
  induction h with
  | fresh => intro h; simp [fresh] at h
  | @call c o ho ih =>
    have key : ∀ m, (optimizeImpl S m o).1.started = true → 1 ≤ (optimizeImpl S m o).1.iterNext := by
      intro m
      rw [optimizeImpl_eq]
      split_ifs with hc
      · exact ih
      · rcases hE : ensureInit S o with ⟨o1, e | ⟨⟩⟩
        · simp only
          rcases ensureInit_cases S o with ⟨hs, h'⟩ | ⟨hs, ⟨x, e', h'⟩ | ⟨x, rho, k, hd, h'⟩⟩
          · rw [h'] at hE; simp at hE
          · rw [h'] at hE; simp only [Prod.mk.injEq] at hE; obtain ⟨rfl, -⟩ := hE; simp
          · rw [h'] at hE; simp at hE
        · have h1 : 1 ≤ o1.iterNext := by
            rcases hs : o.started with _ | _
            · exact iterNext_pos hE hs
            · rw [(ensureInit_ok hE).2.2.2.2 hs]; exact ih hs
          intro _
          simp only
          rcases continueRun_cases S m o1 with ⟨-, h'⟩ | ⟨-, n, -, -, ⟨w, e, -, h'⟩ | ⟨w, k, c', hl, ⟨-, h'⟩ | ⟨-, h'⟩⟩⟩ <;>
            rw [h']
          · exact h1
          · exact h1
          · have := (loop_end S _ _ _ _ _ _ hl).1; simp only [finalize]; omega
          · have := (loop_end S _ _ _ _ _ _ hl).1; simp only; omega
    cases c with
    | optimize => exact key none
    | steps n =>
      simp only [Call.run, optimizeSteps]
      split_ifs
      · exact ih
      · exact key _

/-- **C33.** From any state of an optimizer, `optimize_steps(n₁); optimize_steps(n₂); …` with
positive counts adding up to at least `max_iters` ends exactly like `optimize()`: with the same
outcome (normal return or the same exception), the same densities, the same histories and other
state (`aux`), the same iterations executed, the same completion flag and, on normal return, the
same next iteration number. -/
theorem C33_split_run_equals_full_run {S : Sys E D X} {o : Opt E D X} (hr : Reachable S o)
    (ns : List ℕ) (hpos : ∀ n ∈ ns, 0 < n) (hne : ns ≠ []) (hsum : S.maxIters ≤ ns.sum) :
    let full := optimize S o
    let split := runCalls S (ns.map fun n : ℕ => Call.steps n) o
    split.2 = full.2 ∧ split.1.world.rho = full.1.world.rho ∧
      split.1.world.aux = full.1.world.aux ∧ split.1.world.trace = full.1.world.trace ∧
      split.1.completed = full.1.completed ∧ split.1.started = full.1.started ∧
      (full.2 = .ok () → split.1.iterNext = full.1.iterNext) := by
  obtain ⟨⟨⟨h1, h2, h3⟩, -⟩, h4, h5, h6, h7⟩ :=
    split_run S False ns o (reachable_counter hr) (fun h => h.elim) hpos hne hsum
  exact ⟨h6.symm, h1.symm, h2.symm, h3.symm, h5.symm, h4.symm, fun h => (h7 h).symm⟩

/-- The same for a program that begins with step calls and then calls `optimize()`: the first
chunks never matter. -/
theorem C33_steps_then_optimize {S : Sys E D X} {o : Opt E D X} (hr : Reachable S o) (a : ℕ)
    (ha : 0 < a) :
    let full := optimize S o
    let split := runCalls S [.steps a, .optimize] o
    split.2 = full.2 ∧ split.1.world.rho = full.1.world.rho ∧
      split.1.world.aux = full.1.world.aux ∧ split.1.world.trace = full.1.world.trace ∧
      split.1.completed = full.1.completed ∧
      (full.2 = .ok () → split.1.iterNext = full.1.iterNext) := by
  have h1 := C33_split_run_equals_full_run hr [a, S.maxIters + 1] (by simp; omega) (by simp)
    (by simp; omega)
  have hopt : ∀ p : Opt E D X, Reachable S p →
      (optimize S p).2 = (runCalls S [Call.steps ((S.maxIters + 1 : ℕ) : ℤ)] p).2 ∧
      (optimize S p).1.world.rho = (runCalls S [Call.steps ((S.maxIters + 1 : ℕ) : ℤ)] p).1.world.rho ∧
      (optimize S p).1.world.aux = (runCalls S [Call.steps ((S.maxIters + 1 : ℕ) : ℤ)] p).1.world.aux ∧
      (optimize S p).1.world.trace = (runCalls S [Call.steps ((S.maxIters + 1 : ℕ) : ℤ)] p).1.world.trace ∧
      (optimize S p).1.completed = (runCalls S [Call.steps ((S.maxIters + 1 : ℕ) : ℤ)] p).1.completed ∧
      ((optimize S p).2 = .ok () →
        (optimize S p).1.iterNext = (runCalls S [Call.steps ((S.maxIters + 1 : ℕ) : ℤ)] p).1.iterNext) := by
    intro p hp
    obtain ⟨h1, h2, h3, h4, h5, -, h7⟩ :=
      C33_split_run_equals_full_run hp [S.maxIters + 1] (by simp) (by simp) (by simp)
    exact ⟨h1.symm, h2.symm, h3.symm, h4.symm, h5.symm, fun h => (h7 h).symm⟩
  simp only [List.map_cons, List.map_nil] at h1
  have hreach : Reachable S ((Call.steps (a : ℤ)).run S o).1 := .call _ hr
  simp only [runCalls] at h1 ⊢
  revert h1 hreach
  rcases (Call.steps (a : ℤ)).run S o with ⟨p, e | ⟨⟩⟩ <;> intro h1 hreach
  · obtain ⟨g1, g2, g3, g4, g5, -, g7⟩ := h1
    exact ⟨g1, g2, g3, g4, g5, g7⟩
  · obtain ⟨k1, k2, k3, k4, k5, k7⟩ := hopt p hreach
    obtain ⟨g1, g2, g3, g4, g5, -, g7⟩ := h1
    simp only at g1 g2 g3 g4 g5 g7 ⊢
    simp only [runCalls] at k1 k2 k3 k4 k5 k7
    have hop : Call.optimize.run S p = optimize S p := rfl
    rw [hop]
    revert k1 k2 k3 k4 k5 k7
    rcases optimize S p with ⟨q, e' | ⟨⟩⟩ <;> intro k1 k2 k3 k4 k5 k7 <;>
      simp only at k1 k2 k3 k4 k5 k7 ⊢
    · exact ⟨k1.trans g1, k2.trans g2, k3.trans g3, k4.trans g4, k5.trans g5,
        fun h => by rw [← g1, ← k1] at h; simp at h⟩
    · exact ⟨k1.trans g1, k2.trans g2, k3.trans g3, k4.trans g4, k5.trans g5,
        fun h => (k7 trivial).trans (g7 h)⟩

/-- Non-vacuity: seven iterations split as 2+3+9 really run all seven, and converging runs stop. -/
example : (runCalls (demo 7 2 100 100) ([2, 3, 9].map fun n : ℕ => Call.steps n) demo0).1.world.trace
      = [1, 2, 3, 4, 5, 6, 7]
    ∧ (runCalls (demo 7 2 100 100) ([2, 3, 9].map fun n : ℕ => Call.steps n) demo0).1.world.rho 1 = 12
    ∧ (optimize (demo 7 2 100 100) demo0).1.world.rho 1 = 12
    ∧ (runCalls (demo 7 2 4 100) ([2, 3, 9].map fun n : ℕ => Call.steps n) demo0).1.world.trace
      = [1, 2, 3, 4] := by decide

/-! ### C34 -/

/-- **C34.** Once a run has completed, no call changes anything about the optimizer, its densities,
histories or files, and no call raises. -/
theorem C34_completed_is_inert (S : Sys E D X) {o : Opt E D X} (h : o.completed = true)
    (cs : List Call) : runCalls S cs o = (o, .ok ()) := runSteps_completed S cs h

/-- **C34.** `optimize_steps` with a count that is not positive never changes anything. -/
theorem C34_nonpositive_steps_noop (S : Sys E D X) (o : Opt E D X) {n : ℤ} (h : n ≤ 0) :
    optimizeSteps S n o = (o, .ok ()) := by simp [optimizeSteps, h]

/-- **C34.** `optimize()` returning normally means the run has completed — so it can be called
once only. -/
theorem C34_optimize_completes (S : Sys E D X) {o o' : Opt E D X} (h : optimize S o = (o', .ok ())) :
    o'.completed = true := by
  rw [optimize, optimizeImpl_eq] at h
  split_ifs at h with hc
  · simp only [Prod.mk.injEq, and_true] at h; rw [← h]; exact hc
  · rcases hE : ensureInit S o with ⟨o1, e | ⟨⟩⟩ <;> rw [hE] at h <;> simp only at h
    · simp at h
    · rcases continueRun_cases S none o1 with ⟨-, h'⟩ | ⟨hle, n, -, hn, ⟨w, e, -, h'⟩ | ⟨w, k, c', hl, ⟨-, h'⟩ | ⟨hk, h'⟩⟩⟩ <;>
        rw [h'] at h <;> simp only [Prod.mk.injEq, reduceCtorEq, and_false, and_true] at h
      · rw [← h]; rfl
      · rw [← h]; rfl
      · have := (loop_end S _ _ _ _ _ _ hl).2.2.1 hk.1
        simp only [chunkLen] at hn
        omega

example : (optimize (demo 7 2 4 100) demo0).1.completed = true
    ∧ (optimize (demo 7 2 4 100) demo0).2 = .ok () := by decide

/-! ### C35 -/

/-- The first iteration number of a run, in terms of the configuration: 1 for a new run,
`restart_from + 1` for a restart from a chosen snapshot, and one more than the newest snapshot
otherwise. -/
def FirstIteration (S : Sys E D X) (files : List (Name × (E → D))) (b : ℕ) : Prop :=
  if S.restart = true then
    if 0 < S.restartFrom then (b : ℤ) = S.restartFrom + 1
    else (b : ℤ) = (findLatest (files.map Prod.fst)).1 + 1
  else b = 1

theorem initializeDensity_first {S : Sys E D X} {files : List (Name × (E → D))} {rho : E → D} {k : ℕ}
    (hd : initializeDensity S files = .ok (rho, k)) : FirstIteration S files k := by
  have hp := initializeDensity_pos hd
  revert hd
  unfold initializeDensity FirstIteration
  simp only
  split_ifs with h1 h2
  · cases load files (snapshotName S.restartFrom.toNat) with
    | none => simp
    | some d => simp only [Except.ok.injEq, Prod.mk.injEq]; rintro ⟨-, rfl⟩; omega
  · rcases hf : findLatest (files.map Prod.fst) with ⟨n, _ | name⟩
    · simp
    · simp only
      cases load files name with
      | none => simp
      | some d =>
        simp only [Except.ok.injEq, Prod.mk.injEq]; rintro ⟨-, rfl⟩
        omega
  · simp only [Except.ok.injEq, Prod.mk.injEq]; rintro ⟨-, rfl⟩; rfl

/-- What the trace of an optimizer looks like when no call raised: nothing ran yet, or the
iterations executed are `b, b+1, …, iterNext - 1`. -/
def GoodTrace (S : Sys E D X) (files : List (Name × (E → D))) (o : Opt E D X) : Prop :=
  (o.started = false ∧ o.world.trace = [] ∧ o.world.files = files ∧ o.completed = false) ∨
  (o.started = true ∧ ∃ b n, FirstIteration S files b ∧ o.world.trace = List.range' b n ∧
    o.iterNext = b + n ∧ (∀ k ∈ o.world.trace, k ≤ S.maxIters))

theorem goodTrace_impl {S : Sys E D X} {files : List (Name × (E → D))} {o o' : Opt E D X}
    (m : Option ℕ) (hg : GoodTrace S files o) (h : optimizeImpl S m o = (o', .ok ())) :
    GoodTrace S files o' := by
  rw [optimizeImpl_eq] at h
  split_ifs at h with hc
  · simp only [Prod.mk.injEq, and_true] at h; exact h ▸ hg
  · have hstart : ∃ o1, ensureInit S o = (o1, .ok ()) ∧ o1.started = true ∧
        ∃ b n, FirstIteration S files b ∧ o1.world.trace = List.range' b n ∧
        o1.iterNext = b + n ∧ (∀ k ∈ o1.world.trace, k ≤ S.maxIters) := by
      rcases hg with ⟨hs, ht, hf, -⟩ | ⟨hs, hb⟩
      · rcases ensureInit_cases S o with ⟨hs', h'⟩ | ⟨-, ⟨x, e', h'⟩ | ⟨x, rho, k, hd, h'⟩⟩
        · simp [hs] at hs'
        · rw [h'] at h; simp at h
        · refine ⟨_, h', rfl, k, 0, ?_, by simp [ht], rfl, by simp [ht]⟩
          rw [← hf]; exact initializeDensity_first hd
      · exact ⟨o, ensureInit_started S hs, hs, hb⟩
    obtain ⟨o1, hE, hs1, b, n, hb, ht, hi, hle⟩ := hstart
    rw [hE] at h
    simp only at h
    rcases continueRun_cases S m o1 with ⟨-, h'⟩ | ⟨hlt, j, hj, -, ⟨w, e, -, h'⟩ | ⟨w, k, c', hl, hlast⟩⟩
    · rw [h'] at h; simp only [Prod.mk.injEq, and_true] at h; subst h
      exact Or.inr ⟨hs1, b, n, hb, ht, hi, hle⟩
    · rw [h'] at h; simp at h
    · obtain ⟨e1, e2, -, e4, -⟩ := loop_end S _ _ _ _ _ _ hl
      have htr : w.trace = List.range' b (n + (k - o1.iterNext)) := by
        rw [e4, ht, hi, List.range'_append_1]
      have hle' : ∀ q ∈ w.trace, q ≤ S.maxIters := by
        intro q hq
        rw [htr, List.mem_range'_1] at hq
        omega
      have hk : k = b + (n + (k - o1.iterNext)) := by omega
      rcases hlast with ⟨-, h'⟩ | ⟨-, h'⟩ <;> rw [h'] at h <;>
        simp only [Prod.mk.injEq, and_true] at h <;> subst h
      · exact Or.inr ⟨hs1, b, _, hb, htr, hk, hle'⟩
      · exact Or.inr ⟨hs1, b, _, hb, htr, hk, hle'⟩

theorem goodTrace_calls {S : Sys E D X} {files : List (Name × (E → D))} : ∀ (cs : List Call)
    {o o' : Opt E D X}, GoodTrace S files o → runCalls S cs o = (o', .ok ()) → GoodTrace S files o'
  | [], o, o', hg, h => by
    simp only [runCalls, Prod.mk.injEq, and_true] at h; exact h ▸ hg
  | c :: cs, o, o', hg, h => by
    simp only [runCalls] at h
    rcases hc : c.run S o with ⟨p, e | ⟨⟩⟩ <;> rw [hc] at h <;> simp only at h
    · simp at h
    · refine goodTrace_calls cs ?_ h
      cases c with
      | optimize => exact goodTrace_impl none hg hc
      | steps n =>
        simp only [Call.run, optimizeSteps] at hc
        split_ifs at hc
        · simp only [Prod.mk.injEq, and_true] at hc; exact hc ▸ hg
        · exact goodTrace_impl _ hg hc

/-- **C35.** Over the life of an optimizer, for any program of calls that does not raise, the
iterations executed are the consecutive numbers `b, b+1, …`, each once, where `b` is 1 for a new run
and the restart point plus one otherwise; none exceeds `max_iters`; and the next iteration is the
one after the last executed. -/
theorem C35_iterations_consecutive (S : Sys E D X) (rho0 : E → D) (x : X)
    (files : List (Name × (E → D))) (cs : List Call) (o : Opt E D X)
    (h : runCalls S cs (fresh rho0 x files) = (o, .ok ())) :
    (o.started = false ∧ o.world.trace = []) ∨
    ∃ b n, FirstIteration S files b ∧ o.world.trace = List.range' b n ∧ o.iterNext = b + n ∧
      (∀ k ∈ o.world.trace, k ≤ S.maxIters) := by
  rcases goodTrace_calls cs (Or.inl ⟨rfl, rfl, rfl, rfl⟩ : GoodTrace S files (fresh rho0 x files)) h with
    ⟨h1, h2, -⟩ | ⟨-, h⟩
  · exact Or.inl ⟨h1, h2⟩
  · exact Or.inr h

/-- **C35.** A call of `optimize_steps(n)` executes at most `n` iterations, whatever its outcome. -/
theorem C35_steps_at_most (S : Sys E D X) (n : ℤ) (o : Opt E D X) :
    ∃ l : List ℕ, (optimizeSteps S n o).1.world.trace = o.world.trace ++ l ∧ (l.length : ℤ) ≤ max n 0 := by
  unfold optimizeSteps
  split_ifs with hn
  · exact ⟨[], by simp, by simp⟩
  · rw [optimizeImpl_eq]
    split_ifs
    · exact ⟨[], by simp, by simp⟩
    · have key : ∀ o1 : Opt E D X, o1.world.trace = o.world.trace →
          ∃ l : List ℕ, (continueRun S (some n.toNat) o1).1.world.trace = o.world.trace ++ l ∧
            (l.length : ℤ) ≤ max n 0 := by
        intro o1 ht
        rcases continueRun_cases S (some n.toNat) o1 with ⟨-, h'⟩ | ⟨-, j, -, hj, hrest⟩
        · rw [h']; exact ⟨[], by simp [finalize, ht], by simp⟩
        · have hjn : j ≤ n.toNat := by rw [hj]; simp [chunkLen]
          have hl := loop_trace S j o1.iterNext o1.world
          rcases hrest with ⟨w, e, hl', h'⟩ | ⟨w, k, c', hl', ⟨-, h'⟩ | ⟨-, h'⟩⟩ <;> rw [h'] <;>
            rw [hl'] at hl <;> obtain ⟨m, hm, hm'⟩ := hl <;>
            refine ⟨List.range' o1.iterNext m, ?_, by simp; omega⟩ <;> rw [← ht] <;> exact hm'
      rcases ensureInit_cases S o with ⟨hs, h'⟩ | ⟨hs, ⟨x, e, h'⟩ | ⟨x, rho, k, hd, h'⟩⟩ <;> rw [h']
      · exact key o rfl
      · exact ⟨[], by simp, by simp⟩
      · exact key _ rfl

example : (runCalls (demo 7 2 100 100) [.steps 2, .steps (-1), .steps 3] demo0).2 = .ok ()
    ∧ (runCalls (demo 7 2 100 100) [.steps 2, .steps (-1), .steps 3] demo0).1.world.trace = [1, 2, 3, 4, 5]
    := by decide

/-! ### C36 -/

/-- An invariant of densities that initialisation establishes and every iteration keeps holds in
every started state. -/
theorem reachable_rho {S : Sys E D X} (P : (E → D) → Prop)
    (h0 : ∀ rho : E → D, P (pin (some S.fixed) (pin S.pinned rho)))
    (hP : ∀ rho new, P rho → P (newRho S new rho)) {o : Opt E D X} (h : Reachable S o) :
    o.started = true → P o.world.rho := by
  have hinit : ∀ files rho k, initializeDensity S files = .ok (rho, k) → P rho := by
    intro files rho k hd
    unfold initializeDensity at hd
    simp only at hd
    split_ifs at hd
    · revert hd
      cases load files (snapshotName S.restartFrom.toNat) with
      | none => simp
      | some d => simp only [Except.ok.injEq, Prod.mk.injEq]; rintro ⟨rfl, -⟩; exact h0 _
    · revert hd
      rcases hf : findLatest (files.map Prod.fst) with ⟨n, _ | name⟩
      · simp
      · simp only
        cases load files name with
        | none => simp
        | some d => simp only [Except.ok.injEq, Prod.mk.injEq]; rintro ⟨rfl, -⟩; exact h0 _
    · simp only [Except.ok.injEq, Prod.mk.injEq] at hd; obtain ⟨rfl, -⟩ := hd; exact h0 _
  induction h with
  | fresh => intro h; simp [fresh] at h
  | @call c o ho ih =>
    have hcont : ∀ m (o1 : Opt E D X), P o1.world.rho → P (continueRun S m o1).1.world.rho := by
      intro m o1 h1
      rcases continueRun_cases S m o1 with ⟨-, h'⟩ | ⟨-, j, -, -, hrest⟩
      · rw [h']; exact h1
      · have hl := loop_induct S P hP j o1.iterNext o1.world h1
        rcases hrest with ⟨w, e, hl', h'⟩ | ⟨w, k, c', hl', ⟨-, h'⟩ | ⟨-, h'⟩⟩ <;> rw [h'] <;>
          rw [hl'] at hl <;> exact hl
    have key : ∀ m, (optimizeImpl S m o).1.started = true → P (optimizeImpl S m o).1.world.rho := by
      intro m
      rw [optimizeImpl_eq]
      split_ifs with hc
      · exact ih
      · rcases ensureInit_cases S o with ⟨hs, h'⟩ | ⟨hs, ⟨x, e, h'⟩ | ⟨x, rho, k, hd, h'⟩⟩ <;> rw [h']
        · exact fun _ => hcont m o (ih hs)
        · simp
        · exact fun _ => hcont m _ (hinit _ _ _ hd)
    cases c with
    | optimize => exact key none
    | steps n =>
      simp only [Call.run, optimizeSteps]
      split_ifs
      · exact ih
      · exact key _

/-- **C36.** In every state reached by any history of calls (also after exceptions), once a run has
started, every element carrying a load (or, when Dirichlet elements are excluded from design, a
boundary condition) has density exactly 1, and so has every fixed element outside the design set. -/
theorem C36_loaded_and_fixed_have_density_one {S : Sys E D X} {o : Opt E D X} (h : Reachable S o)
    (hs : o.started = true) {s : Finset E} (hp : S.pinned = some s) (e : E)
    (he : e ∈ s ∨ (e ∈ S.fixed ∧ e ∉ S.design)) : o.world.rho e = 1 := by
  refine reachable_rho (S := S) (fun rho => rho e = 1) ?_ ?_ h hs
  · intro rho
    simp only [pin, hp]
    rcases he with h | h
    · split_ifs <;> rfl
    · rw [if_pos h.1]
  · intro rho new hrho
    simp only [newRho, pin, hp, setDesign]
    rcases he with h | h
    · rw [if_pos h]
    · rw [if_neg h.2]; split_ifs
      · rfl
      · exact hrho

/-- **C36.** No call on a started run changes the density of an element that is neither a design
element nor pinned. -/
theorem C36_non_design_untouched (S : Sys E D X) {o : Opt E D X} (hs : o.started = true) {s : Finset E}
    (hp : S.pinned = some s) (c : Call) (e : E) (hd : e ∉ S.design) (he : e ∉ s) :
    (c.run S o).1.world.rho e = o.world.rho e := by
  have key : ∀ m, (optimizeImpl S m o).1.world.rho e = o.world.rho e := by
    intro m
    rw [optimizeImpl_eq]
    split_ifs
    · rfl
    · rw [ensureInit_started S hs]
      simp only
      rcases continueRun_cases S m o with ⟨-, h'⟩ | ⟨-, j, -, -, hrest⟩
      · rw [h']; rfl
      · have hl := loop_induct S (fun rho => rho e = o.world.rho e)
          (fun rho new h => by simpa [newRho, pin, hp, setDesign, hd, he] using h) j o.iterNext o.world rfl
        rcases hrest with ⟨w, e, hl', h'⟩ | ⟨w, k, c', hl', ⟨-, h'⟩ | ⟨-, h'⟩⟩ <;> rw [h'] <;>
          rw [hl'] at hl <;> exact hl
  cases c with
  | optimize => exact key none
  | steps n =>
    simp only [Call.run, optimizeSteps]
    split_ifs
    · rfl
    · exact key _

example : Reachable (demo 7 2 100 3) ((Call.optimize).run (demo 7 2 100 3) demo0).1 ∧
    ((Call.optimize).run (demo 7 2 100 3) demo0).1.started = true ∧
    (demo 7 2 100 3).pinned = some {0} ∧
    ((Call.optimize).run (demo 7 2 100 3) demo0).1.world.rho 0 = 1 ∧
    ((Call.optimize).run (demo 7 2 100 3) demo0).1.world.rho 1 = 7 :=
  ⟨.call _ (.fresh _ _ _), by decide, rfl, by decide, by decide⟩

/-! ### C58: pinning with no load elements -/

/-- **C58 (refuted).** "Design elements that carry no load keep the density the update computed" is
false when the task has no load elements (`neumann_elements is None`, as for every heat-conduction
task) and `design_dirichlet` is true: after every iteration every density is exactly 1, whatever the
update computed. -/
theorem C58_no_load_elements_pins_everything {S : Sys E D X} {o : Opt E D X} (h : Reachable S o)
    (hs : o.started = true) (hp : S.pinned = none) (e : E) : o.world.rho e = 1 := by
  refine reachable_rho (S := S) (fun rho => rho e = 1) ?_ ?_ h hs
  · intro rho
    simp only [pin, hp, ite_self]
  · intro rho new hrho
    simp only [newRho, pin, hp]

/-- **C58.** With a set of load elements, a design element outside it has, after a call
`optimize_steps(1)` that executes one iteration, exactly the density the update computed. -/
theorem C58_design_elements_get_update (S : Sys E D X) {o : Opt E D X} (hs : o.started = true)
    (hc : o.completed = false) (hk : o.iterNext ≤ S.maxIters) {s : Finset E} (hp : S.pinned = some s)
    {x : X} {new : E → D} (hstep : S.step o.iterNext o.world.rho o.world.aux = (x, .ok new)) (e : E)
    (he : e ∈ S.design) (hne : e ∉ s) : (optimizeSteps S 1 o).1.world.rho e = new e := by
  have hnew : newRho S new o.world.rho e = new e := by
    simp [newRho, pin, hp, hne, setDesign, he]
  unfold optimizeSteps
  rw [if_neg (by omega), optimizeImpl_eq, if_neg (by simp [hc]), ensureInit_started S hs]
  simp only
  rcases continueRun_cases S (some (1 : ℤ).toNat) o with ⟨h, -⟩ | ⟨-, j, -, hj, hrest⟩
  · omega
  · have hj1 : j = 1 := by
      rw [hj]; simp only [chunkLen]; have : (1 : ℤ).toNat = 1 := rfl; omega
    subst hj1
    have hl : (loop S 1 o.iterNext o.world).1.rho e = new e := by
      simp only [loop]
      rcases iterate_cases S (0 == 0) o.iterNext o.world with
        ⟨x', e', h1, h'⟩ | ⟨x', new', h1, ⟨y, e', -, h'⟩ | ⟨y, c', -, ⟨-, h'⟩ | ⟨-, h'⟩⟩⟩ <;>
        rw [hstep] at h1 <;>
        simp only [Prod.mk.injEq, reduceCtorEq, and_false, Except.ok.injEq] at h1 <;>
        obtain ⟨rfl, rfl⟩ := h1 <;> rw [h']
      · exact hnew
      · exact hnew
      · cases c' <;> exact hnew
    rcases hrest with ⟨w, e, hl', h'⟩ | ⟨w, k, c', hl', ⟨-, h'⟩ | ⟨-, h'⟩⟩ <;> rw [h'] <;>
      rw [hl'] at hl <;> exact hl

example : (optimizeSteps (demo 7 2 100 100) 1
      (optimizeSteps (demo 7 2 100 100) 1 demo0).1).1.world.rho 2 = 7 := by decide

/-- The refutation is not vacuous: the update asks for densities 6, 7, … and gets 1. -/
example : (optimize { demo 7 2 100 100 with pinned := none } demo0).1.world.rho 2 = 1
    ∧ (optimize { demo 7 2 100 100 with pinned := none } demo0).2 = .ok () := by decide

/-! ### C37 -/

/-- **C37.** Any call that returns normally and executed at least one iteration leaves the snapshot
of the last executed iteration in the directory, holding the current densities of the design
elements. -/
theorem C37_last_iteration_saved (S : Sys E D X) (c : Call) {o o' : Opt E D X}
    (h : c.run S o = (o', .ok ())) (hran : o'.world.trace ≠ o.world.trace) :
    ∃ k, o'.world.trace.getLast? = some k ∧
      load o'.world.files (snapshotName k) = some (designPart S.design o'.world.rho) := by
  have key : ∀ m, optimizeImpl S m o = (o', .ok ()) → ∃ k, o'.world.trace.getLast? = some k ∧
      load o'.world.files (snapshotName k) = some (designPart S.design o'.world.rho) := by
    intro m h
    rw [optimizeImpl_eq] at h
    split_ifs at h with hc
    · simp only [Prod.mk.injEq, and_true] at h; exact absurd (by rw [h]) hran
    · rcases hE : ensureInit S o with ⟨o1, e | ⟨⟩⟩ <;> rw [hE] at h <;> simp only at h
      · simp at h
      · have ht := (ensureInit_ok hE).2.2.2.1
        rcases continueRun_cases S m o1 with ⟨-, h'⟩ | ⟨hle, n, -, -, ⟨w, e, -, h'⟩ | ⟨w, k, c', hl, hlast⟩⟩
        · rw [h'] at h; simp only [Prod.mk.injEq, and_true] at h; subst h
          exact absurd ht hran
        · rw [h'] at h; simp at h
        · have hend := loop_end S _ _ _ _ _ _ hl
          have hsame : o'.world.trace = w.trace ∧ o'.world.files = w.files ∧ o'.world.rho = w.rho := by
            rcases hlast with ⟨-, h'⟩ | ⟨-, h'⟩ <;> rw [h'] at h <;>
              simp only [Prod.mk.injEq, and_true] at h <;> subst h <;> exact ⟨rfl, rfl, rfl⟩
          have hn : 0 < n := by
            rcases Nat.eq_zero_or_pos n with rfl | hn
            · simp only [loop, Prod.mk.injEq] at hl
              rw [hsame.1, ← hl.1, ht] at hran
              exact absurd rfl hran
            · exact hn
          have hk := hend.2.2.2.2 hn
          refine ⟨k - 1, ?_, ?_⟩
          · rw [hsame.1, hend.2.2.2.1, List.getLast?_append, List.getLast?_range']
            rw [if_neg (by omega)]
            simp only [Option.some_or, Option.some.injEq]
            omega
          · rw [hsame.2.1, hsame.2.2]
            exact loop_saved S n _ _ _ _ _ hn hl
  cases c with
  | optimize => exact key none h
  | steps n =>
    simp only [Call.run, optimizeSteps] at h
    split_ifs at h
    · simp only [Prod.mk.injEq, and_true] at h; exact absurd (by rw [h]) hran
    · exact key _ h

/-- **C37.** A single full run saves a subset of what a stepwise run saves: if the directory holds no
snapshot of an iteration still to be executed, every file present after `optimize()` is present,
with the same content, after any sequence of positive steps adding up to at least `max_iters`. -/
theorem C37_full_run_snapshots_subset {S : Sys E D X} {o : Opt E D X} (hr : Reachable S o)
    (hfut : ∀ o1, ensureInit S o = (o1, .ok ()) → ∀ k, o1.iterNext ≤ k →
      load o.world.files (snapshotName k) = none)
    (ns : List ℕ) (hpos : ∀ n ∈ ns, 0 < n) (hne : ns ≠ []) (hsum : S.maxIters ≤ ns.sum)
    (name : Name) (content : E → D)
    (hfull : load (optimize S o).1.world.files name = some content) :
    load (runCalls S (ns.map fun n : ℕ => Call.steps n) o).1.world.files name = some content := by
  obtain ⟨⟨-, h⟩, -⟩ :=
    split_run S True ns o (reachable_counter hr)
      (fun _ o1 h1 k hk => by rw [(ensureInit_ok h1).2.2.1]; exact hfut o1 h1 k hk) hpos hne hsum
  exact h trivial name content hfull

/-- Non-vacuity: a full run of 7 iterations with 2 records saves iterations 1, 3, 6, 7; in steps of
2, 3, 2 the run also saves 2 and 5. -/
example : ((optimize (demo 7 2 100 100) demo0).1.world.files.map Prod.fst) =
      [snapshotName 7, snapshotName 6, snapshotName 3, snapshotName 1]
    ∧ ((runCalls (demo 7 2 100 100) ([2, 3, 2].map fun n : ℕ => Call.steps n) demo0).1.world.files.map
      Prod.fst) = [snapshotName 7, snapshotName 6, snapshotName 5, snapshotName 3, snapshotName 2,
        snapshotName 1] := by decide

/-! ### C38 -/

/-- **C38 (refuted).** "A recording frequency larger than the iteration count is harmless" is false:
whenever `max_iters < record_times` (with at least one iteration to run), a new run whose update and
recording never fail raises `ZeroDivisionError` in its first iteration. -/
theorem C38_too_many_records_raises (S : Sys E D X) (h : S.maxIters < S.recordTimes)
    (h1 : 1 ≤ S.maxIters) (hnew : S.restart = false)
    (hsched : ∀ x, (S.initSched x).2 = .ok ())
    (hstep : ∀ k rho x, ∃ new, (S.step k rho x).2 = .ok new)
    (hrec : ∀ k rho rho' x, ∃ c, (S.record k rho rho' x).2 = .ok c)
    (rho0 : E → D) (x : X) (files : List (Name × (E → D))) :
    (optimize S (fresh rho0 x files)).2 = .error .zeroDivision ∧
    (optimize S (fresh rho0 x files)).1.world.trace = [1] := by
  have hdiv : S.maxIters / S.recordTimes = 0 := Nat.div_eq_of_lt h
  have hiter : ∀ b k w, (iterate S b k w).2 = .error .zeroDivision := by
    intro b k w
    rcases iterate_cases S b k w with
        ⟨x', e', h1, h'⟩ | ⟨x', new', h1, ⟨y, e', h2, h'⟩ | ⟨y, c', -, ⟨-, h'⟩ | ⟨hd, h'⟩⟩⟩
    · obtain ⟨new, hn⟩ := hstep k w.rho w.aux; rw [h1] at hn; simp at hn
    · obtain ⟨c, hn⟩ := hrec k w.rho (newRho S new' w.rho) x'; rw [h2] at hn; simp at hn
    · rw [h']
    · exact absurd hdiv hd
  rw [optimize, optimizeImpl_eq, if_neg (by simp [fresh])]
  rcases ensureInit_cases S (fresh rho0 x files) with ⟨hs, h'⟩ | ⟨hs, ⟨x', e, h'⟩ | ⟨x', rho, k, hd, h'⟩⟩
  · simp [fresh] at hs
  · exfalso
    unfold ensureInit at h'
    simp only [fresh, Bool.false_eq_true, if_false] at h'
    have := hsched x
    revert h' this
    rcases S.initSched x with ⟨y, e' | ⟨⟩⟩ <;> simp [initializeDensity, hnew]
  · rw [h']
    have hk : k = 1 := by
      have := initializeDensity_first hd
      simpa [FirstIteration, hnew] using this
    subst hk
    simp only
    rcases continueRun_cases S none (⟨⟨rho, x', (fresh rho0 x files).world.files,
        (fresh rho0 x files).world.trace⟩, true, 1, (fresh rho0 x files).completed, (fresh rho0 x files).final⟩ : Opt E D X) with
      ⟨h1', -⟩ | ⟨hle, n, -, hn, hrest⟩
    · simp only at h1'; omega
    · simp only [chunkLen] at hn
      obtain ⟨n', rfl⟩ : ∃ n', n = n' + 1 := ⟨n - 1, by omega⟩
      have h2 : ∀ w : World E D X, (loop S (n' + 1) 1 w).2 = .error .zeroDivision
          ∧ (loop S (n' + 1) 1 w).1.trace = w.trace ++ [1] := by
        intro w
        have hi := hiter (n' == 0) 1 w
        have ht := iterate_trace S (n' == 0) 1 w
        simp only [loop]
        revert hi ht
        rcases iterate S (n' == 0) 1 w with ⟨v, e | _ | _⟩ <;> intro hi ht <;> simp_all
      rcases hrest with ⟨w, e, hl', h'⟩ | ⟨w, k, c', hl', -⟩
      · rw [h']
        have := h2 ⟨rho, x', (fresh rho0 x files).world.files, (fresh rho0 x files).world.trace⟩
        simp only at hl'
        rw [hl'] at this
        simp only [Except.error.injEq] at this ⊢
        exact ⟨this.1, by rw [this.2]; rfl⟩
      · have := (h2 ⟨rho, x', (fresh rho0 x files).world.files, (fresh rho0 x files).world.trace⟩).1
        simp only at hl'
        rw [hl'] at this; simp at this

example : (optimize (demo 5 20 100 100) demo0).2 = .error .zeroDivision := by decide

/-- **C38 (partial).** With `1 ≤ record_times ≤ max_iters` the recording interval never raises: if
update and recording never fail, every call on a started run returns normally. -/
theorem C38_admissible_never_raises_partial (S : Sys E D X) (h1 : 1 ≤ S.recordTimes)
    (h2 : S.recordTimes ≤ S.maxIters)
    (hstep : ∀ k rho x, ∃ new, (S.step k rho x).2 = .ok new)
    (hrec : ∀ k rho rho' x, ∃ c, (S.record k rho rho' x).2 = .ok c)
    (o : Opt E D X) (hs : o.started = true) (c : Call) : (c.run S o).2 = .ok () := by
  have hdiv : S.maxIters / S.recordTimes ≠ 0 := (Nat.div_pos h2 h1).ne'
  have hiter : ∀ b k w, ∃ c, (iterate S b k w).2 = .ok c := by
    intro b k w
    rcases iterate_cases S b k w with
        ⟨x', e', h1, h'⟩ | ⟨x', new', h1, ⟨y, e', h2, h'⟩ | ⟨y, c', h2, ⟨hd, -⟩ | ⟨hd, h'⟩⟩⟩
    · obtain ⟨new, hn⟩ := hstep k w.rho w.aux; rw [h1] at hn; simp at hn
    · obtain ⟨c, hn⟩ := hrec k w.rho (newRho S new' w.rho) x'; rw [h2] at hn; simp at hn
    · exact absurd hd hdiv
    · exact ⟨c', by rw [h']⟩
  have hloop : ∀ n k (w : World E D X), ∃ r, (loop S n k w).2 = .ok r := by
    intro n
    induction n with
    | zero => exact fun k w => ⟨_, rfl⟩
    | succ n ih =>
      intro k w
      have hi := hiter (n == 0) k w
      simp only [loop]
      revert hi
      rcases iterate S (n == 0) k w with ⟨v, e | _ | _⟩ <;> intro hi <;> simp only at hi ⊢
      · simp at hi
      · exact ih (k + 1) v
      · exact ⟨_, rfl⟩
  have key : ∀ m, (optimizeImpl S m o).2 = .ok () := by
    intro m
    rw [optimizeImpl_eq]
    split_ifs
    · rfl
    · rw [ensureInit_started S hs]
      simp only
      rcases continueRun_cases S m o with ⟨-, h'⟩ | ⟨hle, n, -, -, ⟨w, e, hl, h'⟩ | ⟨w, k, c', hl, ⟨-, h'⟩ | ⟨-, h'⟩⟩⟩
      · rw [h']
      · obtain ⟨r, hr⟩ := hloop n o.iterNext o.world; rw [hl] at hr; simp at hr
      · rw [h']
      · rw [h']
  cases c with
  | optimize => exact key none
  | steps n =>
    simp only [Call.run, optimizeSteps]
    split_ifs
    · rfl
    · exact key _

/-- **C38 (partial).** With `1 ≤ record_times ≤ max_iters` a new run whose update and recording never
fail and which is never reported as converged executes exactly the iterations `1, …, max_iters`. -/
theorem C38_admissible_record_times_partial (S : Sys E D X) (h1 : 1 ≤ S.recordTimes)
    (h2 : S.recordTimes ≤ S.maxIters) (hnew : S.restart = false)
    (hsched : ∀ x, (S.initSched x).2 = .ok ())
    (hstep : ∀ k rho x, ∃ new, (S.step k rho x).2 = .ok new)
    (hrec : ∀ k rho rho' x, (S.record k rho rho' x).2 = .ok false)
    (rho0 : E → D) (x : X) (files : List (Name × (E → D))) :
    (optimize S (fresh rho0 x files)).2 = .ok () ∧
    (optimize S (fresh rho0 x files)).1.world.trace = List.range' 1 S.maxIters := by
  have hdiv : S.maxIters / S.recordTimes ≠ 0 := (Nat.div_pos h2 h1).ne'
  have hiter : ∀ b k w, (iterate S b k w).2 = .ok false := by
    intro b k w
    rcases iterate_cases S b k w with
        ⟨x', e', h1, h'⟩ | ⟨x', new', h1, ⟨y, e', h2, h'⟩ | ⟨y, c', h2, ⟨hd, -⟩ | ⟨hd, h'⟩⟩⟩
    · obtain ⟨new, hn⟩ := hstep k w.rho w.aux; rw [h1] at hn; simp at hn
    · have hn := hrec k w.rho (newRho S new' w.rho) x'; rw [h2] at hn; simp at hn
    · exact absurd hd hdiv
    · have hn := hrec k w.rho (newRho S new' w.rho) x'; rw [h2] at hn
      simp only [Except.ok.injEq] at hn
      rw [h', hn]
  have hloop : ∀ n k (w : World E D X), ∃ w', loop S n k w = (w', .ok (k + n, false)) := by
    intro n
    induction n with
    | zero => exact fun k w => ⟨w, rfl⟩
    | succ n ih =>
      intro k w
      have hi := hiter (n == 0) k w
      simp only [loop]
      revert hi
      rcases iterate S (n == 0) k w with ⟨v, e | _ | _⟩ <;> intro hi <;> simp at hi
      obtain ⟨w', hw⟩ := ih (k + 1) v
      exact ⟨w', by simp only [hw]; congr 3; omega⟩
  rw [optimize, optimizeImpl_eq, if_neg (by simp [fresh])]
  rcases ensureInit_cases S (fresh rho0 x files) with ⟨hs, h'⟩ | ⟨hs, ⟨x', e, h'⟩ | ⟨x', rho, k, hd, h'⟩⟩
  · simp [fresh] at hs
  · exfalso
    unfold ensureInit at h'
    simp only [fresh, Bool.false_eq_true, if_false] at h'
    have := hsched x
    revert h' this
    rcases S.initSched x with ⟨y, e' | ⟨⟩⟩ <;> simp [initializeDensity, hnew]
  · rw [h']
    have hk : k = 1 := by
      have := initializeDensity_first hd
      simpa [FirstIteration, hnew] using this
    subst hk
    simp only
    rcases continueRun_cases S none (⟨⟨rho, x', (fresh rho0 x files).world.files,
        (fresh rho0 x files).world.trace⟩, true, 1, (fresh rho0 x files).completed, (fresh rho0 x files).final⟩ : Opt E D X) with
      ⟨h1', -⟩ | ⟨hle, n, -, hn, hrest⟩
    · simp only at h1'; omega
    · simp only [chunkLen, Nat.add_sub_cancel] at hn
      subst hn
      obtain ⟨w', hw'⟩ := hloop S.maxIters 1 (⟨rho, x', (fresh rho0 x files).world.files,
        (fresh rho0 x files).world.trace⟩ : World E D X)
      have htr := (loop_end S _ _ _ _ _ _ hw').2.2.2.1
      rcases hrest with ⟨w, e, hl', -⟩ | ⟨w, k, c', hl', hlast⟩
      · simp only at hl'; rw [hw'] at hl'; simp at hl'
      · simp only at hl'
        rw [hw'] at hl'
        simp only [Prod.mk.injEq, Except.ok.injEq] at hl'
        obtain ⟨rfl, rfl, rfl⟩ := hl'
        rcases hlast with ⟨-, h'⟩ | ⟨hk, -⟩
        · rw [h']
          refine ⟨rfl, ?_⟩
          simp only [finalize]
          rw [htr]; simp [fresh]
        · omega

example : (optimize (demo 5 5 100 100) demo0).2 = .ok ()
    ∧ (optimize (demo 5 5 100 100) demo0).1.world.trace = [1, 2, 3, 4, 5] := by decide

/-! ### C59: exceptions in the middle of a call -/

/-- **C59 (refuted).** "After an exception the optimizer can be resumed at the iteration that failed"
is false: when a call on a started run raises, the iteration counter keeps the value it had when the
call began, although densities and histories of the iterations before the failing one stay changed. -/
theorem C59_exception_loses_progress (S : Sys E D X) (c : Call) {o o' : Opt E D X} {e : Err}
    (hs : o.started = true) (h : c.run S o = (o', .error e)) :
    o'.iterNext = o.iterNext ∧ o'.completed = false ∧
    ∃ m ≥ 1, o'.world.trace = o.world.trace ++ List.range' o.iterNext m := by
  have hloop : ∀ n k (w w' : World E D X) e, loop S n k w = (w', .error e) →
      ∃ m ≥ 1, w'.trace = w.trace ++ List.range' k m := by
    intro n
    induction n with
    | zero => intro k w w' e h; simp [loop] at h
    | succ n ih =>
      intro k w w' e h
      have ht := iterate_trace S (n == 0) k w
      simp only [loop] at h
      revert h ht
      rcases iterate S (n == 0) k w with ⟨v, e' | _ | _⟩ <;> intro h ht <;> simp only at h ht
      · simp only [Prod.mk.injEq] at h
        exact ⟨1, le_refl _, by rw [← h.1, ht]; rfl⟩
      · obtain ⟨m, hm, h'⟩ := ih _ _ _ _ h
        exact ⟨m + 1, by omega, by rw [h', ht, List.append_assoc, List.range'_succ]; rfl⟩
      · simp at h
  have key : ∀ m, optimizeImpl S m o = (o', .error e) → o'.iterNext = o.iterNext ∧
      o'.completed = false ∧ ∃ m ≥ 1, o'.world.trace = o.world.trace ++ List.range' o.iterNext m := by
    intro m h
    rw [optimizeImpl_eq] at h
    split_ifs at h with hc
    · simp at h
    · rw [ensureInit_started S hs] at h
      simp only at h
      rcases continueRun_cases S m o with ⟨-, h'⟩ | ⟨hle, n, -, -, ⟨w, e, hl, h'⟩ | ⟨w, k, c', hl, ⟨-, h'⟩ | ⟨-, h'⟩⟩⟩ <;>
        rw [h'] at h <;> simp only [Prod.mk.injEq, reduceCtorEq, and_false] at h
      obtain ⟨rfl, -⟩ := h
      exact ⟨rfl, by simpa using hc, hloop _ _ _ _ _ hl⟩
  cases c with
  | optimize => exact key none h
  | steps n =>
    simp only [Call.run, optimizeSteps] at h
    split_ifs at h
    · simp at h
    · exact key _ h

/-- **C59 (refuted), observable effect.** A run of 4 iterations whose third iteration fails once:
calling `optimize()` again re-executes iterations 1 and 2 on the already updated densities, so the
run ends with different densities than a run that never failed. -/
theorem C59_resumed_run_differs :
    let S := demo 4 2 100 3
    let first := optimize S demo0
    let second := optimize S first.1
    first.2 = .error .runtimeError ∧ second.2 = .ok () ∧
      second.1.world.trace = [1, 2, 3, 1, 2, 3, 4] ∧
      second.1.world.aux.1 = [1, 2, 1, 2, 3, 4] ∧
      second.1.world.rho 1 = 11 ∧ (optimize (demo 4 2 100 100) demo0).1.world.rho 1 = 9 := by
  decide

/-- **C59.** Single steps are resumable: if `optimize_steps(1)` on a started run raises in the
update, densities and iteration counter are as before the call. -/
theorem C59_single_step_resumable (S : Sys E D X) {o o' : Opt E D X} {e e' : Err} {x : X}
    (hs : o.started = true) (hstep : S.step o.iterNext o.world.rho o.world.aux = (x, .error e'))
    (h : optimizeSteps S 1 o = (o', .error e)) :
    o'.world.rho = o.world.rho ∧ o'.world.files = o.world.files ∧ o'.iterNext = o.iterNext
      ∧ o'.completed = false := by
  have hc := C59_exception_loses_progress S (.steps 1) hs h
  unfold optimizeSteps at h
  rw [if_neg (by omega), optimizeImpl_eq] at h
  split_ifs at h
  · simp at h
  · rw [ensureInit_started S hs] at h
    simp only at h
    rcases continueRun_cases S (some (1 : ℤ).toNat) o with ⟨-, h'⟩ | ⟨hle, n, -, hn, ⟨w, e, hl, h'⟩ | ⟨w, k, c', hl, ⟨-, h'⟩ | ⟨-, h'⟩⟩⟩ <;>
        rw [h'] at h <;> simp only [Prod.mk.injEq, reduceCtorEq, and_false] at h
    obtain ⟨rfl, -⟩ := h
    have hj1 : n = 1 := by
      rw [hn]; simp only [chunkLen]; have : (1 : ℤ).toNat = 1 := rfl; omega
    subst hj1
    have hl2 : (loop S 1 o.iterNext o.world).1.rho = o.world.rho
        ∧ (loop S 1 o.iterNext o.world).1.files = o.world.files := by
      simp only [loop]
      rcases iterate_cases S (0 == 0) o.iterNext o.world with
        ⟨x', e', h1, h'⟩ | ⟨x', new', h1, -⟩
      · rw [h']; exact ⟨rfl, rfl⟩
      · rw [hstep] at h1; simp at h1
    rw [hl] at hl2
    exact ⟨hl2.1, hl2.2, hc.1, hc.2.1⟩

example : (optimizeSteps (demo 4 2 100 2) 1 (optimizeSteps (demo 4 2 100 2) 1 demo0).1).2
    = .error .runtimeError := by decide

end Verif.Driver
