import Verif.Model.Driver
import Verif.Lemmas.Snapshot
import Mathlib.Tactic

namespace Verif.Driver
open Verif.Snapshot

set_option linter.unusedSectionVars false

variable {E D X : Type} [DecidableEq E] [Zero D] [One D] [Max D] [Min D]

/-- Two worlds that differ at most in the snapshot directory. -/
def World.Sim (w v : World E D X) : Prop := w.rho = v.rho ∧ w.aux = v.aux ∧ w.trace = v.trace

theorem World.Sim.refl (w : World E D X) : w.Sim w := ⟨rfl, rfl, rfl⟩

/-- The densities iteration `k` writes when the update returns `new`. -/
def newRho (S : Sys E D X) (new rho : E → D) : E → D := pin S.pinned (setDesign S.design new rho)

/-- The four ways an iteration can go. -/
theorem iterate_cases (S : Sys E D X) (b : Bool) (k : ℕ) (w : World E D X) :
    (∃ x e, S.step k w.rho w.aux = (x, .error e) ∧
      iterate S b k w = (⟨w.rho, x, w.files, w.trace ++ [k]⟩, .error e)) ∨
    (∃ x new, S.step k w.rho w.aux = (x, .ok new) ∧
      ((∃ y e, S.record k w.rho (newRho S new w.rho) x = (y, .error e) ∧
          iterate S b k w = (⟨newRho S new w.rho, y, w.files, w.trace ++ [k]⟩, .error e)) ∨
       (∃ y c, S.record k w.rho (newRho S new w.rho) x = (y, .ok c) ∧
          ((S.maxIters / S.recordTimes = 0 ∧
            iterate S b k w = (⟨newRho S new w.rho, y, w.files, w.trace ++ [k]⟩, .error .zeroDivision)) ∨
           (S.maxIters / S.recordTimes ≠ 0 ∧
            iterate S b k w = (⟨newRho S new w.rho, y,
              if k % (S.maxIters / S.recordTimes) = 0 ∨ k = 1 ∨ c = true ∨ b = true then
                save w.files (snapshotName k) (designPart S.design (newRho S new w.rho))
              else w.files, w.trace ++ [k]⟩, .ok c)))))) := by
  unfold iterate
  rcases hs : S.step k w.rho w.aux with ⟨x, e | new⟩
  · left; exact ⟨x, e, rfl, by simp [hs]⟩
  · right
    refine ⟨x, new, rfl, ?_⟩
    rcases hr : S.record k w.rho (newRho S new w.rho) x with ⟨y, e | c⟩
    · left
      refine ⟨y, e, rfl, ?_⟩
      simp only [newRho] at hr ⊢
      simp [hs, hr]
    · right
      refine ⟨y, c, rfl, ?_⟩
      simp only [newRho] at hr ⊢
      simp only [hs, hr]
      by_cases h1 : S.maxIters / S.recordTimes = 0
      · left; exact ⟨h1, by simp [h1]⟩
      · right
        refine ⟨h1, ?_⟩
        rw [if_neg h1]
        split_ifs <;> rfl

theorem iterate_trace (S : Sys E D X) (b : Bool) (k : ℕ) (w : World E D X) :
    (iterate S b k w).1.trace = w.trace ++ [k] := by
  rcases iterate_cases S b k w with ⟨x, e, -, h⟩ | ⟨x, new, -, ⟨y, e, -, h⟩ | ⟨y, c, -, ⟨-, h⟩ | ⟨-, h⟩⟩⟩ <;>
    rw [h]

theorem iterate_sim (S : Sys E D X) (a b : Bool) (k : ℕ) {w v : World E D X} (h : w.Sim v) :
    (iterate S a k w).1.Sim (iterate S b k v).1 ∧ (iterate S a k w).2 = (iterate S b k v).2 := by
  obtain ⟨h1, h2, h3⟩ := h
  unfold iterate
  simp only [h1, h2, h3]
  rcases S.step k v.rho v.aux with ⟨x, e | new⟩
  · exact ⟨⟨rfl, rfl, rfl⟩, rfl⟩
  · simp only
    rcases S.record k v.rho (pin S.pinned (setDesign S.design new v.rho)) x with ⟨y, e | conv⟩
    · exact ⟨⟨rfl, rfl, rfl⟩, rfl⟩
    · simp only
      split_ifs <;> exact ⟨⟨rfl, rfl, rfl⟩, rfl⟩

/-- A run without files of its own future saves, at every name, at most what a run with more
saves does. -/
theorem iterate_files (S : Sys E D X) (a b : Bool) (hab : a = true → b = true) (k : ℕ)
    {w v : World E D X} (h : w.Sim v)
    (hsub : ∀ n c, load w.files n = some c → load v.files n = some c)
    (hfut : ∀ j, k ≤ j → load w.files (snapshotName j) = none) :
    (∀ n c, load (iterate S a k w).1.files n = some c → load (iterate S b k v).1.files n = some c) ∧
    (∀ j, k + 1 ≤ j → load (iterate S a k w).1.files (snapshotName j) = none) := by
  obtain ⟨h1, h2, h3⟩ := h
  rcases iterate_cases S a k w with
        ⟨x, e, hs, h'⟩ | ⟨x, new, hs, ⟨y, e, hr, h'⟩ | ⟨y, c', hr, ⟨hi, h'⟩ | ⟨hi, h'⟩⟩⟩ <;>
  rcases iterate_cases S b k v with
        ⟨x2, e2, hs2, h2'⟩ | ⟨x2, new2, hs2, ⟨y2, e2, hr2, h2'⟩ | ⟨y2, c2, hr2, ⟨hi2, h2'⟩ | ⟨hi2, h2'⟩⟩⟩ <;>
    rw [h', h2'] <;> simp only <;>
    rw [h1, h2] at hs <;> rw [hs] at hs2 <;>
    simp only [Prod.mk.injEq, reduceCtorEq, and_false, Except.ok.injEq] at hs2 <;>
    first
      | exact ⟨hsub, fun j hj => hfut j (by omega)⟩
      | (obtain ⟨rfl, rfl⟩ := hs2
         rw [h1] at hr; rw [hr] at hr2
         simp only [Prod.mk.injEq, reduceCtorEq, and_false, Except.ok.injEq] at hr2)
  all_goals first
    | exact absurd hi hi2
    | exact absurd hi2 hi
    | skip
  obtain ⟨rfl, rfl⟩ := hr2
  rw [h1]
  constructor
  · intro n c hc
    by_cases hn : n = snapshotName k
    · subst hn
      split_ifs at hc with hca
      · rw [load_save_self] at hc
        rw [if_pos (by
            rcases hca with h | h | h | h
            · exact Or.inl h
            · exact Or.inr (Or.inl h)
            · exact Or.inr (Or.inr (Or.inl h))
            · exact Or.inr (Or.inr (Or.inr (hab h)))), load_save_self]
        exact hc
      · rw [hfut k (le_refl _)] at hc; simp at hc
    · have : load w.files n = some c := by
        split_ifs at hc
        · rwa [load_save_ne _ _ hn] at hc
        · exact hc
      split_ifs
      · rw [load_save_ne _ _ hn]; exact hsub n c this
      · exact hsub n c this
  · intro j hj
    have hne : snapshotName j ≠ snapshotName k := fun e => by
      have := snapshotName_injective e; omega
    split_ifs
    · rw [load_save_ne _ _ hne]; exact hfut j (by omega)
    · exact hfut j (by omega)


/-- No snapshot of iteration `k` or later is present. -/
def World.Fut (k : ℕ) (w : World E D X) : Prop :=
  ∀ j, k ≤ j → load w.files (snapshotName j) = none

/-- Same state, and (if `P`) at least the same snapshots. -/
def World.Le (P : Prop) (w v : World E D X) : Prop :=
  w.Sim v ∧ (P → ∀ n c, load w.files n = some c → load v.files n = some c)

theorem World.Le.refl (P : Prop) (w : World E D X) : w.Le P w := ⟨.refl w, fun _ _ _ h => h⟩

theorem World.Le.trans {P : Prop} {u v w : World E D X} (h : u.Le P v) (g : v.Le P w) : u.Le P w :=
  ⟨⟨h.1.1.trans g.1.1, h.1.2.1.trans g.1.2.1, h.1.2.2.trans g.1.2.2⟩,
    fun hp n c hc => g.2 hp n c (h.2 hp n c hc)⟩

theorem iterate_le (S : Sys E D X) (P : Prop) (a b : Bool) (hab : a = true → b = true) (k : ℕ)
    {w v : World E D X} (h : w.Le P v) (hf : P → w.Fut k) :
    (iterate S a k w).1.Le P (iterate S b k v).1 ∧ (iterate S a k w).2 = (iterate S b k v).2 := by
  obtain ⟨h1, h2⟩ := iterate_sim S a b k h.1
  exact ⟨⟨h1, fun hp => (iterate_files S a b hab k h.1 (h.2 hp) (hf hp)).1⟩, h2⟩

theorem iterate_fut (S : Sys E D X) (b : Bool) (k : ℕ) {w : World E D X} (hf : w.Fut k) :
    (iterate S b k w).1.Fut (k + 1) :=
  (iterate_files S b b id k (.refl w) (fun _ _ h => h) hf).2

theorem loop_fut (S : Sys E D X) : ∀ (n k : ℕ) {w : World E D X}, w.Fut k →
    (loop S n k w).1.Fut (k + n)
  | 0, k, w, h => by simpa [loop] using h
  | n + 1, k, w, h => by
    have hi := iterate_fut S (n == 0) k h
    simp only [loop]
    revert hi
    rcases iterate S (n == 0) k w with ⟨v, e | _ | _⟩ <;> intro hi <;> simp only at hi ⊢
    · exact fun j hj => hi j (by omega)
    · have := loop_fut S n (k + 1) hi
      exact fun j hj => this j (by omega)
    · exact fun j hj => hi j (by omega)

theorem loop_le (S : Sys E D X) (P : Prop) : ∀ (n k : ℕ) {w v : World E D X}, w.Le P v →
    (P → w.Fut k) →
    (loop S n k w).1.Le P (loop S n k v).1 ∧ (loop S n k w).2 = (loop S n k v).2
  | 0, k, w, v, h, _ => ⟨h, rfl⟩
  | n + 1, k, w, v, h, hf => by
    obtain ⟨hs, hr⟩ := iterate_le S P (n == 0) (n == 0) id k h hf
    have hi := fun hp => iterate_fut S (n == 0) k (hf hp)
    unfold loop
    revert hs hr hi
    rcases iterate S (n == 0) k w with ⟨w', e | _ | _⟩ <;>
      rcases iterate S (n == 0) k v with ⟨v', e' | _ | _⟩ <;> intro hs hr hi <;> simp_all
    exact loop_le S P n (k + 1) hs hi

/-- Running `n + m` iterations is running `n` and, unless that raised or converged, `m` more. -/
theorem loop_add (S : Sys E D X) (P : Prop) (m : ℕ) : ∀ (n k : ℕ) {w v : World E D X}, w.Le P v →
    (P → w.Fut k) →
    let r := loop S (n + m) k w
    let s := match loop S n k v with
      | (w', .ok (k', false)) => loop S m k' w'
      | r => r
    r.1.Le P s.1 ∧ r.2 = s.2
  | 0, k, w, v, h, hf => by
    simpa [loop] using loop_le S P m k h hf
  | n + 1, k, w, v, h, hf => by
    obtain ⟨hs, hr⟩ := iterate_le S P (n + m == 0) (n == 0) (by simp; omega) k h hf
    have hi := fun hp => iterate_fut S (n + m == 0) k (hf hp)
    rw [show n + 1 + m = (n + m) + 1 by omega]
    simp only [loop]
    revert hs hr hi
    rcases iterate S (n + m == 0) k w with ⟨w', e | _ | _⟩ <;>
      rcases iterate S (n == 0) k v with ⟨v', e' | _ | _⟩ <;> intro hs hr hi <;> simp_all
    exact loop_add S P m n (k + 1) hs hi

/-- Where a loop that does not raise ends. -/
theorem loop_end (S : Sys E D X) : ∀ (n k : ℕ) (w w' : World E D X) (k' : ℕ) (c : Bool),
    loop S n k w = (w', .ok (k', c)) →
      k ≤ k' ∧ k' ≤ k + n ∧ (c = false → k' = k + n) ∧ w'.trace = w.trace ++ List.range' k (k' - k)
      ∧ (0 < n → k < k')
  | 0, k, w, w', k', c, h => by
    simp only [loop, Prod.mk.injEq, Except.ok.injEq] at h
    obtain ⟨rfl, rfl, rfl⟩ := h
    simp
  | n + 1, k, w, w', k', c, h => by
    simp only [loop] at h
    have ht' := iterate_trace S (n == 0) k w
    revert h ht'
    rcases iterate S (n == 0) k w with ⟨v, e | _ | _⟩ <;> intro h ht'
    · simp at h
    · simp only at h
      have ⟨i1, i2, i3, i4, _⟩ := loop_end S n (k + 1) v w' k' c h
      refine ⟨by omega, by omega, fun hc => by have := i3 hc; omega, ?_, fun _ => by omega⟩
      simp only at ht'
      rw [i4, ht', List.append_assoc]
      congr 1
      rw [show k' - k = (k' - (k + 1)) + 1 by omega, List.range'_succ]; rfl
    · simp only [Prod.mk.injEq, Except.ok.injEq] at h
      obtain ⟨rfl, rfl, rfl⟩ := h
      simp only at ht'
      exact ⟨by omega, by omega, by simp, by simp [ht'], fun _ => by omega⟩

theorem optimizeImpl_completed (S : Sys E D X) (m : Option ℕ) {o : Opt E D X}
    (h : o.completed = true) : optimizeImpl S m o = (o, .ok ()) := by
  simp [optimizeImpl, h]

theorem runSteps_completed (S : Sys E D X) : ∀ (cs : List Call) {o : Opt E D X},
    o.completed = true → runCalls S cs o = (o, .ok ())
  | [], o, _ => rfl
  | c :: cs, o, h => by
    have : c.run S o = (o, .ok ()) := by
      cases c with
      | optimize => exact optimizeImpl_completed S none h
      | steps n =>
        simp only [Call.run, optimizeSteps]
        split_ifs
        · rfl
        · exact optimizeImpl_completed S _ h
    simp only [runCalls, this]
    exact runSteps_completed S cs h

/-- What `_optimize_impl` does once the state exists. -/
def continueRun (S : Sys E D X) (maxSteps : Option ℕ) (o : Opt E D X) : Opt E D X × Res Unit :=
  if S.maxIters + 1 ≤ o.iterNext then (finalize S o, .ok ())
  else
    let limit := match maxSteps with
      | none => S.maxIters + 1
      | some n => min (o.iterNext + n) (S.maxIters + 1)
    match loop S (limit - o.iterNext) o.iterNext o.world with
    | (w, .error e) => ({ o with world := w }, .error e)
    | (w, .ok (k, conv)) =>
      let o2 := { o with world := w, iterNext := k }
      if conv = true ∨ S.maxIters + 1 ≤ k then (finalize S o2, .ok ()) else (o2, .ok ())

theorem optimizeImpl_eq (S : Sys E D X) (m : Option ℕ) (o : Opt E D X) :
    optimizeImpl S m o = if o.completed = true then (o, .ok ()) else
      match ensureInit S o with
      | (o1, .error e) => (o1, .error e)
      | (o1, .ok ()) => continueRun S m o1 := rfl

theorem ensureInit_started (S : Sys E D X) {o : Opt E D X} (h : o.started = true) :
    ensureInit S o = (o, .ok ()) := by simp [ensureInit, h]

/-- The ways initialisation can go. -/
theorem ensureInit_cases (S : Sys E D X) (o : Opt E D X) :
    (o.started = true ∧ ensureInit S o = (o, .ok ())) ∨
    (o.started = false ∧
      ((∃ x e, ensureInit S o =
          (⟨⟨o.world.rho, x, o.world.files, o.world.trace⟩, false, o.iterNext, o.completed, o.final⟩, .error e)) ∨
       (∃ x rho k, initializeDensity S o.world.files = .ok (rho, k) ∧ ensureInit S o =
          (⟨⟨rho, x, o.world.files, o.world.trace⟩, true, k, o.completed, o.final⟩, .ok ())))) := by
  rcases hs : o.started with _ | _
  · right
    refine ⟨rfl, ?_⟩
    unfold ensureInit
    simp only [hs, Bool.false_eq_true, if_false]
    rcases S.initSched o.world.aux with ⟨x, e | u⟩
    · left; exact ⟨x, e, rfl⟩
    · simp only
      rcases hd : initializeDensity S o.world.files with e | ⟨rho, k⟩
      · left; exact ⟨x, e, rfl⟩
      · right; exact ⟨_, rho, k, rfl, rfl⟩
  · left; exact ⟨rfl, ensureInit_started S hs⟩

theorem ensureInit_ok {S : Sys E D X} {o o1 : Opt E D X} (h : ensureInit S o = (o1, .ok ())) :
    o1.started = true ∧ o1.completed = o.completed ∧ o1.world.files = o.world.files ∧
      o1.world.trace = o.world.trace ∧ (o.started = true → o1 = o) := by
  rcases ensureInit_cases S o with ⟨hs, h'⟩ | ⟨hs, ⟨x, e, h'⟩ | ⟨x, rho, k, -, h'⟩⟩ <;>
    rw [h'] at h <;> simp only [Prod.mk.injEq, reduceCtorEq, and_false, and_true] at h <;> subst h <;>
    simp [hs]

/-- How many iterations a call may run, given how many remain. -/
def chunkLen : Option ℕ → ℕ → ℕ
  | none, r => r
  | some a, r => min a r

/-- The ways a started call can go. -/
theorem continueRun_cases (S : Sys E D X) (m : Option ℕ) (o : Opt E D X) :
    (S.maxIters + 1 ≤ o.iterNext ∧ continueRun S m o = (finalize S o, .ok ())) ∨
    (o.iterNext ≤ S.maxIters ∧ ∃ n, n ≤ S.maxIters + 1 - o.iterNext ∧
      n = chunkLen m (S.maxIters + 1 - o.iterNext) ∧
      ((∃ w e, loop S n o.iterNext o.world = (w, .error e) ∧
          continueRun S m o = ({ o with world := w }, .error e)) ∨
       (∃ w k c, loop S n o.iterNext o.world = (w, .ok (k, c)) ∧
          ((c = true ∨ S.maxIters + 1 ≤ k) ∧
             continueRun S m o = (finalize S { o with world := w, iterNext := k }, .ok ()) ∨
           (c = false ∧ k < S.maxIters + 1) ∧
             continueRun S m o = ({ o with world := w, iterNext := k }, .ok ()))))) := by
  by_cases hd : S.maxIters + 1 ≤ o.iterNext
  · left; exact ⟨hd, by simp [continueRun, hd]⟩
  · right
    refine ⟨by omega, _, ?_, rfl, ?_⟩
    · cases m <;> simp [chunkLen]
    · have hlim : (match m with
          | none => S.maxIters + 1
          | some n => min (o.iterNext + n) (S.maxIters + 1)) - o.iterNext
          = chunkLen m (S.maxIters + 1 - o.iterNext) := by
        cases m with
        | none => rfl
        | some a => simp only [chunkLen]; omega
      unfold continueRun
      simp only [if_neg hd, hlim]
      rcases hl : loop S (chunkLen m (S.maxIters + 1 - o.iterNext)) o.iterNext o.world with ⟨w, e | ⟨k, c⟩⟩
      · left; exact ⟨w, e, rfl, rfl⟩
      · right
        refine ⟨w, k, c, rfl, ?_⟩
        by_cases hf : c = true ∨ S.maxIters + 1 ≤ k
        · left; exact ⟨hf, by simp only [if_pos hf]⟩
        · right
          refine ⟨?_, by simp only [if_neg hf]⟩
          push Not at hf
          simpa using hf

theorem initializeDensity_pos {S : Sys E D X} {files : List (Name × (E → D))} {rho : E → D} {k : ℕ}
    (hd : initializeDensity S files = .ok (rho, k)) : 1 ≤ k := by
  revert hd
  unfold initializeDensity
  simp only
  split_ifs
  · cases load files (snapshotName S.restartFrom.toNat) with
    | none => simp
    | some d => simp only [Except.ok.injEq, Prod.mk.injEq]; rintro ⟨-, rfl⟩; omega
  · rcases hf : findLatest (files.map Prod.fst) with ⟨n, _ | name⟩
    · simp
    · simp only
      cases load files name with
      | none => simp
      | some d =>
        simp only [Except.ok.injEq, Prod.mk.injEq]; rintro ⟨-, rfl⟩
        obtain ⟨-, -, h3⟩ := foldl_latest (files.map Prod.fst) (-1, none)
        unfold findLatest at hf
        rw [hf] at h3
        rcases h3 with h3 | ⟨_, _, k, _, h3, _⟩
        · simp at h3
        · simp only [Prod.mk.injEq] at h3
          obtain ⟨rfl, -⟩ := h3; omega
  · simp only [Except.ok.injEq, Prod.mk.injEq]; rintro ⟨-, rfl⟩; omega

theorem iterNext_pos {S : Sys E D X} {o o1 : Opt E D X} (h : ensureInit S o = (o1, .ok ()))
    (hs : o.started = false) : 1 ≤ o1.iterNext := by
  rcases ensureInit_cases S o with ⟨hs', h'⟩ | ⟨hs', ⟨x, e, h'⟩ | ⟨x, rho, k, hd, h'⟩⟩
  · simp [hs] at hs'
  · rw [h'] at h; simp at h
  · rw [h'] at h; simp only [Prod.mk.injEq, and_true] at h; subst h
    exact initializeDensity_pos hd

/-- The core of the splitting theorem, for started runs. -/
theorem split_started (S : Sys E D X) (P : Prop) : ∀ (ns : List ℕ) {o p : Opt E D X},
    o.world.Le P p.world → (P → o.world.Fut o.iterNext) → (P → p.world.Fut p.iterNext) →
    o.started = p.started → o.iterNext = p.iterNext → o.completed = p.completed →
    o.started = true → o.completed = false → (∀ n ∈ ns, 0 < n) → ns ≠ [] →
    S.maxIters + 1 ≤ o.iterNext + ns.sum →
    let r := continueRun S none o
    let s := runCalls S (ns.map fun n : ℕ => Call.steps n) p
    r.1.world.Le P s.1.world ∧ r.1.started = s.1.started ∧ r.1.completed = s.1.completed ∧
      r.2 = s.2 ∧ (r.2 = .ok () → r.1.iterNext = s.1.iterNext)
  | [], o, p, _, _, _, _, _, _, _, _, _, hne, _ => absurd rfl hne
  | n :: ns, o, p, hw, hfo, hfp, hst', hit, hco', hst, hco, hpos, _, hsum => by
    have hn : 0 < n := hpos n (by simp)
    have hcall : (Call.steps (n : ℤ)).run S p = continueRun S (some n) p := by
      simp only [Call.run, optimizeSteps]
      rw [if_neg (by omega), optimizeImpl_eq, if_neg (by simp [← hco', hco]),
        ensureInit_started S (by rw [← hst', hst])]
      simp
    simp only [List.map_cons, runCalls, hcall]
    unfold continueRun
    rw [hit]
    rw [hit] at hfo
    split_ifs with hdone
    · have hc : (finalize S p).completed = true := rfl
      simp only
      rw [runSteps_completed S _ hc]
      obtain ⟨⟨h1, h2, h3⟩, h4⟩ := hw
      exact ⟨⟨⟨h1, by simp [finalize, h2], h3⟩, h4⟩, hst', rfl, rfl, fun _ => hit⟩
    · simp only
      rw [hit] at hsum
      by_cases hcase : S.maxIters + 1 ≤ p.iterNext + n
      · rw [min_eq_right hcase]
        obtain ⟨hs, hr⟩ := loop_le S P (S.maxIters + 1 - p.iterNext) p.iterNext hw hfo
        revert hs hr
        rcases hl : loop S (S.maxIters + 1 - p.iterNext) p.iterNext o.world with ⟨w, e | ⟨k, c⟩⟩ <;>
          rcases loop S (S.maxIters + 1 - p.iterNext) p.iterNext p.world with ⟨v, e' | ⟨k', c'⟩⟩ <;>
          intro hs hr <;> simp only [reduceCtorEq, Except.error.injEq, Except.ok.injEq, Prod.mk.injEq] at hr
        · subst hr; exact ⟨hs, hst', by simp [hco, ← hco'], rfl, by simp⟩
        · obtain ⟨rfl, rfl⟩ := hr
          have hend := loop_end S _ _ _ _ _ _ hl
          have hfin : c = true ∨ S.maxIters + 1 ≤ k := by
            cases c with
            | true => exact Or.inl rfl
            | false => right; have := hend.2.2.1 rfl; omega
          simp only [if_pos hfin]
          rw [runSteps_completed S _ (by rfl)]
          obtain ⟨⟨h1, h2, h3⟩, h4⟩ := hs
          exact ⟨⟨⟨h1, congrArg S.exportHist h2, h3⟩, h4⟩, hst', rfl, rfl, fun _ => rfl⟩
      · rw [min_eq_left (by omega)]
        have hsplit : S.maxIters + 1 - p.iterNext = n + (S.maxIters + 1 - p.iterNext - n) := by omega
        obtain ⟨hs, hr⟩ := loop_add S P (S.maxIters + 1 - p.iterNext - n) n p.iterNext hw hfo
        have hfl := fun hp => loop_fut S n p.iterNext (hfp hp)
        rw [← hsplit] at hs hr
        rw [show p.iterNext + n - p.iterNext = n by omega]
        revert hs hr hfl
        rcases hl : loop S n p.iterNext p.world with ⟨v, e | ⟨k, _ | _⟩⟩ <;> simp only
        · rcases loop S (S.maxIters + 1 - p.iterNext) p.iterNext o.world with ⟨w, e' | ⟨k', c'⟩⟩ <;>
            intro hs hr hfl <;> simp only [reduceCtorEq, Except.error.injEq] at hr
          subst hr; exact ⟨hs, hst', by simp [hco, ← hco'], rfl, by simp⟩
        · have hend := loop_end S _ _ _ _ _ _ hl
          have hk : k = p.iterNext + n := hend.2.2.1 rfl
          subst hk
          simp only [Bool.false_eq_true, false_or, if_neg hcase]
          intro hs hr hfl
          have hns : ns ≠ [] := by
            rintro rfl; simp at hsum; omega
          have hpos' : ∀ m ∈ ns, 0 < m := fun m hm => hpos m (by simp [hm])
          have IH := split_started S P ns
            (o := { p with world := v, iterNext := p.iterNext + n })
            (p := { p with world := v, iterNext := p.iterNext + n })
            (World.Le.refl P v) hfl hfl rfl rfl rfl
            (by rw [← hst]; simp [hst']) (by rw [← hco]; simp [hco']) hpos' hns
            (by simp at hsum ⊢; omega)
          simp only at IH
          obtain ⟨j1, j2, j3, j4, j5⟩ := IH
          unfold continueRun at j1 j2 j3 j4 j5
          simp only [if_neg hcase] at j1 j2 j3 j4 j5
          rw [show S.maxIters + 1 - (p.iterNext + n) = S.maxIters + 1 - p.iterNext - n by omega]
            at j1 j2 j3 j4 j5
          revert hs hr j1 j2 j3 j4 j5
          rcases loop S (S.maxIters + 1 - p.iterNext) p.iterNext o.world with ⟨w, e | ⟨k, c⟩⟩ <;>
          rcases loop S (S.maxIters + 1 - p.iterNext - n) (p.iterNext + n) v with ⟨v', e' | ⟨k', c'⟩⟩ <;>
            intro hs hr j1 j2 j3 j4 j5 <;>
            simp only [reduceCtorEq, Except.error.injEq, Except.ok.injEq, Prod.mk.injEq] at hr
          · subst hr
            refine ⟨hs.trans j1, hst'.trans j2, ?_, j4, by simp⟩
            simp only at j3 ⊢; rw [← j3, hco']
          · obtain ⟨rfl, rfl⟩ := hr
            simp only at j1 j2 j3 j4 j5 ⊢
            split_ifs at j1 j2 j3 j4 j5 ⊢ with hf
            · obtain ⟨⟨a1, a2, a3⟩, a4⟩ := hs
              refine ⟨World.Le.trans (v := { v' with aux := S.exportHist v'.aux })
                ⟨⟨a1, congrArg S.exportHist a2, a3⟩, a4⟩ j1, hst'.trans j2, j3, j4, j5⟩
            · refine ⟨hs.trans j1, hst'.trans j2, ?_, j4, j5⟩
              simp only at j3 ⊢; rw [← j3, hco']
        · have hend := loop_end S _ _ _ _ _ _ hl
          rcases loop S (S.maxIters + 1 - p.iterNext) p.iterNext o.world with ⟨w, e' | ⟨k', c'⟩⟩ <;>
            intro hs hr hfl <;> simp only [reduceCtorEq, Except.ok.injEq, Prod.mk.injEq] at hr
          obtain ⟨rfl, rfl⟩ := hr
          simp only [true_or, if_true]
          rw [runSteps_completed S _ (by rfl)]
          obtain ⟨⟨h1, h2, h3⟩, h4⟩ := hs
          exact ⟨⟨⟨h1, congrArg S.exportHist h2, h3⟩, h4⟩, hst', rfl, rfl, fun _ => rfl⟩

/-- The splitting theorem for any state. -/
theorem split_run (S : Sys E D X) (P : Prop) (ns : List ℕ) (o : Opt E D X)
    (hstart : o.started = true → 1 ≤ o.iterNext)
    (hfut : P → ∀ o1, ensureInit S o = (o1, .ok ()) → o1.world.Fut o1.iterNext)
    (hpos : ∀ n ∈ ns, 0 < n) (hne : ns ≠ [])
    (hsum : S.maxIters ≤ ns.sum) :
    let r := optimize S o
    let s := runCalls S (ns.map fun n : ℕ => Call.steps n) o
    r.1.world.Le P s.1.world ∧ r.1.started = s.1.started ∧ r.1.completed = s.1.completed ∧
      r.2 = s.2 ∧ (r.2 = .ok () → r.1.iterNext = s.1.iterNext) := by
  simp only [optimize]
  by_cases hco : o.completed = true
  · rw [optimizeImpl_completed S none hco, runSteps_completed S _ hco]
    exact ⟨World.Le.refl P _, rfl, rfl, rfl, fun _ => rfl⟩
  · rw [optimizeImpl_eq, if_neg hco]
    rcases ensureInit_cases S o with ⟨hs, h'⟩ | ⟨hs, ⟨x, e, h'⟩ | ⟨x, rho, k, hd, h'⟩⟩
    · rw [h']
      have hfut := fun hp => hfut hp o h'
      exact split_started S P ns (World.Le.refl P _) hfut hfut rfl rfl rfl hs (by simpa using hco)
        hpos hne (by have := hstart hs; omega)
    · rw [h']
      obtain ⟨n, ns, rfl⟩ := List.exists_cons_of_ne_nil hne
      have hn : 0 < n := hpos n (by simp)
      have hcall : (Call.steps (n : ℤ)).run S o = (⟨⟨o.world.rho, x, o.world.files, o.world.trace⟩,
          false, o.iterNext, o.completed, o.final⟩, .error e) := by
        simp only [Call.run, optimizeSteps]
        rw [if_neg (by omega), optimizeImpl_eq, if_neg hco, h']
      simp only [List.map_cons, runCalls, hcall]
      exact ⟨World.Le.refl P _, by simp⟩
    · rw [h']
      have hfut := fun hp => hfut hp _ h'
      have hk := initializeDensity_pos hd
      have key := split_started S P ns
        (o := ⟨⟨rho, x, o.world.files, o.world.trace⟩, true, k, o.completed, o.final⟩)
        (p := ⟨⟨rho, x, o.world.files, o.world.trace⟩, true, k, o.completed, o.final⟩)
        (World.Le.refl P _) hfut hfut rfl rfl rfl rfl (by simpa using hco) hpos hne
        (by simp only; omega)
      have hrun : runCalls S (ns.map fun n : ℕ => Call.steps n) o
          = runCalls S (ns.map fun n : ℕ => Call.steps n)
            ⟨⟨rho, x, o.world.files, o.world.trace⟩, true, k, o.completed, o.final⟩ := by
        obtain ⟨n, ns, rfl⟩ := List.exists_cons_of_ne_nil hne
        have hn : 0 < n := hpos n (by simp)
        simp only [List.map_cons, runCalls]
        have : (Call.steps (n : ℤ)).run S o = (Call.steps (n : ℤ)).run S
            ⟨⟨rho, x, o.world.files, o.world.trace⟩, true, k, o.completed, o.final⟩ := by
          simp only [Call.run, optimizeSteps]
          rw [if_neg (by omega), if_neg (by omega), optimizeImpl_eq, optimizeImpl_eq, if_neg hco,
            if_neg hco, h', ensureInit_started S rfl]
        rw [this]
      rw [hrun]
      exact key

/-- The iterations a loop enters, whatever its outcome. -/
theorem loop_trace (S : Sys E D X) : ∀ (n k : ℕ) (w : World E D X),
    ∃ m ≤ n, (loop S n k w).1.trace = w.trace ++ List.range' k m
  | 0, k, w => ⟨0, le_refl _, by simp [loop]⟩
  | n + 1, k, w => by
    have ht := iterate_trace S (n == 0) k w
    simp only [loop]
    revert ht
    rcases iterate S (n == 0) k w with ⟨v, e | _ | _⟩ <;> intro ht <;> simp only at ht ⊢
    · exact ⟨1, by omega, by simp [ht]⟩
    · obtain ⟨m, hm, h⟩ := loop_trace S n (k + 1) v
      exact ⟨m + 1, by omega, by rw [h, ht, List.append_assoc, List.range'_succ]; rfl⟩
    · exact ⟨1, by omega, by simp [ht]⟩

/-- A property of densities that every single iteration preserves is preserved by a loop. -/
theorem loop_induct (S : Sys E D X) (P : (E → D) → Prop)
    (hP : ∀ rho new, P rho → P (newRho S new rho)) : ∀ (n k : ℕ) (w : World E D X),
    P w.rho → P (loop S n k w).1.rho
  | 0, k, w, h => by simpa [loop] using h
  | n + 1, k, w, h => by
    have hi : P (iterate S (n == 0) k w).1.rho := by
      rcases iterate_cases S (n == 0) k w with
        ⟨x, e, -, h'⟩ | ⟨x, new, -, ⟨y, e, -, h'⟩ | ⟨y, c, -, ⟨-, h'⟩ | ⟨-, h'⟩⟩⟩ <;> rw [h'] <;>
        first | exact h | exact hP _ _ h
    simp only [loop]
    revert hi
    rcases iterate S (n == 0) k w with ⟨v, e | _ | _⟩ <;> intro hi <;> simp only at hi ⊢
    · exact hi
    · exact loop_induct S P hP n (k + 1) v hi
    · exact hi

/-- A non-empty loop that does not raise has saved the densities it ends with. -/
theorem loop_saved (S : Sys E D X) : ∀ (n k : ℕ) (w w' : World E D X) (k' : ℕ) (c : Bool), 0 < n →
    loop S n k w = (w', .ok (k', c)) →
      load w'.files (snapshotName (k' - 1)) = some (designPart S.design w'.rho)
  | 0, k, w, w', k', c, hn, h => absurd hn (by omega)
  | n + 1, k, w, w', k', c, _, h => by
    simp only [loop] at h
    rcases iterate_cases S (n == 0) k w with
        ⟨x, e, -, h'⟩ | ⟨x, new, -, ⟨y, e, -, h'⟩ | ⟨y, c', -, ⟨-, h'⟩ | ⟨-, h'⟩⟩⟩ <;> rw [h'] at h
    · simp at h
    · simp at h
    · simp at h
    · cases c' with
      | true =>
        simp only [Prod.mk.injEq, Except.ok.injEq] at h
        obtain ⟨rfl, rfl, -⟩ := h
        simp [load_save_self]
      | false =>
        simp only at h
        rcases Nat.eq_zero_or_pos n with rfl | hn
        · simp only [loop, Prod.mk.injEq, Except.ok.injEq] at h
          obtain ⟨rfl, rfl, -⟩ := h
          simp [load_save_self]
        · exact loop_saved S n (k + 1) _ w' k' c hn h

end Verif.Driver
