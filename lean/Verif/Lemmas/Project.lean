import Verif.Lemmas.RunBy

/-! What a program of calls leaves in the snapshot directory. -/
namespace Verif.Driver
open Verif.Snapshot

set_option linter.unusedSectionVars false

variable {E D X : Type} [DecidableEq E] [Zero D] [One D] [Max D] [Min D]

theorem names_save {C : Type} (files : List (Name × C)) (n : Name) (c : C) (m : Name) (h : m ∈ (save files n c).map Prod.fst) :
    m = n ∨ m ∈ files.map Prod.fst := by
  simp only [save, List.map_cons, List.mem_cons, List.mem_map, List.mem_filter] at h
  rcases h with h | ⟨f, ⟨h1, -⟩, h2⟩
  · exact Or.inl h
  · exact Or.inr (List.mem_map.2 ⟨f, h1, h2⟩)

theorem names_iterate (S : Sys E D X) (b : Bool) (k : ℕ) (w : World E D X) (m : Name)
    (h : m ∈ (iterate S b k w).1.files.map Prod.fst) : m = snapshotName k ∨ m ∈ w.files.map Prod.fst := by
  rcases iterate_cases S b k w with
    ⟨x, e, -, h'⟩ | ⟨x, new, -, ⟨y, e, -, h'⟩ | ⟨y, c, -, ⟨-, h'⟩ | ⟨-, h'⟩⟩⟩ <;> rw [h'] at h
  · exact Or.inr h
  · exact Or.inr h
  · exact Or.inr h
  · simp only at h
    split_ifs at h
    · exact names_save _ _ _ _ h
    · exact Or.inr h

theorem names_loop (S : Sys E D X) (m : Name) : ∀ (n k : ℕ) (w w' : World E D X) (k' : ℕ) (c : Bool),
    loop S n k w = (w', .ok (k', c)) → m ∈ w'.files.map Prod.fst →
      m ∈ w.files.map Prod.fst ∨ ∃ j, k ≤ j ∧ j < k' ∧ m = snapshotName j
  | 0, k, w, w', k', c, h, hm => by
    simp only [loop, Prod.mk.injEq, Except.ok.injEq] at h
    obtain ⟨rfl, rfl, rfl⟩ := h
    exact Or.inl hm
  | n + 1, k, w, w', k', c, h, hm => by
    have hlt := (loop_end S _ _ _ _ _ _ h).2.2.2.2 (by omega)
    simp only [loop] at h
    have hi := names_iterate S (n == 0) k w m
    revert h hi
    rcases iterate S (n == 0) k w with ⟨v, e | _ | _⟩ <;> intro h hi
    · simp at h
    · simp only at h
      rcases names_loop S m n (k + 1) v w' k' c h hm with h' | ⟨j, h1, h2, h3⟩
      · rcases hi h' with h'' | h''
        · exact Or.inr ⟨k, le_refl _, hlt, h''⟩
        · exact Or.inl h''
      · exact Or.inr ⟨j, by omega, h2, h3⟩
    · simp only [Prod.mk.injEq, Except.ok.injEq] at h
      obtain ⟨rfl, rfl, rfl⟩ := h
      rcases hi hm with h'' | h''
      · exact Or.inr ⟨k, le_refl _, hlt, h''⟩
      · exact Or.inl h''

/-- The snapshots of a run that has not raised: nothing ran, or everything in the directory was there before or belongs to an iteration
executed, and the last iteration executed is saved with the densities the run has now. -/
def Saved (S : Sys E D X) (files : List (Name × (E → D))) (o : Opt E D X) : Prop :=
  (∀ m ∈ o.world.files.map Prod.fst, m ∈ files.map Prod.fst ∨ (o.started = true ∧ ∃ j, j < o.iterNext ∧ m = snapshotName j)) ∧
  (o.started = false → o.world.trace = []) ∧
  (o.world.trace = [] → o.world.files = files) ∧
  (o.world.trace ≠ [] → 1 ≤ o.iterNext ∧
    load o.world.files (snapshotName (o.iterNext - 1)) = some (designPart S.design o.world.rho))

theorem saved_loop {S : Sys E D X} {files : List (Name × (E → D))} {o : Opt E D X} {n : ℕ} {w : World E D X} {k : ℕ} {c : Bool}
    (hs : o.started = true) (h : Saved S files o) (hl : loop S n o.iterNext o.world = (w, .ok (k, c))) :
    Saved S files { o with world := w, iterNext := k } := by
  obtain ⟨h1, -, h3, h4⟩ := h
  have he := loop_end S _ _ _ _ _ _ hl
  rcases Nat.eq_zero_or_pos n with rfl | hn
  · simp only [loop, Prod.mk.injEq, Except.ok.injEq] at hl
    obtain ⟨rfl, rfl, rfl⟩ := hl
    exact ⟨h1, fun hf => by simp [hs] at hf, h3, h4⟩
  · have hkk := he.2.2.2.2 hn
    have htr : w.trace ≠ [] := by
      rw [he.2.2.2.1]
      simp only [ne_eq, List.append_eq_nil_iff, List.range'_eq_nil_iff]
      omega
    refine ⟨fun m hm => ?_, fun hf => by simp [hs] at hf, fun hf => absurd hf htr, fun _ => ⟨by simp only; omega, loop_saved S _ _ _ _ _ _ hn hl⟩⟩
    rcases names_loop S m _ _ _ _ _ _ hl hm with hm | ⟨j, -, j2, j3⟩
    · rcases h1 m hm with h' | ⟨-, j, j1, j2⟩
      · exact Or.inl h'
      · exact Or.inr ⟨hs, j, by simp only; omega, j2⟩
    · exact Or.inr ⟨hs, j, j2, j3⟩

theorem saved_finalize {S : Sys E D X} {files : List (Name × (E → D))} {o : Opt E D X} (h : Saved S files o) : Saved S files (finalize S o) := h

theorem saved_impl {S : Sys E D X} {files : List (Name × (E → D))} {m : Option ℕ} {o o' : Opt E D X} (h : Saved S files o)
    (hr : optimizeImpl S m o = (o', .ok ())) : Saved S files o' := by
  rw [optimizeImpl_eq] at hr
  split_ifs at hr with hc
  · simp only [Prod.mk.injEq, and_true] at hr; exact hr ▸ h
  · rcases hE : ensureInit S o with ⟨o1, e | ⟨⟩⟩ <;> rw [hE] at hr <;> simp only at hr
    · simp at hr
    · have hi := ensureInit_ok hE
      have h1 : Saved S files o1 := by
        by_cases hs : o.started = true
        · rw [hi.2.2.2.2 hs]; exact h
        · obtain ⟨a, b, c, -⟩ := h
          have ht := b (by simpa using hs)
          refine ⟨fun m hm => ?_, fun hf => by simp [hi.1] at hf, fun _ => by rw [hi.2.2.1]; exact c ht, fun hf => absurd (hi.2.2.2.1.trans ht) hf⟩
          rw [hi.2.2.1] at hm
          rcases a m hm with h' | ⟨h', -⟩
          · exact Or.inl h'
          · exact absurd h' hs
      rcases continueRun_cases S m o1 with ⟨-, h'⟩ | ⟨-, n, -, -, ⟨w, e, -, h'⟩ | ⟨w, k, c', hl, ⟨-, h'⟩ | ⟨-, h'⟩⟩⟩ <;>
        rw [h'] at hr <;> simp only [Prod.mk.injEq, reduceCtorEq, and_false, and_true] at hr <;> subst hr
      · exact saved_finalize h1
      · exact saved_finalize (saved_loop hi.1 h1 hl)
      · exact saved_loop hi.1 h1 hl

theorem saved_calls {S : Sys E D X} {files : List (Name × (E → D))} : ∀ (cs : List Call) {o o' : Opt E D X}, Saved S files o →
    runCalls S cs o = (o', .ok ()) → Saved S files o'
  | [], o, o', hg, h => by
    simp only [runCalls, Prod.mk.injEq, and_true] at h; exact h ▸ hg
  | c :: cs, o, o', hg, h => by
    simp only [runCalls] at h
    rcases hc : c.run S o with ⟨p, e | ⟨⟩⟩ <;> rw [hc] at h <;> simp only at h
    · simp at h
    · refine saved_calls cs ?_ h
      cases c with
      | optimize => exact saved_impl (m := none) hg hc
      | steps n =>
        simp only [Call.run, optimizeSteps] at hc
        split_ifs at hc
        · simp only [Prod.mk.injEq, and_true] at hc; exact hc ▸ hg
        · exact saved_impl hg hc

theorem saved_fresh (S : Sys E D X) (rho0 : E → D) (x : X) (files : List (Name × (E → D))) : Saved S files (fresh rho0 x files) :=
  ⟨fun _ hm => Or.inl hm, fun _ => rfl, fun _ => rfl, fun h => absurd rfl h⟩

/-- `optimize()` among the calls of a program that does not raise leaves the run completed. -/
theorem completed_calls {S : Sys E D X} : ∀ (cs : List Call) {o o' : Opt E D X}, (Call.optimize ∈ cs ∨ o.completed = true) →
    runCalls S cs o = (o', .ok ()) → o'.completed = true
  | [], o, o', hm, h => by
    simp only [runCalls, Prod.mk.injEq, and_true] at h
    rcases hm with hm | hm
    · simp at hm
    · exact h ▸ hm
  | c :: cs, o, o', hm, h => by
    simp only [runCalls] at h
    rcases hc : c.run S o with ⟨p, e | ⟨⟩⟩ <;> rw [hc] at h <;> simp only at h
    · simp at h
    · refine completed_calls cs ?_ h
      rcases hm with hm | hm
      · rcases List.mem_cons.1 hm with rfl | hm
        · exact Or.inr (C34_optimize_completes S hc)
        · exact Or.inl hm
      · right
        have hi : c.run S o = (o, .ok ()) := by
          have := C34_completed_is_inert S hm [c]
          simp only [runCalls] at this
          rw [hc] at this ⊢
          simpa using this
        rw [hi] at hc
        simp only [Prod.mk.injEq] at hc
        exact hc.1 ▸ hm

end Verif.Driver
