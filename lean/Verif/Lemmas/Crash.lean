import Verif.Spec.Crash
import Verif.Lemmas.Project

/-! The events of a process, and what a kill leaves in the directory. -/
namespace Verif.Crash
open Verif.Driver
open Verif.Snapshot

set_option linter.unusedSectionVars false

variable {E D X : Type} [DecidableEq E] [Zero D] [One D] [Max D] [Min D]

/-- All events happened. -/
abbrev after (F : Disk E D X) (es : List (Event E D X)) : Disk E D X := es.foldl Disk.done F

theorem readable_save (F : Disk E D X) (n : Name) (data : E → D) :
    ({ F with files := save F.files n (some data) } : Disk E D X).readable = save F.readable n data := by
  simp only [Disk.readable, save, List.filterMap_cons, Option.map_some]
  congr 1
  induction F.files with
  | nil => rfl
  | cons f fs ih =>
    obtain ⟨m, c⟩ := f
    simp only [ne_eq, decide_not] at ih
    by_cases h : m = n <;> cases c <;> simp [List.filter_cons, h, List.filterMap_cons, ih]

theorem entered_append (es fs : List (Event E D X)) : entered (es ++ fs) = entered es ++ entered fs := by
  simp [entered]

/-! ### The events agree with the driver -/

theorem iterateEvents_cases (S : Sys E D X) (b : Bool) (k : ℕ) (w : World E D X) :
    (iterateEvents S b k w = [.enter k] ∧ (iterate S b k w).1.files = w.files ∧
      ((∃ e, (iterate S b k w).2 = .error e) ∨
        S.maxIters / S.recordTimes ≠ 0 ∧ ¬ (k % (S.maxIters / S.recordTimes) = 0 ∨ k = 1 ∨ b = true) ∧ (iterate S b k w).2 = .ok false)) ∨
    (iterateEvents S b k w = [.enter k, .snapshot k (designPart S.design (iterate S b k w).1.rho)] ∧
      (iterate S b k w).1.files = save w.files (snapshotName k) (designPart S.design (iterate S b k w).1.rho) ∧
      ∃ c, (iterate S b k w).2 = .ok c) := by
  rcases iterate_cases S b k w with ⟨x, e, hs, h⟩ | ⟨x, new, hs, ⟨y, e, hr, h⟩ | ⟨y, c, hr, ⟨hi, h⟩ | ⟨hi, h⟩⟩⟩
  · left
    rw [h]
    exact ⟨by simp [iterateEvents, hs], rfl, Or.inl ⟨e, rfl⟩⟩
  · left
    rw [h]
    refine ⟨?_, rfl, Or.inl ⟨e, rfl⟩⟩
    simp only [newRho] at hr
    simp [iterateEvents, hs, hr]
  · left
    rw [h]
    refine ⟨?_, rfl, Or.inl ⟨_, rfl⟩⟩
    simp only [newRho] at hr
    simp [iterateEvents, hs, hr, hi]
  · rw [h]
    by_cases hc : k % (S.maxIters / S.recordTimes) = 0 ∨ k = 1 ∨ c = true ∨ b = true
    · right
      simp only [if_pos hc]
      refine ⟨?_, trivial, c, rfl⟩
      simp only [newRho] at hr ⊢
      simp only [iterateEvents, hs, hr, if_neg hi, if_pos hc]
    · left
      simp only [if_neg hc]
      refine ⟨?_, trivial, Or.inr ⟨hi, fun h' => hc ?_, ?_⟩⟩
      · simp only [newRho] at hr
        simp only [iterateEvents, hs, hr, if_neg hi, if_neg hc]
      · rcases h' with h' | h' | h'
        · exact Or.inl h'
        · exact Or.inr (Or.inl h')
        · exact Or.inr (Or.inr (Or.inr h'))
      · push Not at hc
        simpa using hc.2.2.1

theorem iterate_files_events (S : Sys E D X) (b : Bool) (k : ℕ) (w : World E D X) (F : Disk E D X) (hF : F.readable = w.files) :
    (after F (iterateEvents S b k w)).readable = (iterate S b k w).1.files := by
  rcases iterateEvents_cases S b k w with ⟨h1, h2, -⟩ | ⟨h1, h2, -⟩
  · rw [h1, h2]; exact hF
  · rw [h1, h2, ← hF]
    exact readable_save F _ _

theorem iterate_entered (S : Sys E D X) (b : Bool) (k : ℕ) (w : World E D X) : entered (iterateEvents S b k w) = [k] := by
  rcases iterateEvents_cases S b k w with ⟨h1, -⟩ | ⟨h1, -⟩ <;> rw [h1] <;> rfl

theorem loop_files_events (S : Sys E D X) : ∀ (n k : ℕ) (w : World E D X) (F : Disk E D X), F.readable = w.files →
    (after F (loopEvents S n k w)).readable = (loop S n k w).1.files ∧ (loop S n k w).1.trace = w.trace ++ entered (loopEvents S n k w)
  | 0, k, w, F, h => ⟨h, by simp [loop, loopEvents, entered]⟩
  | n + 1, k, w, F, h => by
    have h1 := iterate_files_events S (n == 0) k w F h
    have h2 := iterate_trace S (n == 0) k w
    have h3 := iterate_entered S (n == 0) k w
    simp only [loopEvents, loop]
    revert h1 h2
    rcases iterate S (n == 0) k w with ⟨v, e | _ | _⟩ <;> intro h1 h2 <;> simp only [List.append_nil] at h1 h2 ⊢
    · exact ⟨h1, by rw [h3, h2]⟩
    · have := loop_files_events S n (k + 1) v _ h1
      refine ⟨by rw [← this.1, after, after, after, List.foldl_append], ?_⟩
      rw [this.2, h2, entered_append, h3, List.append_assoc]
    · exact ⟨h1, by rw [h3, h2]⟩

/-- `histories.npz` was written. -/
def Exported (es : List (Event E D X)) : Prop := ∃ x, Event.histories x ∈ es

theorem loop_not_exported (S : Sys E D X) : ∀ (n k : ℕ) (w : World E D X), ¬ Exported (loopEvents S n k w)
  | 0, k, w => by simp [Exported, loopEvents]
  | n + 1, k, w => by
    have hi : ¬ Exported (iterateEvents S (n == 0) k w) := by
      rcases iterateEvents_cases S (n == 0) k w with ⟨h1, -⟩ | ⟨h1, -⟩ <;> rw [h1] <;> simp [Exported]
    rintro ⟨x, hx⟩
    simp only [loopEvents, List.mem_append] at hx
    rcases hx with hx | hx
    · exact hi ⟨x, hx⟩
    · revert hx
      rcases iterate S (n == 0) k w with ⟨v, e | _ | _⟩ <;> intro hx <;> simp only [List.not_mem_nil] at hx
      exact loop_not_exported S n (k + 1) v ⟨x, hx⟩

/-- The events of a call on a started run, see `Driver.continueRun_cases`. -/
theorem implEvents_cases (S : Sys E D X) (m : Option ℕ) (o : Opt E D X) :
    (o.completed = true ∧ implEvents S m o = [] ∧ optimizeImpl S m o = (o, .ok ())) ∨
    (o.completed = false ∧
      ((∃ o1 e, ensureInit S o = (o1, .error e) ∧ implEvents S m o = [] ∧ optimizeImpl S m o = (o1, .error e)) ∨
       (∃ o1, ensureInit S o = (o1, .ok ()) ∧
         ((S.maxIters + 1 ≤ o1.iterNext ∧ implEvents S m o = [.histories o1.world.aux] ∧ optimizeImpl S m o = (finalize S o1, .ok ())) ∨
          (o1.iterNext ≤ S.maxIters ∧ ∃ n, n = chunkLen m (S.maxIters + 1 - o1.iterNext) ∧
            ((∃ w e, loop S n o1.iterNext o1.world = (w, .error e) ∧ implEvents S m o = loopEvents S n o1.iterNext o1.world ∧
                optimizeImpl S m o = ({ o1 with world := w }, .error e)) ∨
             (∃ w k c, loop S n o1.iterNext o1.world = (w, .ok (k, c)) ∧
               ((c = true ∨ S.maxIters + 1 ≤ k) ∧
                  implEvents S m o = loopEvents S n o1.iterNext o1.world ++ [.histories w.aux] ∧
                  optimizeImpl S m o = (finalize S { o1 with world := w, iterNext := k }, .ok ()) ∨
                (c = false ∧ k < S.maxIters + 1) ∧ implEvents S m o = loopEvents S n o1.iterNext o1.world ∧
                  optimizeImpl S m o = ({ o1 with world := w, iterNext := k }, .ok ()))))))))) := by
  by_cases hc : o.completed = true
  · exact Or.inl ⟨hc, by simp [implEvents, hc], optimizeImpl_completed S m hc⟩
  · refine Or.inr ⟨by simpa using hc, ?_⟩
    rcases hE : ensureInit S o with ⟨o1, e | ⟨⟩⟩
    · left
      exact ⟨o1, e, rfl, by simp [implEvents, hc, hE], by simp [optimizeImpl, hc, hE]⟩
    · right
      refine ⟨o1, rfl, ?_⟩
      have hlim : (match m with
          | none => S.maxIters + 1
          | some n => min (o1.iterNext + n) (S.maxIters + 1)) - o1.iterNext
          = chunkLen m (S.maxIters + 1 - o1.iterNext) := by
        cases m with
        | none => rfl
        | some a => simp only [chunkLen]; omega
      have hcE : implEvents S m o = if S.maxIters + 1 ≤ o1.iterNext then [.histories o1.world.aux] else
          loopEvents S (chunkLen m (S.maxIters + 1 - o1.iterNext)) o1.iterNext o1.world ++
          match loop S (chunkLen m (S.maxIters + 1 - o1.iterNext)) o1.iterNext o1.world with
          | (w, .ok (k, conv)) => if conv = true ∨ S.maxIters + 1 ≤ k then [.histories w.aux] else []
          | (_, .error _) => [] := by
        rw [← hlim]
        simp only [implEvents, hE, if_neg hc] <;> rfl
      have hO : optimizeImpl S m o = continueRun S m o1 := by
        rw [optimizeImpl_eq, if_neg hc, hE]
      rw [hcE, hO]
      rcases continueRun_cases S m o1 with ⟨hd, h'⟩ | ⟨hd, n, -, hn, h'⟩
      · left; exact ⟨hd, if_pos hd, h'⟩
      · right
        refine ⟨hd, n, hn, ?_⟩
        rw [if_neg (by omega), ← hn]
        rcases h' with ⟨w, e, hl, h'⟩ | ⟨w, k, c, hl, ⟨hf, h'⟩ | ⟨hf, h'⟩⟩
        · left; exact ⟨w, e, hl, by simp [hl], h'⟩
        · right; exact ⟨w, k, c, hl, Or.inl ⟨hf, by simp only [hl, if_pos hf], h'⟩⟩
        · right
          refine ⟨w, k, c, hl, Or.inr ⟨hf, ?_, h'⟩⟩
          have : ¬ (c = true ∨ S.maxIters + 1 ≤ k) := by
            rintro (h | h)
            · rw [hf.1] at h; simp at h
            · omega
          simp only [hl, if_neg this, List.append_nil]

theorem after_append (F : Disk E D X) (es fs : List (Event E D X)) : after F (es ++ fs) = after (after F es) fs := List.foldl_append

theorem exported_append (es fs : List (Event E D X)) : Exported (es ++ fs) ↔ Exported es ∨ Exported fs := by
  simp only [Exported, List.mem_append]
  constructor
  · rintro ⟨x, h | h⟩
    · exact Or.inl ⟨x, h⟩
    · exact Or.inr ⟨x, h⟩
  · rintro (⟨x, h⟩ | ⟨x, h⟩)
    · exact ⟨x, Or.inl h⟩
    · exact ⟨x, Or.inr h⟩

/-- What the events must say about the step from `o` to `o'`. -/
def Agrees (es : List (Event E D X)) (o o' : Opt E D X) : Prop :=
  (∀ F : Disk E D X, F.readable = o.world.files → (after F es).readable = o'.world.files) ∧
  o'.world.trace = o.world.trace ++ entered es ∧
  (o'.completed = true ↔ o.completed = true ∨ Exported es)

theorem Agrees.trans {es fs : List (Event E D X)} {o o' o'' : Opt E D X} (h : Agrees es o o') (g : Agrees fs o' o'') :
    Agrees (es ++ fs) o o'' := by
  refine ⟨fun F hF => ?_, ?_, ?_⟩
  · rw [after_append]; exact g.1 _ (h.1 F hF)
  · rw [g.2.1, h.2.1, entered_append, List.append_assoc]
  · rw [g.2.2, h.2.2, exported_append, or_assoc]

theorem agrees_impl (S : Sys E D X) (m : Option ℕ) (o : Opt E D X) : Agrees (implEvents S m o) o (optimizeImpl S m o).1 := by
  rcases implEvents_cases S m o with ⟨hc, h1, h2⟩ | ⟨hc, ⟨o1, e, hE, h1, h2⟩ | ⟨o1, hE, h⟩⟩
  · rw [h1, h2]
    exact ⟨fun F hF => hF, by simp [entered], by simp [Exported]⟩
  · rw [h1, h2]
    rcases ensureInit_cases S o with ⟨hs, h'⟩ | ⟨hs, ⟨x, e', h'⟩ | ⟨x, rho, k, -, h'⟩⟩ <;> rw [h'] at hE <;>
      simp only [Prod.mk.injEq, reduceCtorEq, and_false] at hE
    obtain ⟨rfl, -⟩ := hE
    exact ⟨fun F hF => hF, by simp [entered], by simp [Exported]⟩
  · have hi := ensureInit_ok hE
    have hl0 := fun n => loop_files_events S n o1.iterNext o1.world
    rw [hi.2.2.1, hi.2.2.2.1] at hl0
    have hcc : o1.completed = false := by rw [hi.2.1, hc]
    rcases h with ⟨hd, h1, h2⟩ | ⟨hd, n, hn, ⟨w, e, hl, h1, h2⟩ | ⟨w, k, c, hl, ⟨hf, h1, h2⟩ | ⟨hf, h1, h2⟩⟩⟩ <;> rw [h1, h2]
    · exact ⟨fun F hF => by rw [← hi.2.2.1] at hF; exact hF, by simp [entered, finalize, hi.2.2.2.1], by simp [finalize, Exported]⟩
    · have := hl0 n; rw [hl] at this
      exact ⟨fun F hF => (this F hF).1, (this ⟨o.world.files.map fun f => (f.1, some f.2), none⟩ (by simp [Disk.readable, List.filterMap_map, Function.comp_def])).2,
        by simp only [hcc, hc]; simp [loop_not_exported]⟩
    · have := hl0 n; rw [hl] at this
      refine ⟨fun F hF => ?_, ?_, by simp [finalize, Exported]⟩
      · rw [after_append]
        exact (this F hF).1
      · rw [entered_append]
        have := (this ⟨o.world.files.map fun f => (f.1, some f.2), none⟩ (by simp [Disk.readable, List.filterMap_map, Function.comp_def])).2
        simpa [entered, finalize] using this
    · have := hl0 n; rw [hl] at this
      exact ⟨fun F hF => (this F hF).1, (this ⟨o.world.files.map fun f => (f.1, some f.2), none⟩ (by simp [Disk.readable, List.filterMap_map, Function.comp_def])).2,
        by simp only [hcc, hc]; simp [loop_not_exported]⟩

theorem agrees_call (S : Sys E D X) (c : Call) (o : Opt E D X) : Agrees (callEvents S c o) o (c.run S o).1 := by
  cases c with
  | optimize => exact agrees_impl S none o
  | steps n =>
    simp only [callEvents, Call.run, optimizeSteps]
    split_ifs
    · exact ⟨fun F hF => hF, by simp [entered], by simp [Exported]⟩
    · exact agrees_impl S _ o

/-- The events of a program and the program agree. -/
theorem agrees_calls (S : Sys E D X) : ∀ (cs : List Call) (o : Opt E D X), Agrees (callsEvents S cs o) o (runCalls S cs o).1
  | [], o => ⟨fun F hF => hF, by simp [entered, runCalls, callsEvents], by simp [Exported, runCalls, callsEvents]⟩
  | c :: cs, o => by
    have h := agrees_call S c o
    simp only [callsEvents, runCalls]
    revert h
    rcases c.run S o with ⟨p, e | ⟨⟩⟩ <;> intro h
    · simpa using h
    · exact h.trans (agrees_calls S cs p)

/-! ### Prefixes -/

/-- The iterations of the snapshots written, in order. -/
def snaps (es : List (Event E D X)) : List ℕ :=
  es.filterMap fun ev => match ev with
    | .snapshot k _ => some k
    | _ => none

theorem snaps_append (es fs : List (Event E D X)) : snaps (es ++ fs) = snaps es ++ snaps fs := by
  simp [snaps]

theorem mem_snaps {es : List (Event E D X)} {j : ℕ} : j ∈ snaps es ↔ ∃ data, Event.snapshot j data ∈ es := by
  simp only [snaps, List.mem_filterMap]
  constructor
  · rintro ⟨ev, h1, h2⟩
    cases ev <;> simp at h2
    subst h2
    exact ⟨_, h1⟩
  · rintro ⟨data, h⟩
    exact ⟨_, h, rfl⟩

/-- The events of iterations `k, …, k + m - 1`, the last of which may be unfinished: the snapshots written have the content `f` says and
are in order, and all that are due for the finished iterations are there. -/
structure Seg (f : ℕ → E → D) (d k m : ℕ) (P : List (Event E D X)) : Prop where
  enter : entered P = List.range' k m
  content : ∀ j data, Event.snapshot j data ∈ P → k ≤ j ∧ j < k + m ∧ data = f j
  due : ∀ j, k ≤ j → j + 1 < k + m → j % d = 0 ∨ j = 1 → j ∈ snaps P
  sorted : (snaps P).Pairwise (· < ·)

/-- All iterations are finished. -/
def Full (f : ℕ → E → D) (d k m : ℕ) (P : List (Event E D X)) : Prop :=
  Seg f d k m P ∧ ∀ j, k ≤ j → j < k + m → j % d = 0 ∨ j = 1 → j ∈ snaps P

theorem seg_nil (f : ℕ → E → D) (d k : ℕ) : Seg f d k 0 ([] : List (Event E D X)) :=
  ⟨rfl, fun _ _ h => by simp at h, fun j h1 h2 => by omega, List.Pairwise.nil⟩

theorem full_nil (f : ℕ → E → D) (d k : ℕ) : Full f d k 0 ([] : List (Event E D X)) :=
  ⟨seg_nil f d k, fun j h1 h2 => by omega⟩

theorem Seg.append {f : ℕ → E → D} {d k m m' : ℕ} {P Q : List (Event E D X)} (h : Full f d k m P) (g : Seg f d (k + m) m' Q) :
    Seg f d k (m + m') (P ++ Q) := by
  refine ⟨?_, fun j data hj => ?_, fun j h1 h2 h3 => ?_, ?_⟩
  · rw [entered_append, h.1.enter, g.enter, List.range'_append_1]
  · rcases List.mem_append.1 hj with hj | hj
    · have := h.1.content j data hj; exact ⟨this.1, by omega, this.2.2⟩
    · have := g.content j data hj; exact ⟨by omega, by omega, this.2.2⟩
  · rw [snaps_append]
    by_cases hlt : j < k + m
    · exact List.mem_append_left _ (h.2 j h1 hlt h3)
    · exact List.mem_append_right _ (g.due j (by omega) (by omega) h3)
  · rw [snaps_append, List.pairwise_append]
    refine ⟨h.1.sorted, g.sorted, fun i hi j hj => ?_⟩
    obtain ⟨a, ha⟩ := mem_snaps.1 hi
    obtain ⟨c, hc⟩ := mem_snaps.1 hj
    have := (h.1.content i a ha).2.1
    have := (g.content j c hc).1
    omega

theorem Full.append {f : ℕ → E → D} {d k m m' : ℕ} {P Q : List (Event E D X)} (h : Full f d k m P) (g : Full f d (k + m) m' Q) :
    Full f d k (m + m') (P ++ Q) := by
  refine ⟨Seg.append h g.1, fun j h1 h2 h3 => ?_⟩
  rw [snaps_append]
  by_cases hlt : j < k + m
  · exact List.mem_append_left _ (h.2 j h1 hlt h3)
  · exact List.mem_append_right _ (g.2 j (by omega) (by omega) h3)

theorem prefix_append_cases {α : Type} {P A B : List α} (h : P <+: A ++ B) : P <+: A ∨ ∃ Q, P = A ++ Q ∧ Q <+: B := by
  rcases List.prefix_or_prefix_of_prefix h (List.prefix_append A B) with h' | ⟨Q, rfl⟩
  · exact Or.inl h'
  · exact Or.inr ⟨Q, rfl, (List.prefix_append_right_inj A).1 h⟩

/-- The densities after iteration `j` of a run that starts with iteration `b` in the world `w1`, as a snapshot stores them. -/
def content (S : Sys E D X) (b : ℕ) (w1 : World E D X) (j : ℕ) : E → D := designPart S.design (loop S (j + 1 - b) b w1).1.rho

/-- The run that starts with iteration `b` in the world `w1` has got through `i` iterations without converging, to the world `w`. -/
def At (S : Sys E D X) (b : ℕ) (w1 : World E D X) (i : ℕ) (w : World E D X) : Prop :=
  ∃ v, loop S i b w1 = (v, .ok (b + i, false)) ∧ w.Sim v

theorem loop_one (S : Sys E D X) (k : ℕ) (w : World E D X) : (loop S 1 k w).1 = (iterate S true k w).1 := by
  simp only [loop, beq_self_eq_true]
  rcases iterate S true k w with ⟨v, e | _ | _⟩ <;> rfl

theorem loop_one_false {S : Sys E D X} {k : ℕ} {w v : World E D X} (h : iterate S true k w = (v, .ok false)) :
    loop S 1 k w = (v, .ok (k + 1, false)) := by
  simp [loop, h]

theorem at_step {S : Sys E D X} {b : ℕ} {w1 : World E D X} {i : ℕ} {w : World E D X} (h : At S b w1 i w) (l : Bool) :
    designPart S.design (iterate S l (b + i) w).1.rho = content S b w1 (b + i) ∧
    ((iterate S l (b + i) w).2 = .ok false → At S b w1 (i + 1) (iterate S l (b + i) w).1) := by
  obtain ⟨v, hv, hw⟩ := h
  have ha := loop_add S False 1 i b (World.Le.refl False w1) (fun h => h.elim)
  simp only [hv] at ha
  obtain ⟨⟨a1, -⟩, a2⟩ := ha
  have hs := iterate_sim S l true (b + i) hw
  constructor
  · rw [content, show b + i + 1 - b = i + 1 by omega, a1.1, loop_one, hs.1.1]
  · intro hf
    rw [hf] at hs
    rcases hit : iterate S true (b + i) v with ⟨u, r⟩
    rw [hit] at hs
    simp only at hs
    obtain ⟨hs1, rfl⟩ := hs
    rw [loop_one_false hit] at a1 a2
    simp only at a1 a2
    rcases hl : loop S (i + 1) b w1 with ⟨v', r'⟩
    rw [hl] at a1 a2
    simp only at a1 a2
    subst a2
    exact ⟨v', hl, hs1.1.trans a1.1.symm, hs1.2.1.trans a1.2.1.symm, hs1.2.2.trans a1.2.2.symm⟩

theorem iterate_seg {S : Sys E D X} {b : ℕ} {w1 : World E D X} {i : ℕ} {w : World E D X} (h : At S b w1 i w) (l : Bool) :
    (∀ P, P <+: iterateEvents S l (b + i) w → ∃ m, Seg (content S b w1) (S.maxIters / S.recordTimes) (b + i) m P) ∧
    (∀ c, (iterate S l (b + i) w).2 = .ok c →
      Full (content S b w1) (S.maxIters / S.recordTimes) (b + i) 1 (iterateEvents S l (b + i) w)) := by
  have hc := (at_step h l).1
  have s1 : Seg (content S b w1) (S.maxIters / S.recordTimes) (b + i) 1 ([.enter (b + i)] : List (Event E D X)) :=
    ⟨rfl, fun _ _ h => by simp at h, fun j h1 h2 => by omega, List.Pairwise.nil⟩
  have s2 : Seg (content S b w1) (S.maxIters / S.recordTimes) (b + i) 1
      ([.enter (b + i), .snapshot (b + i) (content S b w1 (b + i))] : List (Event E D X)) :=
    ⟨rfl, fun j data h => by
        simp only [List.mem_cons, reduceCtorEq, Event.snapshot.injEq, List.not_mem_nil, or_false, false_or] at h
        obtain ⟨rfl, rfl⟩ := h
        exact ⟨le_refl _, by omega, rfl⟩,
      fun j h1 h2 => by omega, by simp [snaps]⟩
  rcases iterateEvents_cases S l (b + i) w with ⟨h1, -, h3⟩ | ⟨h1, -, h3⟩ <;> rw [h1]
  · constructor
    · intro P hP
      rw [List.prefix_cons_iff] at hP
      rcases hP with rfl | ⟨t, rfl, ht⟩
      · exact ⟨0, seg_nil _ _ _⟩
      · rw [List.prefix_nil] at ht
        subst ht
        exact ⟨1, s1⟩
    · intro c hcc
      refine ⟨s1, fun j j1 j2 j3 => ?_⟩
      rcases h3 with ⟨e, h3⟩ | ⟨-, h3, -⟩
      · rw [hcc] at h3; simp at h3
      · have : j = b + i := by omega
        subst this
        exact absurd (by rcases j3 with j3 | j3 <;> simp [j3]) h3
  · rw [hc]
    constructor
    · intro P hP
      rw [List.prefix_cons_iff] at hP
      rcases hP with rfl | ⟨t, rfl, ht⟩
      · exact ⟨0, seg_nil _ _ _⟩
      · rw [List.prefix_cons_iff] at ht
        rcases ht with rfl | ⟨t, rfl, ht⟩
        · exact ⟨1, s1⟩
        · rw [List.prefix_nil] at ht
          subst ht
          exact ⟨1, s2⟩
    · intro c _
      refine ⟨s2, fun j j1 j2 _ => ?_⟩
      have : j = b + i := by omega
      subst this
      simp [snaps]

theorem loop_seg {S : Sys E D X} {b : ℕ} {w1 : World E D X} : ∀ (n i : ℕ) (w : World E D X), At S b w1 i w →
    (∀ P, P <+: loopEvents S n (b + i) w → ∃ m, Seg (content S b w1) (S.maxIters / S.recordTimes) (b + i) m P) ∧
    (∀ w' k' c, loop S n (b + i) w = (w', .ok (k', c)) → ∃ m, k' = b + i + m ∧
      Full (content S b w1) (S.maxIters / S.recordTimes) (b + i) m (loopEvents S n (b + i) w) ∧
      (c = false → At S b w1 (i + m) w'))
  | 0, i, w, h => by
    constructor
    · intro P hP
      simp only [loopEvents, List.prefix_nil] at hP
      subst hP
      exact ⟨0, seg_nil _ _ _⟩
    · intro w' k' c hl
      simp only [loop, Prod.mk.injEq, Except.ok.injEq] at hl
      obtain ⟨rfl, rfl, rfl⟩ := hl
      exact ⟨0, rfl, full_nil _ _ _, fun _ => h⟩
  | n + 1, i, w, h => by
    have hs := (at_step h (n == 0)).2
    obtain ⟨g1, g2⟩ := iterate_seg h (n == 0)
    simp only [loopEvents, loop]
    revert hs g2
    rcases iterate S (n == 0) (b + i) w with ⟨v, e | _ | _⟩ <;> intro hs g2 <;> simp only [List.append_nil] at hs g2 ⊢
    · exact ⟨g1, fun w' k' c hl => by simp at hl⟩
    · obtain ⟨r1, r2⟩ := loop_seg n (i + 1) v (hs trivial)
      have gf := g2 false rfl
      constructor
      · intro P hP
        rcases prefix_append_cases hP with hP | ⟨Q, rfl, hQ⟩
        · exact g1 P hP
        · obtain ⟨m, hm⟩ := r1 Q hQ
          exact ⟨1 + m, Seg.append gf hm⟩
      · intro w' k' c hl
        obtain ⟨m, hm, hF, hA⟩ := r2 w' k' c hl
        refine ⟨1 + m, by omega, gf.append hF, fun hc => ?_⟩
        have := hA hc
        rwa [show i + 1 + m = i + (1 + m) by omega] at this
    · refine ⟨g1, fun w' k' c hl => ?_⟩
      simp only [Prod.mk.injEq, Except.ok.injEq] at hl
      obtain ⟨rfl, rfl, rfl⟩ := hl
      exact ⟨1, rfl, g2 true rfl, fun h => by simp at h⟩

/-- The optimizer is in the middle of that run, or about to start it. -/
def Ongoing (S : Sys E D X) (b : ℕ) (w1 : World E D X) (i : ℕ) (o : Opt E D X) : Prop :=
  ∃ o1, ensureInit S o = (o1, .ok ()) ∧ o1.iterNext = b + i ∧ At S b w1 i o1.world

theorem seg_histories {f : ℕ → E → D} {d k m : ℕ} {P : List (Event E D X)} (h : Full f d k m P) (x : X) :
    Full f d k m (P ++ [.histories x]) := by
  have e1 : entered (P ++ [.histories x]) = entered P := by rw [entered_append]; simp [entered]
  have e2 : snaps (P ++ [.histories x]) = snaps P := by rw [snaps_append]; simp [snaps]
  refine ⟨⟨e1.trans h.1.enter, fun j data hj => h.1.content j data ?_, fun j => e2 ▸ h.1.due j, e2 ▸ h.1.sorted⟩, fun j => e2 ▸ h.2 j⟩
  simpa using hj

theorem impl_seg {S : Sys E D X} {b : ℕ} {w1 : World E D X} {i : ℕ} {o : Opt E D X} (h : Ongoing S b w1 i o) (m : Option ℕ) :
    (∀ P, P <+: implEvents S m o → ∃ m, Seg (content S b w1) (S.maxIters / S.recordTimes) (b + i) m P) ∧
    (∀ o', optimizeImpl S m o = (o', .ok ()) → ∃ m', Full (content S b w1) (S.maxIters / S.recordTimes) (b + i) m' (implEvents S m o) ∧
      (o'.completed = true ∨ Ongoing S b w1 (i + m') o')) := by
  obtain ⟨o1, hE, hn, hA⟩ := h
  have nil : ∀ P : List (Event E D X), P <+: [] → ∃ m, Seg (content S b w1) (S.maxIters / S.recordTimes) (b + i) m P := by
    intro P hP
    rw [List.prefix_nil] at hP
    subst hP
    exact ⟨0, seg_nil _ _ _⟩
  rcases implEvents_cases S m o with ⟨hc, h1, h2⟩ | ⟨hc, ⟨o2, e, hE', h1, h2⟩ | ⟨o2, hE', h⟩⟩
  · rw [h1, h2]
    refine ⟨nil, fun o' ho => ⟨0, full_nil _ _ _, Or.inl ?_⟩⟩
    simp only [Prod.mk.injEq, and_true] at ho
    exact ho ▸ hc
  · rw [hE] at hE'; simp at hE'
  · rw [hE] at hE'
    simp only [Prod.mk.injEq, and_true] at hE'
    subst hE'
    have hi := ensureInit_ok hE
    have hhist : ∀ (L : List (Event E D X)) (x : X), (∀ P, P <+: L → ∃ m, Seg (content S b w1) (S.maxIters / S.recordTimes) (b + i) m P) →
        (∃ m, Full (content S b w1) (S.maxIters / S.recordTimes) (b + i) m L) →
        ∀ P, P <+: L ++ [.histories x] → ∃ m, Seg (content S b w1) (S.maxIters / S.recordTimes) (b + i) m P := by
      rintro L x hL ⟨m, hm⟩ P hP
      rcases prefix_append_cases hP with hP | ⟨Q, rfl, hQ⟩
      · exact hL P hP
      · rw [List.prefix_cons_iff] at hQ
        rcases hQ with rfl | ⟨t, rfl, ht⟩
        · exact ⟨m, by simpa using hm.1⟩
        · rw [List.prefix_nil] at ht
          subst ht
          exact ⟨m, (seg_histories hm x).1⟩
    rcases h with ⟨hd, h1, h2⟩ | ⟨hd, n, -, h⟩
    · rw [h1, h2]
      refine ⟨hhist [] _ nil ⟨0, full_nil _ _ _⟩, fun o' ho => ⟨0, seg_histories (full_nil _ _ _) _, Or.inl ?_⟩⟩
      simp only [Prod.mk.injEq, and_true] at ho
      exact ho ▸ rfl
    · rw [hn] at h
      obtain ⟨r1, r2⟩ := loop_seg n i o1.world hA
      rcases h with ⟨w, e, hl, h1, h2⟩ | ⟨w, k, c, hl, ⟨hf, h1, h2⟩ | ⟨hf, h1, h2⟩⟩ <;> rw [h1, h2]
      · exact ⟨r1, fun o' ho => by simp at ho⟩
      · obtain ⟨m', hm, hF, -⟩ := r2 w k c hl
        refine ⟨hhist _ _ r1 ⟨m', hF⟩, fun o' ho => ⟨m', seg_histories hF _, Or.inl ?_⟩⟩
        simp only [Prod.mk.injEq, and_true] at ho
        exact ho ▸ rfl
      · obtain ⟨m', hm, hF, hA'⟩ := r2 w k c hl
        refine ⟨r1, fun o' ho => ⟨m', hF, Or.inr ?_⟩⟩
        simp only [Prod.mk.injEq, and_true] at ho
        subst ho
        exact ⟨_, ensureInit_started S hi.1, by simp only; omega, hA' hf.1⟩

theorem callsEvents_completed (S : Sys E D X) : ∀ (cs : List Call) {o : Opt E D X}, o.completed = true → callsEvents S cs o = []
  | [], o, _ => rfl
  | c :: cs, o, h => by
    have h1 : callEvents S c o = [] := by
      cases c <;> simp [callEvents, implEvents, h]
    have h2 := C34_completed_is_inert S h [c]
    simp only [callsEvents, h1, List.nil_append]
    simp only [runCalls] at h2
    revert h2
    rcases c.run S o with ⟨p, e | ⟨⟩⟩ <;> intro h2
    · rfl
    · simp only [Prod.mk.injEq, and_true] at h2
      subst h2
      exact callsEvents_completed S cs h

theorem calls_seg {S : Sys E D X} {b : ℕ} {w1 : World E D X} : ∀ (cs : List Call) (i : ℕ) (o : Opt E D X), Ongoing S b w1 i o →
    ∀ P, P <+: callsEvents S cs o → ∃ m, Seg (content S b w1) (S.maxIters / S.recordTimes) (b + i) m P
  | [], i, o, h, P, hP => by
    simp only [callsEvents, List.prefix_nil] at hP
    subst hP
    exact ⟨0, seg_nil _ _ _⟩
  | c :: cs, i, o, h, P, hP => by
    have key : (∀ P, P <+: callEvents S c o → ∃ m, Seg (content S b w1) (S.maxIters / S.recordTimes) (b + i) m P) ∧
        (∀ o', c.run S o = (o', .ok ()) → ∃ m', Full (content S b w1) (S.maxIters / S.recordTimes) (b + i) m' (callEvents S c o) ∧
          (o'.completed = true ∨ Ongoing S b w1 (i + m') o')) := by
      cases c with
      | optimize => exact impl_seg h none
      | steps n =>
        simp only [callEvents, Call.run, optimizeSteps]
        split_ifs
        · constructor
          · intro P hP
            rw [List.prefix_nil] at hP
            subst hP
            exact ⟨0, seg_nil _ _ _⟩
          · intro o' ho
            simp only [Prod.mk.injEq, and_true] at ho
            subst ho
            exact ⟨0, full_nil _ _ _, Or.inr h⟩
        · exact impl_seg h _
    simp only [callsEvents] at hP
    rcases prefix_append_cases hP with hP | ⟨Q, rfl, hQ⟩
    · exact key.1 P hP
    · revert hQ
      have k2 := key.2
      revert k2
      rcases c.run S o with ⟨p, e | ⟨⟩⟩ <;> intro k2 hQ
      · simp only [List.prefix_nil] at hQ
        subst hQ
        simp only [List.append_nil]
        exact key.1 _ (List.prefix_refl _)
      · obtain ⟨m', hF, hc | ho⟩ := k2 p rfl
        · simp only [callsEvents_completed S cs hc, List.prefix_nil] at hQ
          subst hQ
          simp only [List.append_nil]
          exact ⟨m', hF.1⟩
        · obtain ⟨m2, hm2⟩ := calls_seg cs (i + m') p ho Q hQ
          rw [← Nat.add_assoc] at hm2
          exact ⟨m' + m2, Seg.append hF hm2⟩

theorem impl_entered (S : Sys E D X) (m : Option ℕ) (o : Opt E D X) : ∀ k ∈ entered (implEvents S m o), k ≤ S.maxIters := by
  intro k hk
  have hloop : ∀ o1 : Opt E D X, o1.iterNext ≤ S.maxIters → k ∈ entered (loopEvents S (chunkLen m (S.maxIters + 1 - o1.iterNext)) o1.iterNext o1.world) →
      k ≤ S.maxIters := by
    intro o1 hle hk
    obtain ⟨q, hq, ht⟩ := loop_trace S (chunkLen m (S.maxIters + 1 - o1.iterNext)) o1.iterNext o1.world
    have := (loop_files_events S (chunkLen m (S.maxIters + 1 - o1.iterNext)) o1.iterNext o1.world
      ⟨o1.world.files.map fun f => (f.1, some f.2), none⟩ (by simp [Disk.readable, List.filterMap_map, Function.comp_def])).2
    rw [ht] at this
    rw [← List.append_cancel_left this, List.mem_range'_1] at hk
    have hc : chunkLen m (S.maxIters + 1 - o1.iterNext) ≤ S.maxIters + 1 - o1.iterNext := by
      cases m <;> simp [chunkLen]
    omega
  rcases implEvents_cases S m o with ⟨hc, h1, h2⟩ | ⟨hc, ⟨o1, e, hE, h1, h2⟩ | ⟨o1, hE, h⟩⟩
  · rw [h1] at hk; simp [entered] at hk
  · rw [h1] at hk; simp [entered] at hk
  · rcases h with ⟨hd, h1, h2⟩ | ⟨hd, n, rfl, ⟨w, e, hl, h1, h2⟩ | ⟨w, k', c, hl, ⟨hf, h1, h2⟩ | ⟨hf, h1, h2⟩⟩⟩ <;> rw [h1] at hk
    · simp [entered] at hk
    · exact hloop o1 hd hk
    · rw [entered_append] at hk
      exact hloop o1 hd (by simpa [entered] using hk)
    · exact hloop o1 hd hk

theorem calls_entered (S : Sys E D X) : ∀ (cs : List Call) (o : Opt E D X), ∀ k ∈ entered (callsEvents S cs o), k ≤ S.maxIters
  | [], o, k, hk => by simp [entered, callsEvents] at hk
  | c :: cs, o, k, hk => by
    simp only [callsEvents, entered_append, List.mem_append] at hk
    rcases hk with hk | hk
    · cases c with
      | optimize => exact impl_entered S none o k hk
      | steps n =>
        simp only [callEvents] at hk
        split_ifs at hk
        · simp [entered] at hk
        · exact impl_entered S _ o k hk
    · revert hk
      rcases c.run S o with ⟨p, e | ⟨⟩⟩ <;> intro hk
      · simp [entered] at hk
      · exact calls_entered S cs p k hk

/-! ### Starting in a directory -/

theorem guarded_ok {S : Sys E D X} {F : Disk E D X} {r : (E → D) × ℕ} (h : initializeOn S F = .ok r) : guarded S F = S := by
  have : (guarded S F).initSched = S.initSched := by
    funext x
    simp only [guarded, h]
    rcases S.initSched x with ⟨y, e | ⟨⟩⟩ <;> rfl
  calc guarded S F = { S with initSched := (guarded S F).initSched } := rfl
    _ = { S with initSched := S.initSched } := by rw [this]
    _ = S := rfl

theorem initializeOn_new {S : Sys E D X} (h : S.restart = false) (F : Disk E D X) :
    initializeOn S F = .ok (pin (some S.fixed) (pin S.pinned fun _ => min S.rhoMax (max S.rhoMin S.valInit)), 1) := by
  simp [initializeOn, h]

theorem load_readable {F : Disk E D X} {n : Name} {data : E → D} (h : load F.files n = some (some data)) : load F.readable n = some data := by
  unfold Disk.readable
  revert h
  induction F.files with
  | nil => simp [load]
  | cons f fs ih =>
    obtain ⟨m, c⟩ := f
    intro h
    by_cases hm : m = n
    · subst hm
      simp only [load, List.find?_cons, decide_true, Option.map_some, Option.some.injEq] at h
      subst h
      simp [load]
    · have h' : load fs n = some (some data) := by simpa [load, List.find?_cons, hm] using h
      have := ih h'
      cases c with
      | none => simpa using this
      | some c => simpa [load, List.find?_cons, hm] using this

theorem names_readable {F : Disk E D X} {n : Name} (h : n ∈ F.readable.map Prod.fst) : n ∈ F.files.map Prod.fst := by
  simp only [Disk.readable, List.mem_map, List.mem_filterMap] at h ⊢
  obtain ⟨f, ⟨g, hg, h1⟩, h2⟩ := h
  obtain ⟨a, ha, rfl⟩ := Option.map_eq_some_iff.1 h1
  exact ⟨g, hg, h2⟩

/-- The newest name in a directory that has names of snapshots up to `j` only. -/
theorem latest_of_own {names : List Name} {j : ℕ} (hj : j < 10 ^ 6) (hmem : snapshotName j ∈ names)
    (h : ∀ n ∈ names, ∃ i, i ≤ j ∧ n = snapshotName i) : findLatest names = ((j : ℤ), some (snapshotName j)) := by
  refine C39_newest_snapshot_partial names j hj hmem (fun n hn i hi => ?_) fun i hi => ?_
  · obtain ⟨a, ha, rfl⟩ := h n hn
    rw [(C39_snapshot_recognised (by omega) i).1 hi]
  · obtain ⟨a, ha, e⟩ := h _ hi
    rw [C39_names_injective e]
    exact ha

theorem initializeOn_intact {S : Sys E D X} {F : Disk E D X} {j : ℕ} (hF : Spec.Intact F j) (hS : Spec.TakesUp S j) :
    ∃ rho, initializeOn S F = .ok (rho, j + 1) ∧ initializeDensity S F.readable = .ok (rho, j + 1) ∧
      (1 ≤ j → ∀ data, load F.files (snapshotName j) = some (some data) → rho = pin (some S.fixed) (pin S.pinned (designPart S.design data))) := by
  rcases hS with ⟨hr, rfl⟩ | ⟨hr, hf, h1, h2⟩
  · exact ⟨_, initializeOn_new hr F, by simp [initializeDensity, hr], fun h => by omega⟩
  · obtain ⟨data, hd⟩ := hF.newest (by omega)
    have hd' := load_readable hd
    have l1 := latest_of_own h2 (mem_of_load hd) fun n hn => by
      obtain ⟨i, -, hi, e⟩ := hF.own n hn
      exact ⟨i, hi, e⟩
    have l2 := latest_of_own h2 (mem_of_load hd') fun n hn => by
      obtain ⟨i, -, hi, e⟩ := hF.own n (names_readable hn)
      exact ⟨i, hi, e⟩
    have hh : ∀ r : Res ((E → D) × ℕ), (match F.hist with
        | some none => .error .unreadable
        | _ => r) = r := by
      intro r
      have := hF.histories
      rcases hq : F.hist with _ | _ | x
      · rfl
      · rw [hq] at this; simp at this
      · rfl
    have hn : ((j : ℤ) + 1).toNat = j + 1 := by omega
    refine ⟨pin (some S.fixed) (pin S.pinned (designPart S.design data)), ?_, ?_, fun _ data' hd'' => ?_⟩
    · simp only [initializeOn, hr, if_true, if_neg (not_lt.2 hf), l1, hd, hn]
      exact hh _
    · simp only [initializeDensity, hr, if_true, if_neg (not_lt.2 hf), l2, hd', hn]
    · rw [hd] at hd''
      simp only [Option.some.injEq] at hd''
      rw [hd'']

/-- A process that cannot start does nothing. -/
theorem process_error {S : Sys E D X} {F : Disk E D X} {e : Err} (h : initializeOn S F = .error e) (rho0 : E → D) (x : X) :
    ∀ cs : List Call, process S cs rho0 x F = [] ∧
      ((S.initSched x).2 = .ok () → Call.optimize ∈ cs → outcome S cs rho0 x F = .error e) := by
  have hE : ∃ o1 e', ensureInit (guarded S F) (fresh rho0 x F.readable) = (o1, .error e') ∧ ((S.initSched x).2 = .ok () → e' = e) := by
    simp only [ensureInit, guarded, fresh, Bool.false_eq_true, if_false]
    rcases S.initSched x with ⟨y, e' | ⟨⟩⟩
    · exact ⟨_, e', rfl, fun h => by simp at h⟩
    · simp only [h]
      exact ⟨_, e, rfl, fun _ => rfl⟩
  obtain ⟨o1, e', hE, he⟩ := hE
  have hi : ∀ m, implEvents (guarded S F) m (fresh rho0 x F.readable) = [] ∧
      optimizeImpl (guarded S F) m (fresh rho0 x F.readable) = (o1, .error e') := by
    intro m
    rcases implEvents_cases (guarded S F) m (fresh rho0 x F.readable) with ⟨hc, -⟩ | ⟨hc, ⟨o2, e2, hE', h1, h2⟩ | ⟨o2, hE', -⟩⟩
    · simp [fresh] at hc
    · rw [hE] at hE'
      simp only [Prod.mk.injEq, Except.error.injEq] at hE'
      obtain ⟨rfl, rfl⟩ := hE'
      exact ⟨h1, h2⟩
    · rw [hE] at hE'; simp at hE'
  intro cs
  unfold process outcome
  induction cs with
  | nil => exact ⟨rfl, fun _ h => by simp at h⟩
  | cons c cs ih =>
    by_cases hn : ∃ n, c = .steps n ∧ n ≤ 0
    · obtain ⟨n, rfl, hn⟩ := hn
      simp only [callsEvents, callEvents, if_pos hn, List.nil_append, Call.run, optimizeSteps, runCalls]
      refine ⟨ih.1, fun h1 h2 => ih.2 h1 ?_⟩
      simpa using h2
    · have hc : callEvents (guarded S F) c (fresh rho0 x F.readable) = [] ∧ c.run (guarded S F) (fresh rho0 x F.readable) = (o1, .error e') := by
        cases c with
        | optimize => exact hi none
        | steps n =>
          have : ¬ n ≤ 0 := fun h => hn ⟨n, rfl, h⟩
          simp only [callEvents, Call.run, optimizeSteps, if_neg this]
          exact hi _
      simp only [callsEvents, runCalls, hc.1, hc.2, List.nil_append]
      exact ⟨trivial, fun h1 _ => by rw [he h1]⟩

/-! ### The directory after a prefix -/

theorem names_after {n : Name} : ∀ (P : List (Event E D X)) {F : Disk E D X}, n ∈ (after F P).files.map Prod.fst →
    n ∈ F.files.map Prod.fst ∨ ∃ j ∈ snaps P, n = snapshotName j
  | [], F, h => Or.inl h
  | ev :: P, F, h => by
    rcases names_after P (F := F.done ev) h with h | ⟨j, hj, e⟩
    · cases ev with
      | enter k => exact Or.inl h
      | histories x => exact Or.inl h
      | snapshot k data =>
        rcases names_save _ _ _ _ h with h | h
        · exact Or.inr ⟨k, by simp [snaps], h⟩
        · exact Or.inl h
    · refine Or.inr ⟨j, ?_, e⟩
      obtain ⟨data, hd⟩ := mem_snaps.1 hj
      exact mem_snaps.2 ⟨data, List.mem_cons_of_mem _ hd⟩

theorem load_after {f : ℕ → E → D} {j : ℕ} : ∀ (P : List (Event E D X)) {F : Disk E D X}, (∀ i data, Event.snapshot i data ∈ P → data = f i) →
    (load F.files (snapshotName j) = some (some (f j)) ∨ j ∈ snaps P) → load (after F P).files (snapshotName j) = some (some (f j))
  | [], F, _, h => by
    rcases h with h | h
    · exact h
    · simp [snaps] at h
  | ev :: P, F, hf, h => by
    refine load_after P (F := F.done ev) (fun i data hi => hf i data (List.mem_cons_of_mem _ hi)) ?_
    cases ev with
    | enter k => simpa [snaps, Disk.done] using h
    | histories x => simpa [snaps, Disk.done] using h
    | snapshot k data =>
      by_cases hk : k = j
      · subst hk
        left
        simp only [Disk.done]
        rw [load_save_self, hf k data (by simp)]
      · rcases h with h | h
        · left
          simp only [Disk.done]
          rw [load_save_ne _ _ (fun e => hk (snapshotName_injective e).symm)]
          exact h
        · right
          obtain ⟨c, hc⟩ := mem_snaps.1 h
          rcases List.mem_cons.1 hc with hc | hc
          · simp only [Event.snapshot.injEq] at hc
            exact absurd hc.1.symm hk
          · exact mem_snaps.2 ⟨c, hc⟩

theorem load_after_none {n : Name} : ∀ (P : List (Event E D X)) {F : Disk E D X}, (∀ j ∈ snaps P, snapshotName j ≠ n) →
    load (after F P).files n = load F.files n
  | [], F, _ => rfl
  | ev :: P, F, h => by
    have hP : ∀ j ∈ snaps P, snapshotName j ≠ n := fun j hj => by
      obtain ⟨c, hc⟩ := mem_snaps.1 hj
      exact h j (mem_snaps.2 ⟨c, List.mem_cons_of_mem _ hc⟩)
    have := load_after_none P (F := F.done ev) hP
    rw [show after F (ev :: P) = after (F.done ev) P from rfl, this]
    cases ev with
    | enter k => rfl
    | histories x => rfl
    | snapshot k data =>
      simp only [Disk.done]
      exact load_save_ne _ _ (fun e => h k (by simp [snaps]) e.symm)

theorem hist_after : ∀ (P : List (Event E D X)) {F : Disk E D X}, F.hist ≠ some none → (after F P).hist ≠ some none
  | [], _, h => h
  | ev :: P, F, h => by
    refine hist_after P (F := F.done ev) ?_
    cases ev with
    | enter k => exact h
    | snapshot k data => exact h
    | histories x => simp [Disk.done]

theorem hist_after_same : ∀ (P : List (Event E D X)) {F : Disk E D X}, ¬ Exported P → (after F P).hist = F.hist
  | [], _, _ => rfl
  | ev :: P, F, h => by
    have hP : ¬ Exported P := fun ⟨x, hx⟩ => h ⟨x, List.mem_cons_of_mem _ hx⟩
    have := hist_after_same P (F := F.done ev) hP
    rw [show after F (ev :: P) = after (F.done ev) P from rfl, this]
    cases ev with
    | enter k => rfl
    | snapshot k data => rfl
    | histories x => exact absurd ⟨x, by simp⟩ h

/-- What the events of a segment leave behind: the newest snapshot. -/
theorem seg_newest {f : ℕ → E → D} {d j0 m : ℕ} {P : List (Event E D X)} (hd : 1 ≤ d) (h : Seg f d (j0 + 1) m P) {F : Disk E D X}
    (hF : Spec.Intact F j0) : ∃ j, j0 ≤ j ∧ Spec.Intact (after F P) j ∧ j ≤ j0 + m ∧ (0 < m → j0 + m ≤ j + d) ∧
      (2 ≤ j0 + m → 1 ≤ m → 1 ≤ j) ∧ (j0 < j → load (after F P).files (snapshotName j) = some (some (f j))) ∧
      (∀ i ∈ snaps P, i ≤ j) ∧ (j = j0 ∨ j ∈ snaps P) := by
  classical
  have hb : ∀ i ∈ snaps P, j0 + 1 ≤ i ∧ i < j0 + 1 + m := fun i hi => by
    obtain ⟨c, hc⟩ := mem_snaps.1 hi
    have := h.content i c hc
    exact ⟨this.1, this.2.1⟩
  have hfc : ∀ i data, Event.snapshot i data ∈ P → data = f i := fun i data hi => (h.content i data hi).2.2
  obtain ⟨j, hj0, hjm, hmax, hjP⟩ : ∃ j, j0 ≤ j ∧ j ≤ j0 + m ∧ (∀ i ∈ snaps P, i ≤ j) ∧ (j = j0 ∨ j ∈ snaps P) := by
    by_cases hne : ∃ i, i ∈ snaps P
    · obtain ⟨i, hi⟩ := hne
      have h1 := Nat.findGreatest_spec (P := fun i => i ∈ snaps P) (n := j0 + m) (m := i) (by have := (hb i hi).2; omega) hi
      refine ⟨Nat.findGreatest (fun i => i ∈ snaps P) (j0 + m), ?_, Nat.findGreatest_le _, fun k hk => ?_, Or.inr h1⟩
      · have := (hb _ h1).1; omega
      · exact Nat.le_findGreatest (by have := (hb k hk).2; omega) hk
    · exact ⟨j0, le_refl _, by omega, fun i hi => absurd ⟨i, hi⟩ hne, Or.inl rfl⟩
  have hload : j0 < j → load (after F P).files (snapshotName j) = some (some (f j)) := fun hlt => by
    rcases hjP with rfl | hjP
    · omega
    · exact load_after P hfc (Or.inr hjP)
  refine ⟨j, hj0, ⟨fun n hn => ?_, fun hpos => ?_, hist_after P hF.histories⟩, hjm, fun hm => ?_, fun h2 hm => ?_, hload, hmax, hjP⟩
  · rcases names_after (F := F) P hn with hn | ⟨i, hi, e⟩
    · obtain ⟨i, i1, i2, e⟩ := hF.own n hn
      exact ⟨i, i1, by omega, e⟩
    · exact ⟨i, by have := (hb i hi).1; omega, hmax i hi, e⟩
  · by_cases hlt : j0 < j
    · exact ⟨_, hload hlt⟩
    · have : j = j0 := by omega
      subst this
      obtain ⟨data, hdata⟩ := hF.newest hpos
      refine ⟨data, ?_⟩
      rw [load_after_none P fun i hi e => ?_]
      · exact hdata
      · have := (hb i hi).1
        rw [snapshotName_injective e] at this
        omega
  · by_contra hlt
    push Not at hlt
    have hq1 : j < d * (j / d + 1) := by
      have := Nat.lt_mul_div_succ j (show 0 < d by omega)
      exact this
    have hq2 : d * (j / d + 1) ≤ j + d := by
      have := Nat.mul_div_le j d
      rw [Nat.mul_add]
      omega
    have := hmax _ (h.due (d * (j / d + 1)) (by omega) (by omega) (Or.inl (Nat.mul_mod_right _ _)))
    omega
  · by_contra hlt
    have hj : j = 0 := by omega
    have := hmax 1 (h.due 1 (by omega) (by omega) (Or.inr rfl))
    omega

/-- The events of a process that can start. -/
theorem process_seg {S : Sys E D X} {F : Disk E D X} {j0 : ℕ} (hF : Spec.Intact F j0) (hS : Spec.TakesUp S j0) (rho0 : E → D) (x : X)
    (cs : List Call) : ∃ w1, (∀ P, P <+: process S cs rho0 x F → ∃ m, Seg (content S (j0 + 1) w1) (S.maxIters / S.recordTimes) (j0 + 1) m P) ∧
      ∀ o1, ensureInit S (fresh rho0 x F.readable) = (o1, .ok ()) → o1.world = w1 ∧ o1.iterNext = j0 + 1 := by
  obtain ⟨rho, h1, h2, -⟩ := initializeOn_intact hF hS
  rw [process, guarded_ok h1]
  rcases hE : ensureInit S (fresh rho0 x F.readable) with ⟨o1, e | ⟨⟩⟩
  · have hnil : ∀ cs : List Call, callsEvents S cs (fresh rho0 x F.readable) = [] := by
      intro cs
      induction cs with
      | nil => rfl
      | cons c cs ih =>
        have hi : ∀ m, implEvents S m (fresh rho0 x F.readable) = [] ∧ optimizeImpl S m (fresh rho0 x F.readable) = (o1, .error e) := by
          intro m
          rcases implEvents_cases S m (fresh rho0 x F.readable) with ⟨hc, -⟩ | ⟨hc, ⟨o2, e2, hE', h1, h2⟩ | ⟨o2, hE', -⟩⟩
          · simp [fresh] at hc
          · rw [hE] at hE'
            simp only [Prod.mk.injEq, Except.error.injEq] at hE'
            obtain ⟨rfl, rfl⟩ := hE'
            exact ⟨h1, h2⟩
          · rw [hE] at hE'; simp at hE'
        cases c with
        | optimize =>
          simp only [callsEvents, callEvents, (hi none).1, Call.run, optimize, (hi none).2, List.nil_append]
        | steps n =>
          by_cases hn : n ≤ 0
          · simp only [callsEvents, callEvents, if_pos hn, Call.run, optimizeSteps, List.nil_append]
            exact ih
          · simp only [callsEvents, callEvents, if_neg hn, (hi _).1, Call.run, optimizeSteps, (hi _).2, List.nil_append]
    refine ⟨(fresh rho0 x F.readable).world, fun P hP => ?_, fun o2 h => by simp at h⟩
    rw [hnil, List.prefix_nil] at hP
    subst hP
    exact ⟨0, seg_nil _ _ _⟩
  · have hn : o1.iterNext = j0 + 1 := by
      rcases ensureInit_cases S (fresh rho0 x F.readable) with ⟨hs, -⟩ | ⟨-, ⟨y, e, h'⟩ | ⟨y, r, k, hd, h'⟩⟩
      · simp [fresh] at hs
      · rw [hE] at h'; simp at h'
      · have hd' : initializeDensity S F.readable = .ok (r, k) := hd
        rw [h2] at hd'
        simp only [Except.ok.injEq, Prod.mk.injEq] at hd'
        rw [hE] at h'
        simp only [Prod.mk.injEq, and_true] at h'
        rw [h']
        exact hd'.2.symm
    refine ⟨o1.world, fun P hP => ?_, fun o2 h => ?_⟩
    · have := calls_seg (S := S) (b := j0 + 1) (w1 := o1.world) cs 0 (fresh rho0 x F.readable)
        ⟨o1, hE, by simpa using hn, o1.world, by simp [loop], World.Sim.refl _⟩ P hP
      simpa using this
    · simp only [Prod.mk.injEq, and_true] at h
      subst h
      exact ⟨rfl, hn⟩

/-- The densities after `i` iterations of a run, as `optimize_steps(i)` leaves them. -/
theorem steps_content {S : Sys E D X} {o o1 : Opt E D X} (hE : ensureInit S o = (o1, .ok ())) (hc : o.completed = false) {i : ℕ} (hi : 1 ≤ i)
    (hle : o1.iterNext + i ≤ S.maxIters + 1) :
    (runCalls S [.steps i] o).1.world.rho = (loop S i o1.iterNext o1.world).1.rho := by
  have hs : ¬ ((i : ℤ) ≤ 0) := by omega
  have : (runCalls S [.steps i] o).1.world = (optimizeImpl S (some i) o).1.world := by
    simp only [runCalls, Call.run, optimizeSteps, if_neg hs, Int.toNat_natCast]
    rcases optimizeImpl S (some i) o with ⟨p, e | ⟨⟩⟩ <;> rfl
  rw [this]
  rcases implEvents_cases S (some i) o with ⟨hc', -⟩ | ⟨-, ⟨o2, e2, hE', -⟩ | ⟨o2, hE', h⟩⟩
  · rw [hc] at hc'; simp at hc'
  · rw [hE] at hE'; simp at hE'
  · rw [hE] at hE'
    simp only [Prod.mk.injEq, and_true] at hE'
    subst hE'
    rcases h with ⟨hd, -⟩ | ⟨hd, n, hn, h⟩
    · omega
    · have hni : n = i := by rw [hn]; simp only [chunkLen]; omega
      subst hni
      rcases h with ⟨w, e, hl, -, h2⟩ | ⟨w, k, c, hl, ⟨-, -, h2⟩ | ⟨-, -, h2⟩⟩ <;> rw [h2, hl] <;> rfl

end Verif.Crash
