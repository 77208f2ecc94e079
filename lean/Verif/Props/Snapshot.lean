import Verif.Props.Driver
import Verif.Spec.Snapshot

/-! Theorems about snapshot files and restarting (C39, C60). -/
namespace Verif.Snapshot

theorem matchName_iff (n : Name) (k : ℕ) : matchName n = some k ↔ LooksLikeSnapshot n k := by
  unfold matchName LooksLikeSnapshot
  constructor
  · intro h
    split_ifs at h with hc
    obtain ⟨h6, hd, ⟨rest, hp⟩⟩ := hc
    refine ⟨n.take 6, rest, ?_, h6, by simpa [List.all_eq_true] using hd, ?_⟩
    · conv_lhs => rw [← List.take_append_drop 6 n]
      rw [← hp]; simp [suffix]
    · simp only [Option.some.injEq] at h; rw [← h, Nat.ofDigitChars_eq_foldl]
  · rintro ⟨ds, rest, rfl, h6, hd, rfl⟩
    have ht : (ds ++ ['-', 'r', 'h', 'o', '.', 'n', 'p', 'z'] ++ rest).take 6 = ds := by
      rw [List.append_assoc, List.take_append_of_le_length (by omega), List.take_of_length_le (by omega)]
    have hr : (ds ++ ['-', 'r', 'h', 'o', '.', 'n', 'p', 'z'] ++ rest).drop 6 = suffix ++ rest := by
      rw [List.append_assoc, List.drop_append_of_le_length (by omega), List.drop_of_length_le (by omega)]
      rfl
    rw [ht, hr, if_pos ⟨h6, by simpa [List.all_eq_true] using hd, List.prefix_append _ _⟩,
      Nat.ofDigitChars_eq_foldl]

/-! ### C39 -/

/-- **C39.** Distinct iterations are saved under distinct names. -/
theorem C39_names_injective : Function.Injective snapshotName := snapshotName_injective

/-- **C39.** For every directory listing, in whatever order, `find_latest_iter_file` returns a file of
the directory that looks like a snapshot, with its number, and no file of the directory looks like a
snapshot of a larger iteration. -/
theorem C39_finds_maximum (dir : List Name) (k : ℕ) (n : Name)
    (h : findLatest dir = ((k : ℤ), some n)) :
    n ∈ dir ∧ LooksLikeSnapshot n k ∧ ∀ n' ∈ dir, ∀ k', LooksLikeSnapshot n' k' → k' ≤ k := by
  obtain ⟨-, h2, h3⟩ := foldl_latest dir (-1, none)
  unfold findLatest at h
  rw [h] at h2 h3
  rcases h3 with h3 | ⟨n', hn', k', hm, hr, -⟩
  · simp at h3
  · simp only [Prod.mk.injEq, Nat.cast_inj, Option.some.injEq] at hr
    obtain ⟨rfl, rfl⟩ := hr
    refine ⟨hn', (matchName_iff _ _).1 hm, fun n'' hn'' k'' hk => ?_⟩
    have := h2 n'' hn'' k'' ((matchName_iff _ _).2 hk)
    simp only [Nat.cast_le] at this
    exact this

/-- **C39.** It reports "nothing found" exactly when no file looks like a snapshot. -/
theorem C39_none_iff (dir : List Name) :
    findLatest dir = (-1, none) ↔ ∀ n ∈ dir, ∀ k, ¬ LooksLikeSnapshot n k := by
  obtain ⟨-, h2, h3⟩ := foldl_latest dir (-1, none)
  unfold findLatest
  constructor
  · intro h n hn k hk
    have := h2 n hn k ((matchName_iff _ _).2 hk)
    rw [h] at this
    simp only at this
    omega
  · intro h
    rcases h3 with h3 | ⟨n', hn', k', hm, -, -⟩
    · exact h3
    · exact absurd ((matchName_iff _ _).1 hm) (h n' hn' k')

/-- **C39.** The snapshot of every iteration below one million looks like a snapshot of exactly that
iteration. -/
theorem C39_snapshot_recognised {k : ℕ} (h : k < 10 ^ 6) (j : ℕ) :
    LooksLikeSnapshot (snapshotName k) j ↔ j = k := by
  rw [← matchName_iff, matchName_snapshotName h, Option.some.injEq, eq_comm]

/-- **C39 (partial: iterations below one million).** In a directory whose snapshot-like files are the
saved snapshots of iterations below one million, the snapshot of the newest iteration is found. -/
theorem C39_newest_snapshot_partial (dir : List Name) (k : ℕ) (hk : k < 10 ^ 6)
    (hin : snapshotName k ∈ dir)
    (hown : ∀ n ∈ dir, ∀ j, LooksLikeSnapshot n j → n = snapshotName j)
    (hmax : ∀ j, snapshotName j ∈ dir → j ≤ k) :
    findLatest dir = ((k : ℤ), some (snapshotName k)) := by
  obtain ⟨-, h2, h3⟩ := foldl_latest dir (-1, none)
  have hge := h2 _ hin k (matchName_snapshotName hk)
  unfold findLatest
  rcases h3 with h3 | ⟨n', hn', k', hm, hr, -⟩
  · rw [h3] at hge; simp only at hge; omega
  · rw [hr] at hge ⊢
    have hn := hown n' hn' k' ((matchName_iff _ _).1 hm)
    have hle := hmax k' (hn ▸ hn')
    have : k' = k := by simp only [Nat.cast_le] at hge; omega
    subst this
    rw [hn]

example : findLatest [snapshotName 20, ['x'], snapshotName 123, snapshotName 7]
    = (123, some (snapshotName 123)) := by decide

/-- **C39 (refuted for long runs).** From iteration 1 000 000 on snapshots are invisible: their
presence never changes what is found. -/
theorem C39_million_invisible (dir : List Name) {k : ℕ} (h : 10 ^ 6 ≤ k) :
    findLatest (snapshotName k :: dir) = findLatest dir := by
  simp [findLatest, latestStep, matchName_snapshotName_big h]

example : findLatest [snapshotName 1000000, snapshotName 999999]
    = (999999, some (snapshotName 999999)) := by decide

/-- **C39 (refuted for foreign files).** A backup copy of a snapshot counts as a snapshot: any name
that extends a snapshot name is recognised. -/
theorem C39_backup_copy_counts {k : ℕ} (h : k < 10 ^ 6) (rest : Name) :
    LooksLikeSnapshot (snapshotName k ++ rest) k := by
  obtain ⟨ds, r, h1, h2, h3, h4⟩ := (C39_snapshot_recognised h k).2 rfl
  exact ⟨ds, r ++ rest, by rw [h1, List.append_assoc], h2, h3, h4⟩

end Verif.Snapshot

namespace Verif.Driver
open Verif.Snapshot

set_option linter.unusedSectionVars false

variable {E D X : Type} [DecidableEq E] [Zero D] [One D] [Max D] [Min D]

theorem mem_of_load {C : Type} {files : List (Name × C)} {n : Name} {c : C}
    (h : load files n = some c) : n ∈ files.map Prod.fst := by
  unfold load at h
  rcases hf : files.find? (fun f => f.1 = n) with _ | f <;> rw [hf] at h
  · simp at h
  · have h1 := List.mem_of_find?_eq_some hf
    have h2 := List.find?_some hf
    simp only [decide_eq_true_eq] at h2
    exact List.mem_map.2 ⟨f, h1, h2⟩

/-- **C39 (partial: iterations below one million).** A restart without an explicit `restart_from`
continues at the newest saved iteration plus one, from exactly the design densities saved for it;
pinned and fixed elements get density 1. -/
theorem C39_restart_resumes_newest_partial (S : Sys E D X) (hr : S.restart = true)
    (hf : S.restartFrom ≤ 0) (files : List (Name × (E → D))) (k : ℕ) (hk : k < 10 ^ 6) (data : E → D)
    (hload : load files (snapshotName k) = some data)
    (hown : ∀ n ∈ files.map Prod.fst, ∀ j, LooksLikeSnapshot n j → n = snapshotName j)
    (hmax : ∀ j, snapshotName j ∈ files.map Prod.fst → j ≤ k) :
    ∃ rho, initializeDensity S files = .ok (rho, k + 1) ∧
      (∀ e ∈ S.design, (∀ s, S.pinned = some s → e ∉ s) → S.pinned ≠ none → e ∉ S.fixed →
        rho e = data e) ∧
      (∀ s, S.pinned = some s → ∀ e ∈ s, rho e = 1) ∧ (∀ e ∈ S.fixed, rho e = 1) := by
  have hfind := C39_newest_snapshot_partial (files.map Prod.fst) k hk (mem_of_load hload) hown hmax
  refine ⟨pin (some S.fixed) (pin S.pinned (designPart S.design data)), ?_, ?_, ?_, ?_⟩
  · unfold initializeDensity
    simp only [hr, if_true, if_neg (not_lt.2 hf), hfind, hload]
    congr 1
  · intro e he hp hne hfx
    rcases hs : S.pinned with _ | s
    · exact absurd hs hne
    · simp [pin, hfx, hp s hs, designPart, he]
  · intro s hs e he
    simp only [pin, hs]
    split_ifs <;> rfl
  · intro e he
    simp [pin, he]

/-- **C39.** An explicit `restart_from = k > 0` continues at `k + 1` from the snapshot of `k`, for
every `k` (also beyond one million), and raises `FileNotFoundError` if it does not exist. -/
theorem C39_restart_from_chosen (S : Sys E D X) (hr : S.restart = true) (k : ℕ) (hk : 0 < k)
    (hf : S.restartFrom = k) (files : List (Name × (E → D))) :
    (∀ data, load files (snapshotName k) = some data →
      initializeDensity S files =
        .ok (pin (some S.fixed) (pin S.pinned (designPart S.design data)), k + 1)) ∧
    (load files (snapshotName k) = none → initializeDensity S files = .error .fileNotFound) := by
  unfold initializeDensity
  simp only [hr, if_true, hf, Int.toNat_natCast]
  rw [if_pos (by omega)]
  constructor
  · intro data hd; rw [hd]
  · intro hd; rw [hd]

/-! ### C60: stale snapshots -/

/-- A loop leaves every file alone whose name is not that of an iteration it executes. -/
theorem loop_keeps (S : Sys E D X) (n : Name) : ∀ (m k : ℕ) (w : World E D X),
    (∀ j, k ≤ j → j < k + m → n ≠ snapshotName j) →
    load (loop S m k w).1.files n = load w.files n
  | 0, k, w, _ => rfl
  | m + 1, k, w, hne => by
    have hi : load (iterate S (m == 0) k w).1.files n = load w.files n := by
      rcases iterate_cases S (m == 0) k w with
        ⟨x, e, -, h'⟩ | ⟨x, new, -, ⟨y, e, -, h'⟩ | ⟨y, c, -, ⟨-, h'⟩ | ⟨-, h'⟩⟩⟩ <;> rw [h']
      simp only
      split_ifs
      · exact load_save_ne _ _ (hne k (le_refl _) (by omega))
      · rfl
    simp only [loop]
    revert hi
    rcases iterate S (m == 0) k w with ⟨v, e | _ | _⟩ <;> intro hi <;> simp only at hi ⊢
    · exact hi
    · rw [loop_keeps S n m (k + 1) v (fun j h1 h2 => hne j (by omega) (by omega))]; exact hi
    · exact hi

/-- **C60 (refuted).** "After a new run in a used output directory, a restart resumes that run" is
false: a new run (`restart=False`) does not remove old snapshots, so if the directory holds a
snapshot of an iteration `K` beyond `max_iters`, it is still there, unchanged, after any program of
calls. -/
theorem C60_stale_snapshot_survives (S : Sys E D X) (rho0 : E → D) (x : X)
    (files : List (Name × (E → D))) (K : ℕ) (hK : S.maxIters < K) (data : E → D)
    (hload : load files (snapshotName K) = some data) (cs : List Call) :
    load (runCalls S cs (fresh rho0 x files)).1.world.files (snapshotName K) = some data := by
  have hcont : ∀ m (o1 : Opt E D X), load (continueRun S m o1).1.world.files (snapshotName K)
      = load o1.world.files (snapshotName K) := by
    intro m o1
    rcases continueRun_cases S m o1 with ⟨-, h'⟩ | ⟨hle, n, hn, -, hrest⟩
    · rw [h']; rfl
    · have hl := loop_keeps S (snapshotName K) n o1.iterNext o1.world (fun j _ h2 e => by
        have := snapshotName_injective e; omega)
      rcases hrest with ⟨w, e, hl', h'⟩ | ⟨w, k, c', hl', ⟨-, h'⟩ | ⟨-, h'⟩⟩ <;> rw [h'] <;>
        rw [hl'] at hl <;> exact hl
  have himpl : ∀ m (o : Opt E D X), load (optimizeImpl S m o).1.world.files (snapshotName K)
      = load o.world.files (snapshotName K) := by
    intro m o
    rw [optimizeImpl_eq]
    split_ifs
    · rfl
    · rcases ensureInit_cases S o with ⟨hs, h'⟩ | ⟨hs, ⟨x', e, h'⟩ | ⟨x', rho, k, hd, h'⟩⟩ <;> rw [h']
      · exact hcont m o
      · exact hcont m _
  have hcalls : ∀ (cs : List Call) (o : Opt E D X),
      load (runCalls S cs o).1.world.files (snapshotName K) = load o.world.files (snapshotName K) := by
    intro cs
    induction cs with
    | nil => intro o; rfl
    | cons c cs ih =>
      intro o
      have h1 : load (c.run S o).1.world.files (snapshotName K) = load o.world.files (snapshotName K) := by
        cases c with
        | optimize => exact himpl none o
        | steps n =>
          simp only [Call.run, optimizeSteps]
          split_ifs
          · rfl
          · exact himpl _ o
      simp only [runCalls]
      revert h1
      rcases c.run S o with ⟨p, e | ⟨⟩⟩ <;> intro h1 <;> simp only at h1 ⊢
      · exact h1
      · rw [ih p, h1]
  rw [hcalls]
  exact hload

/-- **C60 (refuted), observable effect.** Five new iterations in a directory that still holds the
snapshot of iteration 9 of an earlier run: a restart continues at iteration 10 from the old run's
densities instead of at iteration 6. -/
theorem C60_restart_uses_old_run :
    let old : List (Name × (Fin 3 → ℕ)) := [(snapshotName 9, fun _ => 77)]
    let S := demo 5 5 100 100
    let done := optimize S (fresh (fun _ => 0) ([], false) old)
    let T := { demo 20 5 100 100 with restart := true }
    let again := optimizeSteps T 1 (fresh (fun _ => 0) ([], false) done.1.world.files)
    done.2 = .ok () ∧ done.1.world.trace = [1, 2, 3, 4, 5] ∧ done.1.world.rho 1 = 10 ∧
      again.2 = .ok () ∧ again.1.world.trace = [10] ∧ again.1.world.rho 1 = 78 := by
  decide

/-! ### Saved then restarted -/

/-- **C39.** Save–restart round trip: after a call that returned normally and executed at least one
iteration, the last executed being `k ≥ 1`, an optimizer configured with `restart_from = k` on the
same directory and the same element sets starts at `k + 1` with exactly the same densities, provided
every element is a design, pinned or fixed element and fixed elements are not design elements. -/
theorem C39_save_restart_round_trip (S T : Sys E D X) (c : Call) {o o' : Opt E D X}
    (hreach : Reachable S o) (h : c.run S o = (o', .ok ())) (hran : o'.world.trace ≠ o.world.trace)
    {k : ℕ} (hk : o'.world.trace.getLast? = some k) (hk1 : 0 < k) (hs' : o'.started = true)
    {s : Finset E} (hpin : S.pinned = some s)
    (hT1 : T.restart = true) (hT2 : T.restartFrom = k) (hT3 : T.design = S.design)
    (hT4 : T.pinned = S.pinned) (hT5 : T.fixed = S.fixed)
    (hcover : ∀ e, e ∈ S.design ∨ e ∈ s ∨ e ∈ S.fixed) (hdisj : ∀ e ∈ S.fixed, e ∉ S.design) :
    initializeDensity T o'.world.files = .ok (o'.world.rho, k + 1) := by
  obtain ⟨k', hk', hl⟩ := C37_last_iteration_saved S c h hran
  rw [hk] at hk'
  obtain rfl : k = k' := by simpa using hk'
  rw [(C39_restart_from_chosen T hT1 k hk1 hT2 o'.world.files).1 _ hl, hT3, hT4, hT5]
  have hr' : Reachable S o' := by
    have := Reachable.call c hreach; rwa [h] at this
  congr 2
  funext e
  have hone := fun he => C36_loaded_and_fixed_have_density_one hr' hs' hpin e he
  simp only [pin, hpin, designPart]
  by_cases h1 : e ∈ S.fixed
  · rw [if_pos h1, hone (Or.inr ⟨h1, hdisj e h1⟩)]
  · by_cases h2 : e ∈ s
    · rw [if_neg h1, if_pos h2, hone (Or.inl h2)]
    · rw [if_neg h1, if_neg h2]
      rcases hcover e with h3 | h3 | h3
      · rw [if_pos h3, if_pos h3]
      · exact absurd h3 h2
      · exact absurd h3 h1

/-- The hypotheses can be met: `demo` after three of seven iterations. -/
example : let S := demo 7 2 100 100
    ((Call.steps 3).run S demo0).2 = .ok () ∧
    ((Call.steps 3).run S demo0).1.world.trace.getLast? = some 3 ∧
    (∀ e : Fin 3, e ∈ S.design ∨ e ∈ ({0} : Finset (Fin 3)) ∨ e ∈ S.fixed) ∧
    (∀ e ∈ S.fixed, e ∉ S.design) := by decide

/-- **C39.** A run restarted from a snapshot with nothing left to do imports the histories of the earlier run, exports
them again and is completed, without executing an iteration; a restarted run with iterations left whose first update raises
has handed that update the imported histories. -/
theorem C39_restart_imports_histories (S : Sys E D X) (hr : S.restart = true) (k : ℕ) (hk : 0 < k) (hf : S.restartFrom = k)
    (rho0 : E → D) (x x' : X) (files : List (Name × (E → D))) (data : E → D) (hd : load files (snapshotName k) = some data)
    (hi : S.initSched x = (x', .ok ())) :
    (S.maxIters ≤ k → (optimize S (fresh rho0 x files)).2 = .ok () ∧ (optimize S (fresh rho0 x files)).1.completed = true ∧
      (optimize S (fresh rho0 x files)).1.world.trace = [] ∧
      (optimize S (fresh rho0 x files)).1.world.aux = S.exportHist (S.importHist x')) ∧
    (k < S.maxIters → ∀ y e, (∀ rho, S.step (k + 1) rho (S.importHist x') = (y, .error e)) →
      (optimize S (fresh rho0 x files)).2 = .error e ∧ (optimize S (fresh rho0 x files)).1.world.aux = y) := by
  have he := (C39_restart_from_chosen S hr k hk hf files).1 data hd
  have hE : ensureInit S (fresh rho0 x files) =
      (⟨⟨pin (some S.fixed) (pin S.pinned (designPart S.design data)), S.importHist x', files, []⟩, true, k + 1, false, none⟩, .ok ()) := by
    unfold ensureInit
    simp only [fresh, Bool.false_eq_true, if_false, hi, he, hr, if_true]
  constructor
  · intro hm
    unfold optimize
    rw [optimizeImpl_eq, if_neg (by simp [fresh]), hE]
    simp only [continueRun, Nat.add_le_add_iff_right, if_pos hm, finalize, and_self]
  · intro hm y e hs
    unfold optimize
    rw [optimizeImpl_eq, if_neg (by simp [fresh]), hE]
    obtain ⟨n, hn⟩ : ∃ n, S.maxIters - k = n + 1 := ⟨S.maxIters - k - 1, by omega⟩
    simp only [continueRun, Nat.add_le_add_iff_right, if_neg (not_le.mpr hm), Nat.add_sub_add_right, hn, loop, iterate, hs,
      and_self]

/-- Non-vacuity: restart of `demo` after its last iteration. -/
example : let S := { demo 7 2 100 100 with restart := true, restartFrom := 7, importHist := fun x => (x.1 ++ [1, 2], x.2) }
    (optimize S (fresh (fun _ => 0) ([], false) [(snapshotName 7, fun _ => 9)])).1.world.aux = ([1, 2], false) := by decide

end Verif.Driver
