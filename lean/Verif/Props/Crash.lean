import Verif.Lemmas.Crash
import Verif.Props.Project

/-!
C124: a process killed at an arbitrary moment, and the restart after it. The theorems hold for every update rule, solver, filter,
recorder and convergence test, every program of calls and every moment of the kill.
-/
namespace Verif.Crash
open Verif.Driver Verif.Spec
open Verif.Snapshot

set_option linter.unusedSectionVars false

variable {E D X : Type} [DecidableEq E] [Zero D] [One D] [Max D] [Min D]

/-- **C124.** The crash model describes the same program as the driver: if nothing kills the process, the events leave exactly the readable
snapshots the program leaves, the iterations entered are those the program executes, and the histories are written exactly by a program
that completes its run. -/
theorem C124_events_describe_program (S : Sys E D X) (cs : List Call) (rho0 : E → D) (x : X) (F : Disk E D X) :
    let o := (runCalls (guarded S F) cs (fresh rho0 x F.readable)).1
    ((process S cs rho0 x F).foldl Disk.done F).readable = o.world.files ∧ entered (process S cs rho0 x F) = o.world.trace ∧
      ((∃ y, Event.histories y ∈ process S cs rho0 x F) ↔ o.completed = true) := by
  obtain ⟨h1, h2, h3⟩ := agrees_calls (guarded S F) cs (fresh rho0 x F.readable)
  refine ⟨h1 F rfl, ?_, ?_⟩
  · rw [h2]
    simp [fresh, process]
  · rw [h3]
    simp [fresh, process, Exported]

theorem killed_between (F : Disk E D X) (es : List (Event E D X)) (n : ℕ) : killed F es n false = after F (es.take n) := by
  simp [killed]

theorem killed_within {F : Disk E D X} {es : List (Event E D X)} {n : ℕ} {ev : Event E D X} (h : es[n]? = some ev) :
    killed F es n true = (after F (es.take n)).half ev := by
  simp [killed, h]

theorem take_entered {es : List (Event E D X)} {n m b : ℕ} (h : entered (es.take n) = List.range' b m) {k : ℕ}
    (hk : (entered (es.take n)).getLast? = some k) : 0 < m ∧ k = b + m - 1 ∧ k ∈ entered es := by
  have hmem : k ∈ entered es := by
    have h1 := List.mem_of_getLast? hk
    rw [← List.take_append_drop n es, entered_append]
    exact List.mem_append_left _ h1
  rw [h, List.getLast?_range'] at hk
  split_ifs at hk with h0
  simp only [Option.some.injEq] at hk
  exact ⟨by omega, by omega, hmem⟩

/-- **C124 (partial: iterations below one million, kills between two writes).** Let a process start a new optimization in an empty `data/`
(`j₀ = 0`), or restart from the newest snapshot, of iteration `j₀`, and be killed at any moment that is not in the middle of writing a
file. Then the directory can be used for a restart again: its newest snapshot is complete and belongs to an iteration `j ≥ j₀`; if `k` is
the iteration the process was in, at most `max_iters // record_times` iterations are lost (`j ≤ k ≤ j + max_iters // record_times`), and
from the second iteration on there is a snapshot at all; the iterations entered were `j₀ + 1, j₀ + 2, …`. If the snapshot is a new one, it
holds exactly the design densities the same process has after `optimize_steps(j - j₀)`; older snapshots are untouched. -/
theorem C124_kill_between_writes_partial (S : Sys E D X) (hrec : 1 ≤ S.recordTimes ∧ S.recordTimes ≤ S.maxIters) (F : Disk E D X) (j₀ : ℕ)
    (hF : Intact F j₀) (hS : TakesUp S j₀) (cs : List Call) (rho0 : E → D) (x : X) (n : ℕ) :
    ∃ j, j₀ ≤ j ∧ Intact (killed F (process S cs rho0 x F) n false) j ∧
      (∃ m, entered ((process S cs rho0 x F).take n) = List.range' (j₀ + 1) m ∧ j ≤ j₀ + m) ∧
      (∀ k, (entered ((process S cs rho0 x F).take n)).getLast? = some k →
        j ≤ k ∧ k ≤ j + S.maxIters / S.recordTimes ∧ (2 ≤ k → 1 ≤ j) ∧ k ≤ S.maxIters) ∧
      (j₀ < j → load (killed F (process S cs rho0 x F) n false).files (snapshotName j) =
        some (some (designPart S.design (runCalls S [.steps ((j - j₀ : ℕ) : ℤ)] (fresh rho0 x F.readable)).1.world.rho))) ∧
      ∀ i ≤ j₀, load (killed F (process S cs rho0 x F) n false).files (snapshotName i) = load F.files (snapshotName i) := by
  have hd : 1 ≤ S.maxIters / S.recordTimes := (Nat.one_le_div_iff (by omega)).2 hrec.2
  obtain ⟨w1, hseg, hw1⟩ := process_seg hF hS rho0 x cs
  obtain ⟨m, hm⟩ := hseg _ (List.take_prefix n _)
  obtain ⟨j, a1, a2, a3, a4, a5, a6, a7, a8⟩ := seg_newest hd hm hF
  rw [killed_between]
  have hlast : ∀ k, (entered ((process S cs rho0 x F).take n)).getLast? = some k → 0 < m ∧ k = j₀ + m ∧ k ≤ S.maxIters := by
    intro k hk
    obtain ⟨h1, h2, h3⟩ := take_entered hm.enter hk
    obtain ⟨r, hr, -⟩ := initializeOn_intact hF hS
    refine ⟨h1, by omega, ?_⟩
    rw [process, guarded_ok hr] at h3
    exact calls_entered S cs _ k h3
  refine ⟨j, a1, a2, ⟨m, hm.enter, by omega⟩, fun k hk => ?_, fun hlt => ?_, fun i hi => load_after_none _ fun i' hi' e => ?_⟩
  · obtain ⟨h1, h2, h3⟩ := hlast k hk
    exact ⟨by omega, by have := a4 h1; omega, fun h => a5 (by omega) h1, h3⟩
  · rw [a6 hlt]
    have hmpos : 0 < m := by
      by_contra h0
      have : m = 0 := by omega
      omega
    have hke : (entered ((process S cs rho0 x F).take n)).getLast? = some (j₀ + m) := by
      rw [hm.enter, List.getLast?_range', if_neg (by omega)]
      congr 1
      omega
    have hle := (hlast _ hke).2.2
    rcases hE : ensureInit S (fresh rho0 x F.readable) with ⟨o1, e | ⟨⟩⟩
    · exfalso
      obtain ⟨r, hr, -⟩ := initializeOn_intact hF hS
      have hmem := (take_entered hm.enter hke).2.2
      rw [process, guarded_ok hr] at hmem
      have hg := (agrees_calls S cs (fresh rho0 x F.readable)).2.1
      have : (runCalls S cs (fresh rho0 x F.readable)).1.world.trace = [] := by
        clear hg hmem hseg hm a2 a6 a7 a8 hlast hke
        induction cs with
        | nil => rfl
        | cons c cs ih =>
          have hi : ∀ q, optimizeImpl S q (fresh rho0 x F.readable) = (o1, .error e) := by
            intro q
            rw [optimizeImpl_eq, if_neg (by simp [fresh]), hE]
          have ht : o1.world.trace = [] := by
            rcases ensureInit_cases S (fresh rho0 x F.readable) with ⟨hs, -⟩ | ⟨-, ⟨y, e, h'⟩ | ⟨y, r, k, -, h'⟩⟩
            · simp [fresh] at hs
            · rw [hE] at h'; simp only [Prod.mk.injEq] at h'; rw [h'.1]; rfl
            · rw [hE] at h'; simp at h'
          cases c with
          | optimize => simp only [runCalls, Call.run, optimize, hi]; exact ht
          | steps a =>
            simp only [runCalls, Call.run, optimizeSteps]
            split_ifs
            · exact ih
            · simp only [hi]; exact ht
      rw [this] at hg
      have hg' : entered (callsEvents S cs (fresh rho0 x F.readable)) = [] := by simpa [fresh] using hg.symm
      rw [hg'] at hmem
      simp at hmem
    · obtain ⟨e1, e2⟩ := hw1 o1 hE
      rw [steps_content hE rfl (i := j - j₀) (by omega) (by omega), content, e1, e2]
      rw [show j + 1 - (j₀ + 1) = j - j₀ by omega]
  · obtain ⟨c, hc⟩ := mem_snaps.1 hi'
    have := (hm.content i' c hc).1
    rw [snapshotName_injective e] at this
    omega

/-- **C124.** A restart without `restart_from` in such a directory resumes the newest snapshot, with the densities it holds. -/
theorem C124_restart_resumes (T : Sys E D X) (hr : T.restart = true) (hf : T.restartFrom ≤ 0) (F : Disk E D X) (j : ℕ) (hj : 1 ≤ j)
    (hm : j < 10 ^ 6) (hF : Intact F j) :
    ∃ data, load F.files (snapshotName j) = some (some data) ∧
      initializeOn T F = .ok (pin (some T.fixed) (pin T.pinned (designPart T.design data)), j + 1) := by
  obtain ⟨data, hd⟩ := hF.newest (by omega)
  obtain ⟨rho, h1, -, h2⟩ := initializeOn_intact (S := T) hF (Or.inr ⟨hr, hf, hj, hm⟩)
  exact ⟨data, hd, by rw [h1, h2 hj data hd]⟩

/-- The directory after a kill in the middle of writing the snapshot of iteration `k`. -/
theorem torn_snapshot {S : Sys E D X} (hrec : 1 ≤ S.recordTimes ∧ S.recordTimes ≤ S.maxIters) {F : Disk E D X} {j₀ : ℕ}
    (hF : Intact F j₀) (hS : TakesUp S j₀) {cs : List Call} {rho0 : E → D} {x : X} {n k : ℕ} {data : E → D}
    (hn : (process S cs rho0 x F)[n]? = some (.snapshot k data)) :
    ∃ j, j₀ ≤ j ∧ j < k ∧ k ≤ j + S.maxIters / S.recordTimes ∧ (2 ≤ k → 1 ≤ j) ∧ Intact (after F ((process S cs rho0 x F).take n)) j ∧
      killed F (process S cs rho0 x F) n true =
        { after F ((process S cs rho0 x F).take n) with files := save (after F ((process S cs rho0 x F).take n)).files (snapshotName k) none } := by
  have hd : 1 ≤ S.maxIters / S.recordTimes := (Nat.one_le_div_iff (by omega)).2 hrec.2
  obtain ⟨w1, hseg, -⟩ := process_seg hF hS rho0 x cs
  obtain ⟨m, hm⟩ := hseg _ (List.take_prefix n _)
  obtain ⟨m', hm'⟩ := hseg _ (List.take_prefix (n + 1) _)
  obtain ⟨j, a1, a2, a3, a4, a5, a6, a7, a8⟩ := seg_newest hd hm hF
  have htake : (process S cs rho0 x F).take (n + 1) = (process S cs rho0 x F).take n ++ [.snapshot k data] := by
    rw [List.take_add_one, hn]
    rfl
  rw [htake] at hm'
  have hmm : m' = m := by
    have h1 := hm'.enter
    rw [entered_append, hm.enter] at h1
    have := congrArg List.length h1
    simpa [entered] using this.symm
  subst hmm
  have hk := hm'.content k data (by simp)
  have hs := hm'.sorted
  rw [snaps_append, List.pairwise_append] at hs
  have hjk : j < k := by
    rcases a8 with rfl | a8
    · omega
    · exact hs.2.2 j a8 k (by simp [snaps])
  have := a4 (by omega)
  exact ⟨j, a1, hjk, by omega, fun h2 => a5 (by omega) (by omega), a2, killed_within hn⟩

/-- **C124 (refuted for kills during a snapshot).** If the process is killed while it writes the snapshot of iteration `k`, the torn file
is the newest one and every restart without `restart_from` fails, whatever its configuration and program, as often as it is tried: it
executes no iteration and writes nothing, and `optimize()` raises. (With `restart_from` set to the newest complete snapshot, of some
iteration `j < k ≤ j + max_iters // record_times`, it can still be resumed.) -/
theorem C124_torn_snapshot_blocks_restart (S : Sys E D X) (hrec : 1 ≤ S.recordTimes ∧ S.recordTimes ≤ S.maxIters) (F : Disk E D X) (j₀ : ℕ)
    (hF : Intact F j₀) (hS : TakesUp S j₀) (cs : List Call) (rho0 : E → D) (x : X) (n k : ℕ) (data : E → D)
    (hn : (process S cs rho0 x F)[n]? = some (.snapshot k data)) (hk : k < 10 ^ 6) :
    (∀ T : Sys E D X, T.restart = true → T.restartFrom ≤ 0 → ∀ cs' rho1 y,
      process T cs' rho1 y (killed F (process S cs rho0 x F) n true) = [] ∧
      ((T.initSched y).2 = .ok () → Call.optimize ∈ cs' →
        outcome T cs' rho1 y (killed F (process S cs rho0 x F) n true) = .error .unreadable)) ∧
    ∃ j, j₀ ≤ j ∧ j < k ∧ k ≤ j + S.maxIters / S.recordTimes ∧ (2 ≤ k → 1 ≤ j) ∧
      ∀ T : Sys E D X, T.restart = true → 1 ≤ j → T.restartFrom = j →
        ∃ rho, initializeOn T (killed F (process S cs rho0 x F) n true) = .ok (rho, j + 1) := by
  obtain ⟨j, a1, a2, a3, a4, a5, a6⟩ := torn_snapshot hrec hF hS hn
  rw [a6]
  refine ⟨fun T hr hf cs' rho1 y => ?_, j, a1, a2, a3, a4, fun T hr hj hf => ?_⟩
  · refine process_error ?_ rho1 y cs'
    have hl := latest_of_own (names := (save (after F ((process S cs rho0 x F).take n)).files (snapshotName k) none).map Prod.fst) hk
      (by simp [save]) fun m hm => by
        rcases names_save _ _ _ _ hm with h | h
        · exact ⟨k, le_refl _, h⟩
        · obtain ⟨i, -, hi, e⟩ := a5.own m h
          exact ⟨i, by omega, e⟩
    simp only [initializeOn, hr, if_true, if_neg (not_lt.2 hf), hl, load_save_self]
  · obtain ⟨c, hc⟩ := a5.newest (by omega)
    have hne : snapshotName j ≠ snapshotName k := fun e => by
      have := snapshotName_injective e
      omega
    have hpos : (0 : ℤ) < T.restartFrom := by omega
    have hto : T.restartFrom.toNat = j := by omega
    refine ⟨pin (some T.fixed) (pin T.pinned (designPart T.design c)), ?_⟩
    simp only [initializeOn, hr, if_true, if_pos hpos, hto, load_save_ne _ _ hne, hc]
    have := a5.histories
    revert this
    rcases (after F ((process S cs rho0 x F).take n)).hist with _ | _ | z <;> intro h
    · rfl
    · simp at h
    · rfl

/-- **C124 (refuted for kills during the histories).** If the process is killed while it writes `histories.npz`, at the very end, no
restart works any more, not even with `restart_from`: it executes no iteration and writes nothing, so this stays so until the file is
removed by hand. A new run (`restart=False`) still starts. -/
theorem C124_torn_histories_blocks_restart (S : Sys E D X) (F : Disk E D X) (cs : List Call) (rho0 : E → D) (x : X) (n : ℕ) (z : X)
    (hn : (process S cs rho0 x F)[n]? = some (.histories z)) :
    (∀ T : Sys E D X, T.restart = true → ∀ cs' rho1 y,
      process T cs' rho1 y (killed F (process S cs rho0 x F) n true) = [] ∧
      ((T.initSched y).2 = .ok () → Call.optimize ∈ cs' →
        ∃ e, outcome T cs' rho1 y (killed F (process S cs rho0 x F) n true) = .error e)) ∧
    ∀ T : Sys E D X, T.restart = false → ∃ rho, initializeOn T (killed F (process S cs rho0 x F) n true) = .ok (rho, 1) := by
  rw [killed_within hn]
  refine ⟨fun T hr cs' rho1 y => ?_, fun T hr => ⟨_, initializeOn_new hr _⟩⟩
  obtain ⟨e, he⟩ : ∃ e, initializeOn T ((after F ((process S cs rho0 x F).take n)).half (.histories z)) = .error e := by
    simp only [initializeOn, hr, if_true, Disk.half]
    split_ifs
    · split
      · exact ⟨_, rfl⟩
      · exact ⟨_, rfl⟩
      · exact ⟨_, rfl⟩
    · split
      · split
        · exact ⟨_, rfl⟩
        · exact ⟨_, rfl⟩
        · exact ⟨_, rfl⟩
      · exact ⟨_, rfl⟩
  obtain ⟨h1, h2⟩ := process_error he rho1 y cs'
  exact ⟨h1, fun a b => ⟨e, h2 a b⟩⟩

/-- **C124 (refuted for early kills).** A new run killed before it begins to write its first snapshot, that is during its first
iteration, leaves nothing to restart from: `optimize()` of a restart raises `TypeError`. -/
theorem C124_killed_before_first_snapshot (S : Sys E D X) (cs : List Call) (rho0 : E → D) (x : X) (n : ℕ)
    (hn : ∀ k data, Event.snapshot k data ∉ (process S cs rho0 x Disk.empty).take n) (T : Sys E D X)
    (hr : T.restart = true) (hf : T.restartFrom ≤ 0) (cs' : List Call) (rho1 : E → D) (y : X) :
    process T cs' rho1 y (killed Disk.empty (process S cs rho0 x Disk.empty) n false) = [] ∧
      ((T.initSched y).2 = .ok () → Call.optimize ∈ cs' →
        outcome T cs' rho1 y (killed Disk.empty (process S cs rho0 x Disk.empty) n false) = .error .typeError) := by
  refine process_error ?_ rho1 y cs'
  rw [killed_between]
  have hfiles : (after Disk.empty ((process S cs rho0 x Disk.empty).take n)).files = [] := by
    rcases hl : (after Disk.empty ((process S cs rho0 x Disk.empty).take n)).files with _ | ⟨f, fs⟩
    · rfl
    · rcases names_after (n := f.1) ((process S cs rho0 x Disk.empty).take n) (F := Disk.empty) (by rw [hl]; simp) with h | ⟨j, hj, -⟩
      · simp [Disk.empty] at h
      · obtain ⟨c, hc⟩ := mem_snaps.1 hj
        exact absurd hc (hn j c)
  simp only [initializeOn, hr, if_true, if_neg (not_lt.2 hf), hfiles]
  rfl

/-! ### Concrete kills

A run of seven iterations with two records: its events are the entries 1, …, 7, snapshots of the iterations 1, 3, 6, 7, and the histories. -/

/-- The events of `optimize()`. -/
def demoEvents : List (Event (Fin 3) ℕ (List ℕ × Bool)) := process (demo 7 2 100 100) [.optimize] (fun _ => 0) ([], false) Disk.empty

theorem demo_intact : Intact (Disk.empty : Disk (Fin 3) ℕ (List ℕ × Bool)) 0 :=
  ⟨fun n h => by simp [Disk.empty] at h, fun h => by omega, by simp [Disk.empty]⟩

example : entered demoEvents = [1, 2, 3, 4, 5, 6, 7] ∧ snaps demoEvents = [1, 3, 6, 7] ∧ demoEvents.length = 12 := by decide

/-- Killed in iteration 6, before its snapshot: the newest snapshot is that of iteration 3, with the densities after three iterations. -/
example : entered (demoEvents.take 8) = [1, 2, 3, 4, 5, 6] ∧
    (killed Disk.empty demoEvents 8 false).files.map Prod.fst = [snapshotName 3, snapshotName 1] ∧
    ((load (killed Disk.empty demoEvents 8 false).files (snapshotName 3)).getD none).getD (fun _ => 0) 1 = 8 := by decide

/-- Killed while the snapshot of iteration 6 is written: a restart raises, one with `restart_from=3` continues with iteration 4. -/
example : outcome { demo 7 2 100 100 with restart := true } [.optimize] (fun _ => 0) ([], false) (killed Disk.empty demoEvents 8 true)
      = .error .unreadable ∧
    entered (process { demo 7 2 100 100 with restart := true, restartFrom := 3 } [.optimize] (fun _ => 0) ([], false)
      (killed Disk.empty demoEvents 8 true)) = [4, 5, 6, 7] := by decide

example : ∃ data, demoEvents[8]? = some (.snapshot 6 data) := ⟨_, rfl⟩

example : ∃ x, demoEvents[11]? = some (.histories x) := ⟨_, rfl⟩

/-- Killed while the histories are written. -/
example : outcome { demo 7 2 100 100 with restart := true, restartFrom := 3 } [.optimize] (fun _ => 0) ([], false)
    (killed Disk.empty demoEvents 11 true) = .error .unreadable := by decide

/-- Killed in the first iteration. -/
example : outcome { demo 7 2 100 100 with restart := true } [.optimize] (fun _ => 0) ([], false)
    (killed Disk.empty demoEvents 1 false) = .error .typeError := by decide

/-- Non-vacuity of `C124_kill_between_writes_partial`, for a kill after a kill: the first process is killed in iteration 6, the second,
restarted in iteration 4, again in iteration 6. -/
example : ∃ j, 3 ≤ j ∧ Intact (killed (killed Disk.empty demoEvents 8 false)
      (process { demo 7 2 100 100 with restart := true } [.optimize] (fun _ => 0) ([], false) (killed Disk.empty demoEvents 8 false)) 3 false) j := by
  have h1 : Intact (killed Disk.empty demoEvents 8 false) 3 := by
    refine ⟨fun n hn => ?_, fun _ => ⟨_, rfl⟩, by decide⟩
    have hl : (killed Disk.empty demoEvents 8 false).files.map Prod.fst = [snapshotName 3, snapshotName 1] := by decide
    rw [hl] at hn
    simp only [List.mem_cons, List.not_mem_nil, or_false] at hn
    rcases hn with rfl | rfl
    · exact ⟨3, by norm_num, by norm_num, rfl⟩
    · exact ⟨1, by norm_num, by norm_num, rfl⟩
  obtain ⟨j, h2, h3, -⟩ := C124_kill_between_writes_partial { demo 7 2 100 100 with restart := true } (by decide)
    (killed Disk.empty demoEvents 8 false) 3 h1 (Or.inr ⟨rfl, by decide, by norm_num, by norm_num⟩) [.optimize] (fun _ => 0) ([], false) 3
  exact ⟨j, h2, h3⟩

end Verif.Crash

namespace Verif.Crash
open Verif.Driver Verif.Spec Verif.Run Verif.Project
open Classical

noncomputable section

variable {ι E Q : Type} [Fintype ι] [Fintype E] [Fintype Q] {d m : ℕ}

/-- What a process with session data `s` does in an empty directory. -/
abbrev firstProcess (R : Setup ι E Q d m) (s : Session) : List (Event E ℝ (State E d)) :=
  process (sysWith (s.configure ⟨[], none⟩ R.toCommon) (elastic R (s.configure ⟨[], none⟩ R.toCommon))) s.calls (fun _ => 0)
    (start (s.configure ⟨[], none⟩ R.toCommon)) Disk.empty

/-- **C124 (partial: iterations below one million, kills between two writes, OC on an elasticity task).** A new well-posed run killed in
iteration `k ≥ 2`, not in the middle of writing a file, can be finished by a second process that restarts from the newest snapshot: it does
not raise, and it executes the iterations `j + 1, …, k'` where `j` is at most `max_iters // record_times` behind the kill and `k'` is the
`max_iters` of the second process if convergence is not checked. But the lines of the histories up to iteration `j` are lost (unless the
first process had already written its histories); if it was killed after its last snapshot, just before it wrote them, there are none at
all in the end. -/
theorem C124_killed_run_finishes_partial (R : Setup ι E Q d m) (s t : Session)
    (hw : ∀ u ∈ [s, t], ∀ D, WellPosed { R with toCommon := u.configure D R.toCommon })
    (hs : s.restart = false) (ht : t.restart = true) (htf : t.restartFrom ≤ 0) (hopt : Call.optimize ∈ t.calls)
    (hle : s.maxIters ≤ t.maxIters) (hmil : s.maxIters < 10 ^ 6) (n k : ℕ)
    (hk : (entered ((firstProcess R s).take n)).getLast? = some k) (h2 : 2 ≤ k) :
    ∃ D j k', 1 ≤ j ∧ j ≤ k ∧ k ≤ j + s.maxIters / s.recordTimes ∧ j ≤ k' ∧ k' ≤ t.maxIters ∧
      (R.checkConvergence = false → k' = t.maxIters) ∧
      (∃ rho, initializeOn (sysWith (t.configure (asDir (killed Disk.empty (firstProcess R s) n false)) R.toCommon)
        (elastic R (t.configure (asDir (killed Disk.empty (firstProcess R s) n false)) R.toCommon)))
        (killed Disk.empty (firstProcess R s) n false) = .ok (rho, j + 1)) ∧
      session R.toCommon (elastic R) t (asDir (killed Disk.empty (firstProcess R s) n false)) = (D, .ok ()) ∧
      ((∀ x, Event.histories x ∉ (firstProcess R s).take n) → (j < k' → iterations D = some (List.range' (j + 1) (k' - j))) ∧ (j = k' → iterations D = none)) := by
  have hws := hw s (by simp) ⟨[], none⟩
  have hrec : 1 ≤ s.recordTimes ∧ s.recordTimes ≤ s.maxIters := hws.toBasics.record
  have hF0 : Intact (Disk.empty : Disk E ℝ (State E d)) 0 :=
    ⟨fun n h => by simp [Disk.empty] at h, fun h => by omega, by simp [Disk.empty]⟩
  obtain ⟨j, a1, a2, -, a4, a5, -⟩ := C124_kill_between_writes_partial
    (sysWith (s.configure ⟨[], none⟩ R.toCommon) (elastic R (s.configure ⟨[], none⟩ R.toCommon))) hrec Disk.empty 0 hF0
    (Or.inl ⟨hs, rfl⟩) s.calls (fun _ => 0) (start (s.configure ⟨[], none⟩ R.toCommon)) n
  obtain ⟨b1, b2, b3, b4⟩ := a4 k hk
  have hj := b3 h2
  have b2' : k ≤ j + s.maxIters / s.recordTimes := b2
  have b4' : k ≤ s.maxIters := b4
  have hload := a5 (by omega)
  obtain ⟨F, hFd⟩ : ∃ F, F = killed Disk.empty (firstProcess R s) n false := ⟨_, rfl⟩
  rw [← hFd]
  change Intact (killed Disk.empty (firstProcess R s) n false) j at a2
  change Snapshot.load (killed Disk.empty (firstProcess R s) n false).files _ = _ at hload
  rw [← hFd] at a2 hload
  -- the snapshot is admissible
  obtain ⟨o, ho, o1, -⟩ := well_posed_by hws.toBasics (step_computes hws) hs [] [.steps ((j - 0 : ℕ) : ℤ)]
  have ho' : runCalls (sysWith (s.configure ⟨[], none⟩ R.toCommon) (elastic R (s.configure ⟨[], none⟩ R.toCommon))) [.steps ((j - 0 : ℕ) : ℤ)]
      (fresh (fun _ => 0) (start (s.configure ⟨[], none⟩ R.toCommon)) (Disk.empty : Disk E ℝ (State E d)).readable) = (o, .ok ()) := ho
  rw [ho'] at hload
  have hstarted : o.started = true := by
    by_contra h'
    simp only [Bool.not_eq_true] at h'
    have := ho
    simp only [runCalls, Call.run, optimizeSteps] at this
    rw [if_neg (by omega)] at this
    rcases hq : optimizeImpl (sysWith (s.configure ⟨[], none⟩ R.toCommon) (step { R with toCommon := s.configure ⟨[], none⟩ R.toCommon }))
      (some ((j - 0 : ℕ) : ℤ).toNat) (newRun (s.configure ⟨[], none⟩ R.toCommon) []) with ⟨p, e | ⟨⟩⟩
    · rw [hq] at this; simp at this
    · rw [hq] at this
      simp only [Prod.mk.injEq, and_true] at this
      subst this
      rw [optimizeImpl_eq, if_neg (by simp [newRun, fresh])] at hq
      rcases hE : ensureInit (sysWith (s.configure ⟨[], none⟩ R.toCommon) (step { R with toCommon := s.configure ⟨[], none⟩ R.toCommon }))
        (newRun (s.configure ⟨[], none⟩ R.toCommon) []) with ⟨p1, e | ⟨⟩⟩
      · rw [hE] at hq; simp at hq
      · rw [hE] at hq
        have h1 := (ensureInit_ok hE).1
        simp only at hq
        rcases continueRun_cases _ (some ((j - 0 : ℕ) : ℤ).toNat) p1 with ⟨-, c'⟩ | ⟨-, q, -, -, ⟨w, e, -, c'⟩ | ⟨w, k1, c1, -, ⟨-, c'⟩ | ⟨-, c'⟩⟩⟩ <;>
          rw [c'] at hq <;> simp only [Prod.mk.injEq, reduceCtorEq, and_false, and_true] at hq <;> rw [← hq] at h' <;>
          simp [finalize, h1] at h'
  have hbox : ∀ e ∈ R.design, Pinned R.toCommon e ∨ R.rhoMin ≤ designPart R.design o.world.rho e ∧ designPart R.design o.world.rho e ≤ R.rhoMax := by
    intro e he
    have hd : designPart R.design o.world.rho e = o.world.rho e := if_pos he
    rw [hd]
    obtain ⟨c1, -⟩ := o1 hstarted
    by_cases hp : Pinned R.toCommon e
    · exact Or.inl hp
    · refine Or.inr ⟨(c1 e he).1, (c1 e he).2 ?_⟩
      unfold Pinned at hp
      push Not at hp
      exact hp
  have hwt := hw t (by simp) (asDir F)
  have hread : Snapshot.load (asDir F).files (Snapshot.snapshotName j) = some (designPart R.design o.world.rho) := load_readable hload
  obtain ⟨D, k', new, f1, f2, f3, f4, f5, f5', f6, -, -⟩ := session_restart (M := elastic R) (s := t) (D := asDir F) hwt.toBasics (step_computes hwt) hopt
    (resumes_newest (fun nm hn => by
      obtain ⟨i, -, hi, e⟩ := a2.own nm (names_readable hn)
      exact ⟨i, hi, e⟩) (by omega) ht htf hread) (by omega) hbox
  obtain ⟨rho, g1, -, -⟩ := initializeOn_intact (S := sysWith (t.configure (asDir F) R.toCommon) (elastic R (t.configure (asDir F) R.toCommon))) a2
    (Or.inr ⟨ht, htf, hj, by omega⟩)
  refine ⟨D, j, k', hj, b1, b2', f2, f3, f4, ⟨rho, g1⟩, f1, fun hx => ?_⟩
  have hh : (asDir F).hist = none := by
    have : F.hist = none := by
      rw [hFd, killed_between, hist_after_same _ fun ⟨x, hx'⟩ => hx x hx']
      rfl
    simp [asDir, this]
  have hlen := congrArg List.length f6
  simp only [List.length_map, List.length_range'] at hlen
  constructor
  · intro hlt
    have hne : new ≠ [] := by
      rintro rfl
      simp only [List.length_nil] at hlen
      omega
    simp only [iterations, f5 (Or.inl (by simp [hne])), hh, Option.getD_none, List.nil_append, Option.map_some, f6]
  · intro heq
    have hne : new = [] := List.length_eq_zero_iff.1 (by omega)
    simp only [iterations, f5' hh hne, Option.map_none]

theorem first_entered (R : Setup ι E Q d m) (s : Session) (hw : WellPosed { R with toCommon := s.configure ⟨[], none⟩ R.toCommon })
    (hr : s.restart = false) (hc : Call.optimize ∈ s.calls) (hcc : R.checkConvergence = false) :
    entered (firstProcess R s) = List.range' 1 s.maxIters := by
  obtain ⟨o, ho, h1, h2⟩ := well_posed_by hw.toBasics (step_computes hw) hr [] s.calls
  have hcomp := completed_calls _ (Or.inl hc) ho
  have hs := started_of_completed hw.toBasics ho hcomp
  have he := (C124_events_describe_program (sysWith (s.configure ⟨[], none⟩ R.toCommon) (elastic R (s.configure ⟨[], none⟩ R.toCommon)))
    s.calls (fun _ => 0) (start (s.configure ⟨[], none⟩ R.toCommon)) (Disk.empty : Disk E ℝ (State E d))).2.1
  rw [guarded_ok (initializeOn_new hr _)] at he
  have hk : o.iterNext = s.maxIters + 1 := by
    rcases h2 hcomp with h | ⟨h, -⟩
    · exact h
    · have h' : R.checkConvergence = true := h
      rw [hcc] at h'; simp at h'
  have ht : o.world.trace = List.range' 1 s.maxIters := by
    rcases C35_iterations_consecutive _ _ _ [] s.calls o ho with ⟨h', -⟩ | ⟨b, q, hb, ht, hi, -⟩
    · rw [h'] at hs; simp at hs
    · have hr' : (sysWith (s.configure ⟨[], none⟩ R.toCommon) (elastic R (s.configure ⟨[], none⟩ R.toCommon))).restart = false := hr
      have hb1 : b = 1 := by
        simp only [FirstIteration] at hb
        have hr'' : (s.configure ⟨[], none⟩ R.toCommon).restart = false := hr
        simpa [sysWith, hr''] using hb
      rw [ht, hb1]
      congr 1
      omega
  have ho' : (runCalls (sysWith (s.configure ⟨[], none⟩ R.toCommon) (elastic R (s.configure ⟨[], none⟩ R.toCommon))) s.calls
      (fresh (fun _ => 0) (start (s.configure ⟨[], none⟩ R.toCommon)) (Disk.empty : Disk E ℝ (State E d)).readable)).1 = o := congrArg Prod.fst ho
  rw [ho', ht] at he
  exact he

/-- Non-vacuity: the chain of bars, killed after the end of its tenth iteration. -/
example : ∃ n k, (entered ((firstProcess chainLong ⟨10, 5, false, 0, [.optimize]⟩).take n)).getLast? = some k ∧ 2 ≤ k := by
  have h : entered (firstProcess chainLong ⟨10, 5, false, 0, [.optimize]⟩) = List.range' 1 10 := by
    have := first_entered chainLong ⟨10, 5, false, 0, [.optimize]⟩ (chain_sessions ⟨10, 5, false, 0, [.optimize]⟩ (by norm_num) ⟨[], none⟩) rfl (by simp) rfl
    convert this
  exact ⟨(firstProcess chainLong ⟨10, 5, false, 0, [.optimize]⟩).length, 10, by rw [List.take_length, h]; rfl, by norm_num⟩

end
end Verif.Crash
