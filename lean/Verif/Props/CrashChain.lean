import Verif.Props.Crash
import Verif.Lemmas.RunHeat
import Verif.Lemmas.RunRamp

/-! C124: any number of kills, one after the other. -/
namespace Verif.Spec
open Verif.Crash Verif.Driver Verif.Snapshot

variable {E D X : Type} [DecidableEq E] [Zero D] [One D] [Max D] [Min D]

/-- A process that is killed: its settings, its program, the state its optimizer is constructed with, and how many of its events happen. -/
structure Attempt (E D X : Type) where
  sys : Sys E D X
  calls : List Call
  rho0 : E → D
  state : X
  events : ℕ

/-- What the process does in the directory `F` until it is killed. -/
def Attempt.did (A : Attempt E D X) (F : Disk E D X) : List (Event E D X) := (process A.sys A.calls A.rho0 A.state F).take A.events

/-- The directory after the processes were started and killed one after the other (none while it writes a file). -/
def afterKills (F : Disk E D X) : List (Attempt E D X) → Disk E D X
  | [] => F
  | A :: As => afterKills (killed F (process A.sys A.calls A.rho0 A.state F) A.events false) As

/-- A process that restarts from the newest snapshot, with admissible numbers of records and iterations. -/
def Attempt.Restarts (A : Attempt E D X) : Prop :=
  A.sys.restart = true ∧ A.sys.restartFrom ≤ 0 ∧ 1 ≤ A.sys.recordTimes ∧ A.sys.recordTimes ≤ A.sys.maxIters ∧ A.sys.maxIters < 10 ^ 6

end Verif.Spec

namespace Verif.Crash
open Verif.Driver Verif.Spec
open Verif.Snapshot

variable {E D X : Type} [DecidableEq E] [Zero D] [One D] [Max D] [Min D]

/-- **C124, any number of kills (partial: below one million iterations, kills between two writes).** Let a directory be intact with newest
snapshot `j₀`, and let any number of processes be started and killed in it, one after the other, with whatever settings and programs, each
restarting from the newest snapshot and each killed at any moment that is not in the middle of a write. Then every one of them takes up
exactly where the newest snapshot left off, the newest snapshot never goes back, never more than `max_iters // record_times` iterations of
the process are lost, and the directory is intact after each of them: there are numbers `j 0 = j₀ ≤ j 1 ≤ j 2 ≤ …` such that `j i` is the newest snapshot before process
`i`, which enters the iterations `j i + 1, …, j i + m`, of which at most `max_iters // record_times` are not covered by `j (i + 1)`. -/
theorem C124_many_kills_partial (As : List (Attempt E D X)) (hAs : ∀ A ∈ As, A.Restarts) (F : Disk E D X) (j₀ : ℕ) (h1 : 1 ≤ j₀) (hm : j₀ < 10 ^ 6)
    (hF : Intact F j₀) :
    ∃ j : ℕ → ℕ, j 0 = j₀ ∧ (∀ i ≤ As.length, Intact (afterKills F (As.take i)) (j i)) ∧
      ∀ (i : ℕ) (A : Attempt E D X), As[i]? = some A → j i ≤ j (i + 1) ∧
        ∃ m, entered (A.did (afterKills F (As.take i))) = List.range' (j i + 1) m ∧
          j i + m ≤ j (i + 1) + A.sys.maxIters / A.sys.recordTimes ∧ (0 < m → j i + m ≤ A.sys.maxIters ∧ j (i + 1) ≤ j i + m) := by
  induction As generalizing F j₀ with
  | nil => exact ⟨fun _ => j₀, rfl, fun i hi => by simpa [afterKills] using hF, fun i A h => by simp at h⟩
  | cons A As ih =>
    obtain ⟨r1, r2, r3, r4, r5⟩ := hAs A (by simp)
    obtain ⟨j1, a1, a2, ⟨m, a3, a3'⟩, a4, -⟩ :=
      C124_kill_between_writes_partial A.sys ⟨r3, r4⟩ F j₀ hF (Or.inr ⟨r1, r2, h1, hm⟩) A.calls A.rho0 A.state A.events
    have hlast : 0 < m → (entered ((process A.sys A.calls A.rho0 A.state F).take A.events)).getLast? = some (j₀ + m) := by
      intro h0
      rw [a3, List.getLast?_range', if_neg (by omega)]
      exact congrArg some (by omega)
    have hpos : 0 < m → j₀ + m ≤ j1 + A.sys.maxIters / A.sys.recordTimes ∧ j₀ + m ≤ A.sys.maxIters := by
      intro h0
      obtain ⟨-, b2, -, b4⟩ := a4 _ (hlast h0)
      exact ⟨b2, b4⟩
    have hj1 : j1 < 10 ^ 6 := by
      rcases Nat.eq_zero_or_pos m with rfl | h0
      · omega
      · have := (hpos h0).2; omega
    obtain ⟨j, c1, c2, c3⟩ := ih (fun B hB => hAs B (List.mem_cons_of_mem _ hB)) _ j1 (by omega) hj1 a2
    refine ⟨fun i => if i = 0 then j₀ else j (i - 1), rfl, fun i hi => ?_, fun i B hB => ?_⟩
    · rcases i with _ | i
      · simpa [afterKills] using hF
      · simpa [afterKills] using c2 i (by simpa using hi)
    · rcases i with _ | i
      · simp only [List.getElem?_cons_zero, Option.some.injEq] at hB
        subst hB
        simp only [if_true, Nat.zero_add, Nat.one_ne_zero, if_false, Nat.sub_self, c1]
        refine ⟨a1, m, a3, ?_, fun h0 => ⟨(hpos h0).2, a3'⟩⟩
        rcases Nat.eq_zero_or_pos m with rfl | h0
        · exact le_trans a1 (Nat.le_add_right _ _)
        · exact (hpos h0).1
      · have := c3 i B (by simpa using hB)
        simpa [afterKills] using this

/-- **C124, how often.** If every process enters more than `max_iters // record_times` iterations before it is killed (and all have the same
`max_iters`), the newest snapshot moves on with every process: there can be at most `max_iters - j₀` such kills. -/
theorem C124_kills_bounded (As : List (Attempt E D X)) (hAs : ∀ A ∈ As, A.Restarts) (F : Disk E D X) (j₀ N : ℕ) (h1 : 1 ≤ j₀) (hm : j₀ < 10 ^ 6)
    (hF : Intact F j₀) (hN : ∀ A ∈ As, A.sys.maxIters = N)
    (hlong : ∀ (i : ℕ) (A : Attempt E D X), As[i]? = some A → A.sys.maxIters / A.sys.recordTimes < (entered (A.did (afterKills F (As.take i)))).length) :
    As.length ≤ N - j₀ := by
  obtain ⟨j, c1, -, c3⟩ := C124_many_kills_partial As hAs F j₀ h1 hm hF
  have hstep : ∀ i, i < As.length → j i < j (i + 1) ∧ j (i + 1) ≤ N := by
    intro i hi
    have hA := List.getElem?_eq_getElem hi
    obtain ⟨-, m, h2, h3, h4⟩ := c3 i _ hA
    have h5 := hlong i _ hA
    generalize As[i].sys.maxIters / As[i].sys.recordTimes = q at h3 h5
    rw [h2, List.length_range'] at h5
    obtain ⟨h6, h7⟩ := h4 (by omega)
    have h8 := hN _ (List.getElem_mem hi)
    omega
  have hall : ∀ i, i ≤ As.length → j₀ + i ≤ j i := by
    intro i
    induction i with
    | zero => intro _; omega
    | succ i ih => intro hi; have := hstep i (by omega); have := ih (by omega); omega
  rcases Nat.eq_zero_or_pos As.length with h0 | h0
  · omega
  · have := hstep (As.length - 1) (by omega)
    have h9 := hall As.length le_rfl
    rw [show As.length - 1 + 1 = As.length by omega] at this
    omega

/-- Non-vacuity: seven iterations with three records (a snapshot at least every second iteration). The directory with the snapshot of iteration 1, then
two processes, each killed after entering three iterations. -/
example : let S : Sys (Fin 3) ℕ (List ℕ × Bool) := { demo 7 3 100 100 with restart := true }
    let F : Disk (Fin 3) ℕ (List ℕ × Bool) := ⟨[(snapshotName 1, some fun _ => 1)], none⟩
    let A : Attempt (Fin 3) ℕ (List ℕ × Bool) := ⟨S, [.optimize], fun _ => 0, ([], false), 5⟩
    A.Restarts ∧ Intact F 1 ∧ entered (A.did F) = [2, 3, 4] ∧ entered (A.did (afterKills F [A])) = [5, 6, 7] ∧
      (∀ (i : ℕ) (B : Attempt (Fin 3) ℕ (List ℕ × Bool)), [A, A][i]? = some B → B.sys.maxIters / B.sys.recordTimes < (entered (B.did (afterKills F ([A, A].take i)))).length) := by
  intro S F A
  have e1 : entered (A.did F) = [2, 3, 4] := by decide
  have e2 : entered (A.did (afterKills F [A])) = [5, 6, 7] := by decide
  refine ⟨⟨rfl, by decide, by decide, by decide, by decide⟩, ⟨fun n hn => ?_, fun _ => ⟨_, rfl⟩, by simp [F]⟩, e1, e2, fun i B hB => ?_⟩
  · simp only [F, List.map_cons, List.map_nil, List.mem_singleton] at hn
    exact ⟨1, le_rfl, le_rfl, hn⟩
  · rcases i with _ | _ | i
    · simp only [List.getElem?_cons_zero, Option.some.injEq] at hB
      subst hB
      show _ < (entered (A.did F)).length
      rw [e1]; decide
    · simp only [List.getElem?_cons_succ, List.getElem?_cons_zero, Option.some.injEq] at hB
      subst hB
      show _ < (entered (A.did (afterKills F [A]))).length
      rw [e2]; decide
    · simp at hB

end Verif.Crash

namespace Verif.Spec
open Verif.Crash Verif.Driver Verif.Run Verif.Project
open Classical

noncomputable section
variable {E : Type} [Fintype E] {d : ℕ}

/-- What a process of an optimization does in the directory `F` if it is not killed. -/
abbrev processIn (R : Common E d) (M : Method E d) (s : Session) (F : Disk E ℝ (State E d)) : List (Event E ℝ (State E d)) :=
  process (sysWith (s.configure (asDir F) R) (M (s.configure (asDir F) R))) s.calls (fun _ => 0) (start (s.configure (asDir F) R)) F

/-- The directory after processes of an optimization were started and killed one after the other, each after the given number of events. -/
def afterKilled (R : Common E d) (M : Method E d) : List (Session × ℕ) → Disk E ℝ (State E d) → Disk E ℝ (State E d)
  | [], F => F
  | (s, n) :: rest, F => afterKilled R M rest (killed F (processIn R M s F) n false)

/-- Design densities within the box (apart from pinned elements). -/
def Admissible (R : Common E d) (data : E → ℝ) : Prop := ∀ e ∈ R.design, Pinned R e ∨ R.rhoMin ≤ data e ∧ data e ≤ R.rhoMax

end
end Verif.Spec

namespace Verif.Crash
open Verif.Driver Verif.Spec Verif.Run Verif.Project
open Classical

noncomputable section
variable {E : Type} [Fintype E] {d : ℕ}

theorem steps_started {S : Sys E ℝ (State E d)} {rho0 : E → ℝ} {x : State E d} {files : List (Snapshot.Name × (E → ℝ))} {n : ℕ} (hn : 1 ≤ n)
    {o : Opt E ℝ (State E d)} (ho : runCalls S [.steps (n : ℤ)] (fresh rho0 x files) = (o, .ok ())) : o.started = true := by
  by_contra h'
  simp only [Bool.not_eq_true] at h'
  have := ho
  simp only [runCalls, Call.run, optimizeSteps] at this
  rw [if_neg (by omega)] at this
  rcases hq : optimizeImpl S (some ((n : ℕ) : ℤ).toNat) (fresh rho0 x files) with ⟨p, e | ⟨⟩⟩
  · rw [hq] at this; simp at this
  · rw [hq] at this
    simp only [Prod.mk.injEq, and_true] at this
    subst this
    rw [optimizeImpl_eq, if_neg (by simp [fresh])] at hq
    rcases hE : ensureInit S (fresh rho0 x files) with ⟨p1, e | ⟨⟩⟩
    · rw [hE] at hq; simp at hq
    · rw [hE] at hq
      have h1 := (ensureInit_ok hE).1
      simp only at hq
      rcases continueRun_cases _ (some ((n : ℕ) : ℤ).toNat) p1 with ⟨-, c'⟩ | ⟨-, q, -, -, ⟨w, e, -, c'⟩ | ⟨w, k1, c1, -, ⟨-, c'⟩ | ⟨-, c'⟩⟩⟩ <;>
        rw [c'] at hq <;> simp only [Prod.mk.injEq, reduceCtorEq, and_false, and_true] at hq <;> rw [← hq] at h' <;>
        simp [finalize, h1] at h'

/-- One killed process. -/
theorem killed_once {R : Common E d} {M : Method E d} {s : Session} {n : ℕ} {F : Disk E ℝ (State E d)} (h : Basics (s.configure (asDir F) R))
    {It : (E → ℝ) → ℝ → Rec → (E → ℝ) → ℝ → Prop} {G : ℝ → Prop} (hst : Computes (s.configure (asDir F) R) (M (s.configure (asDir F) R)) It G)
    {j₀ : ℕ} (hF : Intact F j₀) (hs : s.restart = false ∧ F = Disk.empty ∧ j₀ = 0 ∨ s.restart = true ∧ s.restartFrom ≤ 0 ∧ 1 ≤ j₀) (hj : j₀ ≤ s.maxIters)
    (hmil : s.maxIters < 10 ^ 6)
    (hdata : 1 ≤ j₀ → ∃ data, Snapshot.load F.files (Snapshot.snapshotName j₀) = some (some data) ∧ Admissible R data) :
    ∃ j, j₀ ≤ j ∧ j ≤ s.maxIters ∧ Intact (killed F (processIn R M s F) n false) j ∧
      (∀ k, (entered ((processIn R M s F).take n)).getLast? = some k → 2 ≤ k → 1 ≤ j) ∧
      (1 ≤ j → ∃ data, Snapshot.load (killed F (processIn R M s F) n false).files (Snapshot.snapshotName j) = some (some data) ∧ Admissible R data) := by
  have hrec : 1 ≤ s.recordTimes ∧ s.recordTimes ≤ s.maxIters := h.record
  obtain ⟨j, a1, a2, ⟨m, a3, a3'⟩, a4, a5, a6⟩ := C124_kill_between_writes_partial
    (sysWith (s.configure (asDir F) R) (M (s.configure (asDir F) R))) hrec F j₀ hF
    (by
      rcases hs with ⟨h1, -, h2⟩ | ⟨h1, h2, h3⟩
      · exact Or.inl ⟨h1, h2⟩
      · exact Or.inr ⟨h1, h2, h3, by omega⟩) s.calls (fun _ => 0) (start (s.configure (asDir F) R)) n
  have hle : j ≤ s.maxIters := by
    rcases Nat.eq_zero_or_pos m with h0 | h0
    · omega
    · have := a4 (j₀ + m) (by
        rw [a3, List.getLast?_range', if_neg (by omega)]
        exact congrArg some (by omega))
      have h4 : j₀ + m ≤ s.maxIters := this.2.2.2
      omega
  refine ⟨j, a1, hle, a2, fun k hk h2 => (a4 k hk).2.2.1 h2, fun h1j => ?_⟩
  by_cases hlt : j₀ < j
  · refine ⟨_, a5 hlt, ?_⟩
    intro e he
    rcases hs with ⟨hr, rfl, rfl⟩ | ⟨hr, hf, h1⟩
    · obtain ⟨o, ho, o1, -⟩ := well_posed_by h hst hr [] [.steps ((j - 0 : ℕ) : ℤ)]
      have hst' := steps_started (by omega) ho
      change Pinned R e ∨ R.rhoMin ≤ designPart R.design (runCalls _ _ (newRun (s.configure (asDir Disk.empty) R) [])).1.world.rho e ∧
        designPart R.design (runCalls _ _ (newRun (s.configure (asDir Disk.empty) R) [])).1.world.rho e ≤ R.rhoMax
      rw [ho]
      have hd : designPart R.design o.world.rho e = o.world.rho e := if_pos he
      simp only
      rw [hd]
      obtain ⟨c1, -⟩ := o1 hst'
      by_cases hp : Pinned R e
      · exact Or.inl hp
      · refine Or.inr ⟨(c1 e he).1, (c1 e he).2 ?_⟩
        unfold Pinned at hp
        push Not at hp
        exact hp
    · obtain ⟨data, hd1, hd2⟩ := hdata h1
      have hres : Resumes (s.configure (asDir F) R) (asDir F).files j₀ data := resumes_newest (fun nm hn => by
        obtain ⟨i, -, hi, e⟩ := hF.own nm (names_readable hn)
        exact ⟨i, hi, e⟩) (by omega) hr hf (load_readable hd1)
      obtain ⟨o, ho, o1, -⟩ := restarted_by h hst (asDir F).files j₀ data hres hj hd2 [.steps ((j - j₀ : ℕ) : ℤ)]
      have hst' := steps_started (by omega) ho
      change Pinned R e ∨ R.rhoMin ≤ designPart R.design (runCalls _ _ (newRun (s.configure (asDir F) R) (asDir F).files)).1.world.rho e ∧
        designPart R.design (runCalls _ _ (newRun (s.configure (asDir F) R) (asDir F).files)).1.world.rho e ≤ R.rhoMax
      rw [ho]
      have hd : designPart R.design o.world.rho e = o.world.rho e := if_pos he
      simp only
      rw [hd]
      rcases (o1 hst').2.2.2.2 e he with ⟨hp, -⟩ | hb
      · exact Or.inl hp
      · exact Or.inr hb
  · have : j = j₀ := by omega
    subst this
    rw [a6 j le_rfl]
    exact hdata h1j

/-- A process whose every iteration computes: a well-posed configuration of an OC method, whatever the directory it is started in. -/
def Works (R : Common E d) (M : Method E d) (s : Session) : Prop :=
  ∀ D, Basics (s.configure D R) ∧ ∃ It G, Computes (s.configure D R) (M (s.configure D R)) It G

theorem killed_many {R : Common E d} {M : Method E d} {N : ℕ} (hmil : N < 10 ^ 6) :
    ∀ (ks : List (Session × ℕ)) (F : Disk E ℝ (State E d)) (j₀ : ℕ), (∀ k ∈ ks, Works R M k.1 ∧ k.1.restart = true ∧ k.1.restartFrom ≤ 0 ∧ k.1.maxIters = N) →
      Intact F j₀ → 1 ≤ j₀ → j₀ ≤ N → (∃ data, Snapshot.load F.files (Snapshot.snapshotName j₀) = some (some data) ∧ Admissible R data) →
      ∃ j, j₀ ≤ j ∧ j ≤ N ∧ Intact (afterKilled R M ks F) j ∧
        ∃ data, Snapshot.load (afterKilled R M ks F).files (Snapshot.snapshotName j) = some (some data) ∧ Admissible R data
  | [], F, j₀, _, hF, _, hN, hd => ⟨j₀, le_rfl, hN, hF, hd⟩
  | (s, n) :: ks, F, j₀, hk, hF, h1, hN, hd => by
    obtain ⟨w, r1, r2, r3⟩ : Works R M s ∧ s.restart = true ∧ s.restartFrom ≤ 0 ∧ s.maxIters = N := hk (s, n) (by simp)
    obtain ⟨hb, It, G, hst⟩ := w (asDir F)
    obtain ⟨j, c1, c2, c3, -, c5⟩ := killed_once (n := n) hb hst hF (Or.inr ⟨r1, r2, h1⟩) (by omega) (by omega) (fun _ => hd)
    obtain ⟨j', e1, e2, e3, e4⟩ := killed_many hmil ks _ j (fun k hk' => hk k (List.mem_cons_of_mem _ hk')) c3 (by omega) (by omega) (c5 (by omega))
    exact ⟨j', by omega, e2, e3, e4⟩

/-- **C124, killed again and again (partial: below one million iterations, kills between two writes, OC).** A new optimization is killed in
its second iteration or later, then restarted and killed any number of times, at any moments, with any programs and record frequencies; at
last a process that calls `optimize()` is left alone. It does not raise, it takes up the newest snapshot and finishes the optimization: it goes on to
iteration `max_iters` if convergence is not checked, and leaves a snapshot of its last iteration with admissible densities. This holds for
every OC method whose iterations compute (elasticity, heat conduction, SIMP and RAMP). -/
theorem C124_killed_again_and_again_partial (R : Common E d) (M : Method E d) (N : ℕ) (hmil : N < 10 ^ 6) (s : Session) (n : ℕ)
    (ks : List (Session × ℕ)) (t : Session)
    (hs : Works R M s ∧ s.restart = false ∧ s.maxIters = N)
    (hks : ∀ k ∈ ks, Works R M k.1 ∧ k.1.restart = true ∧ k.1.restartFrom ≤ 0 ∧ k.1.maxIters = N)
    (ht : Works R M t ∧ t.restart = true ∧ t.restartFrom ≤ 0 ∧ t.maxIters = N ∧ Call.optimize ∈ t.calls)
    (k : ℕ) (hk : (entered ((processIn R M s Disk.empty).take n)).getLast? = some k) (h2 : 2 ≤ k) :
    let F := afterKilled R M ((s, n) :: ks) Disk.empty
    ∃ j k' D data, 1 ≤ j ∧ Intact F j ∧ session R M t (asDir F) = (D, .ok ()) ∧ j ≤ k' ∧ k' ≤ N ∧ (R.checkConvergence = false → k' = N) ∧
      Snapshot.load D.files (Snapshot.snapshotName k') = some data ∧ Admissible R data := by
  intro F
  have hF0 : Intact (Disk.empty : Disk E ℝ (State E d)) 0 :=
    ⟨fun n h => by simp [Disk.empty] at h, fun h => by omega, by simp [Disk.empty]⟩
  obtain ⟨w, r1, r2⟩ := hs
  obtain ⟨hb, It, G, hst⟩ := w (asDir Disk.empty)
  obtain ⟨j1, -, c2, c3, c4, c5⟩ := killed_once (n := n) hb hst hF0 (Or.inl ⟨r1, rfl, rfl⟩) (by omega) (by omega) (fun h => by omega)
  have hj1 := c4 k hk h2
  obtain ⟨j, e1, e2, e3, data, e4, e5⟩ := killed_many hmil ks _ j1 hks c3 hj1 (by omega) (c5 hj1)
  change Intact F j at e3
  change Snapshot.load F.files _ = _ at e4
  obtain ⟨wt, t1, t2, t3, t4⟩ := ht
  obtain ⟨tb, It', G', tst⟩ := wt (asDir F)
  have hres : Resumes (t.configure (asDir F) R) (asDir F).files j data := resumes_newest (fun nm hn => by
    obtain ⟨i, -, hi, e⟩ := e3.own nm (names_readable hn)
    exact ⟨i, hi, e⟩) (by omega) t1 t2 (load_readable e4)
  obtain ⟨D, k', new, f1, f2, f3, f4, -, -, -, ⟨data', f7, f8⟩, -⟩ := session_restart (M := M) (s := t) (D := asDir F) tb tst t4 hres (by omega) e5
  exact ⟨j, k', D, data', by omega, e3, f1, f2, by omega, fun hc => by rw [f4 hc, t3], f7, f8⟩

end

section
variable {ι E Q : Type} [Fintype ι] [Fintype E] [Fintype Q] {d m : ℕ}

/-- OC with SIMP on an elasticity task. -/
noncomputable abbrev onElasticity (R : Setup ι E Q d m) : Method E d := elastic R

/-- Well-posed elasticity runs work (OC, SIMP). -/
theorem elastic_works (R : Setup ι E Q d m) (s : Session) (h : ∀ D, WellPosed { R with toCommon := s.configure D R.toCommon }) :
    Works R.toCommon (onElasticity R) s := fun D => ⟨(h D).toBasics, _, _, step_computes (h D)⟩

/-- OC with RAMP on an elasticity task. -/
noncomputable abbrev onElasticityRamp (R : Setup ι E Q d m) : Method E d := fun C =>
  stepWith C (responseWith { R with toCommon := C } Material.ramp Material.dCRamp)

/-- Well-posed elasticity runs with RAMP work, with the limits of C109. -/
theorem ramp_works (R : Setup ι E Q d m) (s : Session) (h : ∀ D, WellPosed { R with toCommon := s.configure D R.toCommon })
    (hs : ∀ D, R.nodal ≠ none ∨ ∀ k p, Scheduled (s.configure D R.toCommon) R.cP k (some p) → p ≤ 1) :
    Works R.toCommon (onElasticityRamp R) s :=
  fun D => ⟨(h D).toBasics, _, _, ramp_computes (R := { R with toCommon := s.configure D R.toCommon }) (h D) (hs D)⟩

end

section
variable {ι Q : Type} [Fintype ι] [Fintype Q] {d nE k : ℕ}

/-- OC on a heat conduction task. -/
noncomputable abbrev onHeat (R : HeatSetup ι Q d nE k) : Method (Fin nE) d := fun C => stepWith C (heatResponse { R with toCommon := C } R.task)

/-- Well-posed heat conduction runs work. -/
theorem heat_works (R : HeatSetup ι Q d nE k) (s : Session) (h : ∀ D, HeatWellPosed { R with toCommon := s.configure D R.toCommon }) :
    Works R.toCommon (onHeat R) s := fun D => ⟨(h D).toBasics, _, _, heat_computes (h D)⟩

end

theorem kill_in_iteration {E D X : Type} {es : List (Event E D X)} {k : ℕ} (h : k ∈ entered es) : ∃ n, (entered (es.take n)).getLast? = some k := by
  obtain ⟨ev, hev, hk⟩ := List.mem_filterMap.1 h
  have hev' : ev = .enter k := by
    cases ev <;> simp at hk
    rw [hk]
  subst hev'
  obtain ⟨a, b, rfl⟩ := List.append_of_mem hev
  refine ⟨a.length + 1, ?_⟩
  rw [List.take_append, List.take_of_length_le (by omega), show a.length + 1 - a.length = 1 by omega]
  simp [entered]

/-- A run killed during its third iteration (say), -/
def firstTry : Session := ⟨10, 5, false, 0, [.steps 2, .optimize]⟩
/-- restarted and killed after four events, restarted with another record frequency and killed at once, -/
def moreTries : List (Session × ℕ) := [(⟨10, 5, true, -1, [.optimize]⟩, 4), (⟨10, 2, true, 0, [.optimize]⟩, 0)]
/-- and restarted once more. -/
def lastTry : Session := ⟨10, 10, true, 0, [.optimize]⟩

/-- Non-vacuity of `C124_killed_again_and_again_partial`: three bars, ten iterations; there is a moment in the third iteration of the first run, and
everything that is assumed of the processes holds. -/
example : (∃ n, (entered ((processIn chainLong.toCommon (onElasticity chainLong) firstTry Disk.empty).take n)).getLast? = some 3) ∧
    (Works chainLong.toCommon (onElasticity chainLong) firstTry ∧ firstTry.restart = false ∧ firstTry.maxIters = 10) ∧
    (∀ k ∈ moreTries, Works chainLong.toCommon (onElasticity chainLong) k.1 ∧ k.1.restart = true ∧ k.1.restartFrom ≤ 0 ∧ k.1.maxIters = 10) ∧
    (Works chainLong.toCommon (onElasticity chainLong) lastTry ∧ lastTry.restart = true ∧ lastTry.restartFrom ≤ 0 ∧ lastTry.maxIters = 10 ∧
      Call.optimize ∈ lastTry.calls) := by
  have hw : ∀ s : Session, 1 ≤ s.recordTimes ∧ s.recordTimes ≤ s.maxIters → Works chainLong.toCommon (onElasticity chainLong) s :=
    fun s h => elastic_works chainLong s (chain_sessions s h)
  have hent : entered (processIn chainLong.toCommon (onElasticity chainLong) firstTry Disk.empty) = List.range' 1 10 :=
    first_entered chainLong firstTry (chain_sessions _ (by decide) _) rfl (by simp [firstTry]) rfl
  refine ⟨kill_in_iteration (by rw [hent]; decide), ⟨hw _ (by decide), rfl, rfl⟩, fun k hk => ?_, ⟨hw _ (by decide), rfl, by decide, rfl, by simp [lastTry]⟩⟩
  simp only [moreTries, List.mem_cons, List.not_mem_nil, or_false] at hk
  rcases hk with rfl | rfl
  · exact ⟨hw _ (by decide), rfl, by decide, rfl⟩
  · exact ⟨hw _ (by decide), rfl, by decide, rfl⟩

end Verif.Crash
