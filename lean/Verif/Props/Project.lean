import Verif.Lemmas.Project
import Verif.Spec.Project
import Verif.Props.Run

/-!
C121: the histories of an optimization continued over several processes.
-/
namespace Verif.Project
open Verif Verif.Driver Verif.Run Verif.Spec

variable {ι E Q : Type} [Fintype ι] [Fintype E] [Fintype Q] {d m : ℕ}

noncomputable section
open Classical

theorem started_of_completed {R : Common E d} (h : Basics R) {st : ℕ → (E → ℝ) → State E d → State E d × Res (E → ℝ)}
    {files : List (Snapshot.Name × (E → ℝ))} {cs : List Call} {o : Opt E ℝ (State E d)}
    (ho : runCalls (sysWith R st) cs (newRun R files) = (o, .ok ())) (hc : o.completed = true) : o.started = true := by
  rcases goodTrace_calls cs (Or.inl ⟨rfl, rfl, rfl, rfl⟩ : GoodTrace (sysWith R st) files (newRun R files)) ho with ⟨-, -, -, h⟩ | ⟨h, -⟩
  · rw [h] at hc; simp at hc
  · exact h

/-- A new, completed run in an empty `data/` directory documents itself. -/
theorem session_new {R : Common E d} {M : Method E d} {s : Session} {D : Dir E} (h : Basics (s.configure D R))
    {It : (E → ℝ) → ℝ → Rec → (E → ℝ) → ℝ → Prop} {G : ℝ → Prop} (hst : Computes (s.configure D R) (M (s.configure D R)) It G)
    (hr : s.restart = false) (hc : Call.optimize ∈ s.calls) (hf : D.files = []) :
    ∃ D1 k, session R M s D = (D1, .ok ()) ∧ 1 ≤ k ∧ k ≤ s.maxIters ∧ (R.checkConvergence = false → k = s.maxIters) ∧ Documents R D1 k := by
  obtain ⟨o, ho, h1, h2⟩ := well_posed_by h hst hr D.files s.calls
  have hcomp := completed_calls _ (Or.inl hc) ho
  have hs := started_of_completed h ho hcomp
  obtain ⟨a1, a2, a3, a4, a5, -⟩ := h1 hs
  have hmax : 1 ≤ s.maxIters := le_trans h.record.1 h.record.2
  have hk : 2 ≤ o.iterNext := by
    rcases h2 hcomp with h2 | ⟨-, r, h2, -⟩
    · have : o.iterNext = s.maxIters + 1 := h2
      omega
    · by_contra hk
      rw [show o.iterNext - 1 = 0 by omega] at a5
      simp only [List.range'_zero, List.map_eq_nil_iff] at a5
      rw [a5] at h2
      simp at h2
  have hsv := saved_calls s.calls (saved_fresh _ _ _ D.files) ho
  have htr : o.world.trace ≠ [] := by
    rcases C35_iterations_consecutive _ _ _ D.files s.calls o ho with ⟨h', -⟩ | ⟨b, n, hb, ht, hi, -⟩
    · rw [h'] at hs; simp at hs
    · have hb1 : b = 1 := by
        have hr' : (sysWith (s.configure D R) (M (s.configure D R))).restart = false := hr
        simpa [FirstIteration, hr'] using hb
      rw [ht]
      simp only [ne_eq, List.range'_eq_nil_iff]
      omega
  obtain ⟨v1, -, -, v4⟩ := hsv
  refine ⟨⟨o.world.files, some o.world.aux.log⟩, o.iterNext - 1, ?_, by omega, by have : o.iterNext ≤ s.maxIters + 1 := a4; omega, fun hcc => ?_, ?_⟩
  · have hne : o.world.aux.log.isEmpty = false := by
      rcases hl : o.world.aux.log with _ | ⟨r, l⟩
      · rw [hl] at a5
        have := congrArg List.length a5
        simp only [List.map_nil, List.length_nil, List.length_range'] at this
        omega
      · rfl
    simp only [session, ho, hcomp, hne, Bool.not_false, Bool.and_self, if_true]
  · rcases h2 hcomp with h2 | ⟨h2, -⟩
    · have : o.iterNext = s.maxIters + 1 := h2
      omega
    · have : R.checkConvergence = true := h2
      rw [hcc] at this; simp at this
  · refine ⟨⟨_, rfl, a5⟩, ⟨_, (v4 htr).2, fun e he => ?_⟩, fun n hn => ?_⟩
    · have he' : e ∈ (s.configure D R).design := he
      have hd : designPart (sysWith (s.configure D R) (M (s.configure D R))).design o.world.rho e = o.world.rho e := by
        unfold designPart
        exact if_pos he
      rw [hd]
      by_cases hp : Pinned R e
      · exact Or.inl hp
      · refine Or.inr ⟨(a1 e he').1, (a1 e he').2 ?_⟩
        unfold Pinned at hp
        push Not at hp
        exact hp
    · rcases v1 n hn with h' | ⟨-, j, j1, j2⟩
      · rw [hf] at h'; simp at h'
      · exact ⟨j, by omega, j2⟩

/-- A completed restart that resumes iteration `k` appends the lines `k + 1, …` to the histories found. -/
theorem session_restart {R : Common E d} {M : Method E d} {s : Session} {D : Dir E} (h : Basics (s.configure D R))
    {It : (E → ℝ) → ℝ → Rec → (E → ℝ) → ℝ → Prop} {G : ℝ → Prop} (hst : Computes (s.configure D R) (M (s.configure D R)) It G)
    (hc : Call.optimize ∈ s.calls) {k : ℕ} {data : E → ℝ} (hres : Resumes (s.configure D R) D.files k data) (hk : k ≤ s.maxIters)
    (hdata : ∀ e ∈ R.design, Pinned R e ∨ R.rhoMin ≤ data e ∧ data e ≤ R.rhoMax) :
    ∃ D1 k' new, session R M s D = (D1, .ok ()) ∧ k ≤ k' ∧ k' ≤ s.maxIters ∧ (R.checkConvergence = false → k' = s.maxIters) ∧
      (D.hist.getD [] ++ new ≠ [] ∨ D.hist ≠ none → D1.hist = some (D.hist.getD [] ++ new)) ∧
      (D.hist = none → new = [] → D1.hist = none) ∧ new.map Rec.iter = List.range' (k + 1) (k' - k) ∧
      (∃ data', Snapshot.load D1.files (Snapshot.snapshotName k') = some data' ∧
        ∀ e ∈ R.design, Pinned R e ∨ R.rhoMin ≤ data' e ∧ data' e ≤ R.rhoMax) ∧
      ∀ n ∈ D1.files.map Prod.fst, n ∈ D.files.map Prod.fst ∨ ∃ j ≤ k', n = Snapshot.snapshotName j := by
  obtain ⟨o, ho, h1, h2⟩ := restarted_by h hst D.files k data hres hk hdata s.calls
  have hcomp := completed_calls _ (Or.inl hc) ho
  have hs := started_of_completed h ho hcomp
  obtain ⟨a1, a2, ⟨new, a3, a4, -⟩, -, a6⟩ := h1 hs
  have a2' : o.iterNext ≤ s.maxIters + 1 := a2
  obtain ⟨v1, -, v3, v4⟩ := saved_calls s.calls (saved_fresh _ _ _ D.files) ho
  have a3' : o.world.aux.log = D.hist.getD [] ++ new := a3
  refine ⟨⟨o.world.files, if o.completed && !o.world.aux.log.isEmpty then some o.world.aux.log else D.hist⟩, o.iterNext - 1, new, ?_, by omega, by omega,
    fun hcc => ?_, fun hne => ?_, fun hn hnew => ?_, ?_, ?_, fun n hn => ?_⟩
  · simp only [session, ho]
  · rcases h2 hcomp with h2 | ⟨h2, -⟩
    · have : o.iterNext = s.maxIters + 1 := h2
      omega
    · have : R.checkConvergence = true := h2
      rw [hcc] at this; simp at this
  · rcases hl : o.world.aux.log with _ | ⟨r, l⟩
    · rw [hl] at a3'
      rcases hne with hne | hne
      · exact absurd a3'.symm hne
      · obtain ⟨l, hD⟩ := Option.ne_none_iff_exists'.1 hne
        rw [hD] at a3' ⊢
        simp only [Option.getD_some] at a3' ⊢
        have h0 := a3'.symm
        simp only [List.append_eq_nil_iff] at h0
        simp [h0.1, h0.2]
    · rw [← a3', hl]
      simp [hcomp]
  · have : o.world.aux.log = [] := by rw [a3', hn, hnew]; rfl
    simp [this, hn]
  · rw [a4]
    congr 1
    omega
  · by_cases htr : o.world.trace = []
    · -- nothing was executed
      have hb : o.iterNext = k + 1 := by
        rcases C35_iterations_consecutive _ _ _ D.files s.calls o ho with ⟨h', -⟩ | ⟨b, n, hb, ht, hi, -⟩
        · rw [h'] at hs; simp at hs
        · rw [htr] at ht
          have hn : n = 0 := by
            by_contra hn
            have := congrArg List.length ht
            simp at this
            omega
          have hr' : (sysWith (s.configure D R) (M (s.configure D R))).restart = true := hres.1
          simp only [FirstIteration, hr', if_true] at hb
          rcases hres.2.2 with ⟨c1, c2⟩ | ⟨c1, c2, c3, c4⟩
          · have c2' : (sysWith (s.configure D R) (M (s.configure D R))).restartFrom = k := c2
            rw [c2', if_pos (by exact_mod_cast c1)] at hb
            omega
          · have c1' : (sysWith (s.configure D R) (M (s.configure D R))).restartFrom ≤ 0 := c1
            rw [if_neg (by omega), Snapshot.C39_newest_snapshot_partial _ k c2 (mem_of_load hres.2.1) c3 c4] at hb
            simp only at hb
            omega
      rw [hb, Nat.add_sub_cancel]
      exact ⟨data, by simpa only [v3 htr] using hres.2.1, hdata⟩
    · refine ⟨_, (v4 htr).2, fun e he => ?_⟩
      have hd : designPart (sysWith (s.configure D R) (M (s.configure D R))).design o.world.rho e = o.world.rho e := by
        unfold designPart
        exact if_pos he
      rw [hd]
      rcases a6 e he with ⟨h', -⟩ | h'
      · exact Or.inl h'
      · exact Or.inr h'
  · rcases v1 n hn with h' | ⟨-, j, j1, j2⟩
    · exact Or.inl h'
    · exact Or.inr ⟨j, by omega, j2⟩

/-- The snapshot a restart without `restart_from` finds in a directory that documents an optimization. -/
theorem resumes_newest {R : Common E d} {s : Session} {D : Dir E} {k : ℕ}
    (h : ∀ n ∈ D.files.map Prod.fst, ∃ j ≤ k, n = Snapshot.snapshotName j) (hk : k < 10 ^ 6)
    (hr : s.restart = true) (hf : s.restartFrom ≤ 0) {data : E → ℝ}
    (hd : Snapshot.load D.files (Snapshot.snapshotName k) = some data) : Resumes (s.configure D R) D.files k data := by
  refine ⟨hr, hd, Or.inr ⟨hf, hk, fun n hn j hj => ?_, fun j hj => ?_⟩⟩
  · obtain ⟨i, hi, rfl⟩ := h n hn
    rw [(Snapshot.C39_snapshot_recognised (by omega) j).1 hj]
  · obtain ⟨i, hi, e⟩ := h _ hj
    rw [Snapshot.C39_names_injective e]
    exact hi

/-- A completed restart in a directory that documents an optimization up to `k` leaves one that documents it up to some `k' ≥ k`. -/
theorem session_next {R : Common E d} {M : Method E d} {s : Session} {D : Dir E} (h : Basics (s.configure D R))
    {It : (E → ℝ) → ℝ → Rec → (E → ℝ) → ℝ → Prop} {G : ℝ → Prop} (hst : Computes (s.configure D R) (M (s.configure D R)) It G)
    (hc : Call.optimize ∈ s.calls) (hr : s.restart = true) (hf : s.restartFrom ≤ 0) {k : ℕ} (hD : Documents R D k) (hk : k ≤ s.maxIters)
    (hm : k < 10 ^ 6) :
    ∃ D1 k', session R M s D = (D1, .ok ()) ∧ k ≤ k' ∧ k' ≤ s.maxIters ∧ (R.checkConvergence = false → k' = s.maxIters) ∧ Documents R D1 k' := by
  obtain ⟨data, d1, d2⟩ := hD.snapshot
  obtain ⟨D1, k', new, e1, e2, e3, e4, e5, -, e6, e7, e8⟩ := session_restart h hst hc (resumes_newest hD.newest hm hr hf d1) hk d2
  obtain ⟨l, l1, l2⟩ := hD.lines
  refine ⟨D1, k', e1, e2, e3, e4, ⟨l ++ new, by rw [e5 (Or.inr (by simp [l1])), l1]; rfl, ?_⟩, e7, fun n hn => ?_⟩
  · rw [List.map_append, l2, e6]
    have := List.range'_append_1 (s := 1) (m := k) (n := k' - k)
    rw [Nat.add_comm k 1, this]
    congr 1
    omega
  · rcases e8 n hn with h' | h'
    · obtain ⟨j, j1, j2⟩ := hD.newest n h'
      exact ⟨j, by omega, j2⟩
    · exact h'

/-- **C121 (partial: iterations below one million, every process finishes its run).** An optimization continued over several processes
documents itself: if the first process starts a new run in an empty `data/` directory and every later one restarts from the newest
snapshot with a `max_iters` that is not smaller, and all of them call `optimize()`, then no process raises, and at the end the histories
have exactly one line for each iteration `1, …, k` up to the last one, whose snapshot is there and is the newest. Without convergence
checking `k` is the `max_iters` of the last process. -/
theorem C121_histories_continue_partial (R : Setup ι E Q d m) (s : Session) (ss : List Session)
    (hw : ∀ t ∈ s :: ss, ∀ D, WellPosed { R with toCommon := t.configure D R.toCommon })
    (hopt : ∀ t ∈ s :: ss, Call.optimize ∈ t.calls)
    (hnew : s.restart = false) (hres : ∀ t ∈ ss, t.restart = true ∧ t.restartFrom ≤ 0)
    (hmax : (s :: ss).Pairwise fun t t' => t.maxIters ≤ t'.maxIters) (hmil : ∀ t ∈ s :: ss, t.maxIters < 10 ^ 6)
    (old : Option (List Rec)) :
    ∃ D k, sessions R.toCommon (elastic R) (s :: ss) ⟨[], old⟩ = (D, (s :: ss).map fun _ => .ok ()) ∧ 1 ≤ k ∧
      Documents R.toCommon D k ∧ (∃ t ∈ s :: ss, k ≤ t.maxIters) ∧
      (R.checkConvergence = false → k = ((s :: ss).getLast (by simp)).maxIters) := by
  have key : ∀ (ss : List Session) (s0 : Session) (D0 : Dir E) (k : ℕ), (∀ t ∈ ss, ∀ D, WellPosed { R with toCommon := t.configure D R.toCommon }) →
      (∀ t ∈ ss, Call.optimize ∈ t.calls) → (∀ t ∈ ss, t.restart = true ∧ t.restartFrom ≤ 0) →
      ((s0 :: ss).Pairwise fun t t' => t.maxIters ≤ t'.maxIters) → (∀ t ∈ s0 :: ss, t.maxIters < 10 ^ 6) → 1 ≤ k → k ≤ s0.maxIters →
      (R.checkConvergence = false → k = s0.maxIters) → Documents R.toCommon D0 k →
      ∃ D k', sessions R.toCommon (elastic R) ss D0 = (D, ss.map fun _ => .ok ()) ∧ 1 ≤ k' ∧
        Documents R.toCommon D k' ∧ (∃ t ∈ s0 :: ss, k' ≤ t.maxIters) ∧
        (R.checkConvergence = false → k' = ((s0 :: ss).getLast (by simp)).maxIters) := by
    intro ss
    induction ss with
    | nil =>
      intro s0 D0 k _ _ _ _ _ hk hk2 hk3 hD
      exact ⟨D0, k, rfl, hk, hD, ⟨s0, by simp, hk2⟩, fun h => by simpa using hk3 h⟩
    | cons t ts ih =>
      intro s0 D0 k hw hopt hres hmax hmil hk hk2 hk3 hD
      have hle : s0.maxIters ≤ t.maxIters := (List.pairwise_cons.1 hmax).1 t (by simp)
      have hwt := hw t (by simp) D0
      obtain ⟨D1, k', e1, e2, e3, e4, e5⟩ := session_next (M := elastic R) (s := t) (D := D0) hwt.toBasics (step_computes hwt) (hopt t (by simp))
        (hres t (by simp)).1 (hres t (by simp)).2 hD (by omega) (by have := hmil s0 (by simp); omega)
      obtain ⟨D, k'', f1, f2, f3, ⟨u, u1, u2⟩, f5⟩ := ih t D1 k' (fun u hu => hw u (List.mem_cons_of_mem _ hu)) (fun u hu => hopt u (List.mem_cons_of_mem _ hu))
        (fun u hu => hres u (List.mem_cons_of_mem _ hu)) (List.pairwise_cons.1 hmax).2 (fun u hu => hmil u (List.mem_cons_of_mem _ hu))
        (by omega) e3 e4 e5
      refine ⟨D, k'', ?_, f2, f3, ⟨u, List.mem_cons_of_mem _ u1, u2⟩, fun h => ?_⟩
      · simp only [sessions, e1, f1, List.map_cons]
      · rw [f5 h, List.getLast_cons (by simp : t :: ts ≠ [])]
  have hws := hw s (by simp) ⟨[], old⟩
  obtain ⟨D1, k, e1, e2, e3, e4, e5⟩ := session_new (M := elastic R) (s := s) (D := ⟨[], old⟩) hws.toBasics (step_computes hws) hnew (hopt s (by simp)) rfl
  obtain ⟨D, k', f1, f2, f3, f4, f5⟩ := key ss s D1 k (fun u hu => hw u (List.mem_cons_of_mem _ hu)) (fun u hu => hopt u (List.mem_cons_of_mem _ hu)) hres hmax hmil
    e2 e3 e4 e5
  refine ⟨D, k', ?_, f2, f3, f4, f5⟩
  simp only [sessions, e1, f1, List.map_cons]

/-- How far `optimize_steps(n)` gets if the run is not completed by it. -/
theorem steps_exact {S : Sys E ℝ (State E d)} {n : ℕ} {o o' : Opt E ℝ (State E d)} (hc : o'.completed = false)
    (hr : optimizeImpl S (some n) o = (o', .ok ())) :
    ∃ o1, ensureInit S o = (o1, .ok ()) ∧ o'.iterNext = o1.iterNext + n ∧ (0 < n → o'.world.trace ≠ []) := by
  rw [optimizeImpl_eq] at hr
  split_ifs at hr with h0
  · simp only [Prod.mk.injEq, and_true] at hr; rw [← hr, h0] at hc; simp at hc
  · rcases hE : ensureInit S o with ⟨o1, e | ⟨⟩⟩ <;> rw [hE] at hr <;> simp only at hr
    · simp at hr
    · refine ⟨o1, rfl, ?_⟩
      rcases continueRun_cases S (some n) o1 with ⟨-, h'⟩ | ⟨hle, a, ha, hn, ⟨w, e, -, h'⟩ | ⟨w, k, c', hl, ⟨-, h'⟩ | ⟨hk, h'⟩⟩⟩ <;>
        rw [h'] at hr <;> simp only [Prod.mk.injEq, reduceCtorEq, and_false, and_true] at hr <;> subst hr
      · simp [finalize] at hc
      · simp [finalize] at hc
      · have he := loop_end S _ _ _ _ _ _ hl
        have := he.2.2.1 hk.1
        simp only [chunkLen] at hn
        have hk2 := hk.2
        refine ⟨by simp only; omega, fun h => ?_⟩
        simp only [he.2.2.2.1, ne_eq, List.append_eq_nil_iff, List.range'_eq_nil_iff]
        omega

/-- A new run stopped after `n` iterations. -/
theorem session_stopped {R : Common E d} {M : Method E d} {s : Session} {D : Dir E} (h : Basics (s.configure D R))
    {It : (E → ℝ) → ℝ → Rec → (E → ℝ) → ℝ → Prop} {G : ℝ → Prop} (hst : Computes (s.configure D R) (M (s.configure D R)) It G)
    (hr : s.restart = false) (hcc : R.checkConvergence = false) {n : ℕ} (hn : 0 < n) (hlt : n < s.maxIters)
    (hc : s.calls = [.steps n]) (hf : D.files = []) :
    ∃ D1, session R M s D = (D1, .ok ()) ∧ D1.hist = D.hist ∧
      (∃ data, Snapshot.load D1.files (Snapshot.snapshotName n) = some data ∧
        ∀ e ∈ R.design, Pinned R e ∨ R.rhoMin ≤ data e ∧ data e ≤ R.rhoMax) ∧
      ∀ f ∈ D1.files.map Prod.fst, ∃ j ≤ n, f = Snapshot.snapshotName j := by
  obtain ⟨o, ho, h1, h2⟩ := well_posed_by h hst hr D.files s.calls
  obtain ⟨v1, -, v3, v4⟩ := saved_calls s.calls (saved_fresh _ _ _ D.files) ho
  have hrun : optimizeImpl (sysWith (s.configure D R) (M (s.configure D R))) (some n) (newRun (s.configure D R) D.files) = (o, .ok ()) := by
    rw [hc] at ho
    simp only [runCalls, Call.run, optimizeSteps] at ho
    rw [if_neg (by omega), Int.toNat_natCast] at ho
    rcases hq : optimizeImpl (sysWith (s.configure D R) (M (s.configure D R))) (some n) (newRun (s.configure D R) D.files) with ⟨o', e | u⟩
    · rw [hq] at ho; simp at ho
    · rw [hq] at ho
      simp only [Prod.mk.injEq, and_true] at ho
      rw [ho]
  have hlen : o.world.trace.length ≤ n := by
    obtain ⟨l, l1, l2⟩ := C35_steps_at_most (sysWith (s.configure D R) (M (s.configure D R))) n (newRun (s.configure D R) D.files)
    rw [optimizeSteps, if_neg (by omega), Int.toNat_natCast, hrun] at l1
    have l1' : o.world.trace = [] ++ l := l1
    rw [l1', List.nil_append]
    omega
  have hfirst := C35_iterations_consecutive _ _ _ D.files s.calls o ho
  have hr' : (sysWith (s.configure D R) (M (s.configure D R))).restart = false := hr
  have hcomp : o.completed = false := by
    by_contra hcomp
    simp only [Bool.not_eq_false] at hcomp
    have hs := started_of_completed h ho hcomp
    rcases hfirst with ⟨h', -⟩ | ⟨b, j, hb, ht, hi, -⟩
    · rw [h'] at hs; simp at hs
    · have hb1 : b = 1 := by simpa [FirstIteration, hr'] using hb
      rw [ht, List.length_range'] at hlen
      rcases h2 hcomp with h2 | ⟨h2, -⟩
      · have : o.iterNext = s.maxIters + 1 := h2
        omega
      · have : R.checkConvergence = true := h2
        rw [hcc] at this; simp at this
  obtain ⟨o1, i1, i2, i3⟩ := steps_exact hcomp hrun
  have htr := i3 hn
  have hs : o.started = true ∧ o.iterNext = 1 + n := by
    rcases hfirst with ⟨-, h'⟩ | ⟨b, j, hb, ht, hi, -⟩
    · exact absurd h' htr
    · have hb1 : b = 1 := by simpa [FirstIteration, hr'] using hb
      rcases ensureInit_cases (sysWith (s.configure D R) (M (s.configure D R))) (newRun (s.configure D R) D.files) with
        ⟨hs, -⟩ | ⟨-, ⟨x, e, h'⟩ | ⟨x, rho, k, hk, h'⟩⟩
      · simp [newRun, fresh] at hs
      · rw [h'] at i1; simp at i1
      · rw [h'] at i1
        simp only [Prod.mk.injEq, and_true] at i1
        have := initializeDensity_first hk
        have hk1 : k = 1 := by simpa [FirstIteration, hr'] using this
        refine ⟨?_, by rw [i2, ← i1]; simp only; omega⟩
        by_contra hs
        have := saved_calls s.calls (saved_fresh _ _ _ D.files) ho
        exact htr (this.2.1 (by simpa using hs))
  obtain ⟨hs, hi⟩ := hs
  obtain ⟨a1, -⟩ := h1 hs
  have hv := (v4 htr).2
  rw [hi, Nat.add_sub_cancel_left] at hv
  refine ⟨⟨o.world.files, D.hist⟩, by simp [session, ho, hcomp], rfl, ⟨_, hv, fun e he => ?_⟩, fun f hf' => ?_⟩
  · have hd : designPart (sysWith (s.configure D R) (M (s.configure D R))).design o.world.rho e = o.world.rho e := by
      unfold designPart
      exact if_pos he
    rw [hd]
    by_cases hp : Pinned R e
    · exact Or.inl hp
    · refine Or.inr ⟨(a1 e he).1, (a1 e he).2 ?_⟩
      unfold Pinned at hp
      push Not at hp
      exact hp
  · rcases v1 f hf' with h' | ⟨-, j, j1, j2⟩
    · rw [hf] at h'; simp at h'
    · exact ⟨j, by omega, j2⟩

/-- **C121 (refuted for processes that stop early).** `histories.npz` is written only when a run is completed, but snapshots are written on
the way. So if a process makes `n` iterations and ends, and a second one restarts from the newest snapshot and finishes, neither of them
raises, all iterations have been executed, and yet the histories lack the lines of the iterations `1, …, n`: they have the lines
`n + 1, …, max_iters` — after whatever lines an older, unrelated run left in the directory. -/
theorem C121_stopped_process_loses_lines (R : Setup ι E Q d m) (s t : Session)
    (hw : ∀ u ∈ [s, t], ∀ D, WellPosed { R with toCommon := u.configure D R.toCommon }) (hcc : R.checkConvergence = false)
    (n : ℕ) (hn : 0 < n) (hlt : n < s.maxIters) (hle : n < t.maxIters) (hmil : n < 10 ^ 6)
    (hs : s.restart = false) (hcs : s.calls = [.steps n]) (ht : t.restart = true) (htf : t.restartFrom ≤ 0) (hct : t.calls = [.optimize])
    (old : Option (List Rec)) :
    ∃ D, sessions R.toCommon (elastic R) [s, t] ⟨[], old⟩ = (D, [.ok (), .ok ()]) ∧
      iterations D = some ((old.getD []).map Rec.iter ++ List.range' (n + 1) (t.maxIters - n)) := by
  have hws := hw s (by simp) ⟨[], old⟩
  obtain ⟨D1, e1, e2, ⟨data, e3, e4⟩, e5⟩ := session_stopped (M := elastic R) (s := s) (D := ⟨[], old⟩) hws.toBasics (step_computes hws) hs hcc hn hlt hcs rfl
  have hwt := hw t (by simp) D1
  obtain ⟨D2, k', new, f1, -, -, f4, f5, -, f6, -, -⟩ := session_restart (M := elastic R) hwt.toBasics (step_computes hwt) (by simp [hct])
    (resumes_newest e5 hmil ht htf e3) hle.le e4
  refine ⟨D2, by simp only [sessions, e1, f1], ?_⟩
  have hnew : new ≠ [] := by
    rintro rfl
    have := congrArg List.length f6
    rw [f4 hcc] at this
    simp only [List.map_nil, List.length_nil, List.length_range'] at this
    omega
  simp only [iterations, f5 (Or.inl (by simp [hnew])), e2, Option.map_some, List.map_append, f6, f4 hcc]

/-- **C121 (refuted for restarts from an earlier iteration).** With `restart_from = k` in a directory whose histories go up to iteration
`n`, the lines `k + 1, …, n` are not dropped: the histories then have the lines `1, …, n` followed by `k + 1, …, max_iters`, two lines for
each of the iterations computed again. -/
theorem C121_earlier_restart_duplicates (R : Setup ι E Q d m) (s : Session) (D : Dir E)
    (hw : WellPosed { R with toCommon := s.configure D R.toCommon }) (hcc : R.checkConvergence = false)
    (k n : ℕ) (hk : 0 < k) (hle : k ≤ s.maxIters) (hs : s.restart = true) (hf : s.restartFrom = k) (hc : s.calls = [.optimize])
    (hD : iterations D = some (List.range' 1 n)) (data : E → ℝ) (hdata : Snapshot.load D.files (Snapshot.snapshotName k) = some data)
    (hbox : ∀ e ∈ R.design, Pinned R.toCommon e ∨ R.rhoMin ≤ data e ∧ data e ≤ R.rhoMax) :
    ∃ D', session R.toCommon (elastic R) s D = (D', .ok ()) ∧
      iterations D' = some (List.range' 1 n ++ List.range' (k + 1) (s.maxIters - k)) := by
  obtain ⟨D2, k', new, f1, -, -, f4, f5, -, f6, -, -⟩ := session_restart (M := elastic R) hw.toBasics (step_computes hw) (by simp [hc])
    ⟨hs, hdata, Or.inl ⟨hk, hf⟩⟩ hle hbox
  refine ⟨D2, f1, ?_⟩
  simp only [iterations, Option.map_eq_some_iff] at hD
  obtain ⟨l, l1, l2⟩ := hD
  simp only [iterations, f5 (Or.inr (by simp [l1])), Option.map_some, List.map_append, f6, f4 hcc, l1, Option.getD_some, l2]

/-! ### Concrete processes on the chain of bars -/

/-- The run of `Verif.Props.Run` without convergence checking. -/
def chainLong : Setup (Fin 4) (Fin 3) (Fin 1) 1 2 := { chainRun with checkConvergence := false }

theorem chain_sessions (s : Session) (h1 : 1 ≤ s.recordTimes ∧ s.recordTimes ≤ s.maxIters) (D : Dir (Fin 3)) :
    WellPosed { chainLong with toCommon := s.configure D chainLong.toCommon } :=
  let h := chainRun_wellPosed
  { h with
    record := h1
    nodal := by simp [Session.configure, chainLong, chainRun]
    percentages := fun k q hq => by
      have h0 : Sched.valueOf (.ok { chainRun.cPercentile with itersMax := some (s.maxIters : ℤ) }) (k : ℤ) = .ok none := rfl
      have h1 : (Except.ok none : Res (Option ℝ)) = .ok (some q) := h0.symm.trans hq
      injection h1 with h1
      cases h1 }

/-- Non-vacuity of C121: ten iterations, then a restart that changes nothing, then a restart up to 25 made in pieces; at the end the
histories have the lines `1, …, 25`. -/
example : ∃ D, sessions chainLong.toCommon (elastic chainLong) [⟨10, 5, false, 0, [.steps 3, .optimize]⟩, ⟨10, 2, true, -1, [.optimize]⟩,
      ⟨25, 5, true, 0, [.steps 7, .steps 100, .optimize]⟩] ⟨[], some [⟨4, 0.1, 1, 1, none, 1, 0⟩]⟩ = (D, [.ok (), .ok (), .ok ()]) ∧
    iterations D = some (List.range' 1 25) := by
  obtain ⟨D, k, h1, -, h3, -, h5⟩ := C121_histories_continue_partial chainLong ⟨10, 5, false, 0, [.steps 3, .optimize]⟩
    [⟨10, 2, true, -1, [.optimize]⟩, ⟨25, 5, true, 0, [.steps 7, .steps 100, .optimize]⟩]
    (fun t ht D => chain_sessions t (by
      simp only [List.mem_cons, List.not_mem_nil, or_false] at ht
      rcases ht with rfl | rfl | rfl <;> norm_num) D)
    (by simp) rfl (by simp) (by simp) (by simp) (some [⟨4, 0.1, 1, 1, none, 1, 0⟩])
  have hk := h5 rfl
  simp only [List.getLast_cons_cons, List.getLast_singleton] at hk
  simp only [List.map_cons, List.map_nil] at h1
  subst hk
  obtain ⟨l, l1, l2⟩ := h3.lines
  refine ⟨D, ?_, by simp only [iterations, l1, Option.map_some, l2]⟩
  convert h1

/-- Three iterations, then a restart that finishes: the histories begin with iteration 4. -/
example : ∃ D, sessions chainLong.toCommon (elastic chainLong) [⟨10, 5, false, 0, [.steps 3]⟩, ⟨10, 5, true, -1, [.optimize]⟩] ⟨[], none⟩ =
    (D, [.ok (), .ok ()]) ∧ iterations D = some [4, 5, 6, 7, 8, 9, 10] := by
  obtain ⟨D, h1, h2⟩ := C121_stopped_process_loses_lines chainLong ⟨10, 5, false, 0, [.steps 3]⟩ ⟨10, 5, true, -1, [.optimize]⟩
    (fun t ht D => chain_sessions t (by
      simp only [List.mem_cons, List.not_mem_nil, or_false] at ht
      rcases ht with rfl | rfl <;> norm_num) D)
    rfl 3 (by norm_num) (by norm_num) (by norm_num) (by norm_num) rfl rfl rfl (by norm_num) rfl none
  exact ⟨D, by convert h1, h2⟩

/-- A directory with the histories of a run of ten iterations, restarted from iteration 7. -/
example : ∃ D', session chainLong.toCommon (elastic chainLong) ⟨12, 5, true, 7, [.optimize]⟩
      ⟨[(Snapshot.snapshotName 7, fun _ => 0.4)], some ((List.range' 1 10).map fun k => ⟨k, 0.1, 1, 1, none, 1, 0⟩)⟩ = (D', .ok ()) ∧
    iterations D' = some [1, 2, 3, 4, 5, 6, 7, 8, 9, 10, 8, 9, 10, 11, 12] := by
  obtain ⟨D, h1, h2⟩ := C121_earlier_restart_duplicates chainLong ⟨12, 5, true, 7, [.optimize]⟩
    ⟨[(Snapshot.snapshotName 7, fun _ => 0.4)], some ((List.range' 1 10).map fun k => ⟨k, 0.1, 1, 1, none, 1, 0⟩)⟩
    (chain_sessions _ (by norm_num) _) rfl 7 10 (by norm_num) (by norm_num) rfl rfl rfl
    rfl (fun _ => 0.4) (by simp [Snapshot.load])
    (fun e _ => Or.inr (by norm_num [chainLong, chainRun]))
  exact ⟨D, by convert h1, h2⟩

end
end Verif.Project
