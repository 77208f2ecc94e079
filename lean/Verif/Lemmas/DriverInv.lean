import Verif.Lemmas.Driver

/-! Invariants of the iteration driver over arbitrary histories of calls. -/
namespace Verif.Driver
open Verif.Snapshot

variable {E D X : Type} [DecidableEq E] [Zero D] [One D] [Max D] [Min D]

/-- The optimizer after a history of calls, whatever they raised. -/
def history (S : Sys E D X) (cs : List Call) (o : Opt E D X) : Opt E D X :=
  cs.foldl (fun o c => (c.run S o).1) o

/-- `N` before the state exists, `W` afterwards. -/
def Holds (N W : World E D X → Prop) (o : Opt E D X) : Prop :=
  (o.started = false → N o.world) ∧ (o.started = true → W o.world)

theorem loop_inv {S : Sys E D X} {W : World E D X → Prop} (hiter : ∀ b k w, W w → W (iterate S b k w).1) :
    ∀ n k w, W w → W (loop S n k w).1
  | 0, k, w, h => h
  | n + 1, k, w, h => by
    have hi := hiter (n == 0) k w h
    simp only [loop]
    revert hi
    rcases iterate S (n == 0) k w with ⟨v, e | _ | _⟩ <;> intro hi <;> simp only at hi ⊢
    · exact hi
    · exact loop_inv hiter n (k + 1) v hi
    · exact hi

theorem impl_inv {S : Sys E D X} {N W : World E D X → Prop}
    (hinit : ∀ o, o.started = false → N o.world →
      (∀ o1 e, ensureInit S o = (o1, .error e) → N o1.world) ∧ (∀ o1, ensureInit S o = (o1, .ok ()) → W o1.world))
    (hiter : ∀ b k w, W w → W (iterate S b k w).1)
    (hfin : ∀ w, W w → W { w with aux := S.exportHist w.aux })
    (m : Option ℕ) (o : Opt E D X) (h : Holds N W o) : Holds N W (optimizeImpl S m o).1 := by
  rw [optimizeImpl_eq]
  split_ifs with hc
  · exact h
  · have hcont : ∀ o1 : Opt E D X, o1.started = true → W o1.world → Holds N W (continueRun S m o1).1 := by
      intro o1 hs hw
      rcases continueRun_cases S m o1 with ⟨-, he⟩ | ⟨-, n, -, -, ⟨w, e, hl, he⟩ | ⟨w, k, c, hl, ⟨-, he⟩ | ⟨-, he⟩⟩⟩ <;> rw [he]
      · exact ⟨fun hf => by simp [finalize, hs] at hf, fun _ => hfin _ hw⟩
      · have := loop_inv hiter n o1.iterNext o1.world hw
        rw [hl] at this
        exact ⟨fun hf => by simp [hs] at hf, fun _ => this⟩
      · have := loop_inv hiter n o1.iterNext o1.world hw
        rw [hl] at this
        exact ⟨fun hf => by simp [finalize, hs] at hf, fun _ => hfin _ this⟩
      · have := loop_inv hiter n o1.iterNext o1.world hw
        rw [hl] at this
        exact ⟨fun hf => by simp [hs] at hf, fun _ => this⟩
    by_cases hs : o.started = true
    · rw [ensureInit_started S hs]
      exact hcont o hs (h.2 hs)
    · have hs' : o.started = false := by simpa using hs
      obtain ⟨h1, h2⟩ := hinit o hs' (h.1 hs')
      rcases he : ensureInit S o with ⟨o1, e | u⟩
      · have hst : o1.started = false := by
          rcases ensureInit_cases S o with ⟨hs', -⟩ | ⟨-, ⟨x, e', h'⟩ | ⟨x, rho, k, -, h'⟩⟩
          · exact absurd hs' hs
          · rw [h'] at he; simp only [Prod.mk.injEq] at he; rw [← he.1]
          · rw [h'] at he; simp at he
        exact ⟨fun _ => h1 o1 e he, fun hf => by rw [hst] at hf; cases hf⟩
      · exact hcont o1 (ensureInit_ok he).1 (h2 o1 he)

theorem history_inv {S : Sys E D X} {N W : World E D X → Prop}
    (hinit : ∀ o, o.started = false → N o.world →
      (∀ o1 e, ensureInit S o = (o1, .error e) → N o1.world) ∧ (∀ o1, ensureInit S o = (o1, .ok ()) → W o1.world))
    (hiter : ∀ b k w, W w → W (iterate S b k w).1)
    (hfin : ∀ w, W w → W { w with aux := S.exportHist w.aux }) :
    ∀ (cs : List Call) (o : Opt E D X), Holds N W o → Holds N W (history S cs o)
  | [], o, h => h
  | c :: cs, o, h => by
    have : Holds N W (c.run S o).1 := by
      cases c with
      | optimize => exact impl_inv hinit hiter hfin none o h
      | steps n =>
        simp only [Call.run, optimizeSteps]
        split_ifs
        · exact h
        · exact impl_inv hinit hiter hfin _ o h
    exact history_inv hinit hiter hfin cs _ this

/-- Conditions under which no call raises: `W k` holds before iteration `k`. -/
structure Safe (S : Sys E D X) (N : World E D X → Prop) (W : ℕ → World E D X → Prop) (Cv : World E D X → Prop) : Prop where
  init : ∀ o, o.started = false → N o.world → ∃ o1, ensureInit S o = (o1, .ok ()) ∧ W o1.iterNext o1.world ∧
    1 ≤ o1.iterNext ∧ o1.iterNext ≤ S.maxIters + 1
  iter : ∀ b k w, 1 ≤ k → k ≤ S.maxIters → W k w →
    ∃ w' c, iterate S b k w = (w', .ok c) ∧ W (k + 1) w' ∧ (c = true → Cv w')
  fin : ∀ k w, W k w → W k { w with aux := S.exportHist w.aux }
  finCv : ∀ w, Cv w → Cv { w with aux := S.exportHist w.aux }

theorem Safe.loop {S : Sys E D X} {N Cv : World E D X → Prop} {W : ℕ → World E D X → Prop} (h : Safe S N W Cv) :
    ∀ n k w, 1 ≤ k → k + n ≤ S.maxIters + 1 → W k w →
      ∃ w' k' c, Driver.loop S n k w = (w', .ok (k', c)) ∧ W k' w' ∧ (c = true → Cv w')
  | 0, k, w, _, _, hw => ⟨w, k, false, rfl, hw, by simp⟩
  | n + 1, k, w, hk, hn, hw => by
    obtain ⟨v, c, hi, hv, hc⟩ := h.iter (n == 0) k w hk (by omega) hw
    simp only [Driver.loop, hi]
    cases c with
    | true => exact ⟨v, k + 1, true, rfl, hv, hc⟩
    | false => exact h.loop n (k + 1) v (by omega) (by omega) hv

/-- What holds of an optimizer all of whose calls succeed: the invariant, a counter from 1 to `maxIters + 1`, and
completion only at the end or by convergence. -/
def HoldsC (S : Sys E D X) (N : World E D X → Prop) (W : ℕ → World E D X → Prop) (Cv : World E D X → Prop) (o : Opt E D X) : Prop :=
  (o.started = false → N o.world ∧ o.completed = false) ∧
  (o.started = true → W o.iterNext o.world ∧ 1 ≤ o.iterNext ∧ o.iterNext ≤ S.maxIters + 1) ∧
  (o.completed = true → o.iterNext = S.maxIters + 1 ∨ Cv o.world)

theorem Safe.impl {S : Sys E D X} {N Cv : World E D X → Prop} {W : ℕ → World E D X → Prop} (h : Safe S N W Cv)
    (m : Option ℕ) (o : Opt E D X) (ho : HoldsC S N W Cv o) :
    ∃ o', optimizeImpl S m o = (o', .ok ()) ∧ HoldsC S N W Cv o' := by
  rw [optimizeImpl_eq]
  by_cases hc : o.completed = true
  · rw [if_pos hc]; exact ⟨o, rfl, ho⟩
  · rw [if_neg hc]
    have hcont : ∀ o1 : Opt E D X, o1.started = true → o1.completed = false → W o1.iterNext o1.world → 1 ≤ o1.iterNext →
        o1.iterNext ≤ S.maxIters + 1 → ∃ o', continueRun S m o1 = (o', .ok ()) ∧ HoldsC S N W Cv o' := by
      intro o1 hs hcm hw h1 h2
      rcases continueRun_cases S m o1 with ⟨hge, he⟩ | ⟨hle, n, hn, -, hr⟩
      · refine ⟨_, he, fun hf => by simp [finalize, hs] at hf, fun _ => ⟨h.fin _ _ hw, h1, h2⟩, fun _ => Or.inl ?_⟩
        simp only [finalize]; omega
      · obtain ⟨w', k', c, hl, hw', hcv⟩ := h.loop n o1.iterNext o1.world h1 (by omega) hw
        have hend := loop_end S _ _ _ _ _ _ hl
        rcases hr with ⟨w, e, hl', -⟩ | ⟨w, k, c2, hl', hr⟩
        · rw [hl] at hl'; simp at hl'
        · rw [hl] at hl'
          simp only [Prod.mk.injEq, Except.ok.injEq] at hl'
          obtain ⟨rfl, rfl, rfl⟩ := hl'
          rcases hr with ⟨hfin, he⟩ | ⟨⟨hcf, hk⟩, he⟩
          · refine ⟨_, he, fun hf => by simp [finalize, hs] at hf, fun _ => ⟨h.fin _ _ hw', ?_, ?_⟩, fun _ => ?_⟩
            · simp only [finalize]; omega
            · simp only [finalize]; omega
            · rcases hfin with hfin | hfin
              · exact Or.inr (h.finCv _ (hcv hfin))
              · left; simp only [finalize]; omega
          · refine ⟨_, he, fun hf => by simp [hs] at hf, fun _ => ⟨hw', ?_, ?_⟩, fun hf => by simp [hcm] at hf⟩
            · simp only; omega
            · simp only; omega
    by_cases hs : o.started = true
    · rw [ensureInit_started S hs]
      obtain ⟨h1, h2, h3⟩ := ho.2.1 hs
      exact hcont o hs (by simpa using hc) h1 h2 h3
    · have hs' : o.started = false := by simpa using hs
      obtain ⟨o1, he, hw, hk1, hk2⟩ := h.init o hs' (ho.1 hs').1
      have hok := ensureInit_ok he
      rw [he]
      exact hcont o1 hok.1 (by rw [hok.2.1]; simpa using hc) hw hk1 hk2

theorem Safe.calls {S : Sys E D X} {N Cv : World E D X → Prop} {W : ℕ → World E D X → Prop} (h : Safe S N W Cv) :
    ∀ (cs : List Call) (o : Opt E D X), HoldsC S N W Cv o → ∃ o', runCalls S cs o = (o', .ok ()) ∧ HoldsC S N W Cv o'
  | [], o, ho => ⟨o, rfl, ho⟩
  | c :: cs, o, ho => by
    have : ∃ o', c.run S o = (o', .ok ()) ∧ HoldsC S N W Cv o' := by
      cases c with
      | optimize => exact h.impl none o ho
      | steps n =>
        simp only [Call.run, optimizeSteps]
        split_ifs
        · exact ⟨o, rfl, ho⟩
        · exact h.impl _ o ho
    obtain ⟨o', he, ho'⟩ := this
    simp only [runCalls, he]
    exact h.calls cs o' ho'

end Verif.Driver
