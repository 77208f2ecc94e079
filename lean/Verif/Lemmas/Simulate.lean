import Verif.Lemmas.DriverInv

/-! Two iteration drivers that stay in step. -/
namespace Verif.Driver
open Verif.Snapshot

variable {E D X : Type} [DecidableEq E] [Zero D] [One D] [Max D] [Min D]
variable {E' D' X' : Type} [DecidableEq E'] [Zero D'] [One D'] [Max D'] [Min D']

/-- Two systems whose calls succeed and keep the relation `W k` before iteration `k`. -/
structure Sim (S : Sys E D X) (S' : Sys E' D' X') (N : World E D X → World E' D' X' → Prop)
    (W : ℕ → World E D X → World E' D' X' → Prop) : Prop where
  max : S'.maxIters = S.maxIters
  init : ∀ o o', o.started = false → o'.started = false → N o.world o'.world → ∃ o1 o1', ensureInit S o = (o1, .ok ()) ∧
    ensureInit S' o' = (o1', .ok ()) ∧ o1'.iterNext = o1.iterNext ∧ W o1.iterNext o1.world o1'.world ∧ 1 ≤ o1.iterNext
  iter : ∀ b k w w', 1 ≤ k → k ≤ S.maxIters → W k w w' →
    ∃ v v' c, iterate S b k w = (v, .ok c) ∧ iterate S' b k w' = (v', .ok c) ∧ W (k + 1) v v'
  fin : ∀ k w w', W k w w' → W k { w with aux := S.exportHist w.aux } { w' with aux := S'.exportHist w'.aux }

/-- Two optimizers in step. -/
def InStep (N : World E D X → World E' D' X' → Prop) (W : ℕ → World E D X → World E' D' X' → Prop) (o : Opt E D X) (o' : Opt E' D' X') :
    Prop :=
  o'.started = o.started ∧ o'.completed = o.completed ∧
  (o.started = false → N o.world o'.world) ∧
  (o.started = true → o'.iterNext = o.iterNext ∧ W o.iterNext o.world o'.world ∧ 1 ≤ o.iterNext)

theorem Sim.loop {S : Sys E D X} {S' : Sys E' D' X'} {N : World E D X → World E' D' X' → Prop}
    {W : ℕ → World E D X → World E' D' X' → Prop} (h : Sim S S' N W) :
    ∀ n k w w', 1 ≤ k → k + n ≤ S.maxIters + 1 → W k w w' →
      ∃ v v' k' c, Driver.loop S n k w = (v, .ok (k', c)) ∧ Driver.loop S' n k w' = (v', .ok (k', c)) ∧ W k' v v' ∧ 1 ≤ k'
  | 0, k, w, w', hk, _, hw => ⟨w, w', k, false, rfl, rfl, hw, hk⟩
  | n + 1, k, w, w', hk, hn, hw => by
    obtain ⟨v, v', c, hi, hi', hv⟩ := h.iter (n == 0) k w w' hk (by omega) hw
    simp only [Driver.loop, hi, hi']
    cases c with
    | true => exact ⟨v, v', k + 1, true, rfl, rfl, hv, by omega⟩
    | false => exact h.loop n (k + 1) v v' (by omega) (by omega) hv

theorem Sim.impl {S : Sys E D X} {S' : Sys E' D' X'} {N : World E D X → World E' D' X' → Prop}
    {W : ℕ → World E D X → World E' D' X' → Prop} (h : Sim S S' N W) (m : Option ℕ) (o : Opt E D X) (o' : Opt E' D' X')
    (ho : InStep N W o o') :
    ∃ q q', optimizeImpl S m o = (q, .ok ()) ∧ optimizeImpl S' m o' = (q', .ok ()) ∧ InStep N W q q' := by
  obtain ⟨hs, hc, h1, h2⟩ := ho
  rw [optimizeImpl_eq, optimizeImpl_eq]
  by_cases hcm : o.completed = true
  · rw [if_pos hcm, if_pos (hc.trans hcm)]
    exact ⟨o, o', rfl, rfl, hs, hc, h1, h2⟩
  · rw [if_neg hcm, if_neg (by rw [hc]; exact hcm)]
    have hcont : ∀ (p : Opt E D X) (p' : Opt E' D' X'), p.started = true → p'.started = true → p.completed = false → p'.completed = false →
        p'.iterNext = p.iterNext → W p.iterNext p.world p'.world → 1 ≤ p.iterNext →
        ∃ q q', continueRun S m p = (q, .ok ()) ∧ continueRun S' m p' = (q', .ok ()) ∧ InStep N W q q' := by
      intro p p' hp hp' hpc hpc' hi hw hk
      obtain ⟨w', s', i', c', g'⟩ := p'
      simp only at hp' hpc' hi hw
      subst hi
      unfold continueRun
      rw [h.max]
      by_cases hd : S.maxIters + 1 ≤ p.iterNext
      · rw [if_pos hd, if_pos hd]
        refine ⟨_, _, rfl, rfl, ?_, rfl, ?_, ?_⟩
        · simp [finalize, hp, hp']
        · intro hf; simp [finalize, hp] at hf
        · intro _
          exact ⟨rfl, h.fin _ _ _ hw, hk⟩
      · rw [if_neg hd, if_neg hd]
        have main : ∀ n, p.iterNext + n ≤ S.maxIters + 1 → ∃ q q',
            (match Driver.loop S n p.iterNext p.world with
              | (w, .error e) => (({ p with world := w } : Opt E D X), (.error e : Res Unit))
              | (w, .ok (k, conv)) =>
                if conv = true ∨ S.maxIters + 1 ≤ k then (finalize S { p with world := w, iterNext := k }, .ok ())
                else ({ p with world := w, iterNext := k }, .ok ())) = (q, .ok ()) ∧
            (match Driver.loop S' n p.iterNext w' with
              | (w, .error e) => ((⟨w, s', p.iterNext, c', g'⟩ : Opt E' D' X'), (.error e : Res Unit))
              | (w, .ok (k, conv)) =>
                if conv = true ∨ S.maxIters + 1 ≤ k then (finalize S' (⟨w, s', k, c', g'⟩ : Opt E' D' X'), .ok ())
                else ((⟨w, s', k, c', g'⟩ : Opt E' D' X'), .ok ())) = (q', .ok ()) ∧ InStep N W q q' := by
          intro n hn'
          obtain ⟨v, v', k', c, hl, hl', hv, hk'⟩ := h.loop n p.iterNext p.world w' hk hn' hw
          rw [hl, hl']
          simp only
          by_cases hf : c = true ∨ S.maxIters + 1 ≤ k'
          · rw [if_pos hf, if_pos hf]
            refine ⟨_, _, rfl, rfl, ?_, rfl, ?_, ?_⟩
            · simp [finalize, hp, hp']
            · intro hf; simp [finalize, hp] at hf
            · intro _
              exact ⟨rfl, h.fin _ _ _ hv, hk'⟩
          · rw [if_neg hf, if_neg hf]
            refine ⟨_, _, rfl, rfl, ?_, ?_, ?_, ?_⟩
            · simp [hp, hp']
            · simp [hpc, hpc']
            · intro hf; simp [hp] at hf
            · intro _
              exact ⟨rfl, hv, hk'⟩
        cases m with
        | none => exact main (S.maxIters + 1 - p.iterNext) (by omega)
        | some j => exact main (min (p.iterNext + j) (S.maxIters + 1) - p.iterNext) (by omega)
    have hcf : o.completed = false := by simpa using hcm
    by_cases hst : o.started = true
    · rw [ensureInit_started S hst, ensureInit_started S' (hs.trans hst)]
      obtain ⟨g1, g2, g3⟩ := h2 hst
      exact hcont o o' hst (hs.trans hst) hcf (hc.trans hcf) g1 g2 g3
    · have hsf : o.started = false := by simpa using hst
      obtain ⟨p, p', e, e', g1, g2, g3⟩ := h.init o o' hsf (hs.trans hsf) (h1 hsf)
      rw [e, e']
      have k := ensureInit_ok e
      have k' := ensureInit_ok e'
      exact hcont p p' k.1 k'.1 (by rw [k.2.1]; exact hcf) (by rw [k'.2.1]; exact hc.trans hcf) g1 g2 g3

theorem Sim.calls {S : Sys E D X} {S' : Sys E' D' X'} {N : World E D X → World E' D' X' → Prop}
    {W : ℕ → World E D X → World E' D' X' → Prop} (h : Sim S S' N W) :
    ∀ (cs : List Call) (o : Opt E D X) (o' : Opt E' D' X'), InStep N W o o' →
      ∃ q q', runCalls S cs o = (q, .ok ()) ∧ runCalls S' cs o' = (q', .ok ()) ∧ InStep N W q q'
  | [], o, o', ho => ⟨o, o', rfl, rfl, ho⟩
  | c :: cs, o, o', ho => by
    have : ∃ q q', c.run S o = (q, .ok ()) ∧ c.run S' o' = (q', .ok ()) ∧ InStep N W q q' := by
      cases c with
      | optimize => exact h.impl none o o' ho
      | steps n =>
        simp only [Call.run, optimizeSteps]
        split_ifs
        · exact ⟨o, o', rfl, rfl, ho⟩
        · exact h.impl _ o o' ho
    obtain ⟨q, q', e, e', hq⟩ := this
    simp only [runCalls, e, e']
    exact h.calls cs q q' hq

end Verif.Driver
