import Verif.Model.Driver

/-! A system that carries an additional component which never changes runs like the system without it. -/
namespace Verif.Driver
open Verif.Snapshot

variable {E D X Y : Type} [DecidableEq E] [Zero D] [One D] [Max D] [Min D]

/-- `S'` does to `f x` what `S` does to `x`. -/
structure Embeds (f : X → Y) (S : Sys E D X) (S' : Sys E D Y) : Prop where
  maxIters : S'.maxIters = S.maxIters
  recordTimes : S'.recordTimes = S.recordTimes
  restart : S'.restart = S.restart
  restartFrom : S'.restartFrom = S.restartFrom
  valInit : S'.valInit = S.valInit
  rhoMin : S'.rhoMin = S.rhoMin
  rhoMax : S'.rhoMax = S.rhoMax
  design : S'.design = S.design
  pinned : S'.pinned = S.pinned
  fixed : S'.fixed = S.fixed
  step : ∀ k rho x, S'.step k rho (f x) = (f (S.step k rho x).1, (S.step k rho x).2)
  record : ∀ k rho rho' x, S'.record k rho rho' (f x) = (f (S.record k rho rho' x).1, (S.record k rho rho' x).2)
  exportHist : ∀ x, S'.exportHist (f x) = f (S.exportHist x)
  importHist : ∀ x, S'.importHist (f x) = f (S.importHist x)
  initSched : ∀ x, S'.initSched (f x) = (f (S.initSched x).1, (S.initSched x).2)

/-- The world with the additional component. -/
def World.lift (f : X → Y) (w : World E D X) : World E D Y := ⟨w.rho, f w.aux, w.files, w.trace⟩

/-- The optimizer with the additional component. -/
def Opt.lift (f : X → Y) (o : Opt E D X) : Opt E D Y := ⟨o.world.lift f, o.started, o.iterNext, o.completed, o.final⟩

variable {f : X → Y} {S : Sys E D X} {S' : Sys E D Y}

theorem Embeds.init (h : Embeds f S S') (files : List (Name × (E → D))) : initializeDensity S' files = initializeDensity S files := by
  unfold initializeDensity
  rw [h.restart, h.restartFrom, h.valInit, h.rhoMin, h.rhoMax, h.design, h.pinned, h.fixed]

theorem Embeds.ensureInit (h : Embeds f S S') (o : Opt E D X) :
    Driver.ensureInit S' (o.lift f) = ((Driver.ensureInit S o).1.lift f, (Driver.ensureInit S o).2) := by
  unfold Driver.ensureInit
  by_cases hs : o.started = true
  · rw [if_pos (show (o.lift f).started = true from hs), if_pos hs]
  · rw [if_neg (show ¬ (o.lift f).started = true from hs), if_neg hs]
    rw [show (o.lift f).world.aux = f o.world.aux from rfl, h.initSched, show (o.lift f).world.files = o.world.files from rfl, h.init, h.restart]
    rcases S.initSched o.world.aux with ⟨x, e | u⟩
    · rfl
    · simp only
      rcases initializeDensity S o.world.files with e | ⟨rho, k⟩
      · rfl
      · simp only [h.importHist]
        cases S.restart <;> rfl

theorem Embeds.iterate (h : Embeds f S S') (b : Bool) (k : ℕ) (w : World E D X) :
    Driver.iterate S' b k (w.lift f) = ((Driver.iterate S b k w).1.lift f, (Driver.iterate S b k w).2) := by
  unfold Driver.iterate
  rw [h.pinned, h.design, h.maxIters, h.recordTimes]
  simp only [World.lift]
  rw [h.step]
  rcases S.step k w.rho w.aux with ⟨x, e | new⟩
  · rfl
  · simp only
    rw [h.record]
    rcases S.record k w.rho (pin S.pinned (setDesign S.design new w.rho)) x with ⟨y, e | conv⟩
    · rfl
    · simp only
      split_ifs <;> rfl

theorem Embeds.loop (h : Embeds f S S') : ∀ (n k : ℕ) (w : World E D X),
    Driver.loop S' n k (w.lift f) = ((Driver.loop S n k w).1.lift f, (Driver.loop S n k w).2)
  | 0, _, _ => rfl
  | n + 1, k, w => by
    unfold Driver.loop
    rw [h.iterate]
    rcases Driver.iterate S (n == 0) k w with ⟨v, e | c⟩
    · rfl
    · cases c with
      | true => rfl
      | false => exact h.loop n (k + 1) v

theorem Embeds.finalize (h : Embeds f S S') (o : Opt E D X) : Driver.finalize S' (o.lift f) = (Driver.finalize S o).lift f := by
  unfold Driver.finalize
  simp only [Opt.lift, World.lift, h.exportHist]

theorem Embeds.impl (h : Embeds f S S') (m : Option ℕ) (o : Opt E D X) :
    optimizeImpl S' m (o.lift f) = ((optimizeImpl S m o).1.lift f, (optimizeImpl S m o).2) := by
  unfold optimizeImpl
  by_cases hc : o.completed = true
  · rw [if_pos (show (o.lift f).completed = true from hc), if_pos hc]
  · rw [if_neg (show ¬ (o.lift f).completed = true from hc), if_neg hc, h.ensureInit, h.maxIters]
    rcases Driver.ensureInit S o with ⟨o1, e | u⟩
    · rfl
    · simp only
      rw [show (o1.lift f).iterNext = o1.iterNext from rfl, show (o1.lift f).world = o1.world.lift f from rfl]
      by_cases hi : S.maxIters + 1 ≤ o1.iterNext
      · rw [if_pos hi, if_pos hi, h.finalize]
      · rw [if_neg hi, if_neg hi, h.loop]
        rcases Driver.loop S _ o1.iterNext o1.world with ⟨w, e | ⟨k, conv⟩⟩
        · rfl
        · simp only
          by_cases hf : conv = true ∨ S.maxIters + 1 ≤ k
          · rw [if_pos hf, if_pos hf]
            exact Prod.ext (h.finalize { o1 with world := w, iterNext := k }) rfl
          · rw [if_neg hf, if_neg hf]; rfl

theorem Embeds.call (h : Embeds f S S') (c : Call) (o : Opt E D X) : c.run S' (o.lift f) = ((c.run S o).1.lift f, (c.run S o).2) := by
  cases c with
  | optimize => exact h.impl none o
  | steps n =>
    unfold Call.run optimizeSteps
    simp only
    split_ifs
    · rfl
    · exact h.impl _ o

/-- Whatever the calls and whether they raise, the additional component rides along. -/
theorem Embeds.calls (h : Embeds f S S') : ∀ (cs : List Call) (o : Opt E D X),
    runCalls S' cs (o.lift f) = ((runCalls S cs o).1.lift f, (runCalls S cs o).2)
  | [], _ => rfl
  | c :: cs, o => by
    unfold runCalls
    rw [h.call]
    rcases c.run S o with ⟨q, e | u⟩
    · rfl
    · exact h.calls cs q

end Verif.Driver
