import Verif.Lemmas.Run
import Verif.Props.LogMOC

/-!
C77: design densities stay in `[rho_min, rho_max]` over every history of calls, including restarts and calls that raise;
instances for the two optimizers.
-/
namespace Verif.Driver
open Verif.Snapshot

variable {E X : Type} [DecidableEq E]

/-- An element whose density the driver does not overwrite with 1. -/
def Unpinned (S : Sys E ℝ X) (e : E) : Prop := ∃ s, S.pinned = some s ∧ e ∉ s

/-- The contents of a density snapshot: design densities at least `rho_min`, and at most `rho_max` unless pinned to 1. -/
def SnapshotOk (S : Sys E ℝ X) (c : E → ℝ) : Prop :=
  ∀ e ∈ S.design, S.rhoMin ≤ c e ∧ (Unpinned S e → c e ≤ S.rhoMax)

/-- Pinning keeps a lower bound that is at most 1. -/
theorem pin_low {idx : Option (Finset E)} {rho : E → ℝ} {l : ℝ} {e : E} (h1 : l ≤ 1) (h : l ≤ rho e) : l ≤ pin idx rho e := by
  unfold pin
  cases idx with
  | none => exact h1
  | some s => simp only; split_ifs <;> assumption

theorem pin_unpinned {s : Finset E} {rho : E → ℝ} {e : E} (h : e ∉ s) : pin (some s) rho e = rho e := by
  unfold pin; simp [h]

/-- Densities of a started run. -/
def DensityOk (S : Sys E ℝ X) (rho : E → ℝ) : Prop :=
  ∀ e ∈ S.design, S.rhoMin ≤ rho e ∧ (Unpinned S e → e ∉ S.fixed → rho e ≤ S.rhoMax)

theorem initializeDensity_ok {S : Sys E ℝ X} (hbox : S.rhoMin ≤ S.rhoMax) (h1 : S.rhoMin ≤ 1)
    {files : List (Name × (E → ℝ))} (hf : ∀ n c, load files n = some c → SnapshotOk S c) {rho : E → ℝ} {k : ℕ}
    (h : initializeDensity S files = .ok (rho, k)) : DensityOk S rho := by
  have fin : ∀ r : E → ℝ, (∀ e ∈ S.design, S.rhoMin ≤ r e ∧ (Unpinned S e → r e ≤ S.rhoMax)) →
      DensityOk S (pin (some S.fixed) (pin S.pinned r)) := by
    intro r hr e he
    refine ⟨pin_low h1 (pin_low h1 (hr e he).1), fun hu hfx => ?_⟩
    obtain ⟨s, hs, hes⟩ := hu
    rw [pin_unpinned hfx, hs, pin_unpinned hes]
    exact (hr e he).2 ⟨s, hs, hes⟩
  have snap : ∀ n c, load files n = some c → DensityOk S (pin (some S.fixed) (pin S.pinned (designPart S.design c))) := by
    intro n c hc
    apply fin
    intro e he
    have := hf n c hc e he
    simpa [designPart, he] using this
  unfold initializeDensity at h
  simp only at h
  split_ifs at h
  · cases hl : load files (snapshotName S.restartFrom.toNat) with
    | none => rw [hl] at h; simp at h
    | some c =>
      rw [hl] at h
      simp only [Except.ok.injEq, Prod.mk.injEq] at h
      rw [← h.1]; exact snap _ c hl
  · rcases hfl : findLatest (files.map Prod.fst) with ⟨n, _ | name⟩
    · rw [hfl] at h; simp at h
    · rw [hfl] at h
      simp only at h
      cases hl : load files name with
      | none => rw [hl] at h; simp at h
      | some c =>
        rw [hl] at h
        simp only [Except.ok.injEq, Prod.mk.injEq] at h
        rw [← h.1]; exact snap _ c hl
  · simp only [Except.ok.injEq, Prod.mk.injEq] at h
    rw [← h.1]
    apply fin
    intro e _
    exact ⟨le_min hbox (le_max_left _ _), fun _ => min_le_left _ _⟩

/-- **C77.** Densities over the whole life of an optimizer. Let `rho_min ≤ rho_max`, `rho_min ≤ 1`, and let every update
that returns give values in `[rho_min, rho_max]` whenever the current ones are at least `rho_min`. Then after every history
of `optimize` and `optimize_steps` calls — raising or not, new run or restart from a directory whose snapshots are in the
box — every design element has a density of at least `rho_min`, and at most `rho_max` unless it is one of the elements
pinned to 1 or fixed; and every snapshot in the directory is in the box. (`A`, `B` are invariants of the remaining state
before and after initialization.) -/
theorem C77_box_over_all_histories (S : Sys E ℝ X) (hbox : S.rhoMin ≤ S.rhoMax) (h1 : S.rhoMin ≤ 1) (A B : X → Prop)
    (hinit : ∀ x, A x → (∀ x' e, S.initSched x = (x', .error e) → A x') ∧ ∀ x', S.initSched x = (x', .ok ()) → A x' ∧ B x')
    (himp : ∀ x, B x → B (S.importHist x)) (hexp : ∀ x, B x → B (S.exportHist x))
    (hstep : ∀ k rho x, B x → (∀ e ∈ S.design, S.rhoMin ≤ rho e) → B (S.step k rho x).1 ∧
      ∀ new, (S.step k rho x).2 = .ok new → ∀ e ∈ S.design, S.rhoMin ≤ new e ∧ new e ≤ S.rhoMax)
    (hrec : ∀ k rho rho' x, B x → B (S.record k rho rho' x).1)
    (rho0 : E → ℝ) (x : X) (hx : A x) (files : List (Name × (E → ℝ)))
    (hfiles : ∀ n c, load files n = some c → SnapshotOk S c) (cs : List Call) :
    let o := history S cs (fresh rho0 x files)
    (o.started = true → ∀ e ∈ S.design, S.rhoMin ≤ o.world.rho e ∧
      ((∃ s, S.pinned = some s ∧ e ∉ s) → e ∉ S.fixed → o.world.rho e ≤ S.rhoMax)) ∧
    ∀ n c, load o.world.files n = some c → SnapshotOk S c := by
  have main := history_inv (S := S)
    (N := fun w => A w.aux ∧ ∀ n c, load w.files n = some c → SnapshotOk S c)
    (W := fun w => B w.aux ∧ DensityOk S w.rho ∧ ∀ n c, load w.files n = some c → SnapshotOk S c) ?_ ?_ ?_ cs
    (fresh rho0 x files) ⟨fun _ => ⟨hx, hfiles⟩, fun h => by simp [fresh] at h⟩
  · simp only
    obtain ⟨m1, m2⟩ := main
    by_cases hs : (history S cs (fresh rho0 x files)).started = true
    · exact ⟨fun _ => (m2 hs).2.1, (m2 hs).2.2⟩
    · exact ⟨fun h => absurd h hs, (m1 (by simpa using hs)).2⟩
  · -- initialization
    rintro o hs ⟨hA, hF⟩
    obtain ⟨i1, i2⟩ := hinit _ hA
    unfold ensureInit
    simp only [hs, Bool.false_eq_true, if_false]
    rcases hi : S.initSched o.world.aux with ⟨y, e | u⟩
    · simp only
      refine ⟨?_, by simp⟩
      intro o1 e' h
      simp only [Prod.mk.injEq] at h
      rw [← h.1]; exact ⟨i1 y e hi, hF⟩
    · simp only
      rcases hd : initializeDensity S o.world.files with e | ⟨rho, k⟩
      · simp only
        refine ⟨?_, by simp⟩
        intro o1 e' h
        simp only [Prod.mk.injEq] at h
        rw [← h.1]; exact ⟨(i2 y hi).1, hF⟩
      · simp only
        refine ⟨by simp, ?_⟩
        intro o1 h
        simp only [Prod.mk.injEq, and_true] at h
        rw [← h]
        refine ⟨?_, initializeDensity_ok hbox h1 hF hd, hF⟩
        simp only
        split_ifs
        · exact himp _ (i2 y hi).2
        · exact (i2 y hi).2
  · -- one iteration
    rintro b k w ⟨hB, hD, hF⟩
    obtain ⟨s1, s2⟩ := hstep k w.rho w.aux hB fun e he => (hD e he).1
    have hnew : ∀ new, (S.step k w.rho w.aux).2 = .ok new → ∀ e ∈ S.design, S.rhoMin ≤ newRho S new w.rho e ∧
        (Unpinned S e → newRho S new w.rho e ≤ S.rhoMax) := by
      intro new hn e he
      have hv := s2 new hn e he
      have hsd : setDesign S.design new w.rho e = new e := by simp [setDesign, he]
      refine ⟨pin_low h1 (by rw [hsd]; exact hv.1), ?_⟩
      rintro ⟨s, hs, hes⟩
      unfold newRho
      rw [hs, pin_unpinned hes, hsd]; exact hv.2
    rcases iterate_cases S b k w with ⟨x, e, hs, h⟩ | ⟨x, new, hs, ⟨y, e, hr, h⟩ | ⟨y, c, hr, ⟨-, h⟩ | ⟨-, h⟩⟩⟩ <;> rw [h] <;>
      simp only [hs] at s1 s2 hnew
    · exact ⟨s1, hD, hF⟩
    · have hn := hnew new rfl
      have := hrec k w.rho (newRho S new w.rho) x s1
      rw [hr] at this
      exact ⟨this, fun e he => ⟨(hn e he).1, fun hu _ => (hn e he).2 hu⟩, hF⟩
    · have hn := hnew new rfl
      have := hrec k w.rho (newRho S new w.rho) x s1
      rw [hr] at this
      exact ⟨this, fun e he => ⟨(hn e he).1, fun hu _ => (hn e he).2 hu⟩, hF⟩
    · have hn := hnew new rfl
      have := hrec k w.rho (newRho S new w.rho) x s1
      rw [hr] at this
      refine ⟨this, fun e he => ⟨(hn e he).1, fun hu _ => (hn e he).2 hu⟩, ?_⟩
      simp only
      intro n c' hc
      by_cases hnm : n = snapshotName k
      · subst hnm
        split_ifs at hc
        · rw [load_save_self] at hc
          simp only [Option.some.injEq] at hc
          subst hc
          intro e he
          simpa [designPart, he] using hn e he
        · exact hF _ _ hc
      · split_ifs at hc
        · rw [load_save_ne _ _ hnm] at hc; exact hF _ _ hc
        · exact hF _ _ hc
  · rintro w ⟨hB, hD, hF⟩
    exact ⟨hexp _ hB, hD, hF⟩

/-- **C77 (LogMOC).** In every run whose updates are LogMOC updates with the driver's bounds — whatever filter, solver,
schedules, convergence test and however calls raise — the densities stay in the box. -/
theorem C77_logmoc_box [Fintype E] (S : Sys E ℝ X) (hbox : S.rhoMin ≤ S.rhoMax) (h1 : S.rhoMin ≤ 1)
    (hstep : ∀ k rho x new, (S.step k rho x).2 = .ok new → ∃ c a s rf rp dC out,
      LogMOC.rhoUpdate (E := E) c a s rho rf rp dC = .ok out ∧ c.rhoMin = S.rhoMin ∧ c.rhoMax = S.rhoMax ∧ new = out.rho)
    (rho0 : E → ℝ) (x : X) (files : List (Name × (E → ℝ)))
    (hfiles : ∀ n c, load files n = some c → SnapshotOk S c) (cs : List Call) :
    let o := history S cs (fresh rho0 x files)
    (o.started = true → ∀ e ∈ S.design, S.rhoMin ≤ o.world.rho e ∧
      ((∃ s, S.pinned = some s ∧ e ∉ s) → e ∉ S.fixed → o.world.rho e ≤ S.rhoMax)) ∧
    ∀ n c, load o.world.files n = some c → SnapshotOk S c := by
  refine C77_box_over_all_histories S hbox h1 (fun _ => True) (fun _ => True) (fun _ _ => ⟨fun _ _ _ => trivial, fun _ _ => ⟨trivial, trivial⟩⟩)
    (fun _ _ => trivial) (fun _ _ => trivial) ?_ (fun _ _ _ _ _ => trivial) rho0 x trivial files hfiles cs
  intro k rho y _ _
  refine ⟨trivial, fun new hn e _ => ?_⟩
  obtain ⟨c, a, s, rf, rp, dC, out, hu, hmin, hmax, rfl⟩ := hstep k rho y new hn
  have := Props.C19_logmoc_box c a s rho rf rp dC out hu (by rw [hmin, hmax]; exact hbox) e
  rwa [hmin, hmax] at this

end Verif.Driver

namespace Verif.Run
open Verif Verif.Sched Verif.Spec Verif.Driver

variable {ι E Q : Type} [Fintype ι] [Fintype E] [Fintype Q] {d m : ℕ}

noncomputable section
open Classical

/-- The registered `move_limit` schedulers evaluate to non-negative numbers. -/
def MoveOk (ss : Schedulers) : Prop :=
  ∀ s ∈ ss, s.name = some "move_limit" → ∃ i t, SchedOk s i t ∧ 0 ≤ i ∧ 0 ≤ t

theorem MoveOk.addAll {R : Common E d} (h : GoodSchedule R.cMoveLimit (Set.Ici 0)) :
    ∀ (l : List (String × Config)) (ss : Schedulers), (∀ p ∈ l, p.1 = "move_limit" → p.2 = R.cMoveLimit) → MoveOk ss →
      MoveOk (Run.addAll l ss).1
  | [], ss, _, hs => hs
  | (n, c) :: rest, ss, hl, hs => by
    simp only [Run.addAll, Schedulers.addFromConfig]
    rcases hf : Sched.fromConfig { c with name := some n } with e | ⟨s, c'⟩
    · simpa [bind, Except.bind] using hs
    · simp only [bind, Except.bind, pure, Except.pure]
      refine MoveOk.addAll h rest _ (fun p hp => hl p (by simp [hp])) ?_
      intro t ht hn
      simp only [Schedulers.addObject, List.mem_append, List.mem_singleton] at ht
      rcases ht with ht | rfl
      · exact hs t ht hn
      · by_cases hnm : n = "move_limit"
        · have hc := hl (n, c) (by simp) hnm
          simp only at hc
          subst hc
          obtain ⟨s', c'', hf', -, i, t', hok, hi, ht', -⟩ := GoodSchedule.fromConfig h (some n)
          rw [hf] at hf'
          simp only [Except.ok.injEq, Prod.mk.injEq] at hf'
          rw [hf'.1]
          exact ⟨i, t', hok, hi, ht'⟩
        · exfalso
          have : t.name = some n := by
            revert hf
            generalize c = c0
            obtain ⟨nm0, ini, tgt, ns, im, cu, ty⟩ := c0
            revert ty
            apply type_cases
            case h =>
              intro ty hty hf
              rw [fromConfig_unknown (c := ⟨some n, ini, tgt, ns, im, cu, ty⟩) hty] at hf
              exact absurd hf (by simp)
            all_goals
              intro hf
              simp only [Sched.fromConfig] at hf
              simp at hf
              obtain ⟨rfl, -⟩ := hf
              simp [mkScheduler, toOneMutate]
          rw [this] at hn
          exact hnm (Option.some.inj hn)

theorem MoveOk.addEta {R : Common E d} (h : GoodSchedule R.cMoveLimit (Set.Ici 0)) (ss : Schedulers) (hs : MoveOk ss) :
    MoveOk (Run.addEta R ss).1 := by
  unfold Run.addEta
  cases R.etaConst with
  | none => exact MoveOk.addAll h _ ss (by simp) hs
  | some x =>
    intro s hs' hn
    simp only [Schedulers.addObject, List.mem_append, List.mem_singleton] at hs'
    rcases hs' with hs' | rfl
    · exact hs s hs' hn
    · exact absurd hn (by simp)

theorem SchedOk.value_any {s : Scheduler} {i t : ℝ} (h : SchedOk s i t) {m it : ℤ} (hit : 0 ≤ it) :
    ∃ v, ({ s with itersMax := some m } : Scheduler).value it = .ok (some v) ∧ Between i t v := by
  by_cases hm : 0 < m
  · exact h.value hm hit
  · refine ⟨t, ?_, between_right _ _⟩
    unfold Scheduler.value
    simp only [h.target]
    cases s.numSteps with
    | none => rfl
    | some n => simp only; split_ifs <;> first | rfl | omega

theorem mapM_forall₂ {α β : Type} (g : α → Res β) : ∀ (l : List α) (r : List β), l.mapM g = .ok r →
    List.Forall₂ (fun a b => g a = .ok b) l r
  | [], r, h => by simp [pure, Except.pure] at h; subst h; exact .nil
  | a :: l, r, h => by
    rw [List.mapM_cons] at h
    rcases ha : g a with e | b
    · rw [ha] at h; simp [bind, Except.bind] at h
    · rcases hl : l.mapM g with e | bs
      · rw [ha, hl] at h; simp [bind, Except.bind] at h
      · rw [ha, hl] at h
        simp only [bind, Except.bind, pure, Except.pure, Except.ok.injEq] at h
        subst h
        exact .cons ha (mapM_forall₂ g l bs hl)

/-- A run whose schedulers are complete reads a non-negative move limit. -/
def MoveReady (x : State E d) : Prop := ∀ (k : ℕ) v, readVals x k = .ok v → 0 ≤ v.moveLimit

theorem moveReady_of {ss : Schedulers} (hs : MoveOk ss) (M : ℤ) (x : State E d) (hx : x.scheds = Schedulers.setItersMax ss M) :
    MoveReady x := by
  intro k v hv
  unfold readVals at hv
  rw [hx] at hv
  by_cases hok : Props.AllOk (Schedulers.setItersMax ss M) k
  · rw [Props.C11_values_last_write_wins _ _ _ hok] at hv
    split at hv
    · simp at hv
    · rename_i l hl
      have hf := mapM_forall₂ _ _ _ hl
      unfold unpack at hv
      split at hv
      · rename_i ns p vf b ml eta pc r
        simp only [Except.ok.injEq] at hv
        subst hv
        simp only [List.forall₂_cons] at hf
        have h5 := hf.2.2.2.2.1
        split at h5
        · rename_i s hlr
          have hmem : s ∈ Schedulers.setItersMax ss M := by
            have := List.mem_of_find?_eq_some hlr
            simpa using this
          have hnm : s.name = some "move_limit" := by
            have := List.find?_some hlr
            simpa using this
          obtain ⟨s0, hs0, rfl⟩ := List.mem_map.mp hmem
          obtain ⟨i, t, hso, hi, ht⟩ := hs s0 hs0 hnm
          obtain ⟨w, hw, hb⟩ := hso.value_any (m := M) (it := (k : ℤ)) (by positivity)
          rw [hw] at h5
          simp only [Except.ok.injEq, Option.some.injEq] at h5
          rw [← h5]
          exact le_trans (le_min hi ht) hb.1
        · simp at h5
      · simp at hv
  · obtain ⟨e, he⟩ := Props.C11_errors_propagate _ (k : ℤ) ["neumann_scale", "p", "vol_frac", "beta", "move_limit", "eta", "percentile",
      "filter_radius"] hok
    rw [he] at hv
    simp at hv

/-- The densities of an OC run stay in the box, whatever the physics. -/
theorem oc_box {n : ℕ} (R : Common E d) (response : Vals → (E → ℝ) → Res (ℝ × (Fin n → E → ℝ))) (hbox : R.rhoMin ≤ R.rhoMax) (h1 : R.rhoMin ≤ 1)
    (hmove : GoodSchedule R.cMoveLimit (Set.Ici 0)) (files : List (Snapshot.Name × (E → ℝ)))
    (hfiles : ∀ n c, Snapshot.load files n = some c → SnapshotOk (sysWith R (stepWith R response)) c) (cs : List Call) :
    let o := history (sysWith R (stepWith R response)) cs (newRun R files)
    (o.started = true → ∀ e ∈ R.design, R.rhoMin ≤ o.world.rho e ∧
      ((∃ s, R.pinned = some s ∧ e ∉ s) → e ∉ R.fixed → o.world.rho e ≤ R.rhoMax)) ∧
    ∀ n c, Snapshot.load o.world.files n = some c → SnapshotOk (sysWith R (stepWith R response)) c := by
  refine C77_box_over_all_histories (sysWith R (stepWith R response)) hbox h1 (fun x => MoveOk x.scheds ∧ (x.schedsDone = true → MoveReady x))
    MoveReady ?_ (fun x h => ?_) (fun _ h => h) ?_ ?_ (fun _ => 0) (start R) ⟨by intro s hs; simp [start] at hs, by simp [start]⟩
    files hfiles cs
  · rintro x ⟨hx, hxd⟩
    have goal : ∀ x' r, initSched R x = (x', r) → (MoveOk x'.scheds ∧ (x'.schedsDone = true → MoveReady x')) ∧
        (r = .ok () → MoveReady x') := by
      intro x' r h
      unfold initSched at h
      by_cases hd : x.schedsDone = true
      · rw [if_pos hd] at h
        simp only [Prod.mk.injEq] at h
        obtain ⟨rfl, rfl⟩ := h
        exact ⟨⟨hx, hxd⟩, fun _ => hxd hd⟩
      · rw [if_neg hd] at h
        have k1 := MoveOk.addAll (R := R) hmove [("p", R.cP), ("vol_frac", R.cVolFrac), ("move_limit", R.cMoveLimit),
          ("beta", R.cBeta), ("percentile", R.cPercentile), ("filter_radius", R.cRadius)] x.scheds (by simp) hx
        revert h k1
        rcases addAll [("p", R.cP), ("vol_frac", R.cVolFrac), ("move_limit", R.cMoveLimit),
          ("beta", R.cBeta), ("percentile", R.cPercentile), ("filter_radius", R.cRadius)] x.scheds with ⟨ss, e | u⟩
        · intro h k1
          simp only [Prod.mk.injEq] at h
          obtain ⟨rfl, rfl⟩ := h
          exact ⟨⟨k1, fun h => absurd h hd⟩, by simp⟩
        · intro h k1
          simp only at h k1
          by_cases hty : R.cNeumannScale.schedType ∉ allowedForceTypes
          · rw [if_pos hty] at h
            simp only [Prod.mk.injEq] at h
            obtain ⟨rfl, rfl⟩ := h
            exact ⟨⟨k1, fun h => absurd h hd⟩, by simp⟩
          · rw [if_neg hty] at h
            have k2 := MoveOk.addAll (R := R) hmove [("neumann_scale", R.cNeumannScale)] ss (by simp) k1
            revert h k2
            rcases addAll [("neumann_scale", R.cNeumannScale)] ss with ⟨ss1, e | u⟩
            · intro h k2
              simp only [Prod.mk.injEq] at h
              obtain ⟨rfl, rfl⟩ := h
              exact ⟨⟨k2, fun h => absurd h hd⟩, by simp⟩
            intro h k2
            have k2 := MoveOk.addEta (R := R) hmove ss1 k2
            simp only at h
            revert h k2
            rcases addEta R ss1 with ⟨ss', e | u⟩
            · intro h k2
              simp only [Prod.mk.injEq] at h
              obtain ⟨rfl, rfl⟩ := h
              exact ⟨⟨k2, fun h => absurd h hd⟩, by simp⟩
            · intro h k2
              simp only [Prod.mk.injEq] at h
              obtain ⟨rfl, rfl⟩ := h
              have hr := moveReady_of k2 R.maxIters
                ({ x with scheds := ss'.setItersMax R.maxIters, schedsDone := true, filter := match firstRadius R with
                      | some r => x.filter.updateRadius r
                      | none => x.filter } : State E d) rfl
              refine ⟨⟨?_, fun _ => hr⟩, fun _ => hr⟩
              intro s hs hn
              obtain ⟨s0, hs0, rfl⟩ := List.mem_map.mp hs
              obtain ⟨i, t, hok, hi, ht⟩ := k2 s0 hs0 hn
              exact ⟨i, t, ⟨hok.init, hok.target, hok.notNone, hok.curv, hok.saw⟩, hi, ht⟩
    exact ⟨fun x' e h => (goal x' _ h).1, fun x' h => ⟨(goal x' _ h).1, (goal x' _ h).2 rfl⟩⟩
  · have hx : ∀ k, readVals ((sysWith R (stepWith R response)).importHist x) k = readVals x k := by
      intro k
      show readVals (match R.saved with | some l => { x with log := l } | none => x) k = _
      cases R.saved <;> rfl
    intro k v hv
    rw [hx] at hv
    exact h k v hv
  · intro k rho x hB hlow
    have hs : (sysWith R (stepWith R response)).step k rho x = stepWith R response k rho x := rfl
    rw [hs]
    unfold stepWith
    rcases hv : readVals x k with e | v
    · exact ⟨hB, by simp⟩
    · simp only
      have hml := hB k v hv
      have hsch : (computeWith R (response v) k v rho x).1.scheds = x.scheds := by
        have ha : ∀ y r, analyseWith R (response v) v rho x = (y, r) → y.scheds = x.scheds := by
          intro y r hy
          unfold analyseWith at hy
          simp only at hy
          repeat' split at hy
          all_goals (simp only [Prod.mk.injEq] at hy; rw [← hy.1])
        unfold computeWith
        rcases hy : analyseWith R (response v) v rho x with ⟨y, e | A⟩
        · exact ha _ _ hy
        · simp only
          unfold ocUpdate
          split_ifs
          · exact ha _ _ hy
          · have := ha _ _ hy
            split <;> exact this
      refine ⟨?_, ?_⟩
      · intro k' v' hv'
        unfold readVals at hv'
        rw [hsch] at hv'
        exact hB k' v' hv'
      · intro new hn e he
        unfold computeWith ocUpdate at hn
        repeat' split at hn
        all_goals (first | (injection hn; done) | skip)
        rename_i out hout
        unfold noNan at hn
        split_ifs at hn with hsome
        simp only [Except.ok.injEq] at hn
        subst hn
        have hse := hsome e he
        obtain ⟨r, hr⟩ := Option.isSome_iff_exists.mp hse
        simp only [hr, Option.getD_some]
        unfold OC.rhoUpdate at hout
        simp only [bind, Except.bind, pure, Except.pure] at hout
        split at hout
        · simp at hout
        · simp only [Except.ok.injEq] at hout
          rw [← hout] at hr
          simp only [OC.bisection, (OC.bisect_out _ _ _ _ _).2.2] at hr
          exact candidate_box_low hr hml (hlow e he) hbox
  · intro k rho rho' x hB
    have hs : (sysWith R (stepWith R response)).record k rho rho' x = record R k rho rho' x := rfl
    rw [hs]
    have hsch : (record R k rho rho' x).1.scheds = x.scheds := by
      unfold record
      repeat' split
      all_goals rfl
    intro k' v' hv'
    unfold readVals at hv'
    rw [hsch] at hv'
    exact hB k' v' hv'

/-- **C77 (OC).** In every OC run on an elasticity task, with either filter, whose `move_limit` schedule is admissible —
however badly posed otherwise, whatever the solver returns or raises — every design density is always at least `rho_min`
and, unless pinned or fixed, at most `rho_max`, after every history of calls. -/
theorem C77_oc_box (R : Setup ι E Q d m) (hbox : R.rhoMin ≤ R.rhoMax) (h1 : R.rhoMin ≤ 1)
    (hmove : GoodSchedule R.cMoveLimit (Set.Ici 0)) (files : List (Snapshot.Name × (E → ℝ)))
    (hfiles : ∀ n c, Snapshot.load files n = some c → SnapshotOk (sys R) c) (cs : List Call) :
    let o := history (sys R) cs (newRun R.toCommon files)
    (o.started = true → ∀ e ∈ R.design, R.rhoMin ≤ o.world.rho e ∧
      ((∃ s, R.pinned = some s ∧ e ∉ s) → e ∉ R.fixed → o.world.rho e ≤ R.rhoMax)) ∧
    ∀ n c, Snapshot.load o.world.files n = some c → SnapshotOk (sys R) c :=
  oc_box R.toCommon (response R) hbox h1 hmove files hfiles cs

end
end Verif.Run
