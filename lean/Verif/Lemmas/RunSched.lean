import Verif.Model.Run
import Verif.Lemmas.SchedulerConfig
import Verif.Spec.Run
import Verif.Props.SchedulerConfig

/-! Lemmas for `Verif.Model.Run`: the scheduled values of a well-configured run exist and stay in range. -/
namespace Verif.Run
open Verif Verif.Sched Verif.Spec

/-- What `from_config` must deliver for a scheduler to evaluate at every iteration. -/
structure SchedOk (s : Scheduler) (i t : ℝ) : Prop where
  init : s.initValue = some i
  target : s.targetValue = some t
  notNone : s.func ≠ .noneFunc
  curv : s.func = .accelerating ∨ s.func = .decelerating → ∃ c, s.curvature = some c ∧ 0 < c
  saw : s.func = .sawtooth → s.numSteps ≠ some 0

theorem SchedOk.value {s : Scheduler} {i t : ℝ} (h : SchedOk s i t) {m it : ℤ} (hm : 0 < m) (hit : 0 ≤ it) :
    ∃ v, ({ s with itersMax := some m } : Scheduler).value it = .ok (some v) ∧ Between i t v := by
  obtain ⟨nm, ini, tgt, ns, im, cu, f⟩ := s
  obtain ⟨h1, h2, h3, h4, h5⟩ := h
  simp only at h1 h2 h3 h4 h5
  subst h1 h2
  unfold Scheduler.value
  simp only
  cases ns with
  | none => exact ⟨t, rfl, between_right _ _⟩
  | some n =>
    simp only
    split_ifs with ha hb
    · exact ⟨t, rfl, between_right _ _⟩
    · exact ⟨t, rfl, between_right _ _⟩
    · have stepped : ∀ f : Func, Stepped f → (f = .step ∨ ∃ c, cu = some c ∧ 0 < c) →
          ∃ v, (f.call it m (some i) t n cu).map some = .ok (some v) ∧ Between i t v := by
        intro f hf hcu
        by_cases hn : n ≤ 1
        · exact ⟨t, by rw [call_small hf hm hn]; rfl, between_right _ _⟩
        · have hn2 : 2 ≤ n := by omega
          have : ∃ c, 0 < c ∧ f.call it m (some i) t n cu = f.call it m (some i) t n (some c) := by
            rcases hcu with rfl | ⟨c, rfl, hc⟩
            · exact ⟨1, one_pos, call_step_curv ..⟩
            · exact ⟨c, hc, rfl⟩
          obtain ⟨c, hc, e⟩ := this
          rw [e, call_stepped hf hc hit hm hn2]
          exact ⟨_, rfl, between_blend (weight_nonneg hf hc hit hm hn2) (weight_le_one hf hc hit hm hn2)⟩
      cases f with
      | constant => exact ⟨t, rfl, between_right _ _⟩
      | step => exact stepped _ (Or.inl rfl) (Or.inl rfl)
      | accelerating => exact stepped _ (Or.inr (Or.inl rfl)) (Or.inr (h4 (Or.inl rfl)))
      | decelerating => exact stepped _ (Or.inr (Or.inr rfl)) (Or.inr (h4 (Or.inr rfl)))
      | noneFunc => exact absurd rfl h3
      | sawtooth =>
        have hn : 0 < n := by
          rcases lt_trichotomy n 0 with h | h | h
          · exact absurd h ha
          · subst h; exact absurd rfl (h5 rfl)
          · exact h
        simp only [Func.call]
        rw [sawtooth_closed hm hn]
        refine ⟨_, rfl, ?_⟩
        have hm' : (0 : ℝ) < m := by exact_mod_cast hm
        have h0 : (0 : ℝ) ≤ (((it - 1) * n % m : ℤ) : ℝ) / m :=
          div_nonneg (by exact_mod_cast Int.emod_nonneg _ hm.ne') hm'.le
        have h1 : (((it - 1) * n % m : ℤ) : ℝ) / m ≤ 1 := by
          rw [div_le_one hm']; exact_mod_cast (Int.emod_lt_of_pos _ hm).le
        have := between_blend (i := i) (t := t) h0 h1
        have e : i + (((it - 1) * n % m : ℤ) : ℝ) / m * (t - i) =
            (1 - (((it - 1) * n % m : ℤ) : ℝ) / m) * i + (((it - 1) * n % m : ℤ) : ℝ) / m * t := by ring
        rw [e]; exact this

/-- A good schedule is accepted by `from_config` under any name; start and end values are in the range. -/
theorem GoodSchedule.fromConfig {c : Config} {S : Set ℝ} (h : GoodSchedule c S) (nm : Option String) :
    ∃ s c', Sched.fromConfig { c with name := nm } = .ok (s, c') ∧ s.name = nm ∧
      ∃ i t, SchedOk s i t ∧ i ∈ S ∧ t ∈ S ∧ c'.initValue = some i ∧ c'.targetValue = some t := by
  obtain ⟨⟨c0, hc0⟩, hnn, hcu, hsaw, hrange⟩ := h
  obtain ⟨nm0, ini, tgt, ns, im, cu, ty⟩ := c0
  revert ty
  apply type_cases
  case h =>
    intro ty hty h
    rw [fromDefaults_unknown (c := ⟨nm0, ini, tgt, ns, im, cu, ty⟩) hty] at h
    exact absurd h (by simp)
  case h1 =>
    intro h
    cases tgt with
    | none => simp [fromDefaults] at h
    | some t =>
      simp [fromDefaults] at h
      subst h
      have ht := hrange t (Or.inr rfl)
      exact ⟨_, _, rfl, rfl, t, t,
        ⟨rfl, rfl, by simp [mkScheduler], by simp [mkScheduler], by simp [mkScheduler]⟩, ht, ht, rfl, rfl⟩
  case h2 =>
    intro h; simp [fromDefaults] at h; subst h
    have ht := hrange 1 (Or.inr rfl)
    exact ⟨_, _, rfl, rfl, 1, 1,
        ⟨rfl, rfl, by simp [mkScheduler], by simp [mkScheduler], by simp [mkScheduler]⟩, ht, ht, rfl, rfl⟩
  case h3 =>
    intro h
    cases ini <;> cases tgt <;> cases ns <;> simp [fromDefaults] at h
    subst h
    exact ⟨_, _, rfl, rfl, _, _,
        ⟨rfl, rfl, by simp [mkScheduler], by simp [mkScheduler], by simp [mkScheduler]⟩,
        hrange _ (Or.inl rfl), hrange _ (Or.inr rfl), rfl, rfl⟩
  case h9 =>
    intro h
    cases ini <;> cases tgt <;> cases ns <;> simp [fromDefaults] at h
    subst h
    exact ⟨_, _, rfl, rfl, _, _,
        ⟨rfl, rfl, by simp [mkScheduler], by simp [mkScheduler], fun _ => hsaw rfl⟩,
        hrange _ (Or.inl rfl), hrange _ (Or.inr rfl), rfl, rfl⟩
  case h10 => intro h; simp [fromDefaults] at h; subst h; exact absurd rfl hnn
  case h4 =>
    intro h
    simp only [fromDefaults] at h
    simp at h
    obtain ⟨n, hn, h0, rfl⟩ := toOne_result h
    simp at hn; subst hn
    have hn0 : n ≠ 0 := by omega
    refine ⟨_, _, rfl, rfl, 1 / (n : ℝ), 1,
        ⟨by simp [mkScheduler, toOneMutate, hn0], rfl, by simp [mkScheduler], by simp [mkScheduler], by simp [mkScheduler]⟩,
        hrange _ (Or.inl rfl), hrange _ (Or.inr rfl), by simp [toOneMutate, hn0], rfl⟩
  case h5 =>
    intro h
    simp only [fromDefaults] at h
    simp at h
    have hc : cu ≠ none := by
      rintro rfl
      revert h; unfold toOneBranch; cases ns <;> simp
    obtain ⟨n, hn, h0, rfl⟩ := toOne_result h
    simp at hn; subst hn
    have hn0 : n ≠ 0 := by omega
    obtain ⟨k, rfl⟩ := Option.ne_none_iff_exists'.1 hc
    refine ⟨_, _, rfl, rfl, 1 / (n : ℝ), 1,
        ⟨by simp [mkScheduler, toOneMutate, hn0], rfl, by simp [mkScheduler], fun _ => ⟨k, rfl, hcu k rfl⟩, by simp [mkScheduler]⟩,
        hrange _ (Or.inl rfl), hrange _ (Or.inr rfl), by simp [toOneMutate, hn0], rfl⟩
  case h6 =>
    intro h
    simp only [fromDefaults] at h
    simp at h
    have hc : cu ≠ none := by
      rintro rfl
      revert h; unfold toOneBranch; cases ns <;> simp
    obtain ⟨n, hn, h0, rfl⟩ := toOne_result h
    simp at hn; subst hn
    have hn0 : n ≠ 0 := by omega
    obtain ⟨k, rfl⟩ := Option.ne_none_iff_exists'.1 hc
    refine ⟨_, _, rfl, rfl, 1 / (n : ℝ), 1,
        ⟨by simp [mkScheduler, toOneMutate, hn0], rfl, by simp [mkScheduler], fun _ => ⟨k, rfl, hcu k rfl⟩, by simp [mkScheduler]⟩,
        hrange _ (Or.inl rfl), hrange _ (Or.inr rfl), by simp [toOneMutate, hn0], rfl⟩
  case h7 =>
    intro h
    cases ini <;> cases tgt <;> cases ns <;> cases cu <;> simp [fromDefaults] at h
    subst h
    exact ⟨_, _, rfl, rfl, _, _,
        ⟨rfl, rfl, by simp [mkScheduler], fun _ => ⟨_, rfl, hcu _ rfl⟩, by simp [mkScheduler]⟩,
        hrange _ (Or.inl rfl), hrange _ (Or.inr rfl), rfl, rfl⟩
  case h8 =>
    intro h
    cases ini <;> cases tgt <;> cases ns <;> cases cu <;> simp [fromDefaults] at h
    subst h
    exact ⟨_, _, rfl, rfl, _, _,
        ⟨rfl, rfl, by simp [mkScheduler], fun _ => ⟨_, rfl, hcu _ rfl⟩, by simp [mkScheduler]⟩,
        hrange _ (Or.inl rfl), hrange _ (Or.inr rfl), rfl, rfl⟩

/-- Name and horizon of a configuration do not influence what the scheduler computes once the horizon is set. -/
theorem fromConfig_reset {c c' : Config} {s : Scheduler} {nm : Option String}
    (h : Sched.fromConfig { c with name := nm } = .ok (s, c')) (m it : ℤ) :
    valueOf (.ok { c with itersMax := some m }) it = ({ s with itersMax := some m } : Scheduler).value it := by
  obtain ⟨nm0, ini, tgt, ns, im, cu, ty⟩ := c
  unfold valueOf
  revert ty
  apply type_cases
  case h =>
    intro ty hty h
    rw [fromConfig_unknown (c := ⟨nm, ini, tgt, ns, im, cu, ty⟩) hty] at h
    exact absurd h (by simp)
  all_goals
    intro h
    simp only [Sched.fromConfig] at h
    simp at h
    obtain ⟨rfl, rfl⟩ := h
    simp only [bind, Except.bind, Sched.fromConfig]
    simp
    cases tgt <;> simp [Scheduler.value, mkScheduler, toOneMutate]

/-- A good schedule in a run of `m` iterations has a value in its range at every iteration: the value documented for the
configured schedule over `m` iterations. -/
theorem GoodSchedule.run {c : Config} {S : Set ℝ} (h : GoodSchedule c S) (hS : S.OrdConnected) (nm : String) :
    ∃ s c', Sched.fromConfig { c with name := some nm } = .ok (s, c') ∧ s.name = some nm ∧
      ∀ m it : ℤ, 0 < m → 0 ≤ it → ∃ v ∈ S, ({ s with itersMax := some m } : Scheduler).value it = .ok (some v) ∧
        valueOf (.ok { c with itersMax := some m }) it = .ok (some v) := by
  obtain ⟨s, c', hf, hn, i, t, hok, hi, ht, -⟩ := GoodSchedule.fromConfig h (some nm)
  refine ⟨s, c', hf, hn, fun m it hm hit => ?_⟩
  obtain ⟨v, hv, hb⟩ := hok.value hm hit
  refine ⟨v, ?_, hv, by rw [fromConfig_reset hf, hv]⟩
  rcases le_total i t with hle | hle
  · exact hS.out hi ht ⟨by simpa [min_eq_left hle] using hb.1, by simpa [max_eq_right hle] using hb.2⟩
  · exact hS.out ht hi ⟨by simpa [min_eq_right hle] using hb.1, by simpa [max_eq_left hle] using hb.2⟩

end Verif.Run
