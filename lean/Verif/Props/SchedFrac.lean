import Verif.Model.SchedFrac
import Verif.Lemmas.Scheduler
import Mathlib.Tactic.Push

/-! Property theorems C149, C150: the values of command-line options, and fractional numbers of steps. -/
namespace Verif.Props
open Verif Verif.CliValues
open Verif.Spec (Between MovesToward)

/-- `s` is the word `w` (in small letters) typed in any mixture of small and capital letters. -/
def InAnyCase (w : String) (s : List Char) : Prop :=
  List.Forall₂ (fun a b => b = a ∨ b = a.toUpper) w.toList s

/-- Lower-casing a character gives a small letter `a` exactly for `a` and its capital. -/
theorem lower_char {a b : Char} (ha : a.isLower = true) : b.toLower = a ↔ b = a ∨ b = a.toUpper := by
  have ha' : 97 ≤ a.val ∧ a.val ≤ 122 := by
    simpa [Char.isLower] using ha
  constructor
  · intro h
    unfold Char.toLower at h
    split_ifs at h with hc
    · right
      subst h
      unfold Char.toUpper
      obtain ⟨bv, hb⟩ := b
      simp only at hc ha' ⊢
      apply Char.ext
      have h1 : 65 ≤ bv := hc.1
      have h2 : bv ≤ 90 := hc.2
      have h3 : 97 ≤ bv + 32 ∧ bv + 32 ≤ 122 := ha'
      split_ifs with h4
      · simp only [Char.reduceVal]
        rw [UInt32.add_assoc]
        exact (UInt32.add_zero bv).symm
      · exact absurd h3 h4
    · exact .inl h
  · rintro (h | h)
    · subst h
      unfold Char.toLower
      split_ifs with hc
      · exfalso
        have h2 : b.val ≤ 90 := hc.2
        have := ha'.1
        exact absurd (UInt32.le_trans this h2) (by decide)
      · rfl
    · subst h
      unfold Char.toUpper Char.toLower
      obtain ⟨av, hav⟩ := a
      simp only at ha' ⊢
      apply Char.ext
      have h4 : av ≥ 97 ∧ av ≤ 122 := ha'
      have h5 : av + 4294967264 ≥ 65 ∧ av + 4294967264 ≤ 90 := by
        obtain ⟨x, y⟩ := h4
        constructor
        · rw [ge_iff_le, UInt32.le_iff_toNat_le] at *
          simp [UInt32.toNat_add] at *
          omega
        · rw [UInt32.le_iff_toNat_le] at *
          rw [ge_iff_le, UInt32.le_iff_toNat_le] at x
          simp [UInt32.toNat_add] at *
          omega
      have e : av + 4294967264 + 32 = av := by
        rw [UInt32.add_assoc]
        exact UInt32.add_zero av
      simp [h4, h5, e]

theorem lower_word {w : List Char} (hw : ∀ a ∈ w, a.isLower = true) (s : List Char) :
    lower s = w ↔ List.Forall₂ (fun a b => b = a ∨ b = a.toUpper) w s := by
  induction w generalizing s with
  | nil =>
    cases s <;> simp [lower]
  | cons a w ih =>
    cases s with
    | nil => simp [lower]
    | cons b s =>
      have := ih (fun x hx => hw x (List.mem_cons_of_mem _ hx)) s
      simp only [lower, List.map_cons, List.cons.injEq, List.forall₂_cons] at this ⊢
      rw [this, lower_char (hw a List.mem_cons_self)]

theorem lower_mem {w : String} (hw : ∀ a ∈ w.toList, a.isLower = true) (s : List Char) : lower s = w.toList ↔ InAnyCase w s :=
  lower_word hw s

/-- **C149 (a)** What becomes of the text of a yes/no option (`--restart`, `--export_img`, `--design_dirichlet`, `--sensitivity_filter`), for every
text: "true" and "t" in any case mean yes, "false" and "f" in any case mean no, and with anything else the program ends with the usage message.
A Boolean default is kept. -/
theorem C149_yes_no (s : List Char) (b : Bool) :
    (readOption (str2bool (.text s)) = .value true ↔ InAnyCase "true" s ∨ InAnyCase "t" s) ∧
    (readOption (str2bool (.text s)) = .value false ↔ InAnyCase "false" s ∨ InAnyCase "f" s) ∧
    (readOption (str2bool (.text s)) = .usage ↔
      ¬ InAnyCase "true" s ∧ ¬ InAnyCase "t" s ∧ ¬ InAnyCase "false" s ∧ ¬ InAnyCase "f" s) ∧
    readOption (str2bool (.bool b)) = .value b := by
  rw [← lower_mem (by decide) s, ← lower_mem (by decide) s, ← lower_mem (by decide) s, ← lower_mem (by decide) s]
  refine ⟨?_, ?_, ?_, rfl⟩ <;> simp only [str2bool, List.mem_cons, List.not_mem_nil, or_false] <;>
    split_ifs with h1 h2 <;> simp only [readOption, reduceCtorEq, Read.value.injEq, Bool.true_eq_false, Bool.false_eq_true, true_iff, false_iff, iff_true] <;>
    first
      | assumption
      | (rintro (h | h) <;> rcases h1 with h1 | h1 <;> rw [h1] at h <;> revert h <;> decide)
      | tauto

/-- **C149 (b)** What becomes of the text of a number-or-nothing option (`--vol_frac_step`, `--p_step`, `--beta_step`, `--percentile_init`,
`--percentile_step`, `--percentile`), for every text and whatever texts Python's `float` reads: "none", "null" and "nan" in any case mean that
nothing was given; any other text means the number `float` reads in it, and the usage message if there is none. What is missing: nothing excludes
that this number is NaN. -/
theorem C149_number_or_nothing_partial (float : List Char → Res PyFloat) (s : List Char) :
    (readOption (floatOrNone float s) = .value none ↔ InAnyCase "none" s ∨ InAnyCase "null" s ∨ InAnyCase "nan" s) ∧
    (∀ x, readOption (floatOrNone float s) = .value (some x) ↔
      float s = .ok x ∧ ¬ InAnyCase "none" s ∧ ¬ InAnyCase "null" s ∧ ¬ InAnyCase "nan" s) ∧
    (readOption (floatOrNone float s) = .usage ↔
      (∃ e, float s = .error e) ∧ ¬ InAnyCase "none" s ∧ ¬ InAnyCase "null" s ∧ ¬ InAnyCase "nan" s) := by
  rw [← lower_mem (by decide) s, ← lower_mem (by decide) s, ← lower_mem (by decide) s]
  simp only [floatOrNone, List.mem_cons, List.not_mem_nil, or_false]
  by_cases h : lower s = "none".toList ∨ lower s = "null".toList ∨ lower s = "nan".toList
  · simp only [h, if_true, readOption, true_iff, reduceCtorEq, Read.value.injEq, false_iff]
    tauto
  · simp only [h, if_false, iff_false]
    push Not at h
    rcases hf : float s with e | x
    · simp [Except.map, readOption]
      simpa using h
    · simp [Except.map, readOption]
      simpa using h

/-- **C149 (c)** Violated: NaN gets through. With a `float` that reads NaN in "+nan" (as Python's does), the text "+nan" is neither refused nor
taken as "nothing given": the option has the value NaN. -/
theorem C149_nan_accepted (float : List Char → Res PyFloat) (h : float "+nan".toList = .ok .nan) :
    readOption (floatOrNone float "+nan".toList) = .value (some .nan) := by
  have hl : lower "+nan".toList ∉ ["none".toList, "null".toList, "nan".toList] := by decide
  simp only [floatOrNone, if_neg hl, h, Except.map, readOption]

/- "NuLL" means nothing given, "TRUE" yes, and "yes" is refused. -/
example (float : List Char → Res PyFloat) : readOption (floatOrNone float "NuLL".toList) = .value none ∧
    readOption (str2bool (.text "TRUE".toList)) = .value true ∧ readOption (str2bool (.text "yes".toList)) = .usage := by
  refine ⟨((C149_number_or_nothing_partial float _).1).2 (.inr (.inl ?_)), ((C149_yes_no _ true).1).2 (.inl ?_), rfl⟩
  · unfold InAnyCase; simp
  · unfold InAnyCase; simp

/-! ### Fractional numbers of steps -/

open Verif.SchedFrac

theorem index_nonneg {it m : ℤ} {q : ℝ} (hit : 0 ≤ it) (hm : 0 < m) (hq : 1 < q) : 0 ≤ index it m q := by
  have h1 : (0 : ℝ) ≤ it := by exact_mod_cast hit
  have h2 : (0 : ℝ) < m := by exact_mod_cast hm
  have h3 : (0 : ℤ) ≤ ⌊(it : ℝ) / ((m : ℝ) / q)⌋ := Int.floor_nonneg.2 (by positivity)
  exact le_min (by exact_mod_cast h3) (by linarith)

theorem alpha_nonneg {it m : ℤ} {q : ℝ} (hit : 0 ≤ it) (hm : 0 < m) (hq : 1 < q) : 0 ≤ alpha it m q :=
  div_nonneg (index_nonneg hit hm hq) (by linarith)

theorem alpha_le_one {it m : ℤ} {q : ℝ} (hq : 1 < q) : alpha it m q ≤ 1 :=
  (div_le_one (by linarith)).2 (min_le_right _ _)

theorem alpha_mono {a b m : ℤ} {q : ℝ} (hab : a ≤ b) (hm : 0 < m) (hq : 1 < q) : alpha a m q ≤ alpha b m q := by
  have h2 : (0 : ℝ) < m := by exact_mod_cast hm
  have h3 : (a : ℝ) ≤ b := by exact_mod_cast hab
  refine div_le_div_of_nonneg_right (min_le_min_right _ ?_) (by linarith)
  have : ⌊(a : ℝ) / ((m : ℝ) / q)⌋ ≤ ⌊(b : ℝ) / ((m : ℝ) / q)⌋ :=
    Int.floor_le_floor (div_le_div_of_nonneg_right h3 (by positivity))
  exact_mod_cast this

/-- The curvature of an accelerating or decelerating schedule is positive. -/
def Curved : Shape → Prop
  | .step => True
  | .accelerating c => 0 < c
  | .decelerating c => 0 < c

/-- The weight of the target. -/
noncomputable def fracWeight : Shape → ℝ → ℝ
  | .step, a => a
  | .accelerating c, a => a ^ c
  | .decelerating c, a => 1 - (1 - a) ^ c

theorem fracWeight_mem {s : Shape} (hs : Curved s) {a : ℝ} (h0 : 0 ≤ a) (h1 : a ≤ 1) : 0 ≤ fracWeight s a ∧ fracWeight s a ≤ 1 := by
  cases s with
  | step => exact ⟨h0, h1⟩
  | accelerating c => exact ⟨Real.rpow_nonneg h0 _, Real.rpow_le_one h0 h1 (le_of_lt hs)⟩
  | decelerating c =>
    have := Real.rpow_le_one (by linarith : (0 : ℝ) ≤ 1 - a) (by linarith) (le_of_lt hs)
    have h' := Real.rpow_nonneg (by linarith : (0 : ℝ) ≤ 1 - a) c
    exact ⟨by simp only [fracWeight]; linarith, by simp only [fracWeight]; linarith⟩

theorem fracWeight_mono {s : Shape} (hs : Curved s) {a b : ℝ} (h0 : 0 ≤ a) (hab : a ≤ b) (h1 : b ≤ 1) :
    fracWeight s a ≤ fracWeight s b := by
  cases s with
  | step => exact hab
  | accelerating c => exact Real.rpow_le_rpow h0 hab (le_of_lt hs)
  | decelerating c =>
    have := Real.rpow_le_rpow (by linarith : (0 : ℝ) ≤ 1 - b) (by linarith : 1 - b ≤ 1 - a) (le_of_lt hs)
    simp only [fracWeight]; linarith

theorem fracWeight_zero {s : Shape} (hs : Curved s) : fracWeight s 0 = 0 := by
  cases s with
  | step => rfl
  | accelerating c => exact Real.zero_rpow (ne_of_gt hs)
  | decelerating c => simp [fracWeight]

theorem fracWeight_one {s : Shape} (hs : Curved s) : fracWeight s 1 = 1 := by
  cases s with
  | step => rfl
  | accelerating c => simp [fracWeight]
  | decelerating c =>
    have : (0 : ℝ) ^ c = 0 := Real.zero_rpow (ne_of_gt hs)
    simp [fracWeight, this]

theorem fracWeight_lt_one {s : Shape} (hs : Curved s) {a : ℝ} (h0 : 0 ≤ a) (h1 : a < 1) : fracWeight s a < 1 := by
  cases s with
  | step => exact h1
  | accelerating c => exact Real.rpow_lt_one h0 h1 hs
  | decelerating c =>
    have := Real.rpow_pos_of_pos (by linarith : (0 : ℝ) < 1 - a) c
    simp only [fracWeight]; linarith

/-- The value in closed form. -/
theorem frac_value {s : Shape} (hs : Curved s) (i t q : ℝ) {m it : ℤ} (hit : 0 ≤ it) :
    SchedFrac.value s i t (some (.num q)) m it =
      .ok (if m ≤ it ∨ q ≤ 1 then t else (1 - fracWeight s (alpha it m q)) * i + fracWeight s (alpha it m q) * t) := by
  unfold SchedFrac.value negative
  simp only [ge_iff_le]
  split_ifs with h1 h2 h2 h3 h3
  · rfl
  · exact absurd (.inr (by linarith)) h2
  · rfl
  · exact absurd (.inl h2) h3
  · have hm : ¬ m ≤ 0 := by omega
    have hq : q ≤ 1 := by tauto
    cases s <;> simp [Shape.call, scheduleStep, scheduleStepAccelerating, scheduleStepDecelerating, position, hm, hq, pure, Except.pure,
      bind, Except.bind]
  · push Not at h3
    have hm : ¬ m ≤ 0 := by omega
    have hq : ¬ q ≤ 1 := by linarith [h3.2]
    have ha := alpha_nonneg hit (by omega : 0 < m) h3.2
    have ha1 := alpha_le_one (it := it) (m := m) h3.2
    cases s with
    | step =>
      simp [Shape.call, scheduleStep, position, hm, hq, pure, Except.pure, bind, Except.bind, fracWeight]
    | accelerating c =>
      simp [Shape.call, scheduleStepAccelerating, position, hm, hq, pure, Except.pure, bind, Except.bind, fracWeight,
        Sched.pyPow_ok ha hs]
    | decelerating c =>
      simp [Shape.call, scheduleStepDecelerating, position, hm, hq, pure, Except.pure, bind, Except.bind, fracWeight,
        Sched.pyPow_ok (by linarith : 0 ≤ 1 - alpha it m q) hs]

/-- **C150 (a)** For every number of steps, whole or not, positive or not: the value of a step schedule of any shape always lies between its initial
value and its target, and moves only towards the target as the iterations go on. -/
theorem C150_between_monotone (s : Shape) (hs : Curved s) (i t q : ℝ) (m a b : ℤ) (ha : 0 ≤ a) (hab : a ≤ b) :
    ∃ v w, SchedFrac.value s i t (some (.num q)) m a = .ok v ∧ SchedFrac.value s i t (some (.num q)) m b = .ok w ∧
      Between i t v ∧ MovesToward i t v w := by
  refine ⟨_, _, frac_value hs i t q ha, frac_value hs i t q (le_trans ha hab), ?_⟩
  by_cases h1 : m ≤ a ∨ q ≤ 1
  · have h2 : m ≤ b ∨ q ≤ 1 := h1.imp (fun h => le_trans h hab) id
    rw [if_pos h1, if_pos h2]
    exact ⟨Sched.between_right _ _, Sched.moves_self⟩
  · rw [if_neg h1]
    push Not at h1
    have hm : 0 < m := by omega
    have hA := fracWeight_mem hs (alpha_nonneg ha hm h1.2) (alpha_le_one (it := a) (m := m) h1.2)
    have hbt := Sched.between_blend (i := i) (t := t) hA.1 hA.2
    refine ⟨hbt, ?_⟩
    split_ifs with h2
    · exact Sched.moves_right hbt
    · exact Sched.moves_blend (fracWeight_mono hs (alpha_nonneg ha hm h1.2) (alpha_mono hab hm h1.2)
        (alpha_le_one (it := b) (m := m) h1.2))

/-- **C150 (b)** Where the plateaus are, for every number of steps `q` above one, whole or not, and a horizon of `m` iterations. The step lasts
`m / q` iterations: before `it = m / q` the value is the initial one; from `⌈q - 1⌉ · m / q` on it is the target, and not before; on the steps in
between a linear schedule has gone `k / (q - 1)` of the way. So there are `⌈q⌉` plateaus, the last of them shorter if `q` is not whole. -/
theorem C150_plateaus (s : Shape) (hs : Curved s) (i t q : ℝ) (hq : 1 < q) (m it : ℤ) (hit : 0 ≤ it) (him : it < m) :
    (it * q < m → SchedFrac.value s i t (some (.num q)) m it = .ok i) ∧
    (⌈q - 1⌉ * m ≤ it * q → SchedFrac.value s i t (some (.num q)) m it = .ok t) ∧
    (it * q < ⌈q - 1⌉ * m → i ≠ t → SchedFrac.value s i t (some (.num q)) m it ≠ .ok t) ∧
    ∀ k : ℕ, k < q - 1 → k * m ≤ it * q → it * q < (k + 1) * m →
      SchedFrac.value .step i t (some (.num q)) m it = .ok (i + k / (q - 1) * (t - i)) := by
  have hm : 0 < m := by omega
  have hm' : (0 : ℝ) < m := by exact_mod_cast hm
  have hne : ¬ (m ≤ it ∨ q ≤ 1) := by
    rintro (h | h)
    · omega
    · linarith
  have hfl : ∀ k : ℤ, k ≤ ⌊(it : ℝ) / ((m : ℝ) / q)⌋ ↔ (k : ℝ) * m ≤ it * q := by
    intro k
    rw [Int.le_floor, le_div_iff₀ (by positivity)]
    rw [← mul_div_assoc, div_le_iff₀ (by linarith)]
  have hval := fun (s : Shape) (hs : Curved s) => frac_value hs i t q (m := m) hit
  simp only [if_neg hne] at hval
  refine ⟨fun h => ?_, fun h => ?_, fun h hit' => ?_, fun k hk h1 h2 => ?_⟩
  · have h0 : ⌊(it : ℝ) / ((m : ℝ) / q)⌋ = 0 := by
      have ha := (hfl 0).2 (by have : (0:ℝ) ≤ it := by exact_mod_cast hit
                               push_cast; nlinarith)
      have hb := (hfl 1).not.2 (by push_cast; linarith)
      omega
    have : alpha it m q = 0 := by
      rw [alpha, index, h0]
      simp [min_eq_left (by linarith : (0 : ℝ) ≤ q - 1)]
    rw [hval s hs, this, fracWeight_zero hs]
    simp
  · have h1 := (hfl _).2 h
    have h2 : q - 1 ≤ (⌊(it : ℝ) / ((m : ℝ) / q)⌋ : ℝ) := le_trans (Int.le_ceil _) (by exact_mod_cast h1)
    have : alpha it m q = 1 := by
      rw [alpha, index, min_eq_right h2, div_self (by linarith)]
    rw [hval s hs, this, fracWeight_one hs]
    simp
  · have h1 := (hfl ⌈q - 1⌉).not.2 (by linarith)
    have h2 : (⌊(it : ℝ) / ((m : ℝ) / q)⌋ : ℝ) < q - 1 := by
      have : ⌊(it : ℝ) / ((m : ℝ) / q)⌋ < ⌈q - 1⌉ := by omega
      exact Int.lt_ceil.1 this
    have h3 : alpha it m q < 1 := by
      rw [alpha, index, min_eq_left h2.le, div_lt_one (by linarith)]
      exact h2
    have h4 := fracWeight_lt_one hs (alpha_nonneg hit hm hq) h3
    rw [hval s hs]
    intro he
    injection he with he
    have h5 : (1 - fracWeight s (alpha it m q)) * (i - t) = 0 := by linarith
    rcases mul_eq_zero.1 h5 with h6 | h6
    · linarith
    · exact hit' (by linarith)
  · have h0 : ⌊(it : ℝ) / ((m : ℝ) / q)⌋ = k := by
      have ha := (hfl k).2 (by push_cast; exact h1)
      have hb := (hfl (k + 1)).not.2 (by push_cast; linarith)
      omega
    have : alpha it m q = k / (q - 1) := by
      rw [alpha, index, h0]
      simp [min_eq_left hk.le]
    rw [hval .step trivial, this]
    simp only [fracWeight]
    congr 1
    ring

/-- **C150 (c)** A number of steps of at most one (zero and negative ones included), or no number of steps at all, means the target from the first
iteration on. -/
theorem C150_no_steps (s : Shape) (hs : Curved s) (i t q : ℝ) (hq : q ≤ 1) (m it : ℤ) (hit : 0 ≤ it) :
    SchedFrac.value s i t (some (.num q)) m it = .ok t ∧ SchedFrac.value s i t none m it = .ok t := by
  refine ⟨?_, rfl⟩
  rw [frac_value hs i t q hit, if_pos (.inr hq)]

/-- **C150 (d)** Written as a whole number, the number of steps means the same as the integer: the schedules of `SchedulerConfig.step`,
`step_accelerating` and `step_decelerating`, for which C01–C08 are proved, at every iteration. -/
theorem C150_whole (nm : Option String) (i t c : ℝ) (n m it : ℤ) :
    Sched.valueOf (Sched.cfgStep nm (some i) (some t) (some n) (some m)) it =
      (SchedFrac.value .step i t (some (.num n)) m it).map some ∧
    Sched.valueOf (Sched.cfgStepAccelerating nm (some i) (some t) (some n) (some m) (some c)) it =
      (SchedFrac.value (.accelerating c) i t (some (.num n)) m it).map some ∧
    Sched.valueOf (Sched.cfgStepDecelerating nm (some i) (some t) (some n) (some m) (some c)) it =
      (SchedFrac.value (.decelerating c) i t (some (.num n)) m it).map some := by
  have hidx : ∀ it m n : ℤ, alpha it m (n : ℝ) = Sched.stepAlpha it m n := by
    intro it m n
    unfold alpha index Sched.stepAlpha Sched.stepIndex
    push_cast
    rfl
  have h1 : ((n : ℝ) < 0) ↔ n < 0 := by exact_mod_cast Iff.rfl
  have h2 : ((n : ℝ) ≤ 1) ↔ n ≤ 1 := by exact_mod_cast Iff.rfl
  have key : ∀ (f : Sched.Func) (s : Shape), (∀ it m, f.call it m (some i) t n (some c) = s.call it m i t (.num n)) →
      (if n < 0 then Except.ok (some t) else if it ≥ m then Except.ok (some t) else (f.call it m (some i) t n (some c)).map some) =
        (SchedFrac.value s i t (some (.num n)) m it).map some := by
    intro f s h
    unfold SchedFrac.value negative
    simp only [h1]
    split_ifs
    · rfl
    · rfl
    · rw [h]
  refine ⟨?_, ?_, ?_⟩
  · rw [← key .step .step]
    · simp [Sched.valueOf, Sched.cfgStep, Sched.fromDefaults, Sched.fromConfig, Sched.mkScheduler, Sched.Scheduler.value, bind, Except.bind,
        Sched.Func.call]
    · intro it m
      simp only [Sched.Func.call, Sched.scheduleStep, Shape.call, scheduleStep, position, h2]
      split_ifs <;> simp [bind, Except.bind, pure, Except.pure, Sched.blend, hidx]
  · rw [← key .accelerating (.accelerating c)]
    · simp [Sched.valueOf, Sched.cfgStepAccelerating, Sched.fromDefaults, Sched.fromConfig, Sched.mkScheduler, Sched.Scheduler.value, bind,
        Except.bind, Sched.Func.call]
    · intro it m
      simp only [Sched.Func.call, Sched.scheduleStepAccelerating, Shape.call, scheduleStepAccelerating, position, h2]
      split_ifs <;> simp [bind, Except.bind, pure, Except.pure, Sched.blend, hidx]
  · rw [← key .decelerating (.decelerating c)]
    · simp [Sched.valueOf, Sched.cfgStepDecelerating, Sched.fromDefaults, Sched.fromConfig, Sched.mkScheduler, Sched.Scheduler.value, bind,
        Except.bind, Sched.Func.call]
    · intro it m
      simp only [Sched.Func.call, Sched.scheduleStepDecelerating, Shape.call, scheduleStepDecelerating, position, h2]
      split_ifs <;> simp [bind, Except.bind, pure, Except.pure, Sched.blend, hidx]

/-- **C150 (e)** A number of steps that is NaN or infinite is not a schedule: at every iteration before the horizon NaN raises ValueError and
infinity ZeroDivisionError; minus infinity means the target, like every negative number. -/
theorem C150_not_finite (s : Shape) (i t : ℝ) (m it : ℤ) (hm : 0 < m) (him : it < m) :
    SchedFrac.value s i t (some .nan) m it = .error .valueError ∧
    SchedFrac.value s i t (some .inf) m it = .error .zeroDivision ∧
    SchedFrac.value s i t (some .ninf) m it = .ok t := by
  have h1 : ¬ it ≥ m := by omega
  have h2 : ¬ m ≤ 0 := by omega
  refine ⟨?_, ?_, ?_⟩ <;> cases s <;>
    simp [SchedFrac.value, negative, h1, h2, Shape.call, scheduleStep, scheduleStepAccelerating, scheduleStepDecelerating, position, bind,
      Except.bind]

/- `--p_step 2.5` with `--p_init 1 --p 4` and 100 iterations: 1 up to iteration 39, 3 from 40, 4 from 80. -/
example : SchedFrac.value .step 1 4 (some (.num (5 / 2))) 100 39 = .ok 1 ∧
    SchedFrac.value .step 1 4 (some (.num (5 / 2))) 100 40 = .ok 3 ∧
    SchedFrac.value .step 1 4 (some (.num (5 / 2))) 100 79 = .ok 3 ∧
    SchedFrac.value .step 1 4 (some (.num (5 / 2))) 100 80 = .ok 4 := by
  have hp := fun (it : ℤ) => C150_plateaus .step trivial 1 4 (5 / 2) (by norm_num) 100 it
  have hc : ⌈(5 / 2 : ℝ) - 1⌉ = 2 := by rw [Int.ceil_eq_iff]; norm_num
  refine ⟨(hp 39 (by norm_num) (by norm_num)).1 (by norm_num), ?_, ?_, (hp 80 (by norm_num) (by norm_num)).2.1 (by rw [hc]; norm_num)⟩
  · rw [(hp 40 (by norm_num) (by norm_num)).2.2.2 1 (by norm_num) (by norm_num) (by norm_num)]; norm_num
  · rw [(hp 79 (by norm_num) (by norm_num)).2.2.2 1 (by norm_num) (by norm_num) (by norm_num)]; norm_num

end Verif.Props
