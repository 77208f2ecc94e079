import Verif.Props.Rounded
import Verif.Spec.Format

/-!
C130–C132 for arithmetic rounded to a format, such as IEEE doubles: the laws of `Spec/Rounded.lean` hold.
-/
namespace Verif.Spec.Format
open Verif.Rounded Verif.Spec

noncomputable section
open Classical

variable (f : Format)

/-- A finite number of the format. -/
abbrev num (x : f.F) : f.Num := ((x : WithTop f.F) : WithBot (WithTop f.F))

theorem num_cases (a : f.Num) : a = ⊥ ∨ a = ⊤ ∨ ∃ x, a = f.num x := by
  rcases a with _ | _ | x
  · exact Or.inl rfl
  · exact Or.inr (Or.inl rfl)
  · exact Or.inr (Or.inr ⟨x, rfl⟩)

theorem num_le {x y : f.F} : f.num x ≤ f.num y ↔ (x : ℝ) ≤ y := by
  rw [num, num, WithBot.coe_le_coe, WithTop.coe_le_coe]; rfl

theorem num_lt {x y : f.F} : f.num x < f.num y ↔ (x : ℝ) < y := by
  rw [num, num, WithBot.coe_lt_coe, WithTop.coe_lt_coe]; rfl

/-- Zero of the format. -/
abbrev zer : f.F := ⟨0, f.zero⟩

theorem fl_zero : f.fl 0 = f.num f.zer := f.repr f.zer

theorem fl_one : f.fl 1 = f.num ⟨1, f.one⟩ := f.repr ⟨1, f.one⟩

theorem zero_lt_top : f.fl 0 < ⊤ := by
  rw [fl_zero]; exact WithBot.coe_lt_coe.mpr (WithTop.coe_lt_top _)

theorem bot_lt_zero : ⊥ < f.fl 0 := by
  rw [fl_zero]; exact WithBot.bot_lt_coe _

theorem fin_num (x : f.F) : f.Fin (f.num x) :=
  ⟨WithBot.coe_ne_bot, by
    intro h
    have : (x : WithTop f.F) = ⊤ := WithBot.coe_injective h
    exact WithTop.coe_ne_top this⟩

theorem fin_cases {a : f.Num} (h : f.Fin a) : ∃ x, a = f.num x := by
  rcases f.num_cases a with rfl | rfl | h'
  · exact absurd rfl h.1
  · exact absurd rfl h.2
  · exact h'

theorem zero_le_num {x : f.F} : f.fl 0 ≤ f.num x ↔ 0 ≤ (x : ℝ) := by rw [fl_zero, num_le]

theorem zero_lt_num {x : f.F} : f.fl 0 < f.num x ↔ 0 < (x : ℝ) := by rw [fl_zero, num_lt]

theorem num_le_zero {x : f.F} : f.num x ≤ f.fl 0 ↔ (x : ℝ) ≤ 0 := by rw [fl_zero, num_le]

theorem add_num (x y : f.F) : f.add (some (f.num x)) (some (f.num y)) = some (f.fl (x + y)) := rfl
theorem add_top_num (y : f.F) : f.add (some ⊤) (some (f.num y)) = some ⊤ := rfl
theorem add_num_top (y : f.F) : f.add (some (f.num y)) (some ⊤) = some ⊤ := rfl
theorem add_bot_num (y : f.F) : f.add (some ⊥) (some (f.num y)) = some ⊥ := rfl
theorem add_num_bot (y : f.F) : f.add (some (f.num y)) (some ⊥) = some ⊥ := rfl
theorem add_top_top : f.add (some ⊤) (some ⊤) = some ⊤ := rfl
theorem add_bot_bot : f.add (some ⊥) (some ⊥) = some ⊥ := rfl
theorem add_top_bot : f.add (some ⊤) (some ⊥) = none := rfl
theorem add_bot_top : f.add (some ⊥) (some ⊤) = none := rfl
theorem negate_top : f.negate ⊤ = ⊥ := rfl
theorem negate_bot : f.negate ⊥ = ⊤ := rfl
theorem negate_num (x : f.F) : f.negate (f.num x) = f.num ⟨-x, f.neg x x.2⟩ := f.repr ⟨-x, f.neg x x.2⟩
theorem mul_num (x y : f.F) : f.mul (some (f.num x)) (some (f.num y)) = some (f.fl (x * y)) := rfl
theorem mul_num_top (x : f.F) (h : 0 < (x : ℝ)) : f.mul (some (f.num x)) (some ⊤) = some ⊤ := by
  show (if (x : ℝ) = 0 then none else some (if 0 < (x : ℝ) then (⊤ : f.Num) else f.negate ⊤)) = _
  rw [if_neg h.ne', if_pos h]
theorem mul_num_bot (x : f.F) (h : 0 < (x : ℝ)) : f.mul (some (f.num x)) (some ⊥) = some ⊥ := by
  show (if (x : ℝ) = 0 then none else some (if 0 < (x : ℝ) then (⊥ : f.Num) else f.negate ⊥)) = _
  rw [if_neg h.ne', if_pos h]

theorem mul_zero_top (x : f.F) (h : (x : ℝ) = 0) : f.mul (some (f.num x)) (some ⊤) = none := by
  show (if (x : ℝ) = 0 then none else some (if 0 < (x : ℝ) then (⊤ : f.Num) else f.negate ⊤)) = _
  rw [if_pos h]
theorem mul_zero_bot (x : f.F) (h : (x : ℝ) = 0) : f.mul (some (f.num x)) (some ⊥) = none := by
  show (if (x : ℝ) = 0 then none else some (if 0 < (x : ℝ) then (⊥ : f.Num) else f.negate ⊥)) = _
  rw [if_pos h]
theorem mul_top_num (y : f.F) : f.mul (some ⊤) (some (f.num y)) =
    if (y : ℝ) = 0 then none else some (if 0 < (y : ℝ) then ⊤ else ⊥) := rfl
theorem mul_top_top : f.mul (some ⊤) (some ⊤) = some ⊤ := rfl
theorem mul_top_bot : f.mul (some ⊤) (some ⊥) = some ⊥ := rfl

/-- **C130 (formats).** Arithmetic rounded to a format satisfies the laws of C130. -/
theorem C130_format_directed (log exp : Flt f.Num → Flt f.Num) : Directed (f.arith log exp) where
  add_nan := by rintro (_ | _ | _ | x) <;> rfl
  sub_nan := by rintro (_ | _ | _ | x) <;> exact ⟨rfl, rfl⟩
  add_ge := by
    intro a b c hb h
    replace hb : f.fl 0 ≤ b := by simpa [arith] using hb
    replace h : f.add (some a) (some b) = some c := h
    rcases f.num_cases a with rfl | rfl | ⟨x, rfl⟩ <;> rcases f.num_cases b with rfl | rfl | ⟨y, rfl⟩
    · exact bot_le
    · exact bot_le
    · exact bot_le
    · rw [add_top_bot] at h; cases h
    · rw [add_top_top] at h; cases h; exact le_rfl
    · rw [add_top_num] at h; cases h; exact le_rfl
    · exact absurd hb (not_le.mpr f.bot_lt_zero)
    · rw [add_num_top] at h; cases h; exact le_top
    · rw [add_num] at h; cases h
      rw [zero_le_num] at hb
      rw [num, ← f.repr x]
      exact f.mono (by linarith)
  sub_le := by
    intro a b c hb h
    replace hb : f.fl 0 ≤ b := by simpa [arith] using hb
    replace h : f.add (some a) (some (f.negate b)) = some c := h
    rcases f.num_cases a with rfl | rfl | ⟨x, rfl⟩ <;> rcases f.num_cases b with rfl | rfl | ⟨y, rfl⟩
    · exact absurd hb (not_le.mpr f.bot_lt_zero)
    · rw [negate_top, add_bot_bot] at h; cases h; exact le_rfl
    · rw [negate_num, add_bot_num] at h; cases h; exact le_rfl
    · exact le_top
    · exact le_top
    · exact le_top
    · exact absurd hb (not_le.mpr f.bot_lt_zero)
    · rw [negate_top, add_num_bot] at h; cases h; exact bot_le
    · rw [negate_num, add_num] at h; cases h
      rw [zero_le_num] at hb
      rw [num, ← f.repr x]
      exact f.mono (by simp only; linarith)

/-- **C132 (formats).** The halved sum stays between its arguments. -/
theorem C132_format_halves (log exp : Flt f.Num → Flt f.Num) : Halves (f.arith log exp) f.Fin := by
  intro a b s ha hab hs hfs
  replace ha : f.fl 0 ≤ a := by simpa [arith] using ha
  replace hs : f.add (some b) (some b) = some s := hs
  show ∃ m, f.mul (some (f.fl ((1 / 2 : ℚ) : ℝ))) (f.add (some a) (some b)) = some m ∧ a ≤ m ∧ m ≤ b
  have hbne : b ≠ ⊤ := by rintro rfl; rw [add_top_top] at hs; cases hs; exact hfs.2 rfl
  rcases f.num_cases b with rfl | rfl | ⟨y, rfl⟩
  · exact absurd (ha.trans hab) (not_le.mpr f.bot_lt_zero)
  · exact absurd rfl hbne
  rcases f.num_cases a with rfl | rfl | ⟨x, rfl⟩
  · exact absurd ha (not_le.mpr f.bot_lt_zero)
  · exact absurd (top_le_iff.mp hab) hbne
  rw [zero_le_num] at ha
  rw [num_le] at hab
  rw [add_num, ← two_mul] at hs
  cases hs
  have hy : 2 * (y : ℝ) ∈ f.F := (f.double y y.2 (ha.trans hab)).resolve_right hfs.2
  have hx : 2 * (x : ℝ) ∈ f.F := by
    refine (f.double x x.2 ha).resolve_right fun h => hfs.2 ?_
    have := f.mono (show 2 * (x : ℝ) ≤ 2 * y by linarith)
    rw [h] at this
    exact top_le_iff.mp this
  have l : f.num ⟨2 * x, hx⟩ ≤ f.fl (x + y) := by rw [num, ← f.repr]; exact f.mono (by simp only; linarith)
  have u : f.fl (x + y) ≤ f.num ⟨2 * y, hy⟩ := by rw [num, ← f.repr]; exact f.mono (by simp only; linarith)
  obtain ⟨z, hz⟩ : ∃ z, f.fl (x + y) = f.num z := by
    rcases f.num_cases (f.fl (x + y)) with h | h | h
    · rw [h] at l; exact absurd (le_bot_iff.mp l) (f.fin_num _).1
    · rw [h] at u; exact absurd (top_le_iff.mp u) (f.fin_num _).2
    · exact h
  rw [hz, num_le] at l u
  have hh : f.fl ((1 / 2 : ℚ) : ℝ) = f.num ⟨1 / 2, f.half⟩ := by
    rw [num, ← f.repr]; congr 1; norm_num
  rw [add_num, hz, hh, mul_num]
  refine ⟨_, rfl, ?_, ?_⟩
  · rw [num, ← f.repr x]; exact f.mono (by simp only at l ⊢; linarith)
  · rw [num, ← f.repr y]; exact f.mono (by simp only at u ⊢; linarith)

theorem fl_nonneg {r : ℝ} (h : 0 ≤ r) : f.fl 0 ≤ f.fl r := f.mono h

theorem fl_nonpos {r : ℝ} (h : r ≤ 0) : f.fl r ≤ f.fl 0 := f.mono h

/-- **C131 (formats).** Arithmetic rounded to a format satisfies the sign laws of C131. -/
theorem C131_format_signs (log exp : Flt f.Num → Flt f.Num) : Signs (f.arith log exp) f.Fin where
  convex := by
    intro a b c ha hc h1 h2
    refine ⟨?_, ?_⟩
    · rintro rfl; exact ha.1 (le_bot_iff.mp h1)
    · rintro rfl; exact hc.2 (top_le_iff.mp h2)
  zero := by
    show f.Fin (f.fl ((0 : ℚ) : ℝ))
    rw [Rat.cast_zero, fl_zero]; exact f.fin_num _
  eps := by
    show f.fl ((0 : ℚ) : ℝ) < f.fl ((1 / 10 ^ 12 : ℚ) : ℝ)
    have := f.eps
    simpa using this
  sixty := by
    have h1 : f.num ⟨1 / 2, f.half⟩ ≤ f.fl ((6 / 10 : ℚ) : ℝ) := by
      rw [num, ← f.repr]; exact f.mono (by norm_num)
    have h2 : f.fl ((6 / 10 : ℚ) : ℝ) ≤ f.num ⟨1, f.one⟩ := by
      rw [num, ← f.repr]; exact f.mono (by norm_num)
    refine ⟨?_, ?_, ?_⟩
    · show f.fl ((0 : ℚ) : ℝ) < _
      rw [Rat.cast_zero]
      refine lt_of_lt_of_le ?_ h1
      rw [zero_lt_num]; norm_num
    · intro h
      replace h : f.fl ((6 / 10 : ℚ) : ℝ) = ⊥ := h
      rw [h] at h1; exact (f.fin_num _).1 (le_bot_iff.mp h1)
    · intro h
      replace h : f.fl ((6 / 10 : ℚ) : ℝ) = ⊤ := h
      rw [h] at h2; exact (f.fin_num _).2 (top_le_iff.mp h2)
  neg := by
    intro a h
    replace h : a ≤ f.fl 0 := by simpa [arith] using h
    refine ⟨f.negate a, rfl, ?_⟩
    show f.fl ((0 : ℚ) : ℝ) ≤ _
    rw [Rat.cast_zero]
    rcases f.num_cases a with rfl | rfl | ⟨x, rfl⟩
    · exact le_top
    · exact absurd h (not_le.mpr f.zero_lt_top)
    · rw [negate_num, zero_le_num]
      rw [num_le_zero] at h
      simp only; linarith
  add_pos := by
    intro a b ha hb
    replace ha : f.fl 0 ≤ a := by simpa [arith] using ha
    replace hb : f.fl 0 < b := by simpa [arith] using hb
    show ∃ c, f.add (some a) (some b) = some c ∧ f.fl ((0 : ℚ) : ℝ) < c
    rw [Rat.cast_zero]
    rcases f.num_cases b with rfl | rfl | ⟨y, rfl⟩
    · exact absurd hb.le (not_le.mpr f.bot_lt_zero)
    · rcases f.num_cases a with rfl | rfl | ⟨x, rfl⟩
      · exact absurd ha (not_le.mpr f.bot_lt_zero)
      · exact ⟨⊤, rfl, f.zero_lt_top⟩
      · exact ⟨⊤, rfl, f.zero_lt_top⟩
    · rcases f.num_cases a with rfl | rfl | ⟨x, rfl⟩
      · exact absurd ha (not_le.mpr f.bot_lt_zero)
      · exact ⟨⊤, rfl, f.zero_lt_top⟩
      · refine ⟨_, rfl, hb.trans_le ?_⟩
        rw [zero_le_num] at ha
        rw [num, ← f.repr y]; exact f.mono (by linarith)
  add_mono := by
    intro a b c d x y h1 h2 h3 h4
    replace h3 : f.add (some a) (some c) = some x := h3
    replace h4 : f.add (some b) (some d) = some y := h4
    rcases f.num_cases a with rfl | rfl | ⟨a, rfl⟩ <;> rcases f.num_cases c with rfl | rfl | ⟨c, rfl⟩ <;>
      first
        | (cases h3; exact bot_le)
        | (cases h3; done)
        | skip
    all_goals rcases f.num_cases b with rfl | rfl | ⟨b, rfl⟩ <;> rcases f.num_cases d with rfl | rfl | ⟨d, rfl⟩ <;>
      first
        | (cases h4; exact le_top)
        | (cases h4; done)
        | (exact absurd (le_bot_iff.mp h1) (f.fin_num _).1)
        | (exact absurd (le_bot_iff.mp h2) (f.fin_num _).1)
        | (exact absurd (top_le_iff.mp h1) (f.fin_num _).2)
        | (exact absurd (top_le_iff.mp h2) (f.fin_num _).2)
        | (exact absurd (f.bot_lt_zero.trans f.zero_lt_top) (not_lt.mpr h1))
        | (exact absurd (f.bot_lt_zero.trans f.zero_lt_top) (not_lt.mpr h2))
        | skip
    rw [num_le] at h1 h2
    rw [add_num] at h3 h4
    cases h3; cases h4
    exact f.mono (by linarith)
  add_fin := by
    intro a b ha hb
    obtain ⟨x, rfl⟩ := f.fin_cases ha
    obtain ⟨y, rfl⟩ := f.fin_cases hb
    exact ⟨_, rfl⟩
  sub_fin := by
    intro a b ha hb
    obtain ⟨x, rfl⟩ := f.fin_cases ha
    obtain ⟨y, rfl⟩ := f.fin_cases hb
    refine ⟨f.fl (x + -y), ?_⟩
    show f.add (some (f.num x)) (some (f.negate (f.num y))) = _
    rw [negate_num, add_num]
  mul_fin := by
    intro a b ha hb
    obtain ⟨x, rfl⟩ := f.fin_cases ha
    obtain ⟨y, rfl⟩ := f.fin_cases hb
    exact ⟨_, rfl⟩
  mul_nonneg := by
    intro a b ha hf hb
    replace ha : f.fl 0 < a := by simpa [arith] using ha
    replace hb : f.fl 0 ≤ b := by simpa [arith] using hb
    show ∃ c, f.mul (some a) (some b) = some c ∧ f.fl ((0 : ℚ) : ℝ) ≤ c
    rw [Rat.cast_zero]
    obtain ⟨x, rfl⟩ := f.fin_cases hf
    rw [zero_lt_num] at ha
    rcases f.num_cases b with rfl | rfl | ⟨y, rfl⟩
    · exact absurd hb (not_le.mpr f.bot_lt_zero)
    · exact ⟨⊤, f.mul_num_top x ha, le_top⟩
    · rw [zero_le_num] at hb
      exact ⟨_, rfl, f.fl_nonneg (_root_.mul_nonneg ha.le hb)⟩
  mul_mono := by
    intro a b c x y ha h h3 h4
    replace ha : f.fl 0 ≤ a := by simpa [arith] using ha
    replace h3 : f.mul (some a) (some b) = some x := h3
    replace h4 : f.mul (some a) (some c) = some y := h4
    rcases f.num_cases a with rfl | rfl | ⟨a, rfl⟩
    · exact absurd ha (not_le.mpr f.bot_lt_zero)
    · rcases f.num_cases b with rfl | rfl | ⟨b, rfl⟩
      · cases h3; exact bot_le
      · rw [top_le_iff.mp h] at h4; rw [h4] at h3; cases h3; exact le_rfl
      · rcases f.num_cases c with rfl | rfl | ⟨c, rfl⟩
        · exact absurd (le_bot_iff.mp h) (f.fin_num _).1
        · cases h4; exact le_top
        · rw [mul_top_num] at h3 h4
          rw [num_le] at h
          split_ifs at h3 h4 <;> cases h3 <;> cases h4 <;> first | exact le_rfl | exact le_top | exact bot_le | skip
          exfalso; linarith
    · rw [zero_le_num] at ha
      rcases ha.eq_or_lt with h0 | h0
      · have hfin : ∀ b z, f.mul (some (f.num a)) (some b) = some z → z = f.fl 0 := by
          intro b z hz
          rcases f.num_cases b with rfl | rfl | ⟨b, rfl⟩
          · rw [mul_zero_bot f a h0.symm] at hz; cases hz
          · rw [mul_zero_top f a h0.symm] at hz; cases hz
          · rw [mul_num, ← h0, zero_mul] at hz; cases hz; rfl
        rw [hfin b x h3, hfin c y h4]
      · rcases f.num_cases b with rfl | rfl | ⟨b, rfl⟩
        · rw [mul_num_bot f a h0] at h3; cases h3; exact bot_le
        · rw [top_le_iff.mp h] at h4; rw [h4] at h3; cases h3; exact le_rfl
        · rcases f.num_cases c with rfl | rfl | ⟨c, rfl⟩
          · exact absurd (le_bot_iff.mp h) (f.fin_num _).1
          · rw [mul_num_top f a h0] at h4; cases h4; exact le_top
          · rw [mul_num] at h3 h4
            rw [num_le] at h
            cases h3; cases h4
            exact f.mono (mul_le_mul_of_nonneg_left h h0.le)
  div_nonneg := by
    intro a b ha hb hf
    replace ha : f.fl 0 ≤ a := by simpa [arith] using ha
    replace hb : f.fl 0 < b := by simpa [arith] using hb
    show ∃ c, f.div (some a) (some b) = some c ∧ f.fl ((0 : ℚ) : ℝ) ≤ c
    rw [Rat.cast_zero]
    rcases f.num_cases a with rfl | rfl | ⟨x, rfl⟩
    · exact absurd ha (not_le.mpr f.bot_lt_zero)
    · rcases hf with hf | hf
      · exact absurd rfl hf.2
      · obtain ⟨y, rfl⟩ := f.fin_cases hf
        rw [zero_lt_num] at hb
        refine ⟨if 0 ≤ (y : ℝ) then ⊤ else f.negate ⊤, rfl, ?_⟩
        rw [if_pos hb.le]; exact le_top
    · rcases f.num_cases b with rfl | rfl | ⟨y, rfl⟩
      · exact absurd hb.le (not_le.mpr f.bot_lt_zero)
      · exact ⟨_, rfl, le_rfl⟩
      · rw [zero_lt_num] at hb
        rw [zero_le_num] at ha
        refine ⟨f.fl (x / y), ?_, f.fl_nonneg (_root_.div_nonneg ha hb.le)⟩
        show (if (y : ℝ) = 0 then _ else _) = _
        rw [if_neg hb.ne']
  div_nonpos := by
    intro a b ha hb hf
    replace ha : a ≤ f.fl 0 := by simpa [arith] using ha
    replace hb : f.fl 0 < b := by simpa [arith] using hb
    show ∃ c, f.div (some a) (some b) = some c ∧ c ≤ f.fl ((0 : ℚ) : ℝ)
    rw [Rat.cast_zero]
    rcases f.num_cases a with rfl | rfl | ⟨x, rfl⟩
    · rcases hf with hf | hf
      · exact absurd rfl hf.1
      · obtain ⟨y, rfl⟩ := f.fin_cases hf
        rw [zero_lt_num] at hb
        refine ⟨if 0 ≤ (y : ℝ) then ⊥ else f.negate ⊥, rfl, ?_⟩
        rw [if_pos hb.le]; exact bot_le
    · exact absurd ha (not_le.mpr f.zero_lt_top)
    · rcases f.num_cases b with rfl | rfl | ⟨y, rfl⟩
      · exact absurd hb.le (not_le.mpr f.bot_lt_zero)
      · exact ⟨_, rfl, le_rfl⟩
      · rw [zero_lt_num] at hb
        rw [num_le_zero] at ha
        refine ⟨f.fl (x / y), ?_, f.fl_nonpos (div_nonpos_of_nonpos_of_nonneg ha hb.le)⟩
        show (if (y : ℝ) = 0 then _ else _) = _
        rw [if_neg hb.ne']
  pow_nonneg := by
    intro a b ha
    replace ha : f.fl 0 ≤ a := by simpa [arith] using ha
    show ∃ c, f.pow (some a) (some b) = some c ∧ f.fl ((0 : ℚ) : ℝ) ≤ c
    rw [Rat.cast_zero]
    have h1 : f.fl 0 ≤ f.fl 1 := f.mono (by norm_num)
    rcases f.num_cases a with rfl | rfl | ⟨x, rfl⟩
    · exact absurd ha (not_le.mpr f.bot_lt_zero)
    · rcases f.num_cases b with rfl | rfl | ⟨y, rfl⟩
      · exact ⟨_, rfl, le_rfl⟩
      · exact ⟨_, rfl, le_top⟩
      · refine ⟨_, rfl, ?_⟩
        split_ifs
        · exact h1
        · exact le_top
        · exact le_rfl
    · rw [zero_le_num] at ha
      rcases f.num_cases b with rfl | rfl | ⟨y, rfl⟩
      · refine ⟨_, rfl, ?_⟩
        split_ifs
        · exact h1
        · exact le_rfl
        · exact le_top
      · refine ⟨_, rfl, ?_⟩
        split_ifs
        · exact h1
        · exact le_top
        · exact le_rfl
      · refine ⟨if (x : ℝ) = 0 ∧ (y : ℝ) < 0 then ⊤ else f.fl ((x : ℝ) ^ (y : ℝ)), ?_, ?_⟩
        · show (if (x : ℝ) < 0 ∧ ¬ ∃ k : ℤ, (k : ℝ) = y then none else _) = _
          rw [if_neg (fun h => absurd h.1 (not_lt.mpr ha))]
          split_ifs <;> rfl
        · split_ifs
          · exact le_top
          · exact f.fl_nonneg (Real.rpow_nonneg ha _)

end
end Verif.Spec.Format

namespace Verif.Rounded
open Verif.Spec Verif.Driver Verif.Snapshot

noncomputable section
open Classical

theorem doubles_dyadic (k : ℤ) (h1 : -1074 ≤ k) (h2 : k ≤ 971) : (2 : ℝ) ^ k ∈ doubles :=
  ⟨1, k, by norm_num, h1, h2, by simp⟩

/-- Doubles with a rounding are a format. -/
def doubleFormat (fl : ℝ → WithBot (WithTop doubles)) (h : DoubleRounding fl) : Format where
  F := doubles
  fl := fl
  mono := h.mono
  repr := h.repr
  zero := ⟨0, 0, by norm_num, by norm_num, by norm_num, by simp⟩
  one := ⟨1, 0, by norm_num, by norm_num, by norm_num, by simp⟩
  half := ⟨1, -1, by norm_num, by norm_num, by norm_num, by norm_num⟩
  neg := by
    rintro x ⟨m, e, h1, h2, h3, rfl⟩
    exact ⟨-m, e, by rwa [abs_neg], h2, h3, by push_cast; ring⟩
  double := by
    rintro x ⟨m, e, h1, h2, h3, rfl⟩ h0
    by_cases he : e < 971
    · refine Or.inl ⟨m, e + 1, h1, by omega, by omega, ?_⟩
      rw [zpow_add₀ (by norm_num), zpow_one]; ring
    · have he' : e = 971 := by omega
      subst he'
      by_cases hm : |2 * m| < 2 ^ 53
      · exact Or.inl ⟨2 * m, 971, hm, by norm_num, by norm_num, by push_cast; ring⟩
      · refine Or.inr (h.over _ ?_)
        have hm0 : (0 : ℝ) ≤ m := by
          by_contra hneg
          have : (m : ℝ) * 2 ^ (971 : ℤ) < 0 := mul_neg_of_neg_of_pos (not_le.mp hneg) (by positivity)
          exact absurd h0 (not_le.mpr this)
        have hm0' : 0 ≤ m := by exact_mod_cast hm0
        rw [abs_of_nonneg (by omega)] at hm
        have h2m : (2 : ℝ) ^ 53 ≤ 2 * m := by exact_mod_cast not_lt.mp hm
        have : (2 : ℝ) ^ 1024 = 2 ^ 53 * 2 ^ (971 : ℤ) := by
          rw [show (971 : ℤ) = ((971 : ℕ) : ℤ) from rfl, zpow_natCast, ← pow_add]
        rw [this, ← mul_assoc]
        exact mul_le_mul_of_nonneg_right h2m (by positivity)
  eps := by
    have h1 : fl ((2 : ℝ) ^ (-40 : ℤ)) ≤ fl (1 / 10 ^ 12) := h.mono (by norm_num)
    refine lt_of_lt_of_le ?_ h1
    have h2 := h.repr ⟨_, doubles_dyadic (-40) (by norm_num) (by norm_num)⟩
    have h3 := h.repr ⟨0, ⟨0, 0, by norm_num, by norm_num, by norm_num, by simp⟩⟩
    simp only at h2 h3
    rw [h2, h3, WithBot.coe_lt_coe, WithTop.coe_lt_coe]
    show (0 : ℝ) < 2 ^ (-40 : ℤ)
    positivity

theorem doubles_finite : doubles.Finite := by
  have : doubles ⊆ (fun p : ℤ × ℤ => (p.1 : ℝ) * (2 : ℝ) ^ p.2) '' ((Set.Icc (-(2 ^ 53)) (2 ^ 53)) ×ˢ (Set.Icc (-1074) 971)) := by
    rintro x ⟨m, e, h1, h2, h3, rfl⟩
    exact ⟨(m, e), ⟨⟨by have := abs_lt.mp h1; exact this.1.le, by have := abs_lt.mp h1; exact this.2.le⟩, h2, h3⟩, rfl⟩
  exact ((Set.finite_Icc _ _).prod (Set.finite_Icc _ _)).image _ |>.subset this

/-- A rounding to doubles exists (here: down, with overflow to infinity). -/
theorem exists_doubleRounding : ∃ fl, DoubleRounding fl := by
  have hlt : ∀ x ∈ doubles, x < 2 ^ 1024 := by
    rintro x ⟨m, e, h1, h2, h3, rfl⟩
    have hm : (m : ℝ) < 2 ^ 53 := by exact_mod_cast (abs_lt.mp h1).2
    have he : (2 : ℝ) ^ e ≤ 2 ^ (971 : ℤ) := zpow_le_zpow_right₀ (by norm_num) h3
    have hp : (0 : ℝ) < 2 ^ e := by positivity
    have : (2 : ℝ) ^ 1024 = 2 ^ 53 * 2 ^ (971 : ℤ) := by
      rw [show (971 : ℤ) = ((971 : ℕ) : ℤ) from rfl, zpow_natCast, ← pow_add]
    rw [this]
    calc (m : ℝ) * 2 ^ e < 2 ^ 53 * 2 ^ e := mul_lt_mul_of_pos_right hm hp
      _ ≤ 2 ^ 53 * 2 ^ (971 : ℤ) := mul_le_mul_of_nonneg_left he (by positivity)
  have hex : ∀ x : ℝ, (∃ y : doubles, (y : ℝ) ≤ x) → ∃ y : doubles, (y : ℝ) ≤ x ∧ ∀ z : doubles, (z : ℝ) ≤ x → z ≤ y := by
    rintro x ⟨y, hy⟩
    have : Finite doubles := doubles_finite
    obtain ⟨m, hm, hmax⟩ := Set.exists_max_image {z : doubles | (z : ℝ) ≤ x} id (Set.toFinite _) ⟨y, hy⟩
    exact ⟨m, hm, fun z hz => hmax z hz⟩
  choose g hg1 hg2 using hex
  refine ⟨fun x => if 2 ^ 1024 ≤ x then ⊤ else if h : ∃ y : doubles, (y : ℝ) ≤ x then ((g x h : WithTop doubles) : WithBot _) else ⊥,
    ?_, ?_, ?_⟩
  · intro x y hxy
    simp only
    split_ifs with h1 h2 h3 h4 h5 h6 h7
    · exact le_rfl
    · exact absurd (h1.trans hxy) h2
    · exact absurd (h1.trans hxy) h2
    · exact le_top
    · exact WithBot.coe_le_coe.mpr (WithTop.coe_le_coe.mpr (hg2 _ _ _ ((hg1 x _).trans hxy)))
    · obtain ⟨z, hz⟩ := h4
      exact absurd ⟨z, hz.trans hxy⟩ h6
    · exact le_top
    · exact bot_le
    · exact le_rfl
  · intro x
    have hx : ∃ y : doubles, (y : ℝ) ≤ x := ⟨x, le_rfl⟩
    rw [if_neg (not_le.mpr (hlt x x.2)), dif_pos hx]
    congr 2
    exact le_antisymm (Subtype.coe_le_coe.mp (hg1 _ hx)) (hg2 _ hx x le_rfl)
  · intro x hx
    rw [if_pos hx]

/-- Python's literals of the default configuration (common_density.py lines 245–246, 380–381; oc.py lines 106–108). -/
def defaultCfg {α : Type} (A : Arith α) : OCCfg α where
  rhoMin := A.lit (1 / 100)
  rhoMax := A.lit 1
  rateMin := A.lit (7 / 10)
  rateMax := A.lit (13 / 10)
  scaleFloor := A.lit (1 / 10 ^ 12)
  lambdaLower := A.lit (1 / 10 ^ 7)
  lambdaUpper := A.lit (10 ^ 7)

section
variable {fl : ℝ → WithBot (WithTop doubles)} (h : DoubleRounding fl) (log exp : Flt (doubleFormat fl h).Num → Flt (doubleFormat fl h).Num)

/-- A number between two doubles is rounded to a double between them. -/
theorem double_between {fl : ℝ → WithBot (WithTop doubles)} (h : DoubleRounding fl) {a b x : ℝ} (ha : a ∈ doubles) (hb : b ∈ doubles) (h1 : a ≤ x) (h2 : x ≤ b) :
    ∃ z : (doubleFormat fl h).F, (doubleFormat fl h).fl x = (doubleFormat fl h).num z ∧ a ≤ z ∧ z ≤ b := by
  have l := h.mono h1
  have u := h.mono h2
  rw [h.repr ⟨a, ha⟩] at l
  rw [h.repr ⟨b, hb⟩] at u
  rcases (doubleFormat fl h).num_cases (fl x) with hx | hx | ⟨z, hx⟩
  · rw [hx] at l; exact absurd (le_bot_iff.mp l) ((doubleFormat fl h).fin_num ⟨a, ha⟩).1
  · rw [hx] at u; exact absurd (top_le_iff.mp u) ((doubleFormat fl h).fin_num ⟨b, hb⟩).2
  · rw [hx] at l u
    exact ⟨z, hx, (doubleFormat fl h).num_le.mp l, (doubleFormat fl h).num_le.mp u⟩

/-- The default configuration meets the conditions of C131 in double precision. -/
theorem defaultCfg_sane : Sane ((doubleFormat fl h).arith log exp) (doubleFormat fl h).Fin (defaultCfg ((doubleFormat fl h).arith log exp)) := by
  have d := doubles_dyadic
  have lit : ∀ (q : ℚ) (j k : ℤ), -1074 ≤ j → j ≤ 971 → -1074 ≤ k → k ≤ 971 → (2 : ℝ) ^ j ≤ q → (q : ℝ) ≤ 2 ^ k →
      ∃ z : (doubleFormat fl h).F, ((doubleFormat fl h).arith log exp).lit q = (doubleFormat fl h).num z ∧ (2 : ℝ) ^ j ≤ z ∧ z ≤ (2 : ℝ) ^ k := by
    intro q j k h1 h2 h3 h4 h5 h6
    exact double_between h (d j h1 h2) (d k h3 h4) h5 h6
  have mono : ∀ p q : ℚ, p ≤ q → ((doubleFormat fl h).arith log exp).lit p ≤ ((doubleFormat fl h).arith log exp).lit q :=
    fun p q hpq => h.mono (by exact_mod_cast hpq)
  have z0 : ((doubleFormat fl h).arith log exp).lit 0 = (doubleFormat fl h).fl 0 := by
    show (doubleFormat fl h).fl ((0 : ℚ) : ℝ) = _
    rw [Rat.cast_zero]
  obtain ⟨lo, hlo, -⟩ := lit (1 / 100) (-7) 0 (by norm_num) (by norm_num) (by norm_num) (by norm_num) (by norm_num) (by norm_num)
  obtain ⟨one, hone, h1a, h1b⟩ := lit 1 0 0 (by norm_num) (by norm_num) (by norm_num) (by norm_num) (by norm_num) (by norm_num)
  obtain ⟨rl, hrl, -⟩ := lit (7 / 10) (-1) 0 (by norm_num) (by norm_num) (by norm_num) (by norm_num) (by norm_num) (by norm_num)
  obtain ⟨ru, hru, -⟩ := lit (13 / 10) 0 1 (by norm_num) (by norm_num) (by norm_num) (by norm_num) (by norm_num) (by norm_num)
  obtain ⟨ep, hep, hep1, hep2⟩ := lit (1 / 10 ^ 12) (-40) 0 (by norm_num) (by norm_num) (by norm_num) (by norm_num) (by norm_num) (by norm_num)
  obtain ⟨up, hup, hup1, hup2⟩ := lit (10 ^ 7) 0 24 (by norm_num) (by norm_num) (by norm_num) (by norm_num) (by norm_num) (by norm_num)
  have hsix : ∃ z : (doubleFormat fl h).F, ((doubleFormat fl h).arith log exp).lit (6 / 10) = (doubleFormat fl h).num z ∧ (1 / 2 : ℝ) ≤ z ∧ (z : ℝ) ≤ 3 / 4 :=
    double_between h ⟨1, -1, by norm_num, by norm_num, by norm_num, by norm_num⟩ ⟨3, -2, by norm_num, by norm_num, by norm_num, by norm_num⟩
      (by norm_num) (by norm_num)
  obtain ⟨sx, hsx, hsx1, hsx2⟩ := hsix
  have hep0 : (0 : ℝ) < ep := lt_of_lt_of_le (by positivity) hep1
  norm_num at h1a h1b hup2 hup1 hep2
  refine ⟨mono _ _ (by norm_num), ?_, ?_, mono _ _ (by norm_num), ?_, ?_, mono _ _ (by norm_num), mono _ _ (by norm_num), ?_, ?_, ?_, ?_, ?_⟩
  · show (doubleFormat fl h).Fin (((doubleFormat fl h).arith log exp).lit (1 / 100))
    rw [hlo]; exact (doubleFormat fl h).fin_num _
  · show (doubleFormat fl h).Fin (((doubleFormat fl h).arith log exp).lit 1)
    rw [hone]; exact (doubleFormat fl h).fin_num _
  · show (doubleFormat fl h).Fin (((doubleFormat fl h).arith log exp).lit (7 / 10))
    rw [hrl]; exact (doubleFormat fl h).fin_num _
  · show (doubleFormat fl h).Fin (((doubleFormat fl h).arith log exp).lit (13 / 10))
    rw [hru]; exact (doubleFormat fl h).fin_num _
  · show (doubleFormat fl h).Fin (((doubleFormat fl h).arith log exp).lit (10 ^ 7))
    rw [hup]; exact (doubleFormat fl h).fin_num _
  · show ∃ s, (doubleFormat fl h).add (some (((doubleFormat fl h).arith log exp).lit (10 ^ 7)))
      (some (((doubleFormat fl h).arith log exp).lit (10 ^ 7))) = some s ∧ _
    rw [hup, Format.add_num]
    obtain ⟨z, hz, -⟩ := double_between h (d 0 (by norm_num) (by norm_num)) (d 25 (by norm_num) (by norm_num))
      (x := up + up) (by norm_num; linarith) (by norm_num; linarith)
    exact ⟨_, rfl, by rw [show (doubleFormat fl h).fl (up + up) = (doubleFormat fl h).num z from hz]; exact (doubleFormat fl h).fin_num _⟩
  · show ∃ s, (doubleFormat fl h).add (some (((doubleFormat fl h).arith log exp).lit (10 ^ 7)))
      (some (((doubleFormat fl h).arith log exp).lit (1 / 10 ^ 12))) = some s ∧ _
    rw [hup, hep, Format.add_num]
    obtain ⟨z, hz, -⟩ := double_between h (d 0 (by norm_num) (by norm_num)) (d 25 (by norm_num) (by norm_num))
      (x := up + ep) (by norm_num; linarith) (by norm_num; linarith)
    exact ⟨_, rfl, by rw [show (doubleFormat fl h).fl (up + ep) = (doubleFormat fl h).num z from hz]; exact (doubleFormat fl h).fin_num _⟩
  · show ((doubleFormat fl h).arith log exp).lit 0 < ((doubleFormat fl h).arith log exp).lit (1 / 10 ^ 12)
    rw [hep, z0, Format.zero_lt_num]; exact hep0
  · rw [z0, hone, hsx]
    show ∃ w g, (doubleFormat fl h).add (some ((doubleFormat fl h).num one)) (some ((doubleFormat fl h).negate ((doubleFormat fl h).num sx))) =
      some w ∧ _ ∧ _ ∧ (doubleFormat fl h).mul (some w) (some (((doubleFormat fl h).arith log exp).lit (1 / 10 ^ 12))) = some g ∧ _
    rw [Format.negate_num, Format.add_num, hep]
    obtain ⟨z, hz, hz1, hz2⟩ := double_between h (d (-2) (by norm_num) (by norm_num)) (d 0 (by norm_num) (by norm_num))
      (x := (one : ℝ) + -sx) (by norm_num; linarith) (by norm_num; linarith)
    have hz' : (doubleFormat fl h).fl ((one : ℝ) + -sx) = (doubleFormat fl h).num z := hz
    have hz0 : (0 : ℝ) < z := lt_of_lt_of_le (by positivity) hz1
    have hprod : (2 : ℝ) ^ (-42 : ℤ) ≤ z * ep := by
      have : (2 : ℝ) ^ (-42 : ℤ) = 2 ^ (-2 : ℤ) * 2 ^ (-40 : ℤ) := by norm_num
      rw [this]
      exact mul_le_mul hz1 hep1 (by positivity) hz0.le
    refine ⟨_, _, rfl, ?_, ?_, by rw [hz', Format.mul_num], ?_⟩
    · rw [hz', Format.zero_lt_num]; exact hz0
    · rw [hz']; exact (doubleFormat fl h).fin_num _
    · have := h.mono hprod
      refine lt_of_lt_of_le ?_ this
      rw [h.repr ⟨_, d (-42) (by norm_num) (by norm_num)⟩]
      exact (doubleFormat fl h).zero_lt_num.mpr (by positivity)

variable {E X : Type} [DecidableEq E]

/-- **C131 (double precision).** For every rounding to IEEE doubles (`DoubleRounding`; round to nearest is one) and the default
configuration: if whenever the free densities are numbers in the box the analysis hands on finite non-positive sensitivities, a statistic
and an exponent that are numbers and a finite non-negative move limit, then after every history of calls every free density and every free
density in a snapshot is a number in `[rho_min, rho_max]`. -/
theorem C131_double_precision_run (p : Plan (doubleFormat fl h).Num E X (Inputs (doubleFormat fl h).Num E))
    (v0 : (doubleFormat fl h).Num) (hv0 : p.valInit = some v0)
    (hin : ∀ k rho x y i, p.analyse k rho x = (y, .ok i) →
      (∀ e, Free p.design p.pinned p.fixed e → NumberIn (fl (1 / 100)) (fl 1) (rho e)) →
      (∃ t, i.stat = some t) ∧ (∃ η, i.eta = some η) ∧ (∃ m, i.moveLimit = some m ∧ fl 0 ≤ m ∧ (doubleFormat fl h).Fin m) ∧
      ∀ e, Free p.design p.pinned p.fixed e → ∃ d, i.dC e = some d ∧ (doubleFormat fl h).Fin d ∧ d ≤ fl 0)
    (rho0 : E → Flt (doubleFormat fl h).Num) (x : X) (files : List (Name × (E → Flt (doubleFormat fl h).Num)))
    (hfiles : ∀ n r, load files n = some r → ∀ e, Free p.design p.pinned p.fixed e → NumberIn (fl (1 / 100)) (fl 1) (r e))
    (cs : List Call) :
    let A := (doubleFormat fl h).arith log exp
    let o := history (ocSys A (defaultCfg A) p) cs (fresh rho0 (x, some (fl 0)) files)
    (o.started = true → ∀ e, Free p.design p.pinned p.fixed e → NumberIn (fl (1 / 100)) (fl 1) (o.world.rho e)) ∧
    ∀ n r, load o.world.files n = some r → ∀ e, Free p.design p.pinned p.fixed e → NumberIn (fl (1 / 100)) (fl 1) (r e) := by
  intro A o
  have e0 : A.lit 0 = fl 0 := by show fl ((0 : ℚ) : ℝ) = _; rw [Rat.cast_zero]
  have e1 : (defaultCfg A).rhoMin = fl (1 / 100) := by show fl ((1 / 100 : ℚ) : ℝ) = _; norm_num
  have e2 : (defaultCfg A).rhoMax = fl 1 := by show fl ((1 : ℚ) : ℝ) = _; rw [Rat.cast_one]
  have key := C131_oc_run ((doubleFormat fl h).C132_format_halves log exp) ((doubleFormat fl h).C130_format_directed log exp)
    ((doubleFormat fl h).C131_format_signs log exp) (defaultCfg A) (defaultCfg_sane h log exp) p v0 hv0
  rw [e1, e2, e0] at key
  exact key hin rho0 x (fl 0) le_rfl files hfiles cs

/-- A run whose sensitivities are -1, whose exponent is 1/2 and whose move limit is 1/2. -/
def doublePlan {fl : ℝ → WithBot (WithTop doubles)} (h : DoubleRounding fl) :
    Plan (doubleFormat fl h).Num (Fin 3) Unit (Inputs (doubleFormat fl h).Num (Fin 3)) where
  maxIters := 10
  recordTimes := 5
  restart := false
  restartFrom := -1
  valInit := some (fl (1 / 2))
  design := {0, 1, 2}
  pinned := some {2}
  fixed := ∅
  analyse := fun _ _ _ => ((), .ok
    { dC := fun _ => some (fl (-1)), stat := some (fl 1), moveLimit := some (fl (1 / 2)), eta := some (fl (1 / 2)), volError := fun r => r 0 })
  record := fun _ _ _ _ => ((), .ok false)
  exportHist := id
  importHist := id
  initSched := fun _ => ((), .ok ())

/-- Case: a rounding exists, and `doublePlan` meets the hypotheses. -/
example : ∃ fl, ∃ h : DoubleRounding fl, ∀ cs : List Call, ∃ p : Plan (doubleFormat fl h).Num (Fin 3) Unit (Inputs (doubleFormat fl h).Num (Fin 3)),
    let A := (doubleFormat fl h).arith id id
    let o := history (ocSys A (defaultCfg A) p) cs (fresh (fun _ => none) ((), some (fl 0)) [])
    o.started = true → NumberIn (fl (1 / 100)) (fl 1) (o.world.rho 0) := by
  obtain ⟨fl, h⟩ := exists_doubleRounding
  refine ⟨fl, h, fun cs => ⟨doublePlan h, ?_⟩⟩
  intro A o hs
  refine (C131_double_precision_run h id id _ _ rfl ?_ (fun _ => none) () [] (fun _ _ hh => (nomatch hh)) cs).1 hs 0
    ⟨show (0 : Fin 3) ∈ ({0, 1, 2} : Finset (Fin 3)) by decide, show (0 : Fin 3) ∉ (∅ : Finset (Fin 3)) by decide, {2}, rfl, by decide⟩
  rintro k rho x y i hi -
  simp only [doublePlan, Prod.mk.injEq, Except.ok.injEq] at hi
  obtain ⟨-, rfl⟩ := hi
  have hh : fl (1 / 2) = (doubleFormat fl h).num ⟨1 / 2, (doubleFormat fl h).half⟩ := h.repr ⟨1 / 2, (doubleFormat fl h).half⟩
  have hn : fl (-1) = (doubleFormat fl h).num ⟨-1, (doubleFormat fl h).neg _ (doubleFormat fl h).one⟩ := h.repr ⟨-1, (doubleFormat fl h).neg _ (doubleFormat fl h).one⟩
  refine ⟨⟨_, rfl⟩, ⟨_, rfl⟩, ⟨_, rfl, h.mono (by norm_num), by rw [hh]; exact (doubleFormat fl h).fin_num _⟩,
    fun e _ => ⟨_, rfl, by rw [hn]; exact (doubleFormat fl h).fin_num _, h.mono (by norm_num)⟩⟩

end

end
end Verif.Rounded
