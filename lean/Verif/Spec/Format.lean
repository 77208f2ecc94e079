import Verif.Spec.Rounded
import Mathlib.Order.WithBot
import Mathlib.Analysis.SpecialFunctions.Pow.Real

/-!
Arithmetic that is computed exactly and then rounded to a format: a set of real numbers with two infinities and a monotone rounding.
IEEE 754 doubles with round-to-nearest (or any directed rounding) are such a format.
-/
namespace Verif.Spec
open Verif.Rounded

/-- A number format: the finite numbers `F` and the rounding `fl` of real numbers to `F` or an infinity. -/
structure Format where
  F : Set ℝ
  fl : ℝ → WithBot (WithTop F)
  /-- rounding is monotone -/
  mono : Monotone fl
  /-- representable numbers are not changed -/
  repr : ∀ x : F, fl x = ((x : WithTop F) : WithBot (WithTop F))
  zero : (0 : ℝ) ∈ F
  one : (1 : ℝ) ∈ F
  half : (1 / 2 : ℝ) ∈ F
  /-- the format is symmetric -/
  neg : ∀ x ∈ F, -x ∈ F
  /-- doubling a non-negative number is exact or overflows -/
  double : ∀ x ∈ F, 0 ≤ x → 2 * x ∈ F ∨ fl (2 * x) = ⊤
  /-- `1e-12` does not underflow -/
  eps : fl 0 < fl (1 / 10 ^ 12)

/-- The numbers of the format, with infinities. -/
abbrev Format.Num (f : Format) := WithBot (WithTop f.F)

/-- A finite number. -/
def Format.Fin (f : Format) (x : f.Num) : Prop := x ≠ ⊥ ∧ x ≠ ⊤

noncomputable section
open Classical

namespace Format
variable (f : Format)

/-- `0.0` and `1.0`. -/
instance : Zero f.Num := ⟨f.fl 0⟩

instance : One f.Num := ⟨f.fl 1⟩

/-- `+`; `inf - inf` is NaN. -/
def add : Flt f.Num → Flt f.Num → Flt f.Num
  | some (some (some x)), some (some (some y)) => some (f.fl (x + y))
  | some (some none), some none => none
  | some none, some (some none) => none
  | some none, some _ => some ⊥
  | some _, some none => some ⊥
  | some (some none), some _ => some ⊤
  | some _, some (some none) => some ⊤
  | _, _ => none

/-- Change of sign. -/
def negate : f.Num → f.Num
  | none => ⊤
  | some none => ⊥
  | some (some x) => f.fl (-x)

/-- `-`. -/
def sub (a b : Flt f.Num) : Flt f.Num := f.add a (b.map f.negate)

/-- `*`; `0 * inf` is NaN. -/
def mul : Flt f.Num → Flt f.Num → Flt f.Num
  | some (some (some x)), some (some (some y)) => some (f.fl (x * y))
  | some (some (some x)), some b => if (x : ℝ) = 0 then none else some (if 0 < (x : ℝ) then b else f.negate b)
  | some a, some (some (some y)) => if (y : ℝ) = 0 then none else some (if 0 < (y : ℝ) then a else f.negate a)
  | some (some none), some b => some b
  | some none, some b => some (f.negate b)
  | _, _ => none

/-- `/`; `0 / 0` and `inf / inf` are NaN, `x / 0` is infinite (the zero being positive), `x / inf` is 0. -/
def div : Flt f.Num → Flt f.Num → Flt f.Num
  | some (some (some x)), some (some (some y)) =>
    if (y : ℝ) = 0 then (if (x : ℝ) = 0 then none else some (if 0 < (x : ℝ) then ⊤ else ⊥)) else some (f.fl (x / y))
  | some (some (some _)), some _ => some (f.fl 0)
  | some a, some (some (some y)) => some (if 0 ≤ (y : ℝ) then a else f.negate a)
  | _, _ => none

/-- `x ** y` for `x ≥ 0`: finite arguments are rounded real powers, `0 ** y` is infinite for negative `y`, exponents and bases that are
infinite as in C99 (`1 ** y = 1`, `x ** 0 = 1`); a negative base gives NaN unless the exponent is an integer. -/
def pow : Flt f.Num → Flt f.Num → Flt f.Num
  | some (some (some x)), some (some (some y)) =>
    if (x : ℝ) < 0 ∧ ¬ ∃ k : ℤ, (k : ℝ) = y then none
    else if (x : ℝ) = 0 ∧ (y : ℝ) < 0 then some ⊤ else some (f.fl ((x : ℝ) ^ (y : ℝ)))
  | some (some none), some (some (some y)) => some (if (y : ℝ) = 0 then f.fl 1 else if 0 < (y : ℝ) then ⊤ else f.fl 0)
  | some (some (some x)), some (some none) => some (if |(x : ℝ)| = 1 then f.fl 1 else if 1 < |(x : ℝ)| then ⊤ else f.fl 0)
  | some (some (some x)), some none => some (if |(x : ℝ)| = 1 then f.fl 1 else if 1 < |(x : ℝ)| then f.fl 0 else ⊤)
  | some (some none), some (some none) => some ⊤
  | some (some none), some none => some (f.fl 0)
  | _, _ => none

/-- The arithmetic of the format; `log` and `exp` are arbitrary. -/
def arith (log exp : Flt f.Num → Flt f.Num) : Arith f.Num where
  lit := fun q => f.fl (q : ℝ)
  neg := Option.map f.negate
  abs := Option.map fun x => max x (f.negate x)
  log := log
  exp := exp
  add := f.add
  sub := f.sub
  mul := f.mul
  div := f.div
  pow := f.pow

end Format
/-- The finite IEEE 754 double precision numbers. -/
def doubles : Set ℝ := {x | ∃ m e : ℤ, |m| < 2 ^ 53 ∧ -1074 ≤ e ∧ e ≤ 971 ∧ x = m * (2 : ℝ) ^ e}

/-- A rounding to doubles: monotone, exact on doubles, numbers from `2 ^ 1024` on overflow. Round to nearest (numpy's mode) is one. -/
structure DoubleRounding (fl : ℝ → WithBot (WithTop doubles)) : Prop where
  mono : Monotone fl
  repr : ∀ x : doubles, fl x = ((x : WithTop doubles) : WithBot (WithTop doubles))
  over : ∀ x : ℝ, 2 ^ 1024 ≤ x → fl x = ⊤

end
end Verif.Spec
