import Verif.Spec.Format

/-! What the theorems about schedules in double precision assume of the arithmetic. -/
namespace Verif.Spec

/-- Rounding to the nearest double, with any rule for ties, for numbers that do not overflow. -/
def NearestDouble (fl : ℝ → ℝ) : Prop :=
  ∀ x, |x| ≤ 2 ^ 1000 → fl x ∈ doubles ∧ ∀ z ∈ doubles, |fl x - x| ≤ |z - x|

/-- What a `pow` is trusted with: `0 ** c = 0` and `1 ** c = 1` for positive exponents, and powers of numbers in `[0, 1]` stay there. -/
def FairPow (pw : ℝ → ℝ → ℝ) : Prop :=
  ∀ c, 0 < c → pw 0 c = 0 ∧ pw 1 c = 1 ∧ ∀ a, 0 ≤ a → a ≤ 1 → 0 ≤ pw a c ∧ pw a c ≤ 1

/-- `a` and `b` are floats of ordinary size: doubles between `-2 ^ 500` and `2 ^ 500`, not both tiny. -/
def Ordinary (a b : ℝ) : Prop :=
  a ∈ doubles ∧ b ∈ doubles ∧ |a| ≤ 2 ^ 500 ∧ |b| ≤ 2 ^ 500 ∧ (2 : ℝ) ^ (-500 : ℤ) ≤ max |a| |b|

/-- Equal up to rounding: the difference is at most `2 ^ -50` (eight half ulps) of the larger of `|a|`, `|b|`, times `c`. -/
def CloseTo (a b : ℝ) (c : ℝ) (v w : ℝ) : Prop := |v - w| ≤ c * 2 ^ (-50 : ℤ) * max |a| |b|

/-- Iteration `it` is the first one of a step when `m` iterations are divided into `n` steps: `it = k * m / n` for some `k > 0`. -/
def StepBegins (m n it : ℤ) : Prop := ∃ k : ℤ, 0 < k ∧ it * n = k * m

/-- A step begins exactly at iteration `it`, and the step length `m / n` is not a double and is rounded up. -/
def Missed (fl : ℝ → ℝ) (m n it : ℤ) : Prop := StepBegins m n it ∧ (m : ℝ) / n < fl ((m : ℝ) / n)

end Verif.Spec
