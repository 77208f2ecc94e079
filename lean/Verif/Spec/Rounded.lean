import Verif.Model.Rounded

/-!
What the theorems about floating-point runs assume of the machine's arithmetic, and what "in the box" means. IEEE 754 double precision in
every rounding mode satisfies both sets of laws, with `fin` the finite numbers, infinities being the extreme elements of the order.
-/
namespace Verif.Spec
open Verif.Rounded

variable {α : Type} [LinearOrder α]

/-- Adding a non-negative number never decreases, subtracting one never increases (whatever the rounding); NaN in, NaN out. -/
structure Directed (A : Arith α) : Prop where
  add_nan : ∀ x, A.add x none = none
  sub_nan : ∀ x, A.sub x none = none ∧ A.sub none x = none
  add_ge : ∀ a b c, A.lit 0 ≤ b → A.add (some a) (some b) = some c → a ≤ c
  sub_le : ∀ a b c, A.lit 0 ≤ b → A.sub (some a) (some b) = some c → c ≤ a

/-- The halved sum of two numbers lies between them if twice the larger one does not overflow. -/
def Halves (A : Arith α) (fin : α → Prop) : Prop :=
  ∀ a b s, A.lit 0 ≤ a → a ≤ b → A.add (some b) (some b) = some s → fin s →
    ∃ m, A.mul (some (A.lit (1 / 2))) (A.add (some a) (some b)) = some m ∧ a ≤ m ∧ m ≤ b

/-- Where an operation returns a number, and its sign. `fin` are the finite numbers; results may overflow. -/
structure Signs (A : Arith α) (fin : α → Prop) : Prop where
  convex : ∀ a b c, fin a → fin c → a ≤ b → b ≤ c → fin b
  zero : fin (A.lit 0)
  eps : A.lit 0 < A.lit (1 / 10 ^ 12)
  sixty : A.lit 0 < A.lit (6 / 10) ∧ fin (A.lit (6 / 10))
  neg : ∀ a, a ≤ A.lit 0 → ∃ c, A.neg (some a) = some c ∧ A.lit 0 ≤ c
  add_pos : ∀ a b, A.lit 0 ≤ a → A.lit 0 < b → ∃ c, A.add (some a) (some b) = some c ∧ A.lit 0 < c
  add_mono : ∀ a b c d x y, a ≤ b → c ≤ d → A.add (some a) (some c) = some x → A.add (some b) (some d) = some y → x ≤ y
  add_fin : ∀ a b, fin a → fin b → ∃ c, A.add (some a) (some b) = some c
  sub_fin : ∀ a b, fin a → fin b → ∃ c, A.sub (some a) (some b) = some c
  mul_fin : ∀ a b, fin a → fin b → ∃ c, A.mul (some a) (some b) = some c
  mul_nonneg : ∀ a b, A.lit 0 < a → fin a → A.lit 0 ≤ b → ∃ c, A.mul (some a) (some b) = some c ∧ A.lit 0 ≤ c
  mul_mono : ∀ a b c x y, A.lit 0 ≤ a → b ≤ c → A.mul (some a) (some b) = some x → A.mul (some a) (some c) = some y → x ≤ y
  div_nonneg : ∀ a b, A.lit 0 ≤ a → A.lit 0 < b → fin a ∨ fin b → ∃ c, A.div (some a) (some b) = some c ∧ A.lit 0 ≤ c
  div_nonpos : ∀ a b, a ≤ A.lit 0 → A.lit 0 < b → fin a ∨ fin b → ∃ c, A.div (some a) (some b) = some c ∧ c ≤ A.lit 0
  pow_nonneg : ∀ a b, A.lit 0 ≤ a → ∃ c, A.pow (some a) (some b) = some c ∧ A.lit 0 ≤ c

/-- NaN or a number in `[lo, hi]`. -/
def NanOrIn (lo hi : α) (x : Flt α) : Prop := ∀ v, x = some v → lo ≤ v ∧ v ≤ hi

/-- A number in `[lo, hi]`. -/
def NumberIn (lo hi : α) (x : Flt α) : Prop := ∃ v, x = some v ∧ lo ≤ v ∧ v ≤ hi

/-- An element whose density the update rule decides: a design element the driver neither pins to 1 nor fixed at the start. -/
def Free {E : Type} (design : Finset E) (pinned : Option (Finset E)) (fixed : Finset E) (e : E) : Prop :=
  e ∈ design ∧ e ∉ fixed ∧ ∃ s, pinned = some s ∧ e ∉ s

/-- The configuration of an OC run as far as NaN is concerned: finite bounds, a bracket `0 ≤ lambda_lower ≤ lambda_upper` whose doubling does
not overflow, a positive scale floor that survives the factor `1 - 0.6`. -/
structure Sane (A : Arith α) (fin : α → Prop) (c : OCCfg α) : Prop where
  box : c.rhoMin ≤ c.rhoMax
  lo : fin c.rhoMin
  hi : fin c.rhoMax
  rates : c.rateMin ≤ c.rateMax
  rlo : fin c.rateMin
  rhi : fin c.rateMax
  l0 : A.lit 0 ≤ c.lambdaLower
  l1 : c.lambdaLower ≤ c.lambdaUpper
  l2 : fin c.lambdaUpper
  twice : ∃ s, A.add (some c.lambdaUpper) (some c.lambdaUpper) = some s ∧ fin s
  shifted : ∃ s, A.add (some c.lambdaUpper) (some (A.lit (1 / 10 ^ 12))) = some s ∧ fin s
  floor : A.lit 0 < c.scaleFloor
  weight : ∃ w f, A.sub (some (A.lit 1)) (some (A.lit (6 / 10))) = some w ∧ A.lit 0 < w ∧ fin w ∧
    A.mul (some w) (some c.scaleFloor) = some f ∧ A.lit 0 < f

/-- What LogMOC's update needs besides: `log` of a finite positive number is a small number, `exp` of a number is a number; small numbers
can be doubled and subtracted without overflow. (Doubles: absolute value at most 1000.) -/
structure Logs (A : Arith α) (fin small : α → Prop) : Prop where
  log : ∀ a, fin a → A.lit 0 < a → ∃ c, A.log (some a) = some c ∧ small c
  exp : ∀ a, ∃ c, A.exp (some a) = some c
  neg : ∀ a, ∃ c, A.neg (some a) = some c
  sub_small : ∀ a b, small a → small b → ∃ c, A.sub (some a) (some b) = some c ∧ fin c
  twice : ∀ a, small a → ∃ c, A.mul (some (A.lit 2)) (some a) = some c ∧ fin c
  sub_num : ∀ a b, small a → ∃ c, A.sub (some a) (some b) = some c

/-- The clipped densities LogMOC divides the move limit by keep the quotient finite and positive after adding 1. -/
def Bounded (A : Arith α) (fin : α → Prop) (lo hi m : α) : Prop :=
  ∀ x, lo ≤ x → x ≤ hi → ∃ u, A.add (A.div (some m) (A.exp (A.log (some x)))) (some (A.lit 1)) = some u ∧ fin u ∧ A.lit 0 < u

end Verif.Spec
