import Verif.Model.RoundedLog
import Verif.Spec.RoundedRun

/-! What a double-precision LogMOC run of ordinary size is. -/
namespace Verif.Spec
open Verif.Rounded

/-- What library `log` and `exp` are trusted with: the logarithm of a positive finite number is finite, of absolute value at most 1024; `exp`
of a number is a number; `exp (log x)` is not off by more than a factor 2 for `x` in `[2 ^ -10, 1]`. -/
structure FairLogExp (f : Format) (log exp : Flt f.Num → Flt f.Num) : Prop where
  log_value : ∀ x : f.F, 0 < (x : ℝ) → Within f (-1024) 1024 (log (some ((x : WithTop f.F) : WithBot (WithTop f.F))))
  exp_value : ∀ a, ∃ c, exp (some a) = some c
  inverse : ∀ x : f.F, 2 ^ (-10 : ℤ) ≤ (x : ℝ) → (x : ℝ) ≤ 1 →
    Within f (2 ^ (-11 : ℤ)) 2 (exp (log (some ((x : WithTop f.F) : WithBot (WithTop f.F)))))

variable {E X : Type}

/-- Within `[-2 ^ k, 2 ^ k]`. -/
def Size (f : Format) (k : ℕ) (x : Flt f.Num) : Prop := Within f (-2 ^ k) (2 ^ k) x

/-- A run of ordinary size, as in `UsualRun`, with the options of LogMOC: multiplier bounds at most `2 ^ 40`, penalty factors and gains at
most `2 ^ 20`, scale floors in `[2 ^ -40, 1]`, normalised volumes in `[0, 1]`, volume errors at most `2 ^ 10`; a percentile of absolute values
is not negative and at most twice the largest one. -/
structure UsualLogRun (f : Format) (S : LogSetup f.Num E X) : Prop extends UsualSetup f S.toSetup where
  schedules : ∀ k x y v, S.values k x = (y, .ok v) →
    Within f (1 / 2) 32 v.p ∧ Within f (1 / 2) (2 ^ 20) v.beta ∧ Within f 0 (2 ^ 200) v.moveLimit ∧ Size f 200 v.eta
  loads : ∀ k p r x y Us, S.energies k p r x = (y, .ok Us) →
    Us ≠ [] ∧ Us.length ≤ 2 ^ 20 ∧ ∀ U ∈ Us, ∀ i ∈ S.ids, Within f 0 (2 ^ 200) (U i)
  weight : ∀ i ∈ S.ids, Within f 0 1 (S.weight i)
  error : ∀ k x r, (∀ i ∈ S.ids, Within f 0 16 (r i)) → Size f 10 (S.error k x r)
  percentile : ∀ n k x d b, b ≤ 900 → (∀ i ∈ S.ids, Size f b (d i)) → Within f 0 (2 ^ (b + 1)) (S.percentile n k x d)
  gain : Size f 20 S.gain
  gainUnder : ∀ g, S.gainUnder = some g → Size f 20 g
  scaleFloor : Within f (2 ^ (-40 : ℤ)) 1 S.scaleFloor
  chainFloor : Within f (2 ^ (-40 : ℤ)) 1 S.chainFloor
  muP : Size f 20 S.muP
  decay : Within f 0 1 S.decay
  bounds : ∃ lo hi : f.F, S.lambdaLower = some ((lo : WithTop f.F) : WithBot (WithTop f.F)) ∧
    S.lambdaUpper = some ((hi : WithTop f.F) : WithBot (WithTop f.F)) ∧ -2 ^ 40 ≤ (lo : ℝ) ∧ (lo : ℝ) ≤ hi ∧ (hi : ℝ) ≤ 2 ^ 40
  augMu : Size f 20 S.augMu

end Verif.Spec
