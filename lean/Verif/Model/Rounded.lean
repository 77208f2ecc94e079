import Verif.Model.Driver
import Mathlib.Data.Rat.Defs

/-!
The two update rules in floating-point arithmetic: `/repo/scikit-topt/sktopt/core/optimizers/oc.py` lines 16–95, 182–229 and
`/repo/scikit-topt/sktopt/core/optimizers/logmoc.py` lines 36–66, 187–201.

A float is `some x` for a number (finite or infinite) of a linear order `α`, or `none` for NaN. Comparisons and `np.maximum`, `np.minimum`,
`np.clip` are exact and handle NaN as numpy does; `+ - * / pow log exp` are arbitrary operations (`Arith`), about which the theorems assume
as little as they need. Filter, projection, volume sum, sensitivities and statistics are arbitrary functions on floats.
-/
namespace Verif.Rounded

noncomputable section
open Classical

variable {α : Type} [LinearOrder α]

/-- A float of numpy. -/
abbrev Flt (α : Type) := Option α

/-- `np.maximum`: NaN if one argument is NaN. -/
def maximum : Flt α → Flt α → Flt α
  | some a, some b => some (max a b)
  | _, _ => none

/-- `np.minimum`: NaN if one argument is NaN. -/
def minimum : Flt α → Flt α → Flt α
  | some a, some b => some (min a b)
  | _, _ => none

/-- `np.clip(x, lo, hi)` = `np.minimum(np.maximum(x, lo), hi)`. -/
def clip (x lo hi : Flt α) : Flt α := minimum (maximum x lo) hi

/-- `a < b`, false if one is NaN. -/
def Lt (a b : Flt α) : Prop := ∃ x y, a = some x ∧ b = some y ∧ x < y

/-- `a <= b`, false if one is NaN. -/
def Le (a b : Flt α) : Prop := ∃ x y, a = some x ∧ b = some y ∧ x ≤ y

/-- Python's `max(a, b)`: the second argument only if it compares greater. -/
def pyMax (a b : Flt α) : Flt α := if Lt a b then b else a

/-- The arithmetic of the machine and the mathematical library. `lit q` is the float the literal `q` is read as. -/
structure Arith (α : Type) where
  lit : ℚ → α
  neg : Flt α → Flt α
  abs : Flt α → Flt α
  log : Flt α → Flt α
  exp : Flt α → Flt α
  add : Flt α → Flt α → Flt α
  sub : Flt α → Flt α → Flt α
  mul : Flt α → Flt α → Flt α
  div : Flt α → Flt α → Flt α
  pow : Flt α → Flt α → Flt α

variable {E : Type}

/-! ### OC -/

/-- The arguments of `bisection_with_physical_volume` (oc.py lines 16–46). `volError` is what lines 67–79 compute from the candidate
densities of the design elements (filter, projection, sum). -/
structure Params (α E : Type) where
  dC : E → Flt α
  rhoE : E → Flt α
  rhoMin : Flt α
  rhoMax : Flt α
  moveLimit : Flt α
  eta : Flt α
  eps : Flt α
  rateMin : Flt α
  rateMax : Flt α
  volError : (E → Flt α) → Flt α
  tolerance : Flt α
  volTol : Flt α

/-- oc.py lines 51–57. -/
def scaling (A : Arith α) (P : Params α E) (lmid : Flt α) (e : E) : Flt α :=
  clip (A.pow (A.div (A.neg (P.dC e)) (A.add lmid P.eps)) P.eta) P.rateMin P.rateMax

/-- oc.py lines 59–65. -/
def candidate (A : Arith α) (P : Params α E) (lmid : Flt α) (e : E) : Flt α :=
  clip (A.mul (P.rhoE e) (scaling A P lmid e)) (maximum (A.sub (P.rhoE e) P.moveLimit) P.rhoMin)
    (minimum (A.add (P.rhoE e) P.moveLimit) P.rhoMax)

/-- `0.5 * (l1 + l2)` (oc.py lines 48, 93). -/
def middle (A : Arith α) (l1 l2 : Flt α) : Flt α := A.mul (some (A.lit (1 / 2))) (A.add l1 l2)

/-- oc.py lines 47–95: the returned multiplier and volume error and the densities written in place. The first argument is
`max_iter - iter_num`. -/
def bisect (A : Arith α) (P : Params α E) : ℕ → Flt α → Flt α → Flt α × Flt α × (E → Flt α)
  | k, l1, l2 =>
    let lmid := middle A l1 l2
    let rho := candidate A P lmid
    let v := P.volError rho
    if Lt (A.abs v) P.volTol then (lmid, v, rho)
    else match k with
      | 0 => (lmid, v, rho)
      | k + 1 =>
        if Le (A.abs (A.sub l2 l1)) P.tolerance then (lmid, v, rho)
        else if Lt (some (A.lit 0)) v then bisect A P k lmid l2
        else bisect A P k l1 lmid

/-- The configuration `OC_Optimizer.rho_update` reads (oc.py lines 98–108, 182–229). -/
structure OCCfg (α : Type) where
  rhoMin : α
  rhoMax : α
  rateMin : α
  rateMax : α
  scaleFloor : α
  lambdaLower : α
  lambdaUpper : α

/-- What the analysis and the schedules of one iteration hand to the update: sensitivities of the design elements, `np.percentile` / `np.max`
of their absolute values, move limit, exponent, and the volume error as a function of the candidate. -/
structure Inputs (α E : Type) where
  dC : E → Flt α
  stat : Flt α
  moveLimit : Flt α
  eta : Flt α
  volError : (E → Flt α) → Flt α

/-- oc.py lines 187–194: the new `running_scale`. -/
def runningScale (A : Arith α) (c : OCCfg α) (k : ℕ) (rs stat : Flt α) : Flt α :=
  let scale := pyMax stat (some c.scaleFloor)
  if k > 1 then A.add (A.mul (some (A.lit (6 / 10))) rs) (A.mul (A.sub (some (A.lit 1)) (some (A.lit (6 / 10)))) scale) else scale

/-- The bisection arguments of oc.py lines 199–228. -/
def mkParams (A : Arith α) (c : OCCfg α) (i : Inputs α E) (rs : Flt α) (rho : E → Flt α) : Params α E where
  dC := fun e => A.div (i.dC e) rs
  rhoE := rho
  rhoMin := some c.rhoMin
  rhoMax := some c.rhoMax
  moveLimit := i.moveLimit
  eta := i.eta
  eps := some (A.lit (1 / 10 ^ 12))
  rateMin := some c.rateMin
  rateMax := some c.rateMax
  volError := i.volError
  tolerance := some (A.lit (1 / 10 ^ 5))
  volTol := some (A.lit (1 / 10 ^ 4))

/-- oc.py lines 182–229: the new running scale and the new densities of the design elements. -/
def ocUpdate (A : Arith α) (c : OCCfg α) (k : ℕ) (i : Inputs α E) (rs : Flt α) (rho : E → Flt α) : Flt α × (E → Flt α) :=
  let rs' := runningScale A c k rs i.stat
  (rs', (bisect A (mkParams A c i rs' rho) 1000 (some c.lambdaLower) (some c.lambdaUpper)).2.2)

/-! ### LogMOC -/

/-- `lagrangian_log_update` (logmoc.py lines 36–66), one element. -/
def logUpdate (A : Arith α) (rho dL eta moveLimit rhoMin rhoMax lagClip : Flt α) : Flt α :=
  let rate := clip dL (A.neg lagClip) lagClip
  let rho1 := clip rho rhoMin rhoMax
  let lower0 := A.log rho1
  let upper0 := A.exp lower0
  let upper1 := A.div moveLimit upper0
  let upper2 := A.add upper1 (some (A.lit 1))
  let upper3 := A.log upper2
  let lower1 := A.sub lower0 upper3
  let upper4 := A.add lower1 (A.mul (some (A.lit 2)) upper3)
  let rho2 := A.log rho1
  let rho3 := A.sub rho2 (A.mul eta rate)
  let rho4 := clip rho3 lower1 upper4
  let rho5 := A.exp rho4
  clip rho5 rhoMin rhoMax

/-- The new multiplier (logmoc.py lines 187–201); `augmented` is `dual_update == "augmented"`. -/
def lambdaUpdate (A : Arith α) (augmented : Bool) (muP decay lower upper : Flt α) (k : ℕ) (lam vErr : Flt α) : Flt α :=
  let penalty := A.mul muP vErr
  let raw :=
    if augmented then (if k > 1 then A.add lam penalty else penalty)
    else (if k > 1 then A.add (A.mul decay lam) (A.mul (A.sub (some (A.lit 1)) decay) penalty) else penalty)
  clip raw lower upper

/-! ### Runs -/

/-- `0.0`, `1.0`. -/
instance [Zero α] : Zero (Flt α) := ⟨some 0⟩

instance [One α] : One (Flt α) := ⟨some 1⟩

instance : Max (Flt α) := ⟨maximum⟩

instance : Min (Flt α) := ⟨minimum⟩

/-- What a run is given: the driver's configuration, and for iteration number, densities and the rest of the state either an exception or the
inputs of the update rule, with the state afterwards (schedules, filter, projection, finite elements, histories: arbitrary). `D` are the
inputs of the update rule. -/
structure Plan (α E X D : Type) where
  maxIters : ℕ
  recordTimes : ℕ
  restart : Bool
  restartFrom : ℤ
  valInit : Flt α
  design : Finset E
  pinned : Option (Finset E)
  fixed : Finset E
  analyse : ℕ → (E → Flt α) → X → X × Res D
  record : ℕ → (E → Flt α) → (E → Flt α) → X → X × Res Bool
  exportHist : X → X
  importHist : X → X
  initSched : X → X × Res Unit

variable {X : Type}

/-- The OC optimizer as a driver (common_density.py lines 1014–1243 with oc.py lines 149–250): the state `X × Flt α` is everything else and
`running_scale`. -/
def ocSys (A : Arith α) (c : OCCfg α) (p : Plan α E X (Inputs α E)) : Driver.Sys E (Flt α) (X × Flt α) where
  maxIters := p.maxIters
  recordTimes := p.recordTimes
  restart := p.restart
  restartFrom := p.restartFrom
  valInit := p.valInit
  rhoMin := some c.rhoMin
  rhoMax := some c.rhoMax
  design := p.design
  pinned := p.pinned
  fixed := p.fixed
  step := fun k rho s =>
    match p.analyse k rho s.1 with
    | (x, .error e) => ((x, s.2), .error e)
    | (x, .ok i) => ((x, (ocUpdate A c k i s.2 rho).1), .ok (ocUpdate A c k i s.2 rho).2)
  record := fun k rho rho' s =>
    match p.record k rho rho' s.1 with
    | (x, r) => ((x, s.2), r)
  exportHist := fun s => (p.exportHist s.1, s.2)
  importHist := fun s => (p.importHist s.1, s.2)
  initSched := fun s =>
    match p.initSched s.1 with
    | (x, r) => ((x, s.2), r)

/-- What a LogMOC iteration hands to `lagrangian_log_update`: the scaled derivative of the Lagrangian (logmoc.py lines 110–225, arbitrary),
exponent and move limit. -/
structure LogInputs (α E : Type) where
  dL : E → Flt α
  eta : Flt α
  moveLimit : Flt α

/-- The LogMOC optimizer as a driver (common_density.py lines 1014–1243 with logmoc.py lines 90–259). -/
def logSys (A : Arith α) (rhoMin rhoMax lagClip : α) (p : Plan α E X (LogInputs α E)) : Driver.Sys E (Flt α) X where
  maxIters := p.maxIters
  recordTimes := p.recordTimes
  restart := p.restart
  restartFrom := p.restartFrom
  valInit := p.valInit
  rhoMin := some rhoMin
  rhoMax := some rhoMax
  design := p.design
  pinned := p.pinned
  fixed := p.fixed
  step := fun k rho s =>
    match p.analyse k rho s with
    | (x, .error e) => (x, .error e)
    | (x, .ok i) => (x, .ok fun e => logUpdate A (rho e) (i.dL e) i.eta i.moveLimit (some rhoMin) (some rhoMax) (some lagClip))
  record := p.record
  exportHist := p.exportHist
  importHist := p.importHist
  initSched := p.initSched

end
end Verif.Rounded
