import Verif.Model.Py
import Verif.Model.Projection
import Mathlib.Analysis.SpecialFunctions.Pow.Real
import Mathlib.Data.Finset.Lattice.Fold

/-!
Model of `/repo/scikit-topt/sktopt/core/optimizers/oc.py`: the bisection on the Lagrange multiplier and
`OC_Optimizer.rho_update`.

Elements are indexed by an arbitrary finite type `E`; the index array `design_elements` (duplicate free by
construction, see `Verif.Model.Task`) is a `Finset`, and vectors over the design elements are functions on `E` of which
only the design entries are used. A NaN produced by `np.power` on a negative base is the value `none`. The scratch
buffers (`scaling_rate`, `rho_clip_lower`, ...) are local values here: each of them is completely overwritten before it
is read in every iteration of the loop (oc.py:51, 59, 60, 61, 67, 69, 74).
-/
namespace Verif.OC
open Verif

noncomputable section
open Classical

variable {E : Type} [Fintype E]

/-- `np.clip(x, lo, hi)` = `np.minimum(np.maximum(x, lo), hi)` (oc.py:54-57, 62-65). -/
def clip (x lo hi : ℝ) : ℝ := min (max x lo) hi

/-- The arguments of `bisection_with_physical_volume` (oc.py:16-46); `filter` is `filter_obj.forward`. -/
structure Params (E : Type) where
  dC : E → ℝ
  rhoE : E → ℝ
  rhoFull : E → ℝ
  design : Finset E
  filter : (E → ℝ) → (E → ℝ)
  rhoMin : ℝ
  rhoMax : ℝ
  moveLimit : ℝ
  eta : ℝ
  eps : ℝ
  volFrac : ℝ
  beta : ℝ
  betaEta : ℝ
  volume : E → ℝ
  volumeSum : ℝ
  rateMin : ℝ
  rateMax : ℝ
  tolerance : ℝ
  volTol : ℝ

/-- oc.py:51-57, the clipped scaling rate of one element. `none` is NaN: a negative base with a fractional exponent, or
a zero denominator `lmid + eps` (the latter is really ±inf or NaN depending on the numerator; simplified, it cannot
occur for a non-negative bracket). `0 ** negative` is `inf`, which the clip turns into `rateMax`. -/
def scaling (P : Params E) (lmid : ℝ) (e : E) : Option ℝ :=
  if lmid + P.eps = 0 then none
  else
    let base := -(P.dC e) / (lmid + P.eps)
    if base < 0 ∧ ¬ ∃ k : ℤ, (k : ℝ) = P.eta then none
    else if base = 0 ∧ P.eta < 0 then some P.rateMax
    else some (clip (base ^ P.eta) P.rateMin P.rateMax)

/-- oc.py:59-65, the candidate density of one element. -/
def candidate (P : Params E) (lmid : ℝ) (e : E) : Option ℝ :=
  (scaling P lmid e).map fun s =>
    clip (P.rhoE e * s) (max (P.rhoE e - P.moveLimit) P.rhoMin) (min (P.rhoE e + P.moveLimit) P.rhoMax)

/-- oc.py:67-68, the full candidate field (only used when no design entry is NaN). -/
def fullCandidate (P : Params E) (lmid : ℝ) (e : E) : ℝ :=
  if e ∈ P.design then (candidate P lmid e).getD 0 else P.rhoFull e

/-- oc.py:67-79, the relative volume error of the filtered and projected candidate; a NaN in a design entry makes the
sum NaN. -/
def volError (P : Params E) (lmid : ℝ) : Option ℝ :=
  if ∃ e ∈ P.design, candidate P lmid e = none then none
  else
    let filtered := P.filter (fullCandidate P lmid)
    let projected := fun e => Projection.heavisideInplace (filtered e) P.beta P.betaEta
    some ((∑ e ∈ P.design, projected e * P.volume e) / P.volumeSum - P.volFrac)

/-- What the bisection leaves behind: the returned pair `(lmid, vol_error)` (oc.py:95), the array `rho_design_eles`
written in place, and, for the statements about the loop, its local variables `iter_num`, `l1`, `l2` at exit. -/
structure Out (E : Type) where
  lmid : ℝ
  volError : Option ℝ
  rho : E → Option ℝ
  iters : ℕ
  l1 : ℝ
  l2 : ℝ

/-- The state of the loop at `break`. -/
def stop (P : Params E) (l1 l2 : ℝ) (iters : ℕ) : Out E :=
  let lmid := 0.5 * (l1 + l2)
  { lmid, volError := volError P lmid, rho := candidate P lmid, iters, l1, l2 }

/-- oc.py:47-95, the loop. The first argument is `max_iter - iter_num` (the loop breaks when it is 0), `iters` is
`iter_num`. Comparisons with NaN are false. -/
def bisect (P : Params E) : ℕ → ℕ → ℝ → ℝ → Out E
  | k, iters, l1, l2 =>
    let lmid := 0.5 * (l1 + l2)
    let v := volError P lmid
    if ∃ x, v = some x ∧ |x| < P.volTol then stop P l1 l2 iters          -- 81-82
    else match k with
      | 0 => stop P l1 l2 iters                                            -- 83-84
      | k + 1 =>
        if |l2 - l1| ≤ P.tolerance then stop P l1 l2 iters                 -- 85-86
        else if ∃ x, v = some x ∧ x > 0 then bisect P k (iters + 1) lmid l2  -- 88-89
        else bisect P k (iters + 1) l1 lmid                                -- 90-91

/-- oc.py:16-95 `bisection_with_physical_volume`. -/
def bisection (P : Params E) (maxIter : ℕ) (l1 l2 : ℝ) : Out E := bisect P maxIter 0 l1 l2

/-! ### `OC_Optimizer.rho_update` -/

/-- The configuration and task fields `rho_update` reads (oc.py:98-108, 149-229; common_density.py:349-389). -/
structure Cfg (E : Type) where
  rhoMin : ℝ
  rhoMax : ℝ
  betaEta : ℝ
  lambdaLower : ℝ
  lambdaUpper : ℝ
  rateMin : ℝ := 0.7
  rateMax : ℝ := 1.3
  scaleFloor : ℝ := 1 / 10 ^ 12
  design : Finset E
  filter : (E → ℝ) → (E → ℝ)
  volume : E → ℝ
  dV : E → ℝ

/-- The per-iteration scheduled arguments of `rho_update` (oc.py:149-167); `percentile` is the statistic
`np.percentile(np.abs(·), percentile)` when a float was scheduled, `none` otherwise (external function). -/
structure StepArgs (E : Type) where
  iterNum : ℕ
  moveLimit : ℝ
  eta : ℝ
  beta : ℝ
  volFrac : ℝ
  percentile : Option ((E → ℝ) → ℝ)

/-- oc.py:187-192: `scale`. `np.max` of an empty array raises ValueError. -/
def sensScale (c : Cfg E) (a : StepArgs E) (dC : E → ℝ) : Res ℝ :=
  match a.percentile with
  | some p => .ok (max (p fun e => |dC e|) c.scaleFloor)
  | none => if h : c.design.Nonempty then .ok (max (c.design.sup' h fun e => |dC e|) c.scaleFloor)
            else .error .valueError

/-- oc.py:193-194 `self.running_scale = 0.6 * self.running_scale + (1 - 0.6) * scale if iter_num > 1 else scale`
(the conditional expression binds weakest). -/
def newRunningScale (iterNum : ℕ) (runningScale scale : ℝ) : ℝ :=
  if iterNum > 1 then 0.6 * runningScale + (1 - 0.6) * scale else scale

/-- The bisection arguments assembled at oc.py:199-228 (`eps = 1e-12`, `tolerance = 1e-5`, `vol_tol` default `1e-4`). -/
def mkParams (c : Cfg E) (a : StepArgs E) (rs : ℝ) (rhoState rho dC : E → ℝ) : Params E :=
  { dC := fun e => dC e / rs, rhoE := rho, rhoFull := rhoState, design := c.design, filter := c.filter,
    rhoMin := c.rhoMin, rhoMax := c.rhoMax, moveLimit := a.moveLimit, eta := a.eta, eps := 1 / 10 ^ 12,
    volFrac := a.volFrac, beta := a.beta, betaEta := c.betaEta, volume := c.volume,
    volumeSum := ∑ e ∈ c.design, c.volume e, rateMin := c.rateMin, rateMax := c.rateMax,
    tolerance := 1 / 10 ^ 5, volTol := 1 / 10 ^ 4 }

/-- oc.py:231-240, the KKT residual: the largest `|dC + lmid * running_scale * dV|` over the design elements whose new
density is strictly inside the box by `1e-6`, 0 if there is none. (`none` densities are NaN, the mask is then false.) -/
def kktResidual (c : Cfg E) (dCraw : E → ℝ) (lmid rs : ℝ) (rho : E → Option ℝ) : ℝ :=
  let mask := c.design.filter fun e => ∃ r, rho e = some r ∧ r > c.rhoMin + 1 / 10 ^ 6 ∧ r < c.rhoMax - 1 / 10 ^ 6
  if h : mask.Nonempty then mask.sup' h fun e => |dCraw e + (lmid * rs) * c.dV e| else 0

/-- What `rho_update` leaves behind: the new design densities, the stored running scale, the KKT residual, and the
numbers fed to the histories (oc.py:247-250). -/
structure UpdateOut (E : Type) where
  rho : E → Option ℝ
  runningScale : ℝ
  kkt : ℝ
  lmid : ℝ
  volError : Option ℝ
  iters : ℕ

/-- oc.py:149-250 `OC_Optimizer.rho_update`. -/
def rhoUpdate (c : Cfg E) (a : StepArgs E) (runningScale : ℝ) (rhoState rho dC : E → ℝ) : Res (UpdateOut E) := do
  let scale ← sensScale c a dC
  let rs := newRunningScale a.iterNum runningScale scale
  let out := bisection (mkParams c a rs rhoState rho dC) 1000 c.lambdaLower c.lambdaUpper
  pure { rho := out.rho, runningScale := rs, kkt := kktResidual c dC out.lmid rs out.rho, lmid := out.lmid,
         volError := out.volError, iters := out.iters }

end
end Verif.OC
