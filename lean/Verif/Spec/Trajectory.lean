import Verif.Spec.Run
import Verif.Spec.Snapshot

/-!
What a complete OC run is documented to compute, in mathematical terms only. The records `Run.Setup` (what the user
configures), `Run.Vals` (the eight scheduled numbers of an iteration) and `Run.Rec` (one line of the histories) are
shared with the model; nothing else of the model is used except the value of a configured schedule, which C01–C08
characterise.
-/
namespace Verif.Spec
open Verif.Sched Verif.Run

noncomputable section
open Classical

variable {ι E Q : Type} [Fintype ι] [Fintype E] [Fintype Q] {d m : ℕ}

/-- All eight schedules at iteration `k`. -/
structure AllScheduled (R : Common E d) (k : ℕ) (v : Vals) : Prop where
  p : Scheduled R R.cP k (some v.p)
  volFrac : Scheduled R R.cVolFrac k (some v.volFrac)
  moveLimit : Scheduled R R.cMoveLimit k (some v.moveLimit)
  beta : Scheduled R R.cBeta k (some v.beta)
  percentile : Scheduled R R.cPercentile k v.percentile
  radius : Scheduled R R.cRadius k (some v.radius)
  neumannScale : Scheduled R R.cNeumannScale k (some v.neumannScale)
  eta : R.etaConst = none → Scheduled R R.cEta k (some v.eta)
  etaConst : ∀ x, R.etaConst = some x → v.eta = x

/-! ### Filter and threshold -/

/-- Gaussian bell of width a third of the filter radius, cut off at the radius. -/
def bell (R : Common E d) (r : ℝ) (i j : E) : ℝ :=
  if dist (R.centers j) (R.centers i) ≤ r then Real.exp (-(3 * dist (R.centers j) (R.centers i) / r) ^ 2 / 2) else 0

/-- The share of design element `j` in the filtered density of design element `i`. -/
def share (R : Common E d) (r : ℝ) (i j : E) : ℝ := bell R r i j / ∑ k ∈ R.design, bell R r i k

/-- The volume-weighted mean at a node of the element values, with `value` instead on non-design elements. -/
def nodeMean (R : Common E d) (N : Nodal E) (value : ℝ) (x : E → ℝ) (n : Fin N.nodes) : ℝ :=
  (∑ e ∈ Finset.univ.filter fun e => ∃ i, N.t e i = n, R.volume e * if e ∈ R.design then x e else value) /
    ∑ e ∈ Finset.univ.filter fun e => ∃ i, N.t e i = n, R.volume e

/-- The mean over the nodes of an element. -/
def cornerMean (N : Nodal E) (x : Fin N.nodes → ℝ) (e : E) : ℝ := (∑ i, x (N.t e i)) / N.k

/-- The filtered density: a weighted mean (spatial filter), or to the nodes, through the Helmholtz equation with value 1 held
on non-design elements, and back (nodal filter). -/
def blur (R : Common E d) (r : ℝ) (x : E → ℝ) (i : E) : ℝ :=
  match R.nodal with
  | none => if i ∈ R.design then ∑ j ∈ R.design, share R r i j * x j else x i
  | some N => cornerMean N (relaxed N r (held R N) 1 (nodeMean R N 1 x)) i

/-- What is used as the transposed filter: the transpose on the design elements (spatial filter), or the negative part of the
filtered field with value 0 for non-design elements and no held nodes (nodal filter; not the transpose, see C56). -/
def blurT (R : Common E d) (r : ℝ) (g : E → ℝ) (j : E) : ℝ :=
  match R.nodal with
  | none => if j ∈ R.design then ∑ i ∈ R.design, share R r i j * g i else 0
  | some N => min (cornerMean N (relaxed N r ∅ 0 (nodeMean R N 0 g)) j) 0

/-- The smoothed Heaviside threshold. -/
def threshold (b h x : ℝ) : ℝ :=
  (Real.tanh (b * h) + Real.tanh (b * (x - h))) / (Real.tanh (b * h) + Real.tanh (b * (1 - h)) + 1 / 10 ^ 12)

/-- Its derivative. -/
def thresholdSlope (b h x : ℝ) : ℝ :=
  b / Real.cosh (b * (x - h)) ^ 2 / (Real.tanh (b * h) + Real.tanh (b * (1 - h)) + 1 / 10 ^ 12)

/-- The physical density of an element. -/
def physical (R : Common E d) (v : Vals) (rho : E → ℝ) (e : E) : ℝ :=
  threshold v.beta R.betaEta (blur R v.radius rho e)

/-! ### Linear elasticity -/

/-- SIMP: Young's modulus at physical density `x`. -/
def young (R : Setup ι E Q d m) (p x : ℝ) : ℝ := R.E0 * R.eMinCoeff + (R.E0 - R.E0 * R.eMinCoeff) * x ^ p

/-- The strain of the displacement `u` at a quadrature point. -/
def strain (R : Setup ι E Q d m) (u : ι → ℝ) (e : E) (q : Q) : Matrix (Fin d) (Fin d) ℝ :=
  Matrix.of fun a b => ((∑ i, u i * R.fe.grad i e q a b) + ∑ i, u i * R.fe.grad i e q b a) / 2

/-- The stress work `σ(s) : t` of Hooke's law with Young's modulus `Em`. -/
def stressWork (R : Setup ι E Q d m) (Em : ℝ) (s t : Matrix (Fin d) (Fin d) ℝ) : ℝ :=
  R.nu * Em / ((1 + R.nu) * (1 - 2 * R.nu)) * s.trace * t.trace + Em / (1 + R.nu) * ∑ a, ∑ b, s a b * t a b

/-- Internal virtual work of `u` on `w` in one element. -/
def innerWork (R : Setup ι E Q d m) (Em : E → ℝ) (u w : ι → ℝ) (e : E) : ℝ :=
  ∑ q, stressWork R (Em e) (strain R u e q) (strain R w e q) * R.fe.dx e q

/-- `u` is the displacement under the load `f`: it respects the supports and the virtual work is balanced. -/
def Displaced (R : Setup ι E Q d m) (Em : E → ℝ) (f u : ι → ℝ) : Prop :=
  (∀ i ∈ R.dirichlet, u i = 0) ∧
  ∀ w : ι → ℝ, (∀ i ∈ R.dirichlet, w i = 0) → ∑ e, innerWork R Em u w e = ∑ i, f i * w i

/-! ### Sensitivity -/

/-- `dC/dx` of one load case for physical density `x` and element energy `U`, with the density floor `1e-6` and the
modulus floor `1e-12`; `E0` is the coefficient of the solid material, `c` times that the one of the void. -/
def slopeOf (E0 c p x U : ℝ) : ℝ :=
  -2 * U * (p * (E0 - E0 * c) * max x (1 / 10 ^ 6) ^ (p - 1)) / max (E0 * c + (E0 - E0 * c) * max x (1 / 10 ^ 6) ^ p) (1 / 10 ^ 12)

/-- … on an elasticity task. -/
def slope (R : Setup ι E Q d m) (p x U : ℝ) : ℝ := slopeOf R.E0 R.eMinCoeff p x U

/-- The sensitivity handed to the update, for the derivatives `cols` of the load cases with respect to the physical densities: mean over
the load cases of the chain rule. -/
def chained {n : ℕ} (R : Common E d) (v : Vals) (rho : E → ℝ) (cols : Fin n → E → ℝ) : E → ℝ :=
  let one := fun j => blurT R v.radius fun e => cols j e * thresholdSlope v.beta R.betaEta (blur R v.radius rho e)
  let mean := fun e => (∑ j, one j e) / n
  if R.sensFilter then blur R v.radius mean else mean

/-- … on an elasticity task, for the displacements `u` of the load cases. -/
def gradient (R : Setup ι E Q d m) (v : Vals) (rho : E → ℝ) (u : Fin m → ι → ℝ) : E → ℝ :=
  let Em := fun e => young R v.p (physical R.toCommon v rho e)
  chained R.toCommon v rho fun j e => slope R v.p (physical R.toCommon v rho e) (innerWork R Em (u j) (u j) e / 2)

/-! ### OC update -/

/-- The growth factor of an element with scaled sensitivity `g` under multiplier `l`. -/
def rate (R : Common E d) (eta g l : ℝ) : ℝ :=
  if g = 0 ∧ eta < 0 then R.rateMax else min (max ((-g / (l + 1 / 10 ^ 12)) ^ eta) R.rateMin) R.rateMax

/-- The densities for multiplier `l`: growth, move limit, box; elements outside the design domain keep their density. -/
def grown (R : Common E d) (v : Vals) (rho g : E → ℝ) (l : ℝ) (e : E) : ℝ :=
  if e ∈ R.design then
    min (max (rho e * rate R v.eta (g e) l) (max (rho e - v.moveLimit) R.rhoMin)) (min (rho e + v.moveLimit) R.rhoMax)
  else rho e

/-- Physical volume fraction minus the target. -/
def excess (R : Common E d) (v : Vals) (rho : E → ℝ) : ℝ :=
  (∑ e ∈ R.design, physical R v rho e * R.volume e) / (∑ e ∈ R.design, R.volume e) - v.volFrac

/-- The bracket after halving the configured one `n` times, keeping the half below a midpoint that is not too heavy. -/
def bracket (R : Common E d) (F : ℝ → ℝ) : ℕ → ℝ × ℝ
  | 0 => (R.lambdaLower, R.lambdaUpper)
  | n + 1 =>
    if 0 < F (((bracket R F n).1 + (bracket R F n).2) / 2) then
      (((bracket R F n).1 + (bracket R F n).2) / 2, (bracket R F n).2)
    else ((bracket R F n).1, ((bracket R F n).1 + (bracket R F n).2) / 2)

/-- Its midpoint. -/
def middle (R : Common E d) (F : ℝ → ℝ) (n : ℕ) : ℝ := ((bracket R F n).1 + (bracket R F n).2) / 2

/-- After `n` halvings the midpoint is good enough. -/
def Enough (R : Common E d) (F : ℝ → ℝ) (n : ℕ) : Prop :=
  |F (middle R F n)| < 1 / 10 ^ 4 ∨ n = 1000 ∨ |(bracket R F n).2 - (bracket R F n).1| ≤ 1 / 10 ^ 5

/-- `l` is what bisection of `F` on the configured bracket stops at: the first midpoint that is good enough. -/
def Bisected (R : Common E d) (F : ℝ → ℝ) (l : ℝ) : Prop :=
  ∃ n, Enough R F n ∧ (∀ i < n, ¬ Enough R F i) ∧ l = middle R F n

/-- `e` keeps density 1: it is in the configured set, or there is no such set. -/
def Pinned (R : Common E d) (e : E) : Prop := ∀ s, R.pinned = some s → e ∈ s

/-- The OC update for the scheduled values `v` and the sensitivities `g`: from the densities `rho` and the running scale `rs` to `rho'`
and `rs'`, recording the line `r`. -/
def OCStep (R : Common E d) (v : Vals) (g : E → ℝ) (rho : E → ℝ) (rs : ℝ) (r : Rec) (rho' : E → ℝ) (rs' : ℝ) : Prop :=
  ∃ s : ℝ,
    -- scale of the sensitivities
    (v.percentile = none → IsGreatest ((fun e => |g e|) '' R.design) s) ∧
    (∀ q, v.percentile = some q → s = R.pct q fun e => |g e|) ∧
    rs' = (if r.iter ≤ 1 then max s R.scaleFloor else 0.6 * rs + 0.4 * max s R.scaleFloor) ∧
    -- multiplier and new densities
    Bisected R (fun l => excess R v (grown R v rho (fun e => g e / rs') l)) r.lmid ∧
    (∀ e, rho' e = if Pinned R e then 1 else grown R v rho (fun e => g e / rs') r.lmid e) ∧
    -- recorded numbers
    r.volError = some (excess R v (grown R v rho (fun e => g e / rs') r.lmid)) ∧
    IsGreatest ((fun e => |rho' e - rho e|) '' R.design) r.rhoChange ∧
    let inside := {e | e ∈ R.design ∧ R.rhoMin + 1 / 10 ^ 6 < grown R v rho (fun e => g e / rs') r.lmid e ∧
      grown R v rho (fun e => g e / rs') r.lmid e < R.rhoMax - 1 / 10 ^ 6}
    (inside = ∅ → r.kkt = 0) ∧
    (inside.Nonempty → IsGreatest ((fun e => |g e + r.lmid * rs' * (R.volume e / ∑ e' ∈ R.design, R.volume e')|) '' inside) r.kkt)

/-- One iteration: from the densities `rho` and the running scale `rs` to `rho'` and `rs'`, recording the line `r`. -/
def Iteration (R : Setup ι E Q d m) (rho : E → ℝ) (rs : ℝ) (r : Rec) (rho' : E → ℝ) (rs' : ℝ) : Prop :=
  ∃ (v : Vals) (u : Fin m → ι → ℝ), AllScheduled R.toCommon r.iter v ∧
    -- analysis of every load case, scaled
    (∀ j, Displaced R (fun e => young R v.p (physical R.toCommon v rho e)) (fun i => R.loads j i * v.neumannScale) (u j)) ∧
    r.compliance = (∑ j, ∑ i, R.loads j i * v.neumannScale * u j i) / m ∧ r.neumannScale = v.neumannScale ∧
    OCStep R.toCommon v (gradient R v rho u) rho rs r rho' rs'

/-- `x` is the initial value of the schedule `c`. -/
def InitialValue (c : Config) (x : ℝ) : Prop :=
  if c.schedType = "Constant" ∨ c.schedType = "ConstantOne" then c.targetValue = some x else c.initValue = some x

/-- The start densities: the initial volume fraction clipped to the box, and 1 on pinned and fixed elements. -/
def InitialDensities (R : Common E d) (rho : E → ℝ) : Prop :=
  ∃ x, InitialValue R.cVolFrac x ∧
    ∀ e, rho e = if Pinned R e ∨ e ∈ R.fixed then 1 else min R.rhoMax (max R.rhoMin x)

/-- Starting with densities `rho0`, running scale `rs0` and histories `log0`, some iterations `It` lead to the given ones. -/
inductive Reached (It : (E → ℝ) → ℝ → Rec → (E → ℝ) → ℝ → Prop) (rho0 : E → ℝ) (rs0 : ℝ) (log0 : List Rec) :
    (E → ℝ) → ℝ → List Rec → Prop where
  | refl : Reached It rho0 rs0 log0 rho0 rs0 log0
  | next {rho : E → ℝ} {rs : ℝ} {log : List Rec} (h : Reached It rho0 rs0 log0 rho rs log) {r : Rec} {rho' : E → ℝ} {rs' : ℝ}
      (hi : It rho rs r rho' rs') : Reached It rho0 rs0 log0 rho' rs' (log ++ [r])

/-- … on an elasticity task. -/
abbrev Continues (R : Setup ι E Q d m) (rho0 : E → ℝ) (rs0 : ℝ) (log0 : List Rec) : (E → ℝ) → ℝ → List Rec → Prop :=
  Reached (Iteration R) rho0 rs0 log0

/-- A restart finds the snapshot of iteration `k` with design densities `data`: chosen by `restart_from`, or the newest one
(below iteration one million, in a directory without look-alikes). -/
def Resumes (R : Common E d) (files : List (Snapshot.Name × (E → ℝ))) (k : ℕ) (data : E → ℝ) : Prop :=
  R.restart = true ∧ Snapshot.load files (Snapshot.snapshotName k) = some data ∧
  ((0 < k ∧ R.restartFrom = k) ∨ (R.restartFrom ≤ 0 ∧ k < 10 ^ 6 ∧
    (∀ n ∈ files.map Prod.fst, ∀ j, Snapshot.LooksLikeSnapshot n j → n = Snapshot.snapshotName j) ∧
    ∀ j, Snapshot.snapshotName j ∈ files.map Prod.fst → j ≤ k))

/-- The densities after a restart: the saved design densities, 1 on pinned and fixed elements, 0 elsewhere. -/
def resumed (R : Common E d) (data : E → ℝ) (e : E) : ℝ :=
  if Pinned R e ∨ e ∈ R.fixed then 1 else if e ∈ R.design then data e else 0

/-- A new run, or a restart that finds an admissible snapshot. -/
def CanStart (R : Common E d) (files : List (Snapshot.Name × (E → ℝ))) : Prop :=
  R.restart = false ∨ ∃ k data, Resumes R files k data ∧ k ≤ R.maxIters ∧
    ∀ e ∈ R.design, Pinned R e ∨ R.rhoMin ≤ data e ∧ data e ≤ R.rhoMax

end
end Verif.Spec
