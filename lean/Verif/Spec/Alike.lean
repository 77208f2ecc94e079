import Verif.Spec.RunLog
import Verif.Spec.Percentile
import Mathlib.Algebra.Module.Equiv.Basic
import Mathlib.LinearAlgebra.Pi

/-!
When two problems are the same up to numbering (of elements, nodes, degrees of freedom and load cases), the directions of the axes, and
the units of length, force and modulus.
-/
namespace Verif.Spec
open Verif.Sched Verif.Run

noncomputable section
open Classical

variable {ι E Q ι' E' Q' : Type} [Fintype ι] [Fintype E] [Fintype Q] [Fintype ι'] [Fintype E'] [Fintype Q'] {d d' m : ℕ}

/-- How one description of a problem is translated into another one. -/
structure Change (ι E ι' E' : Type) (m : ℕ) where
  /-- the other number of an element -/
  element : E ≃ E'
  /-- the other description of a displacement field -/
  motion : (ι → ℝ) ≃ₗ[ℝ] (ι' → ℝ)
  /-- the other position of a load case -/
  case : Equiv.Perm (Fin m)
  /-- whether a load case is reversed: 1 or -1 -/
  sign : Fin m → ℝ := fun _ => 1
  /-- the factors by which lengths, volumes, the work of the loads, Young's modulus, and the strain energy at unit modulus change -/
  length : ℝ := 1
  volume : ℝ := 1
  load : ℝ := 1
  modulus : ℝ := 1
  energy : ℝ := 1

/-- The factor by which compliances and their derivatives change. -/
def Change.work (c : Change ι E ι' E' m) : ℝ := c.load ^ 2 / (c.modulus * c.energy)

/-- A field on the elements in the other numbering. -/
def Change.move (c : Change ι E ι' E' m) (x : E → ℝ) : E' → ℝ := fun e => x (c.element.symm e)

/-- The same mesh for the nodal filter, up to the numbering of nodes and corners and the unit of length. -/
structure SameNodes (c : Change ι E ι' E' m) (N : Nodal E) (N' : Nodal E') : Prop where
  corners : N'.k = N.k
  nodes : ∃ (f : Fin N.nodes ≃ Fin N'.nodes) (s : ℝ), 0 < s ∧
    (∀ e, ∃ g : Fin N.k ≃ Fin N'.k, ∀ i, N'.t (c.element e) (g i) = f (N.t e i)) ∧
    (∀ i j, N'.mass (f i) (f j) = s * N.mass i j) ∧
    ∀ i j, c.length ^ 2 * N'.stiff (f i) (f j) = s * N.stiff i j

/-- `R'` is the problem `R` in the description given by `c`, as far as both optimizers are concerned. -/
structure Alike (c : Change ι E ι' E' m) (R : Setup ι E Q d m) (R' : Setup ι' E' Q' d' m) : Prop where
  factors : 0 < c.length ∧ 0 < c.volume ∧ c.load ≠ 0 ∧ 0 < c.modulus ∧ 0 < c.energy
  signs : ∀ j, c.sign j = 1 ∨ c.sign j = -1
  -- the same configuration
  p : R'.cP = R.cP
  volFrac : R'.cVolFrac = R.cVolFrac
  moveLimit : R'.cMoveLimit = R.cMoveLimit
  beta : R'.cBeta = R.cBeta
  percentile : R'.cPercentile = R.cPercentile
  neumannScale : R'.cNeumannScale = R.cNeumannScale
  eta : R'.cEta = R.cEta ∧ R'.etaConst = R.etaConst
  iters : R'.maxIters = R.maxIters ∧ R'.recordTimes = R.recordTimes
  restart : R'.restart = R.restart ∧ R'.restartFrom = R.restartFrom
  box : R'.rhoMin = R.rhoMin ∧ R'.rhoMax = R.rhoMax
  betaEta : R'.betaEta = R.betaEta
  eMinCoeff : R'.eMinCoeff = R.eMinCoeff
  sensFilter : R'.sensFilter = R.sensFilter
  convergence : R'.checkConvergence = R.checkConvergence ∧ R'.tolRho = R.tolRho
  /-- the filter radius in the other unit of length -/
  radius : ∀ k r, Scheduled R.toCommon R.cRadius k (some r) → Scheduled R'.toCommon R'.cRadius k (some (c.length * r))
  /-- the statistic does not depend on the numbering and is homogeneous -/
  statistic : ∀ q s x x', 0 < s → (∀ e ∈ R.design, x' (c.element e) = s * x e) → R'.pct q x' = s * R.pct q x
  -- the same mesh
  volume : ∀ e, R'.volume (c.element e) = c.volume * R.volume e
  design : ∀ e, c.element e ∈ R'.design ↔ e ∈ R.design
  pinned : ∀ e, Pinned R'.toCommon (c.element e) ↔ Pinned R.toCommon e
  fixed : ∀ e, c.element e ∈ R'.fixed ↔ e ∈ R.fixed
  centers : ∀ e f, dist (R'.centers (c.element e)) (R'.centers (c.element f)) = c.length * dist (R.centers e) (R.centers f)
  spacial : R.nodal = none → R'.nodal = none
  helmholtz : ∀ N, R.nodal = some N → ∃ N', R'.nodal = some N' ∧ SameNodes c N N'
  -- the same structure
  modulus : R'.E0 = c.modulus * R.E0
  /-- the absolute floor under the modulus plays no role, unless the modulus is the same anyway -/
  modulusFloor : c.modulus = 1 ∨ 1 / 10 ^ 12 ≤ R.E0 * R.eMinCoeff ∧ 1 / 10 ^ 12 ≤ R'.E0 * R'.eMinCoeff
  supports : ∀ u : ι → ℝ, (∀ i ∈ R'.dirichlet, c.motion u i = 0) ↔ ∀ i ∈ R.dirichlet, u i = 0
  energy : ∀ u w e, innerWork R' (fun _ => 1) (c.motion u) (c.motion w) (c.element e) = c.energy * innerWork R (fun _ => 1) u w e
  loads : ∀ j w, (∀ i ∈ R.dirichlet, w i = 0) →
    ∑ i, R'.loads (c.case j) i * c.motion w i = c.sign j * c.load * ∑ i, R.loads j i * w i

/-- A line of the histories in the other unit of work. -/
def Change.line (c : Change ι E ι' E' m) (r : Rec) : Rec :=
  { r with compliance := c.work * r.compliance, kkt := c.work * r.kkt }

/-- … and as far as OC is concerned. The two absolute tolerances must change with the unit of work. -/
structure AlikeOC (c : Change ι E ι' E' m) (R : Setup ι E Q d m) (R' : Setup ι' E' Q' d' m) : Prop extends Alike c R R' where
  bounds : R'.lambdaLower = R.lambdaLower ∧ R'.lambdaUpper = R.lambdaUpper
  rates : R'.rateMin = R.rateMin ∧ R'.rateMax = R.rateMax
  scaleFloor : R'.scaleFloor = c.work * R.scaleFloor
  tolKkt : R'.tolKkt = c.work * R.tolKkt
  /-- histories to be continued are given in the other unit -/
  saved : R.restart = true → R'.saved = R.saved.map (List.map c.line)

/-- The factor by which the multiplier of the volume constraint changes in a LogMOC run: its unit is that of the compliance, unless the
volume term is normalized. -/
def Change.price (c : Change ι E ι' E' m) (L : LogSetup ι E Q d m) : ℝ := if L.normalizeVolumeChain then 1 else c.work

/-- A line of the histories of a LogMOC run in the other unit of work. -/
def Change.logLine (c : Change ι E ι' E' m) (L : LogSetup ι E Q d m) (r : LogRec) : LogRec :=
  { r with compliance := c.work * r.compliance, lambdaV := c.price L * r.lambdaV, coeff := c.price L * r.coeff }

/-- `L'` is the problem `L` in the description given by `c`, as far as LogMOC is concerned. The convergence tolerance is unit-free, but the
multiplier's gains and range and the scale floor have units. -/
structure AlikeLog (c : Change ι E ι' E' m) (L : LogSetup ι E Q d m) (L' : LogSetup ι' E' Q' d' m) : Prop
    extends Alike c L.toSetup L'.toSetup where
  gains : L'.muP = c.price L * L.muP ∧ L'.alMu = c.price L * L.alMu
  bounds : L'.lambdaLower = c.price L * L.lambdaLower ∧ L'.lambdaUpper = c.price L * L.lambdaUpper
  decay : L'.lambdaDecay = L.lambdaDecay ∧ L'.augmented = L.augmented
  clip : L'.lagClip = L.lagClip
  percentiles : L'.lagPercentile = L.lagPercentile ∧ L'.volumeChainPercentile = L.volumeChainPercentile
  floors : L'.lagScaleFloor = c.work * L.lagScaleFloor ∧ L'.volumeChainScaleFloor = L.volumeChainScaleFloor
  chain : L'.normalizeVolumeChain = L.normalizeVolumeChain ∧ L'.volumeChainGain = L.volumeChainGain ∧
    L'.volumeChainGainUnder = L.volumeChainGainUnder
  options : L'.filterLagrangian = L.filterLagrangian ∧ L'.centerLagrangian = L.centerLagrangian ∧ L'.centerObjective = L.centerObjective
  /-- the nodal filter holds the value 1 (in whatever unit) on non-design elements -/
  filtered : L.filterLagrangian = true → c.work = 1 ∨ L.nodal = none
  tolKkt : L'.tolKkt = L.tolKkt

/-- The snapshot files in the other numbering. -/
def Change.directory (c : Change ι E ι' E' m) (files : List (Snapshot.Name × (E → ℝ))) : List (Snapshot.Name × (E' → ℝ)) :=
  files.map fun f => (f.1, c.move f.2)

/-! ### Special cases -/

/-- The statistic used to scale sensitivities is `np.percentile` of the values on the design elements. -/
def UsesPercentile (R : Setup ι E Q d m) : Prop := ∀ q x, R.pct q x = percentile q (R.design.val.map x)

/-- The load cases in another order. -/
def reordered (R : Setup ι E Q d m) (order : Equiv.Perm (Fin m)) : Setup ι E Q d m :=
  { R with loads := fun j => R.loads (order j) }

/-- Some load cases reversed. -/
def reversed (R : Setup ι E Q d m) (back : Finset (Fin m)) : Setup ι E Q d m :=
  { R with loads := fun j i => if j ∈ back then -R.loads j i else R.loads j i }

/-- All loads times `a`, Young's modulus times `b`, and the tolerances that have the unit of work times `a² / b`. -/
def inUnits (R : Setup ι E Q d m) (a b : ℝ) : Setup ι E Q d m :=
  { R with
    loads := fun j i => a * R.loads j i
    E0 := b * R.E0
    scaleFloor := a ^ 2 / b * R.scaleFloor
    tolKkt := a ^ 2 / b * R.tolKkt }

/-- The problem with other numbers for the elements and the degrees of freedom (and the solver library for these). -/
def renumbered (R : Setup ι E Q d m) (el : E ≃ E') (dof : ι ≃ ι') (B : Solver.Backend ℝ (Matrix ι' ι' ℝ) (ι' → ℝ)) :
    Setup ι' E' Q d m where
  cP := R.cP
  cVolFrac := R.cVolFrac
  cMoveLimit := R.cMoveLimit
  cBeta := R.cBeta
  cPercentile := R.cPercentile
  cRadius := R.cRadius
  cNeumannScale := R.cNeumannScale
  cEta := R.cEta
  etaConst := R.etaConst
  maxIters := R.maxIters
  recordTimes := R.recordTimes
  restart := R.restart
  restartFrom := R.restartFrom
  rhoMin := R.rhoMin
  rhoMax := R.rhoMax
  betaEta := R.betaEta
  lambdaLower := R.lambdaLower
  lambdaUpper := R.lambdaUpper
  rateMin := R.rateMin
  rateMax := R.rateMax
  scaleFloor := R.scaleFloor
  eMinCoeff := R.eMinCoeff
  sensFilter := R.sensFilter
  checkConvergence := R.checkConvergence
  tolRho := R.tolRho
  tolKkt := R.tolKkt
  saved := R.saved
  nodal := R.nodal.map fun N => { N with t := fun e => N.t (el.symm e) }
  centers e := R.centers (el.symm e)
  volume e := R.volume (el.symm e)
  design := R.design.map el.toEmbedding
  pinned := R.pinned.map fun s => s.map el.toEmbedding
  fixed := R.fixed.map el.toEmbedding
  fe := { grad := fun i e => R.fe.grad (dof.symm i) (el.symm e), dx := fun e => R.fe.dx (el.symm e) }
  nu := R.nu
  E0 := R.E0
  dirichlet := R.dirichlet.map dof.toEmbedding
  loads j i := R.loads j (dof.symm i)
  backend := B
  solver := R.solver
  pct q x := R.pct q fun e => x (el e)

/-- A LogMOC problem with all loads times `a` and Young's modulus times `b`. Everything with the unit of work (and, unless the volume term
is normalized, everything with the unit of the multiplier) times `a² / b`. -/
def logInUnits (L : LogSetup ι E Q d m) (a b : ℝ) : LogSetup ι E Q d m :=
  { L with
    loads := fun j i => a * L.loads j i
    E0 := b * L.E0
    lagScaleFloor := a ^ 2 / b * L.lagScaleFloor
    muP := (if L.normalizeVolumeChain then 1 else a ^ 2 / b) * L.muP
    alMu := (if L.normalizeVolumeChain then 1 else a ^ 2 / b) * L.alMu
    lambdaLower := (if L.normalizeVolumeChain then 1 else a ^ 2 / b) * L.lambdaLower
    lambdaUpper := (if L.normalizeVolumeChain then 1 else a ^ 2 / b) * L.lambdaUpper }

/-- A library of direct solvers. -/
def Direct (B : Solver.Backend ℝ (Matrix ι ι ℝ) (ι → ℝ)) : Prop :=
  ∀ k : Matrix ι ι ℝ, k.det ≠ 0 → (∀ f, B.spsolve k f = .ok (k⁻¹.mulVec f)) ∧
    ∀ fs, B.splu k fs = .ok (fs.map fun f => k⁻¹.mulVec f)

/-- A run that can start: a new one, or a restart that finds an admissible snapshot. -/
def Startable (R : Setup ι E Q d m) (files : List (Snapshot.Name × (E → ℝ))) : Prop :=
  R.restart = false ∨ ∃ k data, Resumes R.toCommon files k data ∧ k ≤ R.maxIters ∧
    ∀ e ∈ R.design, Pinned R.toCommon e ∨ R.rhoMin ≤ data e ∧ data e ≤ R.rhoMax

end
end Verif.Spec
