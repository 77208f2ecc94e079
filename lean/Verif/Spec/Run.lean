import Verif.Model.Run
import Mathlib.Data.Set.Basic
import Mathlib.LinearAlgebra.Matrix.NonsingularInverse

/-! Vocabulary for the statements about complete runs. -/
namespace Verif.Spec
open Verif.Sched

/-- A schedule a user may configure for a quantity that must stay in `S`: accepted by `SchedulerConfig.from_defaults`
(so complete for its type), of a type that produces values, with a positive curvature and a non-zero number of sawtooth
cycles, and with start and end values in `S`. -/
structure GoodSchedule (c : Config) (S : Set ℝ) : Prop where
  accepted : ∃ c0, fromDefaults c0 = .ok c
  notNone : c.schedType ≠ "None"
  curvature : ∀ k, c.curvature = some k → 0 < k
  cycles : c.schedType = "SawtoothDecay" → c.numSteps ≠ some 0
  range : ∀ x, c.initValue = some x ∨ c.targetValue = some x → x ∈ S

variable {ι E Q : Type} [Fintype ι] [Fintype E] [Fintype Q] {d m : ℕ}

/-- The linear system of the nodal Helmholtz filter with radius `r`: `M + r² K`, and the identity at the held nodes. -/
def nodalMatrix (N : Run.Nodal E) (r : ℝ) (D : Finset (Fin N.nodes)) : Matrix (Fin N.nodes) (Fin N.nodes) ℝ :=
  Matrix.of fun i j => if i ∈ D then (if i = j then 1 else 0) else N.mass i j + r ^ 2 * N.stiff i j

/-- The nodal field with value `value` at the held nodes that solves the weak form for the nodal right-hand side `y` elsewhere. -/
noncomputable def relaxed (N : Run.Nodal E) (r : ℝ) (D : Finset (Fin N.nodes)) (value : ℝ) (y : Fin N.nodes → ℝ) : Fin N.nodes → ℝ :=
  (nodalMatrix N r D)⁻¹.mulVec fun i => if i ∈ D then value else ∑ j, N.mass i j * y j

/-- `x` is the value of schedule `c` at iteration `k` of a run with `max_iters` iterations. -/
def Scheduled (R : Run.Common E d) (c : Config) (k : ℕ) (x : Option ℝ) : Prop :=
  valueOf (.ok { c with itersMax := some (R.maxIters : ℤ) }) k = .ok x

open Classical in
/-- The nodes of the non-design elements. -/
noncomputable def held (R : Run.Common E d) (N : Run.Nodal E) : Finset (Fin N.nodes) :=
  Finset.univ.filter fun n => ∃ e, e ∉ R.design ∧ ∃ i, N.t e i = n

/-- A mesh on which the default filter works for all the radii a run uses: no isolated nodes, a coercive weak form, a direct
solver, and the discrete maximum principle for densities (which the finite element matrices of some meshes violate, see C93). -/
structure NodalOk (R : Run.Common E d) (N : Run.Nodal E) : Prop where
  corners : 0 < N.k
  covered : ∀ n, ∃ e i, N.t e i = n
  coercive : ∀ r, 0 < r → ∀ x : Fin N.nodes → ℝ, x ≠ 0 → 0 < ∑ i, ∑ j, x i * (N.mass i j + r ^ 2 * N.stiff i j) * x j
  solves : ∀ (r : ℝ) (D : Finset (Fin N.nodes)) (b : Fin N.nodes → ℝ) (value : ℝ), (nodalMatrix N r D).det ≠ 0 →
    N.solve (fun i j => N.mass i j + r ^ 2 * N.stiff i j) b D value =
      (nodalMatrix N r D)⁻¹.mulVec fun i => if i ∈ D then value else b i
  maximum : ∀ k r, Scheduled R R.cRadius k (some r) → ∀ y : Fin N.nodes → ℝ, (∀ n, 0 ≤ y n ∧ y n ≤ 1) →
    ∀ n, 0 ≤ relaxed N r (held R N) 1 y n ∧ relaxed N r (held R N) 1 y n ≤ 1
  /-- see C74 -/
  noSensFilter : R.sensFilter = false

/-- A configuration a user may expect to work, whatever the optimizer and the physics: schedules with values in their natural ranges,
densities between 0 and 1, at least one design element, positive volumes, a working filter. -/
structure Basics (R : Run.Common E d) : Prop where
  record : 1 ≤ R.recordTimes ∧ R.recordTimes ≤ R.maxIters
  p : GoodSchedule R.cP (Set.Ici 0)
  volFrac : GoodSchedule R.cVolFrac Set.univ
  moveLimit : GoodSchedule R.cMoveLimit (Set.Ici 0)
  beta : GoodSchedule R.cBeta (Set.Ioi 0)
  percentile : GoodSchedule R.cPercentile Set.univ ∨
    (R.cPercentile.schedType = "None" ∧ R.cPercentile.targetValue = none)
  radius : GoodSchedule R.cRadius (Set.Ioi 0)
  neumannScale : GoodSchedule R.cNeumannScale Set.univ
  neumannType : R.cNeumannScale.schedType ∈
    ["ConstantOne", "StepToOne", "StepAcceleratingToOne", "StepDeceleratingToOne"]
  eta : R.etaConst = none → GoodSchedule R.cEta Set.univ
  box : 0 ≤ R.rhoMin ∧ R.rhoMin ≤ R.rhoMax ∧ R.rhoMax ≤ 1
  design : R.design.Nonempty
  separate : Disjoint R.design R.fixed
  volume : ∀ e, 0 < R.volume e
  /-- the default filter -/
  nodal : ∀ N, R.nodal = some N → NodalOk R N

open Classical in
/-- A run on an elasticity task a user may expect to work, whatever the optimizer: also a physically meaningful problem (positive weights
and moduli, admissible Poisson ratio, supports that exclude rigid motions, at least one load case), and a direct solver. -/
structure Sound (R : Run.Setup ι E Q d m) : Prop extends Basics R.toCommon where
  dim : d ≤ 3
  weights : ∀ e q, 0 < R.fe.dx e q
  poisson : -1 < R.nu ∧ R.nu < 1 / 2
  modulus : 0 < R.E0 ∧ 0 < R.eMinCoeff ∧ R.eMinCoeff ≤ 1
  /-- a motion that respects the supports and strains no element is zero -/
  supports : ∀ u : ι → ℝ, (∀ i ∈ R.dirichlet, u i = 0) →
    (∀ e q, Elastic.sym (Elastic.gradOf R.fe u e q) = 0) → u = 0
  loadCases : 0 < m
  /-- the direct solvers return the solution of a nonsingular system -/
  direct : ∀ k : Matrix ι ι ℝ, k.det ≠ 0 → (∀ f, R.backend.spsolve k f = .ok (k⁻¹.mulVec f)) ∧
    ∀ fs, R.backend.splu k fs = .ok (fs.map fun f => k⁻¹.mulVec f)
  solver : R.solver.solver = "spsolve" ∨ (R.solver.solver = "auto" ∧ Fintype.card ι < 1000)

/-- A scheduled percentile is a percentage. -/
def Percentages (R : Run.Common E d) : Prop :=
  ∀ k q, Scheduled R R.cPercentile k (some q) → 0 ≤ q ∧ q ≤ 100

/-- What OC needs in addition: a percentile that is a percentage, a bracket for the multiplier that is not upside down or negative, and
a positive scale floor. -/
structure OCRules (R : Run.Common E d) : Prop where
  percentages : Percentages R
  bracket : 0 ≤ R.lambdaLower ∧ R.lambdaLower ≤ R.lambdaUpper
  scaleFloor : 0 < R.scaleFloor

/-- An OC run on an elasticity task a user may expect to work. -/
structure WellPosed (R : Run.Setup ι E Q d m) : Prop extends Sound R, OCRules R.toCommon

end Verif.Spec
