import Verif.Model.Driver
import Verif.Model.Scheduler
import Verif.Model.Spacial
import Verif.Model.Helmholtz
import Verif.Model.OC
import Verif.Model.Pipeline

/-!
A complete OC run on a linear elasticity task with the spatial or the nodal Helmholtz filter and the SIMP law: the iteration
driver of `Verif.Model.Driver` with the actual schedulers, filter, projection, finite element analysis, sensitivity and OC update
(`/repo/scikit-topt/sktopt/core/optimizers/common_density.py` lines 643–679, 711–745, 861–918, 1014–1184 and
`core/optimizers/oc.py` lines 111–250).

Modelled choices: `filter_type` one of the two documented values, `interpolation = "SIMP"`, seven schedules given as
`SchedulerConfig` and `eta` either one (the default of OC, oc.py:101) or a number, `parameterize()` called before the run. A NaN
density is reported as the pseudo error `nan` and ends the run (in the code it would spread silently). Not modelled: files other than snapshots, figures, logs.
-/
namespace Verif.Run
open Verif Verif.Driver

noncomputable section
open Classical

variable {ι E Q : Type} [Fintype ι] [Fintype E] [Fintype Q] {d m : ℕ}

/-- What the nodal Helmholtz filter needs (filters/helmholtz_filter_nodal.py): the connectivity `t`, the assembled mass and
stiffness matrices (external) and `skfem.solve(*skfem.condense(A, b, D=D, x=x0))` with `x0 = value` on `D` (external). -/
structure Nodal (E : Type) where
  nodes : ℕ
  k : ℕ
  t : E → Fin k → Fin nodes
  mass : Fin nodes → Fin nodes → ℝ
  stiff : Fin nodes → Fin nodes → ℝ
  solve : (Fin nodes → Fin nodes → ℝ) → (Fin nodes → ℝ) → Finset (Fin nodes) → ℝ → (Fin nodes → ℝ)

/-- The filter object: for the nodal filter only the radius is mutable. -/
inductive Filt (E : Type) (d : ℕ) where
  | spacial (F : Spacial.Filter E d)
  | nodal (radius : ℝ)

/-- `filter.radius`. -/
def Filt.radius : Filt E d → ℝ
  | .spacial F => F.radius
  | .nodal r => r

/-- `update_radius` (filters/spacial.py:110–115, filters/helmholtz_filter_nodal.py:164–169). -/
def Filt.updateRadius (F : Filt E d) (r : ℝ) : Filt E d :=
  match F with
  | .spacial F => .spacial (Spacial.updateRadius F r)
  | .nodal _ => .nodal r

/-- One line of the histories (common_density.py:1137–1159 and oc.py:247–250), scalar entries only. -/
structure Rec where
  iter : ℕ
  rhoChange : ℝ
  compliance : ℝ
  neumannScale : ℝ
  volError : Option ℝ
  lmid : ℝ
  kkt : ℝ

/-- Configuration (common_density.py:232–266, 378–389; oc.py:98–108), element data and index sets of the task: what does not depend on
the physics. -/
structure Common (E : Type) (d : ℕ) where
  cP : Sched.Config
  cVolFrac : Sched.Config
  cMoveLimit : Sched.Config
  cBeta : Sched.Config
  cPercentile : Sched.Config
  cRadius : Sched.Config
  cNeumannScale : Sched.Config
  cEta : Sched.Config
  /-- `eta` given as a number instead of a schedule (the default 0.6 of common_density.py:213) -/
  etaConst : Option ℝ := none
  maxIters : ℕ
  recordTimes : ℕ
  restart : Bool
  restartFrom : ℤ
  rhoMin : ℝ
  rhoMax : ℝ
  betaEta : ℝ
  lambdaLower : ℝ
  lambdaUpper : ℝ
  rateMin : ℝ
  rateMax : ℝ
  scaleFloor : ℝ
  eMinCoeff : ℝ
  sensFilter : Bool
  checkConvergence : Bool
  tolRho : ℝ
  tolKkt : ℝ
  /-- the lines stored in `histories.npz` of the run's directory, if that file exists -/
  saved : Option (List Rec) := none
  /-- `filter_type`: `none` is `"spacial"`, `some` is `"helmholtz"` -/
  nodal : Option (Nodal E) := none
  /-- element centres, volumes and index sets of the task -/
  centers : E → EuclideanSpace ℝ (Fin d)
  volume : E → ℝ
  design : Finset E
  pinned : Option (Finset E)
  fixed : Finset E
  /-- `np.percentile(x, q)` over the design entries (external) -/
  pct : ℝ → (E → ℝ) → ℝ

/-- A run on an elasticity task. `m` is the number of load cases. -/
structure Setup (ι E Q : Type) (d m : ℕ) extends Common E d where
  /-- finite element data, Poisson ratio, Young's modulus, constrained degrees of freedom, loads -/
  fe : Elastic.FE ι E Q d
  nu : ℝ
  E0 : ℝ
  dirichlet : Finset ι
  loads : Fin m → ι → ℝ
  backend : Solver.Backend ℝ (Matrix ι ι ℝ) (ι → ℝ)
  solver : Solver.Cfg ℝ

instance : CoeOut (Setup ι E Q d m) (Common E d) := ⟨Setup.toCommon⟩

/-- Everything but the densities: schedulers, filter, optimizer attributes, what the last update computed, histories. -/
structure State (E : Type) (d : ℕ) where
  scheds : Sched.Schedulers
  /-- `_schedulers_initialized` -/
  schedsDone : Bool
  filter : Filt E d
  runningScale : ℝ
  /-- `self.kkt_residual` -/
  kkt : Option ℝ
  compliance : ℝ
  neumannScale : ℝ
  volError : Option ℝ
  lmid : ℝ
  log : List Rec

/-- `parameterize` (common_density.py:681–703); the initial radius is `cfg.filter_radius.init_value`. -/
def filter0 (R : Common E d) : Filt E d :=
  match R.nodal with
  | none => .spacial { centers := R.centers, mask := some R.design, radius := R.cRadius.initValue.getD 0 }
  | some _ => .nodal (R.cRadius.initValue.getD 0)

/-- The state after the constructor and `parameterize()` (common_density.py:575–588, 683–688; oc.py:116–122). The initial
filter radius is `cfg.filter_radius.init_value`; it is overwritten before every use. -/
def start (R : Common E d) : State E d :=
  { scheds := [], schedsDone := false,
    filter := filter0 R,
    runningScale := 0, kkt := none, compliance := 0, neumannScale := 0, volError := none, lmid := 0, log := [] }

/-- Successive `add_object_from_config(cfg, name)` calls; those before a failing one stay registered. -/
def addAll : List (String × Sched.Config) → Sched.Schedulers → Sched.Schedulers × Res Unit
  | [], ss => (ss, .ok ())
  | (n, c) :: rest, ss =>
    match ss.addFromConfig c (some n) with
    | .error e => (ss, .error e)
    | .ok (ss', _) => addAll rest ss'

/-- The types `neumann_scale` may have (common_density.py:654–657). -/
def allowedForceTypes : List String := ["ConstantOne", "StepToOne", "StepAcceleratingToOne", "StepDeceleratingToOne"]

/-- The radius passed to `update_radius` when the state is created (common_density.py:818–822, 893), read from the
configuration object as `from_config` left it. `None` is not modelled: it would be overwritten in the first iteration. -/
def firstRadius (R : Common E d) : Option ℝ :=
  match Sched.fromConfig R.cRadius with
  | .ok (_, c) => if c.numSteps.isSome then c.initValue else c.targetValue
  | .error _ => none

/-- The `eta` part of `init_schedulers` (common_density.py:664–675): a schedule, or `schedulers.add("eta", eta, eta, -1,
max_iters)` (scheduler.py:1208–1223) for a number. -/
def addEta (R : Common E d) (ss : Sched.Schedulers) : Sched.Schedulers × Res Unit :=
  match R.etaConst with
  | none => addAll [("eta", R.cEta)] ss
  | some x =>
    (ss.addObject {
      name := some "eta"
      initValue := some x
      targetValue := some x
      numSteps := some (-1)
      itersMax := some (R.maxIters : ℤ)
      curvature := none
      func := .step }, .ok ())

/-- `init_schedulers` (common_density.py:643–679, skipped when already done, 867–868) and the first `update_radius`
(890). -/
def initSched (R : Common E d) (x : State E d) : State E d × Res Unit :=
  if x.schedsDone then (x, .ok ())
  else
    match addAll [("p", R.cP), ("vol_frac", R.cVolFrac), ("move_limit", R.cMoveLimit), ("beta", R.cBeta),
        ("percentile", R.cPercentile), ("filter_radius", R.cRadius)] x.scheds with
    | (ss, .error e) => ({ x with scheds := ss }, .error e)
    | (ss, .ok ()) =>
      if R.cNeumannScale.schedType ∉ allowedForceTypes then ({ x with scheds := ss }, .error .valueError)
      else
        match addAll [("neumann_scale", R.cNeumannScale)] ss with
        | (ss, .error e) => ({ x with scheds := ss }, .error e)
        | (ss, .ok ()) =>
          match addEta R ss with
          | (ss, .error e) => ({ x with scheds := ss }, .error e)
          | (ss, .ok ()) =>
            ({ x with scheds := ss.setItersMax R.maxIters, schedsDone := true,
                      filter := match firstRadius R with
                        | some r => x.filter.updateRadius r
                        | none => x.filter }, .ok ())

/-- The eight scheduled values of an iteration. -/
structure Vals where
  neumannScale : ℝ
  p : ℝ
  volFrac : ℝ
  beta : ℝ
  moveLimit : ℝ
  eta : ℝ
  percentile : Option ℝ
  radius : ℝ

/-- The unpacking at common_density.py:1019–1035. A `None` where a number is needed raises TypeError later in the same
iteration; simplification: already here. -/
def unpack (l : List (Option ℝ)) : Res Vals :=
  match l with
  | [some ns, some p, some vf, some b, some ml, some eta, pc, some r] => .ok ⟨ns, p, vf, b, ml, eta, pc, r⟩
  | _ => .error .typeError

/-- common_density.py:1014–1040. -/
def readVals (x : State E d) (k : ℕ) : Res Vals :=
  match x.scheds.valuesAsList k ["neumann_scale", "p", "vol_frac", "beta", "move_limit", "eta", "percentile",
      "filter_radius"] with
  | .error e => .error e
  | .ok l => unpack l

/-- The nodes of the non-design elements (helmholtz_filter_nodal.py:129–132). -/
def heldNodes (R : Common E d) (N : Nodal E) : Finset (Fin N.nodes) :=
  Finset.univ.filter fun n => ∃ e, e ∉ R.design ∧ ∃ i, N.t e i = n

/-- `solve_helmholtz` (helmholtz_filter_nodal.py:121–157) with the given fixed nodes and value there. -/
def Nodal.helmholtz (N : Nodal E) (r : ℝ) (D : Finset (Fin N.nodes)) (value : ℝ) (y : Fin N.nodes → ℝ) : Fin N.nodes → ℝ :=
  N.solve (fun i j => N.mass i j + r ^ 2 * N.stiff i j) (fun i => ∑ j, N.mass i j * y j) D value

/-- `filter.forward`, returning the new filter object (filters/spacial.py:135–157, helmholtz_filter_nodal.py:180–198). A filter
object of the wrong kind does not occur. -/
def Filt.forward (R : Common E d) (F : Filt E d) (x : E → ℝ) : Res ((E → ℝ) × Filt E d) :=
  match F, R.nodal with
  | .spacial F, _ =>
    match Spacial.forward F x with
    | .ok (y, F') => .ok (y, .spacial F')
    | .error e => .error e
  | .nodal r, some N =>
    .ok (Helmholtz.nodalForward N.t R.volume (some R.design) (N.helmholtz r (heldNodes R N) 1) x, .nodal r)
  | .nodal _, none => .error .attributeError

/-- `filter.gradient` (filters/spacial.py:159–166, helmholtz_filter_nodal.py:200–233). -/
def Filt.gradient (R : Common E d) (F : Filt E d) (v : E → ℝ) : Res (E → ℝ) :=
  match F, R.nodal with
  | .spacial F, _ => Spacial.gradient F v
  | .nodal r, some N => .ok (Helmholtz.nodalGradient N.t R.volume (some R.design) (N.helmholtz r ∅ 0) v)
  | .nodal _, none => .error .attributeError

/-- `filter.forward` as a function of the densities for a filter that has just been applied successfully (whether
`forward` raises does not depend on its argument). -/
def fwdOf (R : Common E d) (F : Filt E d) (x : E → ℝ) : E → ℝ :=
  match F.forward R x with
  | .ok (y, _) => y
  | .error _ => x

/-- `filter.gradient` for a filter that has been applied. -/
def gradOf (R : Common E d) (F : Filt E d) (v : E → ℝ) : E → ℝ :=
  match F.gradient R v with
  | .ok g => g
  | .error _ => v

/-- The configuration `rho_update` reads (oc.py:168–229, common_density.py:581–583). -/
def ocCfg (R : Common E d) (F : Filt E d) : OC.Cfg E :=
  { rhoMin := R.rhoMin, rhoMax := R.rhoMax, betaEta := R.betaEta, lambdaLower := R.lambdaLower,
    lambdaUpper := R.lambdaUpper, rateMin := R.rateMin, rateMax := R.rateMax, scaleFloor := R.scaleFloor,
    design := R.design, filter := fwdOf R F, volume := R.volume,
    dV := fun e => R.volume e / ∑ e' ∈ R.design, R.volume e' }

/-- The scheduled arguments of `rho_update`. -/
def stepArgs (R : Common E d) (k : ℕ) (v : Vals) : OC.StepArgs E :=
  { iterNum := k, moveLimit := v.moveLimit, eta := v.eta, beta := v.beta, volFrac := v.volFrac,
    percentile := v.percentile.map R.pct }

/-- Young's moduli of the elements (solver_elastic.py:643–667 through composer.py:53–101). -/
def modulus (R : Setup ι E Q d m) (p : ℝ) (proj : E → ℝ) (e : E) : ℝ :=
  Material.simp (proj e) R.E0 (R.E0 * R.eMinCoeff) p

/-- The densities, provided none of them is NaN. -/
def noNan (R : Common E d) (rho : E → Option ℝ) : Res (E → ℝ) :=
  if ∀ e ∈ R.design, (rho e).isSome then .ok fun e => (rho e).getD 0 else .error .nan

/-- What an iteration knows before `rho_update`: the filter object before and after its use, the densities handed to the
analysis, and the sensitivity. -/
structure Analysis (E : Type) (d : ℕ) where
  F : Filt E d
  F1 : Filt E d
  proj : E → ℝ
  dC : E → ℝ

/-- Lines 1037–1107: filter (radius updated if it changed, 1037–1039), project, analyse, differentiate. `response` is the finite
element part for the projected densities: the mean objective value and, for each of the `n` load cases, the sensitivities with respect to
the projected densities (lines 1055–1097). -/
def analyseWith {n : ℕ} (R : Common E d) (response : (E → ℝ) → Res (ℝ × (Fin n → E → ℝ))) (v : Vals) (rho : E → ℝ) (x : State E d) :
    State E d × Res (Analysis E d) :=
  let F := if v.radius ≠ x.filter.radius then x.filter.updateRadius v.radius else x.filter
  match F.forward R rho with
  | .error e => ({ x with filter := F }, .error e)
  | .ok (_, F1) =>
    let x1 := { x with filter := F1 }
    let proj := Pipeline.projected (fwdOf R F) v.beta R.betaEta rho
    match response proj with
    | .error e => (x1, .error e)
    | .ok (c, cols) =>
      let dC := Pipeline.pullback (fwdOf R F) (gradOf R F1) v.beta R.betaEta cols R.sensFilter rho
      ({ x1 with compliance := c, neumannScale := v.neumannScale }, .ok ⟨F, F1, proj, dC⟩)

/-- The finite element part on an elasticity task (lines 1055–1064, 1085–1095). -/
def response (R : Setup ι E Q d m) (v : Vals) (proj : E → ℝ) : Res (ℝ × (Fin m → E → ℝ)) :=
  let Em := modulus R v.p proj
  match Elastic.objectives R.backend R.solver (Elastic.stiffness R.fe Em R.nu) R.dirichlet (List.ofFn R.loads) v.neumannScale with
  | .error e => .error e
  | .ok (cs, us) =>
    .ok (cs.sum / m, fun j e =>
      Material.dCSimp (proj e) (Elastic.elemEnergy R.fe Em R.nu (us.getD j 0) e) R.E0 (R.E0 * R.eMinCoeff) v.p)

/-- Lines 1108–1130: the OC update after the analysis; `rs` is `running_scale`. -/
def ocUpdate (R : Common E d) (k : ℕ) (v : Vals) (rho : E → ℝ) (rs : ℝ) (x2 : State E d) (A : Analysis E d) : State E d × Res (E → ℝ) :=
  -- `np.percentile` rejects a percentile outside [0, 100]
  if ∃ q, v.percentile = some q ∧ (q < 0 ∨ 100 < q) then (x2, .error .valueError)
  else
    match OC.rhoUpdate (ocCfg R A.F) (stepArgs R k v) rs rho rho A.dC with
    | .error e => (x2, .error e)
    | .ok out =>
      ({ x2 with runningScale := out.runningScale, kkt := some out.kkt, volError := out.volError, lmid := out.lmid },
        noNan R out.rho)

/-- Lines 1037–1130: analysis and OC update. -/
def computeWith {n : ℕ} (R : Common E d) (response : (E → ℝ) → Res (ℝ × (Fin n → E → ℝ))) (k : ℕ) (v : Vals) (rho : E → ℝ)
    (x : State E d) : State E d × Res (E → ℝ) :=
  match analyseWith R response v rho x with
  | (x2, .error e) => (x2, .error e)
  | (x2, .ok A) => ocUpdate R k v rho x.runningScale x2 A

/-- Lines 1003–1130 for iteration `k`. -/
def stepWith {n : ℕ} (R : Common E d) (response : Vals → (E → ℝ) → Res (ℝ × (Fin n → E → ℝ))) (k : ℕ) (rho : E → ℝ)
    (x : State E d) : State E d × Res (E → ℝ) :=
  match readVals x k with
  | .error e => (x, .error e)
  | .ok v => computeWith R (response v) k v rho x

/-- … on an elasticity task. -/
def step (R : Setup ι E Q d m) : ℕ → (E → ℝ) → State E d → State E d × Res (E → ℝ) := stepWith R.toCommon (response R)

/-- Lines 1136–1184: the histories and the convergence test. `np.max` of an empty array raises ValueError. In exact
arithmetic the residual is always finite. -/
def record (R : Common E d) (k : ℕ) (rho rho' : E → ℝ) (x : State E d) : State E d × Res Bool :=
  if h : R.design.Nonempty then
    let change := R.design.sup' h fun e => |rho' e - rho e|
    let r : Rec := { iter := k, rhoChange := change, compliance := x.compliance, neumannScale := x.neumannScale,
                     volError := x.volError, lmid := x.lmid, kkt := x.kkt.getD 0 }
    let x' := { x with log := x.log ++ [r] }
    if R.checkConvergence then
      match x.kkt with
      | none => (x', .error .valueError)
      | some kkt => (x', .ok (decide (change < R.tolRho ∧ |kkt| < R.tolKkt)))
    else (x', .ok false)
  else (x, .error .valueError)

/-- `cfg.vol_frac.init_value`, or `target_value` if that is `None` (common_density.py:714–715), after `from_config`.
Both `None` raises TypeError, here 0 (excluded by the hypotheses of the theorems). -/
def valInit (R : Common E d) : ℝ :=
  match Sched.fromConfig R.cVolFrac with
  | .ok (_, c) => c.initValue.getD (c.targetValue.getD 0)
  | .error _ => 0

/-- A whole OC run as an instance of the iteration driver, for a given analysis and update. `import_histories` keeps the histories when there is no file
(history.py:640–643); see `Verif.Model.History` for the file format. -/
def sysWith (R : Common E d) (step : ℕ → (E → ℝ) → State E d → State E d × Res (E → ℝ)) : Sys E ℝ (State E d) where
  maxIters := R.maxIters
  recordTimes := R.recordTimes
  restart := R.restart
  restartFrom := R.restartFrom
  valInit := valInit R
  rhoMin := R.rhoMin
  rhoMax := R.rhoMax
  design := R.design
  pinned := R.pinned
  fixed := R.fixed
  step := step
  record := record R
  exportHist := id
  importHist x := match R.saved with
    | some l => { x with log := l }
    | none => x
  initSched := initSched R

/-- A run on an elasticity task. -/
def sys (R : Setup ι E Q d m) : Sys E ℝ (State E d) := sysWith R (step R)

/-- A new optimizer in a directory with the given snapshot files. -/
def newRun (R : Common E d) (files : List (Snapshot.Name × (E → ℝ))) : Opt E ℝ (State E d) :=
  fresh (fun _ => 0) (start R) files

end
end Verif.Run
