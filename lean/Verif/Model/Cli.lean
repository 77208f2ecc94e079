import Verif.Model.Scheduler
import Verif.Model.History

/-!
The command line: `/repo/scikit-topt/sktopt/core/misc.py` (`add_common_arguments`, lines 42–159, and `args2OC_Config_dict`, lines 162–205),
`DensityMethodConfig.from_defaults` (common_density.py lines 263–268) and the main programme of oc.py (lines 253–281).

Dictionaries are association lists with distinct keys; names are lists of characters. Simplification: a number of steps given on the command
line as a float (`float_or_none`) is taken as an integer here; fractional numbers of steps are in
`Verif.Model.SchedFrac`, the texts of options in `Verif.Model.CliValues`.
-/
namespace Verif.Cli

noncomputable section

open Verif.Sched
open Verif.Snapshot (Name)
open Verif.History (dset dget)

/-- The value of a command-line option. -/
inductive Val where
  | none
  | real (x : ℝ)
  | int (n : ℤ)
  | bool (b : Bool)
  | str (s : String)

/-- A value in the dictionary of keyword arguments. -/
inductive Entry where
  | sched (c : Config)
  | raw (v : Val)

abbrev Args := List (Name × Val)

/-- `args[key]`. -/
def get (args : Args) (key : Name) : Res Val :=
  match dget args key with
  | Option.none => .error .keyError
  | some v => .ok v

/-- A value passed as `init_value`, `target_value` or `curvature`. Values that are no numbers are not produced by the parser. -/
def Val.toReal : Val → Res (Option ℝ)
  | .none => .ok Option.none
  | .real x => .ok (some x)
  | .int n => .ok (some n)
  | _ => .error .typeError

/-- A value passed as `num_steps`. -/
def Val.toSteps : Val → Res (Option ℤ)
  | .none => .ok Option.none
  | .int n => .ok (some n)
  | _ => .error .typeError

/-- `keyw_schedulers` (misc.py lines 165–169). -/
def keywords : List Name :=
  ["filter_radius".toList, "move_limit".toList, "vol_frac".toList, "p".toList, "beta".toList, "percentile".toList]

/-- `stype` (misc.py lines 172–182). -/
def schedType (kw : Name) (target : Val) : String :=
  if kw = "move_limit".toList then "SawtoothDecay"
  else if kw = "beta".toList then "StepAccelerating"
  else if kw = "percentile".toList then
    match target with
    | .none => "None"
    | _ => "Step"
  else "Step"

/-- The scheduler configuration of one group (misc.py lines 171–191). -/
def group (args : Args) (kw : Name) : Res Config := do
  let curvature ← if kw = "beta".toList then get args "beta_curvature".toList >>= Val.toReal else pure Option.none
  let target ← get args kw
  let stype := schedType kw target
  let ini ← get args (kw ++ "_init".toList) >>= Val.toReal
  let tgt ← target.toReal
  let steps ← get args (kw ++ "_step".toList) >>= Val.toSteps
  fromDefaults {
    name := some (String.ofList kw), initValue := ini, targetValue := tgt, numSteps := steps, curvature := curvature,
    schedType := stype }

/-- `next((kw for kw in keyw_schedulers if keyloop.startswith(kw)), None)` (misc.py lines 194–196). -/
def matches? (key : Name) : Bool := keywords.any fun kw => kw.isPrefixOf key

/-- The second loop (misc.py lines 193–203). -/
def copyRest (args : Args) (ret : List (Name × Entry)) : List (Name × Entry) :=
  args.foldl (fun ret a =>
    let ret := if a.1 = "beta_eta".toList then dset ret a.1 (.raw a.2) else ret
    if matches? a.1 then ret else dset ret a.1 (.raw a.2)) ret

/-- `args2OC_Config_dict` (misc.py lines 162–205). -/
def toKwargs (args : Args) : Res (List (Name × Entry)) := do
  let ret ← keywords.foldlM (init := ([] : List (Name × Entry))) fun ret kw => do
    let c ← group args kw
    pure (dset ret kw (.sched c))
  pure (copyRest args ret)

/-- `from_defaults` (common_density.py lines 263–268): keyword arguments that name no field are dropped, the others overwrite the defaults of
the dataclass. (`__post_init__` is modelled in `Verif.Model.Solver`.) -/
def fromKwargs (defaults : List (Name × Entry)) (kw : List (Name × Entry)) : List (Name × Entry) :=
  let valid := kw.filter fun x => defaults.any fun y => y.1 = x.1
  defaults.map fun y => (y.1, (dget valid y.1).getD y.2)

/-! ### The parser -/

/-- The parsed options of oc.py with the types and defaults of `add_common_arguments` (misc.py lines 42–159) and oc.py lines 259–264. -/
structure Parsed where
  interpolation : String := "SIMP"
  maxIters : ℤ := 200
  filterType : String := "helmholtz"
  filterRadiusInit : ℝ := 1 / 100
  filterRadius : ℝ := 1 / 100
  filterRadiusStep : ℤ := 3
  moveLimitInit : ℝ := 8 / 10
  moveLimit : ℝ := 2 / 10
  moveLimitStep : ℤ := 5
  recordTimes : ℤ := 20
  dstPath : String := "./result/test0"
  volFracInit : ℝ := 8 / 10
  volFrac : ℝ := 4 / 10
  volFracStep : Option ℤ := none
  pInit : ℝ := 1
  p : ℝ := 3
  pStep : Option ℤ := none
  betaInit : ℝ := 1 / 10
  beta : ℝ := 5
  betaCurvature : ℝ := 5
  betaStep : Option ℤ := none
  percentileInit : Option ℝ := none
  percentileStep : Option ℤ := none
  percentile : Option ℝ := none
  rhoMin : ℝ := 1 / 10
  eMinCoeff : ℝ := 1 / 1000
  eta : ℝ := 3 / 10
  betaEta : ℝ := 5 / 10
  lambdaLower : ℝ := 1 / 10000
  lambdaUpper : ℝ := 100
  restart : Bool := false
  restartFrom : ℤ := -1
  taskName : String := "toy1"
  meshPath : String := "plate.msh"
  exportImg : Bool := true
  designDirichlet : Bool := true
  sensitivityFilter : Bool := true
  solverOption : String := "spsolve"
  etaInit : ℝ := 1 / 100
  etaStep : ℝ := -1

/-- `float_or_none` values. -/
def optReal : Option ℝ → Val
  | none => .none
  | some x => .real x

/-- Numbers of steps read by `float_or_none`. -/
def optSteps : Option ℤ → Val
  | none => .none
  | some n => .int n

/-- The options that do not belong to a scheduler group. -/
def Parsed.plain (a : Parsed) : Args :=
  [("interpolation".toList, .str a.interpolation), ("max_iters".toList, .int a.maxIters), ("filter_type".toList, .str a.filterType),
   ("record_times".toList, .int a.recordTimes), ("dst_path".toList, .str a.dstPath), ("rho_min".toList, .real a.rhoMin),
   ("E_min_coeff".toList, .real a.eMinCoeff), ("eta".toList, .real a.eta),
   ("beta_eta".toList, .real a.betaEta), ("lambda_lower".toList, .real a.lambdaLower), ("lambda_upper".toList, .real a.lambdaUpper),
   ("restart".toList, .bool a.restart), ("restart_from".toList, .int a.restartFrom), ("task_name".toList, .str a.taskName),
   ("mesh_path".toList, .str a.meshPath), ("export_img".toList, .bool a.exportImg),
   ("design_dirichlet".toList, .bool a.designDirichlet), ("sensitivity_filter".toList, .bool a.sensitivityFilter),
   ("solver_option".toList, .str a.solverOption), ("eta_init".toList, .real a.etaInit), ("eta_step".toList, .real a.etaStep)]

/-- The options of the scheduler groups. -/
def Parsed.scheduled (a : Parsed) : Args :=
  [("filter_radius_init".toList, .real a.filterRadiusInit), ("filter_radius".toList, .real a.filterRadius),
   ("filter_radius_step".toList, .int a.filterRadiusStep), ("move_limit_init".toList, .real a.moveLimitInit),
   ("move_limit".toList, .real a.moveLimit), ("move_limit_step".toList, .int a.moveLimitStep),
   ("vol_frac_init".toList, .real a.volFracInit), ("vol_frac".toList, .real a.volFrac), ("vol_frac_step".toList, optSteps a.volFracStep),
   ("p_init".toList, .real a.pInit), ("p".toList, .real a.p), ("p_step".toList, optSteps a.pStep), ("beta_init".toList, .real a.betaInit),
   ("beta".toList, .real a.beta), ("beta_curvature".toList, .real a.betaCurvature), ("beta_step".toList, optSteps a.betaStep),
   ("percentile_init".toList, optReal a.percentileInit), ("percentile_step".toList, optSteps a.percentileStep),
   ("percentile".toList, optReal a.percentile)]

/-- `vars(args)`. The order of the entries (here the scheduler groups come first) plays no role in `args2OC_Config_dict` except for the order of
the resulting dictionary. -/
def Parsed.vars (a : Parsed) : Args := a.scheduled ++ a.plain

/-- The fields of `OC_Config` (common_density.py lines 208–261, 380–389; oc.py lines 98–108). The default values are parameters of the theorems. -/
def fields : List Name :=
  ["dst_path", "interpolation", "record_times", "max_iters", "beta_eta", "eta", "p", "vol_frac", "beta", "neumann_scale", "filter_type",
   "filter_radius", "E_min_coeff", "rho_min", "rho_max", "restart", "restart_from", "export_img", "export_img_opaque", "design_dirichlet",
   "sensitivity_filter", "solver_option", "petsc_options", "scaling", "check_convergence", "tol_rho_change",
   "tol_kkt_residual", "lambda_lower", "lambda_upper", "percentile", "move_limit", "scaling_rate_min",
   "scaling_rate_max", "sensitivity_scale_floor"].map String.toList

end
end Verif.Cli
