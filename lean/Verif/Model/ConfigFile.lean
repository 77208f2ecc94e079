import Verif.Model.Cli
import Verif.Model.Solver

/-!
The configuration file: `DensityMethodConfig.export` and `import_from`
(`/repo/scikit-topt/sktopt/core/optimizers/common_density.py` lines 313–324), the dataclass constructor with `__post_init__` (270–311) and
`init_schedulers` (643–679) on an arbitrary configuration object.

`json.dump` followed by `json.load` is the identity on JSON values (floats are real numbers). A configuration object is the list of its
dataclass fields with their values; the fields of a class with their default values are a parameter (`defaults`).
-/
namespace Verif.ConfigFile

open Verif.Sched
open Verif.Snapshot (Name)
open Verif.History (dset dget)
open Verif.Cli (Val)

noncomputable section

/-- A JSON value. -/
inductive Json where
  | val (v : Val)
  | obj (d : List (Name × Json))

/-- The value of a field of a configuration object. -/
inductive Attr where
  /-- a `SchedulerConfig` -/
  | sched (c : Config)
  /-- a `PETScOptions` -/
  | opts (o : Solver.Opts)
  /-- `None`, a number, a Boolean or a string -/
  | raw (v : Val)
  /-- a plain dictionary -/
  | dict (d : List (Name × Json))

/-- An optional number, string or integer as a JSON value. -/
def optReal (x : Option ℝ) : Json := .val (x.elim .none .real)
def optInt (x : Option ℤ) : Json := .val (x.elim .none .int)
def optStr (x : Option String) : Json := .val (x.elim .none .str)

/-- `asdict` of a `SchedulerConfig` (fields: scheduler.py lines 327–333). -/
def schedDict (c : Config) : List (Name × Json) :=
  [("name".toList, optStr c.name), ("init_value".toList, optReal c.initValue), ("target_value".toList, optReal c.targetValue),
   ("num_steps".toList, optInt c.numSteps), ("iters_max".toList, optInt c.itersMax), ("curvature".toList, optReal c.curvature),
   ("scheduler_type".toList, .val (.str c.schedType))]

/-- `asdict` of a `PETScOptions` (fields: solver_petsc.py lines 11–17). -/
def optsDict (o : Solver.Opts) : List (Name × Json) :=
  [("ksp_type".toList, .val (.str o.ksp)), ("pc_type".toList, .val (.str o.pc)),
   ("pc_factor_mat_solver_type".toList, optStr o.factor), ("options_prefix".toList, optStr o.pfx),
   ("use_set_from_options".toList, .val (.bool o.useSet))]

/-- `asdict` of a field value (dataclasses become dictionaries, recursively). -/
def Attr.toJson : Attr → Json
  | .sched c => .obj (schedDict c)
  | .opts o => .obj (optsDict o)
  | .raw v => .val v
  | .dict d => .obj d

/-- What `json.load` returns for a JSON value. -/
def Json.toAttr : Json → Attr
  | .val v => .raw v
  | .obj d => .dict d

/-- `export` (common_density.py lines 322–324): the contents of `cfg.json`. -/
def exportCfg (c : List (Name × Attr)) : List (Name × Json) := c.map fun x => (x.1, x.2.toJson)

/-- A value of a PETSc options dictionary. Simplification: only strings, Booleans and `None` are modelled, other values count as missing. -/
def petscVal : Json → Option Solver.Val
  | .val (.str s) => some (.str s)
  | .val (.bool b) => some (.bool b)
  | .val .none => some .none
  | _ => Option.none

/-- The field `petsc_options` as the option routines see it. Simplification: a value that is neither options nor a dictionary counts as
`None`. -/
def petscInput : Option Attr → Solver.Input
  | some (.opts o) => .obj o
  | some (.dict d) => .dict {
      ksp := (dget d "ksp_type".toList).bind petscVal, pc := (dget d "pc_type".toList).bind petscVal,
      factor := (dget d "pc_factor_mat_solver_type".toList).bind petscVal, pfx := (dget d "options_prefix".toList).bind petscVal,
      useSet := (dget d "use_set_from_options".toList).bind petscVal }
  | _ => .none

/-- The field `solver_option`. -/
def solverName : Option Attr → String
  | some (.raw (.str s)) => s
  | _ => ""

/-- Options or `None` as a field value. -/
def optsAttr : Option Solver.Opts → Attr
  | some o => .opts o
  | Option.none => .raw .none

/-- `cls(**kw)`: an unknown keyword raises TypeError, missing fields take their defaults; then `__post_init__` (common_density.py lines
270–311) replaces the field `petsc_options`. `avail` tells whether PETSc support can be imported. -/
def construct (avail : Bool) (defaults kw : List (Name × Attr)) : Res (List (Name × Attr)) :=
  if kw.all fun x => defaults.any fun y => y.1 = x.1 then
    let c := defaults.map fun y => (y.1, (dget kw y.1).getD y.2)
    match Solver.configOpts avail (solverName (dget c "solver_option".toList)) (petscInput (dget c "petsc_options".toList)) with
    | .error e => .error e
    | .ok o => .ok (c.map fun x => if x.1 = "petsc_options".toList then (x.1, optsAttr o) else x)
  else .error .typeError

/-- `import_from` (common_density.py lines 313–320) on the contents of `cfg.json`. -/
def importFrom (avail : Bool) (defaults : List (Name × Attr)) (data : List (Name × Json)) : Res (List (Name × Attr)) :=
  construct avail defaults ((data.filter fun x => x.1 ≠ "record_timing".toList).map fun x => (x.1, x.2.toAttr))

/-- `self.schedulers.add_object_from_config(cfg.<field>, field)` (scheduler.py lines 1196–1206): anything but a `SchedulerConfig` has no
attribute `name` that could be set. (A missing field is an AttributeError too.) -/
def addField (c : List (Name × Attr)) (ss : Schedulers) (field : String) : Res Schedulers :=
  match dget c field.toList with
  | some (.sched s) => (ss.addFromConfig s (some field)).map Prod.fst
  | _ => .error .attributeError

/-- `init_schedulers` (common_density.py lines 643–679), first part, up to and including `filter_radius`. -/
def initFirst (c : List (Name × Attr)) : Res Schedulers :=
  ["p", "vol_frac", "move_limit", "beta", "percentile", "filter_radius"].foldlM (addField c) []

/-- `SchedulerConfig(**d)` for a dictionary with all seven keys (the dataclass constructor does not validate). -/
def schedOfDict (d : List (Name × Json)) : Option Config :=
  match dget d "name".toList, dget d "init_value".toList, dget d "target_value".toList, dget d "num_steps".toList,
      dget d "iters_max".toList, dget d "curvature".toList, dget d "scheduler_type".toList with
  | some (.val n), some (.val i), some (.val t), some (.val k), some (.val m), some (.val c), some (.val (.str s)) =>
    some { name := match n with | .str x => some x | _ => none, initValue := match i with | .real x => some x | _ => none,
           targetValue := match t with | .real x => some x | _ => none, numSteps := match k with | .int x => some x | _ => none,
           itersMax := match m with | .int x => some x | _ => none, curvature := match c with | .real x => some x | _ => none,
           schedType := s }
  | _, _, _, _, _, _, _ => none

end
end Verif.ConfigFile
