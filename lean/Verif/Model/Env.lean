import Verif.Model.Py

/-!
The process environment during an OC run: `/repo/scikit-topt/sktopt/core/optimizers/oc.py` lines 129–147.
-/
namespace Verif.Env
open Verif

/-- `os.environ`: the value of every variable, `none` when it is not set. -/
abbrev Vars := String → Option String

/-- `"SCITOPT_SENSITIVITY_MODE"` (oc.py:131, 132, 137, 139; derivatives.py:7). -/
def modeKey : String := "SCITOPT_SENSITIVITY_MODE"

/-- `os.environ[k] = v` / `os.environ.pop(k, None)`. -/
def Vars.put (e : Vars) (k : String) (v : Option String) : Vars := fun k' => if k' = k then v else e k'

/-- Something that runs in the process: it may change the environment, and it returns or raises. -/
abbrev Action (α : Type) := Vars → Vars × Res α

/-- oc.py:129–139 `with self._scaled_sensitivity_mode(): body()`. The `finally` part runs whether `body` returns or raises. -/
def withMode {α : Type} (body : Action α) : Action α := fun e =>
  let previous := e modeKey
  let e1 := e.put modeKey (some "current")
  let (e2, r) := body e1
  let e3 := match previous with
    | none => e2.put modeKey none
    | some v => e2.put modeKey (some v)
  (e3, r)

/-- oc.py:141–143 `OC_Optimizer.optimize`; `base` is `DensityMethod.optimize` (`LogMOC` inherits it unchanged). -/
def ocOptimize {α : Type} (base : Action α) : Action α := withMode base

/-- oc.py:145–147 `OC_Optimizer.optimize_steps`. -/
def ocOptimizeSteps {α : Type} (base : Nat → Action α) (numSteps : Nat) : Action α := withMode (base numSteps)

/-- A user's session: any sequence of calls, each starting in the environment the previous one left, also after a call has
raised. -/
def session {α : Type} : List (Action α) → Vars → Vars × List (Res α)
  | [], e => (e, [])
  | a :: rest, e =>
    let (e', r) := a e
    let (e'', rs) := session rest e'
    (e'', r :: rs)

end Verif.Env
