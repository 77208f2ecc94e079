import Verif.Model.FilterElement

/-! What the calls made on an element filter ask for: the last radius, and the last solver option that exists. -/
namespace Verif.Spec.FilterElement
open Verif.FilterElement

/-- The solver options of the documentation. -/
def Known (o : String) : Prop := o = "spsolve" ∨ o = "cg_jacobi" ∨ o = "cg_pyamg"

/-- The radius asked for last. -/
def lastRadius (r0 : ℝ) : List Call → ℝ
  | [] => r0
  | .updateRadius r :: h => lastRadius r h
  | _ :: h => lastRadius r0 h

open Classical in
/-- The known option asked for last. -/
noncomputable def lastOption (o0 : String) : List Call → String
  | [] => o0
  | .preprocess (some o) :: h => lastOption (if Known o then o else o0) h
  | _ :: h => lastOption o0 h

/-- No call assigns `rtol` or `maxiter`. -/
def NoSettings (h : List Call) : Prop := ∀ c ∈ h, (∀ t, c ≠ .setRtol t) ∧ ∀ k, c ≠ .setMaxiter k

end Verif.Spec.FilterElement
