/-
Shared vocabulary of the model: Python exceptions as values.
-/
namespace Verif

/-- The exception classes the modelled code can raise (models the `raise` statements and the
implicit runtime errors cited at each use). -/
inductive Err where
  | valueError
  | typeError
  | zeroDivision
  | keyError
  | attributeError
  | assertionError
  | indexError
  | fileNotFound
  | runtimeError
  | importError
  | notImplemented
  /-- a negative float raised to a fractional power: Python returns a `complex`, outside the model -/
  | complexResult
  /-- not an exception: marks that a density became NaN (used by `Verif.Model.Run` only) -/
  | nan
  /-- a `.npz` file cut off in the middle: `np.load` raises `BadZipFile`, `EOFError`, `ValueError` or `UnpicklingError`, depending on
  how much of it was written -/
  | unreadable
  deriving DecidableEq, Repr

/-- Result of a modelled call. -/
abbrev Res (α : Type) := Except Err α

end Verif
