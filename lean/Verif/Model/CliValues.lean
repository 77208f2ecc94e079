import Verif.Model.Py
import Mathlib.Data.Real.Basic

/-!
What the text given for an option becomes: `str2bool` and `float_or_none` (`/repo/scikit-topt/sktopt/core/misc.py` lines 25–39), used as the
`type=` of the options of lines 84–116 and 135–155.

`float(text)` is the parameter `float`. `str.lower` is `Char.toLower` on every character: it changes the ASCII capitals only, while Python also
lowers other alphabets. That makes no difference here: the only other characters Python lowers to ASCII letters are `K` (Kelvin sign, to `k`) and
`İ` (to `i` and a dot), and neither letter occurs in the words compared with.
-/
namespace Verif.CliValues
open Verif

/-- A Python `float`, rounding aside. -/
inductive PyFloat where
  | num (x : ℝ)
  | nan
  | inf
  | ninf

/-- `value.lower()`. -/
def lower (s : List Char) : List Char := s.map Char.toLower

/-- An argument of `str2bool`: a Boolean or a text. -/
inductive Given where
  | bool (b : Bool)
  | text (s : List Char)

/-- `str2bool` (misc.py lines 25–33). `argparse.ArgumentTypeError` is `Err.valueError`: the parser treats both alike. -/
def str2bool : Given → Res Bool
  | .bool b => .ok b
  | .text s =>
    if lower s ∈ ["true".toList, "t".toList] then .ok true
    else if lower s ∈ ["false".toList, "f".toList] then .ok false
    else .error .valueError

/-- `float_or_none` (misc.py lines 36–39). -/
def floatOrNone (float : List Char → Res PyFloat) (x : List Char) : Res (Option PyFloat) :=
  if lower x ∈ ["none".toList, "null".toList, "nan".toList] then .ok none
  else (float x).map some

/-- What `parser.parse_args` makes of the text of an option: the value, or the message "invalid … value" and exit with status 2. -/
inductive Read (α : Type) where
  | value (a : α)
  | usage

/-- `argparse` calls the `type` function and turns `ArgumentTypeError`, `TypeError` and `ValueError` into the usage message; any other exception
would leave the parser, but the two functions raise none. -/
def readOption {α : Type} : Res α → Read α
  | .ok a => .value a
  | .error _ => .usage

end Verif.CliValues
