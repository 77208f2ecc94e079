import Verif.Model.BoxMesh
import Verif.Model.Loader

/-!
The predefined problems on a mesh file: `/repo/scikit-topt/sktopt/mesh/toy_problem.py:160–252` (`toy_msh`), with
`/repo/scikit-topt/sktopt/mesh/utils.py:8–15` (`get_points_in_range`) on whatever is passed as a range. Modelled up to the call of
`LinearElasticity.from_facets` (see Model/Task.lean and Model/Load.lean for what follows).
-/
namespace Verif.ToyMsh
open Verif.Geometry

noncomputable section

/-- The exceptions that occur: `ValueError` (no usable cells, minimum of nothing, shapes that do not fit), `UnboundLocalError`,
`IndexError`. -/
inductive Failure where
  | valueError
  | unboundLocal
  | indexError
  deriving DecidableEq

/-- A range as it is passed on: a pair, or a pair inside a tuple of length one (`(a, b),`). -/
inductive Range where
  | pair (lo hi : ℝ)
  | wrapped (lo hi : ℝ)

/-- A loaded mesh: the types of its cells, its points, and the midpoints of its facets and elements. -/
structure Msh where
  cellTypes : List String
  points : List Vec
  facets : List Vec
  elements : List Vec

/-- One coordinate of utils.py:11–13 on an array of `k` points. A pair is two comparisons. A wrapped pair compares an array of length `k`
with a tuple of length two, which numpy accepts for `k` equal to 1 or 2 only; then the second entry of the tuple is missing. -/
def axis (k : ℕ) (r : Range) (x : Vec → ℝ) : Except Failure (Vec → Prop) :=
  match r with
  | .pair lo hi => .ok fun v => x v ≥ lo ∧ x v ≤ hi
  | .wrapped _ _ => if k = 1 ∨ k = 2 then .error .indexError else .error .valueError

/-- utils.py:8–15 applied to the midpoints `xs`: the numbers of those that pass (`np.nonzero` in `facets_satisfying` and
`elements_satisfying`). -/
def satisfying (xs : List Vec) (rx ry rz : Range) : Except Failure (List ℕ) :=
  match axis xs.length rx (· 0) with
  | .error e => .error e
  | .ok px => match axis xs.length ry (· 1) with
    | .error e => .error e
    | .ok py => match axis xs.length rz (· 2) with
      | .error e => .error e
      | .ok pz => open Classical in
        .ok ((List.range xs.length).filter fun i => decide (px (xs.getD i 0) ∧ py (xs.getD i 0) ∧ pz (xs.getD i 0)))

/-- toy_problem.py:164–184: the lengths; with any other name they stay unset. -/
def lengths (name : String) : Option (ℝ × ℝ × ℝ) :=
  if name = "down" then some (4, 16 / 100, 2)
  else if name = "down_box" then some (4, 3, 2)
  else if name = "pull" then some (8, 3, 1 / 2)
  else if name = "pull_2" then some (4, 2, 1 / 2)
  else none

/-- toy_problem.py:190–193: 0.8 times the smallest distance between the first point and another one. -/
def spacing (points : List Vec) : Except Failure ℝ :=
  match points with
  | [] => .error .indexError
  | a :: rest =>
    match (rest.map fun v => Real.sqrt ((v 0 - a 0) ^ 2 + (v 1 - a 1) ^ 2 + (v 2 - a 2) ^ 2)).min? with
    | none => .error .valueError
    | some d => .ok (d * (8 / 10))

/-- toy_problem.py:210–235: the patch the force acts on, its direction and its value. -/
def patch (name : String) (x y z eps : ℝ) : Option ((Range × Range × Range) × String × ℝ) :=
  if name = "down" then
    some ((.pair (x - eps) (x + 5 / 100), .pair (y / 2 - eps) (y / 2 + eps), .pair 0 eps), "u^3", -800)
  else if name = "down_box" then
    some ((.pair (x - eps) (x + 5 / 100), .pair 0 y, .pair 0 eps), "u^3", -800)
  else if name = "pull" then
    some ((.wrapped (x - eps) (x + 5 / 100), .pair (y * 2 / 5) (y * 3 / 5), .pair (z * 2 / 5) (z * 3 / 5)), "u^1", 1200)
  else if name = "pull_2" then
    some ((.wrapped (x - eps) (x + 5 / 100), .wrapped (y / 2 - eps) (y / 2 + eps), .pair (z * 2 / 5) (z * 3 / 5)), "u^1", 200)
  else none

/-- What is passed on to `from_facets`. -/
structure Chosen where
  support : List ℕ
  loaded : List ℕ
  direction : String
  value : ℝ
  design : List ℕ

/-- toy_problem.py:160–252 `toy_msh`. -/
def toyMsh (name : String) (M : Msh) : Except Failure Chosen :=
  match Loader.loadMeshAuto M.cellTypes with
  | .error _ => .error .valueError
  | .ok _ => match spacing M.points with
    | .error e => .error e
    | .ok eps => match lengths name with
      | none => .error .unboundLocal
      | some (x, y, z) => match satisfying M.facets (.pair 0 (5 / 100)) (.pair 0 y) (.pair 0 z) with
        | .error e => .error e
        | .ok support => match patch name x y z eps with
          | none => .error .unboundLocal
          | some ((rx, ry, rz), direction, value) => match satisfying M.facets rx ry rz with
            | .error e => .error e
            | .ok loaded => match satisfying M.elements (.pair 0 x) (.pair 0 y) (.pair 0 z) with
              | .error e => .error e
              | .ok design => .ok { support, loaded, direction, value, design }

end
end Verif.ToyMsh
