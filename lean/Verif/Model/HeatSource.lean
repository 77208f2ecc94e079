import Verif.Model.Heat

/-!
`assemble_surface_neumann` of heat tasks (`/repo/scikit-topt/sktopt/mesh/task_heat.py` lines 23–57). No caller in the library: `from_facets` has the
call commented out (lines 213–217); it is a public function of the module.

Simplification: a facet set is given by its facet basis (`Heat.Region`), so the facet numbers themselves do not appear.
-/
namespace Verif.HeatSource
open Verif.Heat

/-- An argument or result that is a single thing or a Python list of them. -/
inductive OneOrList (α : Type) where
  | one (x : α)
  | list (xs : List α)

/-- `_to_list` (task_heat.py lines 28–29). -/
def OneOrList.toList {α : Type} : OneOrList α → List α
  | .one x => [x]
  | .list xs => xs

noncomputable section

/-- `asm(surface_heat_source, fb)` (task_heat.py lines 50–54). -/
def source {ι : Type} (R : Region ι) (q : ℝ) : ι → ℝ := fun i => ∑ x, q * R.val i x * R.dx x

/-- `assemble_surface_neumann` (task_heat.py lines 23–57). -/
def assembleSurfaceNeumann {ι : Type} (facets : OneOrList (Region ι)) (values : OneOrList ℝ) : Res (OneOrList (ι → ℝ)) :=
  let fs := facets.toList
  let vs := values.toList
  if fs.length = vs.length then
    match List.zipWith source fs vs with
    | [f] => .ok (.one f)
    | heats => .ok (.list heats)
  else .error .valueError

end
end Verif.HeatSource
