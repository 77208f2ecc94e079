import Verif.Model.Geometry
import Verif.Model.Py

/-!
The mesh files of a run (`mesh_rho/info_mesh-*.vtu`): `/repo/scikit-topt/sktopt/core/visualization.py` lines 22–83, called
at `/repo/scikit-topt/sktopt/core/optimizers/common_density.py` lines 1199–1204. Not modelled: the XML text `meshio` writes; the
checks of the constructor of `meshio.Mesh` (lengths of the data arrays) are modelled from its documentation.
-/
namespace Verif.Vtu
open Verif Verif.Geometry

/-- The class of the mesh. -/
inductive MeshKind where
  | tet
  | hex
  | other

/-- A `skfem` mesh: `mesh.p` and the columns of `mesh.t`. -/
structure Mesh where
  kind : MeshKind
  points : List Vec
  t : List (List ℕ)

/-- The contents of a file: the cell type, the points, the cells (one block), the data arrays in the order of the dictionaries. -/
structure File where
  cellType : String
  points : List Vec
  cells : List (List ℕ)
  pointData : List (String × List ℝ)
  cellData : List (String × List ℝ)

/-- `d[name] = val` on a dictionary. -/
def dset (d : List (String × List ℝ)) (name : String) (val : List ℝ) : List (String × List ℝ) :=
  if d.any (·.1 == name) then d.map fun x => if x.1 = name then (name, val) else x else d ++ [(name, val)]

/-- visualization.py:64–74: the dictionary filled from names and values. A missing or empty list gives an empty dictionary. -/
def dataDict (names : Option (List String)) (values : Option (List (List ℝ))) : List (String × List ℝ) :=
  match values, names with
  | some (v :: vs), some (n :: ns) => ((n :: ns).zip (v :: vs)).foldl (fun d x => dset d x.1 x.2) []
  | _, _ => []

/-- visualization.py:22–83 `export_mesh_with_info`. -/
def exportMesh (M : Mesh) (pointNames cellNames : Option (List String)) (pointValues cellValues : Option (List (List ℝ))) : Res File :=
  let pd := dataDict pointNames pointValues
  let cd := dataDict cellNames cellValues
  let go (cellType : String) : Res File :=
    if pd.all (fun x => x.2.length == M.points.length) && cd.all (fun x => x.2.length == M.t.length) then
      .ok { cellType := cellType, points := M.points, cells := M.t, pointData := pd, cellData := cd }
    else .error .valueError
  match M.kind with
  | .tet => go "tetra"
  | .hex => go "hexahedron"
  | .other => .error .valueError

/-- The call in an iteration (common_density.py:1199–1204): projected densities and mean energies of the elements. -/
def exportIteration (M : Mesh) (rhoProjected energy : List ℝ) : Res File :=
  exportMesh M none (some ["rho_projected", "energy"]) none (some [rhoProjected, energy])

end Verif.Vtu
