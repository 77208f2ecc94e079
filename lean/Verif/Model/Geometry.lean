import Verif.Model.Py
import Mathlib.Data.Real.Basic
import Mathlib.Data.Fin.VecNotation

/-!
Element geometry: `/repo/scikit-topt/sktopt/fea/composer.py:164–248` (volumes) and
`/repo/scikit-topt/sktopt/mesh/utils.py:18–91` (orientation repair).  Coordinates are real numbers
(floating point rounding is not modelled).
-/
namespace Verif.Geometry

/-- A point or vector of space (a column of `mesh.p`). -/
abbrev Vec := Fin 3 → ℝ

/-- `np.dot(np.cross(a, b), c)`. -/
def triple (a b c : Vec) : ℝ :=
  (a 1 * b 2 - a 2 * b 1) * c 0 + (a 2 * b 0 - a 0 * b 2) * c 1 + (a 0 * b 1 - a 1 * b 0) * c 2

/-- The signed volume of four points (utils.py:82–86, composer.py:169–173). -/
noncomputable def signedVol (p0 p1 p2 p3 : Vec) : ℝ := triple (p1 - p0) (p2 - p0) (p3 - p0) / 6

/-- The signed volume of a tetrahedron given by node numbers. -/
noncomputable def tetVol (p : ℕ → Vec) (t : Fin 4 → ℕ) : ℝ := signedVol (p (t 0)) (p (t 1)) (p (t 2)) (p (t 3))

open Classical in
/-- utils.py:57–91 `fix_tetrahedron_orientation`, one element: swap nodes 1 and 2 if the volume is negative. -/
noncomputable def fixTet (p : ℕ → Vec) (t : Fin 4 → ℕ) : Fin 4 → ℕ :=
  if tetVol p t < 0 then ![t 0, t 2, t 1, t 3] else t

/-- utils.py:81–91, the loop over all elements. -/
noncomputable def fixTets (p : ℕ → Vec) (ts : List (Fin 4 → ℕ)) : List (Fin 4 → ℕ) := ts.map (fixTet p)

open Classical in
/-- composer.py:164–180 `_get_elements_volume_tet`: a volume below -1e-12 raises. -/
noncomputable def volumesTet (p : ℕ → Vec) : List (Fin 4 → ℕ) → Res (List ℝ)
  | [] => .ok []
  | t :: ts =>
    if tetVol p t < -(1 / 10 ^ 12) then .error .valueError
    else match volumesTet p ts with
      | .error e => .error e
      | .ok vs => .ok (tetVol p t :: vs)

/-- utils.py:45–48: the determinant at node 0 of a hexahedron. -/
def hexJac (p : ℕ → Vec) (t : Fin 8 → ℕ) : ℝ :=
  triple (p (t 1) - p (t 0)) (p (t 3) - p (t 0)) (p (t 4) - p (t 0))

open Classical in
/-- utils.py:18–54 `fix_hexahedron_orientation`, one element: swap nodes 1 and 3. -/
noncomputable def fixHex (p : ℕ → Vec) (t : Fin 8 → ℕ) : Fin 8 → ℕ :=
  if hexJac p t < 0 then ![t 0, t 3, t 2, t 1, t 4, t 5, t 6, t 7] else t

/-- composer.py:183–188 `_tet_volume_numba`. -/
noncomputable def absTet (p0 p1 p2 p3 : Vec) : ℝ := |triple (p1 - p0) (p2 - p0) (p3 - p0)| / 6

/-- composer.py:191–248 `_get_elements_volume_hex`, one element with corner points `q`. -/
noncomputable def volumeHex (q : Fin 8 → Vec) : ℝ :=
  absTet (q 0) (q 1) (q 3) (q 4) + absTet (q 1) (q 2) (q 3) (q 6) + absTet (q 1) (q 5) (q 6) (q 4) +
  absTet (q 3) (q 6) (q 7) (q 4) + absTet (q 1) (q 3) (q 6) (q 4) + absTet (q 1) (q 6) (q 5) (q 4)

end Verif.Geometry
