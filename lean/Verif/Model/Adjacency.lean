import Mathlib.Data.List.Dedup
import Mathlib.Data.List.FinRange
import Mathlib.Data.List.Sort

/-!
Model of the face-based element adjacency computed in `/repo/scikit-topt/sktopt/fea/composer.py:351-371`
(`adjacency_matrix`) and, identically, in `filters/helmholtz_filter_element.py:27-52, 63-166` for tetrahedra and
hexahedra. A face key is the sorted tuple of its node numbers, here a sorted `List ℕ`.
-/
namespace Verif.Adjacency

/-- `tuple(sorted([...]))`. -/
def key (l : List ℕ) : List ℕ := l.insertionSort (· ≤ ·)

/-- The four faces of a tetrahedron (composer.py:356-361). -/
def tetFaces (t : Fin 4 → ℕ) : List (List ℕ) :=
  [key [t 0, t 1, t 2], key [t 0, t 1, t 3], key [t 0, t 2, t 3], key [t 1, t 2, t 3]]

/-- The six faces of a hexahedron (helmholtz_filter_element.py:67-74). -/
def hexFaces (t : Fin 8 → ℕ) : List (List ℕ) :=
  [key [t 0, t 1, t 2, t 3], key [t 4, t 5, t 6, t 7], key [t 0, t 1, t 5, t 4], key [t 2, t 3, t 7, t 6],
   key [t 0, t 3, t 7, t 4], key [t 1, t 2, t 6, t 5]]

variable {n : ℕ}

/-- The final value of `face_to_elements[f]` (composer.py:354-363): element `i` is appended once per occurrence of `f`
among its faces, elements in increasing order. -/
def elemsOf (faces : Fin n → List (List ℕ)) (f : List ℕ) : List (Fin n) :=
  (List.finRange n).flatMap fun i => List.replicate ((faces i).count f) i

/-- The keys of the dictionary. (Simplification: their order; it only affects the order inside adjacency lists, which
no modelled consumer depends on.) -/
def faceKeys (faces : Fin n → List (List ℕ)) : List (List ℕ) := ((List.finRange n).flatMap faces).dedup

/-- What one dictionary entry appends to `adjacency[i]` (composer.py:366-370). -/
def contribution (elems : List (Fin n)) (i : Fin n) : List (Fin n) :=
  match elems with
  | [a, b] => (if a = i then [b] else []) ++ (if b = i then [a] else [])
  | _ => []

/-- composer.py:351-371 `adjacency[i]`. -/
def adjacency (faces : Fin n → List (List ℕ)) (i : Fin n) : List (Fin n) :=
  (faceKeys faces).flatMap fun f => contribution (elemsOf faces f) i

end Verif.Adjacency
