import Verif.Model.Py
import Mathlib.Data.List.Sort
import Mathlib.Data.List.Dedup

/-!
Mesh queries of `/repo/scikit-topt/sktopt/mesh/utils.py` (lines 139–263) on mesh connectivity.

A mesh is its list of elements (`mesh.t.T`), an element the list of its node numbers.  A Python `set`
is a list without duplicates; its iteration order is not specified in Python, here it is insertion
order.  Node and element numbers are natural numbers (Python would also accept negative indices).
-/
namespace Verif.Mesh

/-- `mesh.t.T`. -/
abbrev Conn := List (List ℕ)

/-- `set.add`. -/
def setAdd (s : List ℕ) (x : ℕ) : List ℕ := if x ∈ s then s else s ++ [x]

/-- `set.update(xs)`. -/
def setUpdate (s xs : List ℕ) : List ℕ := xs.foldl setAdd s

/-- `sorted(set)`. -/
def sorted (s : List ℕ) : List ℕ := s.insertionSort (· ≤ ·)

/-- `np.unique`. -/
def unique (l : List ℕ) : List ℕ := sorted l.dedup

/-- A `defaultdict(set)` with node keys; a key that was never added to maps to the empty set
(`.get(node, [])`). -/
abbrev Table := ℕ → List ℕ

/-- `node_to_elements[n].add(e)`. -/
def Table.add (T : Table) (n e : ℕ) : Table := fun m => if m = n then setAdd (T m) e else T m

/-- utils.py:208–212 and 232–235: the table node → elements, filled element by element. -/
def nodeTableFrom : ℕ → Conn → Table → Table
  | _, [], T => T
  | e, nodes :: rest, T => nodeTableFrom (e + 1) rest (nodes.foldl (fun T n => T.add n e) T)

/-- The complete table of a mesh. -/
def nodeTable (t : Conn) : Table := nodeTableFrom 0 t fun _ => []

/-- utils.py:223–228: the sorted union of the entries of the target nodes. -/
def collect (T : Table) (targets : List ℕ) : List ℕ :=
  sorted ((unique targets).foldl (fun s n => setUpdate s (T n)) [])

/-- The function attribute `_cache`: `id(mesh)` → table (utils.py:201–215). -/
abbrev Cache := ℕ → Option Table

/-- utils.py:180–228 `get_elements_by_nodes(mesh, nodes)`, with the object identity of the mesh and
the cache made explicit.  `targets` is the concatenation of the node arrays. -/
def getElementsByNodes (c : Cache) (id : ℕ) (t : Conn) (targets : List ℕ) : Cache × List ℕ :=
  match c id with
  | some T => (c, collect T targets)
  | none =>
    let T := nodeTable t
    (fun i => if i = id then some T else c i, collect T targets)

/-- The function on a mesh that was not queried before. -/
def elementsByNodes (t : Conn) (targets : List ℕ) : List ℕ := collect (nodeTable t) targets

/-- utils.py:149 `np.where((mesh.t == node).any(axis=0))[0]`. -/
def connected (t : Conn) (node : ℕ) : List ℕ :=
  (List.range t.length).filter fun j => decide (node ∈ t.getD j [])

/-- utils.py:144–152: the coordinate pairs appended to `rows`, `cols`. -/
def slowPairs (t : Conn) : List (ℕ × ℕ) :=
  (List.range t.length).flatMap fun i => (t.getD i []).flatMap fun node =>
    (connected t node).map fun j => (i, j)

/-- utils.py:154–157: an entry of the sparse matrix built from coordinate pairs with `uint8` ones;
duplicates are summed modulo 256. -/
def entry (pairs : List (ℕ × ℕ)) (i j : ℕ) : ℕ := pairs.count (i, j) % 256

/-- `adjacency[idx].nonzero()[1]` for a matrix of size `n`. -/
def nonzeroRow (n : ℕ) (pairs : List (ℕ × ℕ)) (i : ℕ) : List ℕ :=
  (List.range n).filter fun j => entry pairs i j ≠ 0

/-- utils.py:168–177 and 257–263: union of the rows of the given elements, the given elements removed,
sorted.  An element number outside the matrix raises. -/
def adjacentFrom (n : ℕ) (pairs : List (ℕ × ℕ)) (idx : List ℕ) : Res (List ℕ) :=
  if idx.all (· < n) then
    .ok (sorted ((idx.foldl (fun s i => setUpdate s (nonzeroRow n pairs i)) []).filter
      fun j => decide (j ∉ idx)))
  else .error .indexError

/-- utils.py:162–177 `get_adjacent_elements`. -/
def getAdjacentElements (t : Conn) (idx : List ℕ) : Res (List ℕ) :=
  adjacentFrom t.length (slowPairs t) idx

/-- utils.py:237–242: `neighbors` of an element.  (Simplification: the table is read at every node
below the largest node number plus one instead of in dictionary order.) -/
def fastNeighbors (t : Conn) (e1 : ℕ) : List ℕ :=
  (List.range (t.flatten.foldl max 0 + 1)).foldl (fun s n =>
    if e1 ∈ nodeTable t n then setUpdate s ((nodeTable t n).filter fun e2 => decide (e1 ≠ e2)) else s) []

/-- utils.py:231–254 `build_element_adjacency_matrix_fast`. -/
def fastPairs (t : Conn) : List (ℕ × ℕ) :=
  (List.range t.length).flatMap fun e => (fastNeighbors t e).map fun a => (e, a)

/-- utils.py:257–263 `get_adjacent_elements_fast` on the matrix of the function before. -/
def getAdjacentElementsFast (t : Conn) (idx : List ℕ) : Res (List ℕ) :=
  adjacentFrom t.length (fastPairs t) idx

end Verif.Mesh
