import Verif.Model.Task
import Verif.Model.History
import Mathlib.Analysis.InnerProductSpace.PiL2

/-!
`FEMDomain.nodes_and_elements_stats` (`/repo/scikit-topt/sktopt/mesh/task_common.py` lines 424–505): the printed distances between
neighbouring nodes and elements, and the bars of `info-nodes-elements.jpg`. The histograms of the picture (bins, axes, titles) are left out,
except that `hist` raises for values that are not finite.
-/
namespace Verif.Stats
open Verif Verif.Task Verif.Mesh

noncomputable section
open Classical

/-- A point of the mesh. -/
abbrev Point := EuclideanSpace ℝ (Fin 3)

/-- The second column of `cKDTree(pts).query(pts, k=2)` for the point `x` (lines 427–428, 434–435): the distances to all points are sorted,
the first one is that of `x` to itself; without a second point SciPy answers `inf`, here `none`. -/
def secondDist (pts : List Point) (x : Point) : Option ℝ := ((pts.map fun y => dist x y).mergeSort fun a b => decide (a ≤ b))[1]?

/-- `node_nearest_dists`, `element_nearest_dists` (lines 428, 435). -/
def nearest (pts : List Point) : List (Option ℝ) := pts.map (secondDist pts)

/-- `np.mean(mesh.p[:, mesh.t], axis=1).T` (lines 430–432). -/
def centres (p : List Point) (t : Conn) : List Point := t.map fun el => (el.length : ℝ)⁻¹ • (el.map fun v => p.getD v 0).sum

/-- `np.median`. -/
def median (xs : List ℝ) : ℝ :=
  let s := xs.mergeSort fun a b => decide (a ≤ b)
  if s.length % 2 = 1 then s.getD (s.length / 2) 0 else (s.getD (s.length / 2 - 1) 0 + s.getD (s.length / 2) 0) / 2

/-- The five lines printed for one kind of distances. -/
structure Summary where
  min : ℝ
  max : ℝ
  mean : ℝ
  median : ℝ
  std : ℝ

/-- Lines 437–449: `np.min` of an empty array raises. Infinite distances would be printed; `hist` raises for them afterwards
(lines 454, 460), which is all that is modelled. -/
def summarize (ds : List (Option ℝ)) : Res Summary :=
  match ds.mapM id with
  | none => .error .valueError
  | some [] => .error .valueError
  | some (x :: xs) => .ok ⟨xs.foldl Min.min x, xs.foldl Max.max x, History.mean (x :: xs), median (x :: xs), History.std (x :: xs)⟩

/-- `np.sum(self.elements_volume[group])` (lines 485–488). An index array sums the volumes of the group; `None` as an index adds an axis, so
that everything is summed. -/
def groupVolume (vol : List ℝ) : Option (List ℕ) → Res ℝ
  | none => .ok vol.sum
  | some es => if es.all (· < vol.length) then .ok (es.map fun e => vol.getD e 0).sum else .error .indexError

/-- What the user sees: the distances between nodes, those between elements, and the four bars. -/
structure Report where
  nodes : Summary
  elements : Summary
  bars : List (String × ℝ)

/-- `nodes_and_elements_stats` (lines 424–505) of a task on the mesh with nodes `p` and elements `t`, whose volumes are `vol`. -/
def nodesAndElementsStats (p : List Point) (t : Conn) (vol : List ℝ) (T : Task) : Res Report := do
  let n ← summarize (nearest p)
  let e ← summarize (nearest (centres p t))
  let d ← groupVolume vol T.dirichletElements
  let f ← groupVolume vol T.neumannElements
  let g ← groupVolume vol (some T.design)
  pure ⟨n, e, [("all", vol.sum), ("dirichlet", d), ("force", f), ("design", g)]⟩

end
end Verif.Stats
