import Verif.Model.BoxMesh
import Mathlib.Order.Interval.Set.Basic

/-! What a hexahedral mesh of a box is. -/
namespace Verif.Spec
open Verif Verif.BoxMesh Verif.Geometry

/-- The points `q` are the eight corners of the axis-parallel box between `lo` and `hi`. -/
structure Corners (q : Fin 8 → Vec) (lo hi : Vec) : Prop where
  solid : ∀ i, lo i < hi i
  distinct : Function.Injective q
  corners : Set.range q = {v | ∀ i, v i = lo i ∨ v i = hi i}

/-- `M` is a conforming mesh of the box with edges `x`, `y`, `z`: element `e` is the box between `lo e` and `hi e`; the elements fill the
box, overlap at most in their boundaries and are congruent; no point occurs twice, so that neighbours share point numbers; and no edge is
longer than `h`, nor shorter than `h/2` unless it is a whole edge of the box. -/
structure Fills (M : HexMesh) (x y z h : ℝ) (lo hi : ℕ → Vec) : Prop where
  elements : ∀ (e : ℕ) t, M.t[e]? = some t → Corners (fun c => M.p (t c)) (lo e) (hi e)
  used : ∀ (e : ℕ) t, M.t[e]? = some t → ∀ c, t c < M.npoints
  points : ∀ a b, a < M.npoints → b < M.npoints → M.p a = M.p b → a = b
  cover : ∀ v : Vec, (∃ e < M.t.length, ∀ i, lo e i ≤ v i ∧ v i ≤ hi e i) ↔
    (0 ≤ v 0 ∧ v 0 ≤ x) ∧ (0 ≤ v 1 ∧ v 1 ≤ y) ∧ (0 ≤ v 2 ∧ v 2 ≤ z)
  apart : ∀ e e', e < M.t.length → e' < M.t.length → e ≠ e' → ∀ v : Vec, ¬ ∀ i, (lo e i < v i ∧ v i < hi e i) ∧ lo e' i < v i ∧ v i < hi e' i
  congruent : ∀ e e', e < M.t.length → e' < M.t.length → ∀ i, hi e i - lo e i = hi e' i - lo e' i
  fine : ∀ e < M.t.length, ∀ i, hi e i - lo e i ≤ h ∧ (h / 2 < hi e i - lo e i ∨ hi e i - lo e i = ![x, y, z] i)

/-- `F` is a side of an element of `M`: four different corners of element `F.1` in a plane at right angles to an axis. -/
def IsSide (M : HexMesh) (F : ℕ × (Fin 4 → ℕ)) : Prop :=
  ∃ t, M.t[F.1]? = some t ∧ (∀ c, F.2 c ∈ Set.range t) ∧ Function.Injective F.2 ∧ ∃ (axis : Fin 3) (v : ℝ), ∀ c, M.p (F.2 c) axis = v

/-- The middle of a side. -/
noncomputable def middleOf (M : HexMesh) (F : ℕ × (Fin 4 → ℕ)) : Vec := (1 / 4 : ℝ) • ∑ c, M.p (F.2 c)

/-- Two descriptions of the same side of the same element. -/
def SameSide (F F' : ℕ × (Fin 4 → ℕ)) : Prop := F.1 = F'.1 ∧ Set.range F.2 = Set.range F'.2

end Verif.Spec
