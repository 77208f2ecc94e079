import Mathlib.Data.List.Basic
import Mathlib.Data.Nat.Basic

/-! What it means to be a part of a mesh. -/
namespace Verif.Spec

/-- The mesh `(p', t')` consists of the elements `keep` of the mesh `(p, t)`, in this order: there is an order-preserving numbering `old`
of the vertices in use such that new points are old points, every new vertex is a corner of some element, and the `j`-th new element has
the corners of the `j`-th kept one. -/
structure IsPart {α : Type} (p : List α) (t : List (List ℕ)) (keep : List ℕ) (p' : List α) (t' : List (List ℕ)) (old : ℕ → ℕ) : Prop where
  monotone : ∀ i j, i < j → j < p'.length → old i < old j
  points : ∀ i, i < p'.length → p'[i]? = p[old i]?
  used : ∀ i, i < p'.length → ∃ el ∈ t', i ∈ el
  inside : ∀ el ∈ t', ∀ i ∈ el, i < p'.length
  length : t'.length = keep.length
  elements : ∀ j : ℕ, (t'[j]?).map (List.map old) = (keep[j]?).bind (t[·]?)

end Verif.Spec
