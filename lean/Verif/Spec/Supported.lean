import Verif.Model.FEBasis
import Mathlib.LinearAlgebra.AffineSpace.Independent
import Mathlib.Analysis.Normed.Lp.PiLp
import Mathlib.Logic.Relation

/-! Specification for C144: bodies made of elements, and rigid motions. -/
namespace Verif.Spec.Supported
open Verif.FEBasis

variable {N E C : Type} {d : ℕ}

/-- The displacement is a (linearised) rigid motion: a translation plus an infinitesimal rotation. -/
def RigidMotion (p : N → Fin d → ℝ) (u : N × Fin d → ℝ) : Prop :=
  ∃ (b : Fin d → ℝ) (W : Matrix (Fin d) (Fin d) ℝ), (∀ i j, W j i = -W i j) ∧ ∀ n i, u (n, i) = b i + ∑ j, W i j * p n j

/-- Two elements have a common side: `d` common nodes that lie on no smaller plane (three nodes not on a line, in space). -/
def Joined (M : Mesh N E C d) (e e' : E) : Prop :=
  ∃ n : Fin d → N, (∀ k, (∃ c, M.t e c = n k) ∧ ∃ c, M.t e' c = n k) ∧ AffineIndependent ℝ fun k => M.p (n k)

/-- The mesh is one piece: from every element to every other one through common sides, and no loose nodes. -/
def OnePiece (M : Mesh N E C d) : Prop :=
  (∀ e e', Relation.ReflTransGen (Joined M) e e') ∧ ∀ n, ∃ e c, M.t e c = n

/-- No tetrahedron (simplex) is flat. -/
def NotFlat (M : Mesh N E (Fin (d + 1)) d) : Prop := ∀ e, AffineIndependent ℝ fun c => M.p (M.t e c)

/-- Every hexahedron is a box with edges `a`, `b`, `c` (not necessarily at right angles) that span space, in the node order of `skfem`. -/
def Boxes (M : Mesh N E (Fin 8) 3) : Prop :=
  ∀ e, ∃ o a b c : Fin 3 → ℝ, LinearIndependent ℝ ![a, b, c] ∧
    (fun k => M.p (M.t e k)) = ![o, o + c, o + b, o + a, o + b + c, o + a + c, o + a + b, o + a + b + c]

/-- The supports exclude every rigid motion. -/
def NoLooseMotion (p : N → Fin d → ℝ) (D : Finset (N × Fin d)) : Prop :=
  ∀ u, RigidMotion p u → (∀ i ∈ D, u i = 0) → u = 0

end Verif.Spec.Supported
