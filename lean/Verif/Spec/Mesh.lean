import Mathlib.Data.List.Basic

/-! Independent vocabulary for mesh queries. -/
namespace Verif.Mesh.Spec

/-- Element `e` of the mesh `t` contains node `n`. -/
def Contains (t : List (List ℕ)) (e n : ℕ) : Prop := ∃ nodes, t[e]? = some nodes ∧ n ∈ nodes

/-- Element `e` touches one of the given nodes. -/
def Touches (t : List (List ℕ)) (nodes : List ℕ) (e : ℕ) : Prop := ∃ n ∈ nodes, Contains t e n

/-- Elements `i`, `j` have a common node. -/
def ShareNode (t : List (List ℕ)) (i j : ℕ) : Prop := ∃ n, Contains t i n ∧ Contains t j n

/-- `l` lists exactly the numbers satisfying `P`, each once, in increasing order. -/
def Lists (l : List ℕ) (P : ℕ → Prop) : Prop := l.Pairwise (· < ·) ∧ ∀ e, e ∈ l ↔ P e

end Verif.Mesh.Spec
