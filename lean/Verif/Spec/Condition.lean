import Verif.Model.Task

/-! What `condition.vtu` is meant to show. -/
namespace Verif.Condition.Spec
open Verif.Task

/-- Node `n` belongs to one of the facets given by an optional argument (one array or a list of arrays). -/
def OnFacets (b : Basis) (arg : Option Arrays) (n : ℕ) : Prop :=
  ∃ a, arg = some a ∧ ∃ i, (match a with | .arr l => i ∈ l | .lst ls => ∃ l ∈ ls, i ∈ l) ∧
    ∃ nodes, b.facets[i]? = some nodes ∧ n ∈ nodes

/-- Node `n` is among the nodes given by an optional argument. -/
def Given (arg : Option Arrays) (n : ℕ) : Prop :=
  ∃ a, arg = some a ∧ (match a with | .arr l => n ∈ l | .lst ls => ∃ l ∈ ls, n ∈ l)

open Classical in
/-- The colour of a node: 3 on the Robin boundary, else 2 on the Dirichlet boundary, else 1 on the Neumann boundary,
else 0. -/
noncomputable def nodeColour (neumann dirichlet robin : ℕ → Prop) (n : ℕ) : ℕ :=
  if robin n then 3 else if dirichlet n then 2 else if neumann n then 1 else 0

/-- The node numbers of the mesh are below `nNodes`: those of the elements and those of the facets. -/
def NodesBelow (b : Basis) (nNodes : ℕ) : Prop := ∀ facet ∈ b.facets, ∀ n ∈ facet, n < nNodes

end Verif.Condition.Spec
