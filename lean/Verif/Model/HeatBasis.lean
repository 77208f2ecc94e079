import Verif.Model.Heat
import Verif.Model.FEBasis

/-!
The scalar finite element data of heat tasks: `skfem.Basis(mesh, ElementTetP1())`, `skfem.Basis(mesh, ElementHex1())`, and the facet bases of their
Robin surfaces. The library receives the basis from the user (`LinearHeatConduction.from_facets`,
`/repo/scikit-topt/sktopt/mesh/task_heat.py` lines 171–249; built as in `/repo/scikit-topt/tests/test_global_flow.py` lines 90–91) and builds the
facet bases itself (task_heat.py lines 106–111, 129–131). As in `Verif.Model.FEBasis`, `skfem` is modelled from its documentation.
-/
namespace Verif.FEBasis

variable {N E C Q : Type} {d : ℕ}

noncomputable section

/-- The values of the shape functions of `ElementTetP1` at the quadrature points `X q`: `1 - ∑ x_l` at corner 0, `x_a` at corner `a + 1`
(test_global_flow.py line 90 with tetrahedra). -/
def p1Val (X : Q → Fin d → ℝ) (q : Q) (c : Fin (d + 1)) : ℝ := Fin.cases (motive := fun _ => ℝ) (1 - ∑ l, X q l) (X q) c

/-- The values of the shape functions of `ElementHex1` (test_global_flow.py line 90). -/
def q1Val (X : Q → Fin 3 → ℝ) (q : Q) (c : Fin 8) : ℝ := ∏ k, (hexCorner c k * X q k + (1 - hexCorner c k) * (1 - X q k))

variable [Fintype C]

open Classical in
/-- `skfem.Basis(mesh, element, intorder)` for a scalar element (test_global_flow.py line 91): the basis function of node `n` is, in an element
with this node as a corner, the shape function of that corner. -/
def scalarBasis (M : Mesh N E C d) (R : Ref C Q d) (phi : Q → C → ℝ) : Heat.FE N E Q d where
  val n e q := ∑ c, if M.t e c = n then phi q c else 0
  grad n e q j := ∑ c, if M.t e c = n then shapeGrad M R e q c j else 0
  dx e q := |(jac M R e q).det| * R.weight q

/-- A quadrature point of a facet basis: the element behind the facet, the values of its shape functions there, the weight. -/
structure SurfacePoint (E C : Type) where
  element : E
  phi : C → ℝ
  dx : ℝ

open Classical in
/-- `skfem.FacetBasis(basis.mesh, basis.elem, facets=…)` (task_heat.py lines 107–111). -/
def surface (M : Mesh N E C d) (ps : List (SurfacePoint E C)) : Heat.Region N where
  n := ps.length
  val n q := ∑ c, if M.t ps[q].element c = n then ps[q].phi c else 0
  dx q := ps[q].dx

end
end Verif.FEBasis
