import Verif.Model.Elastic
import Verif.Model.BoxMesh

/-!
The finite element data the library builds its analyses on: `skfem.Basis(mesh, ElementVector(ElementTetP1()), intorder)` for tetrahedra and
`skfem.Basis(mesh, ElementVector(ElementHex1()), intorder)` for hexahedra (`/repo/scikit-topt/sktopt/mesh/loader.py` lines 17–32,
`/repo/scikit-topt/sktopt/mesh/toy_problem.py` lines 64, 79–80, 114, 134, 196–204). The source of `skfem` is not part of the repository; its
(isoparametric) reference mapping and shape functions are modelled from its documentation.

Simplifications: a degree of freedom is a pair (node, component), not its number `basis.nodal_dofs[component, node]`; real numbers.
-/
namespace Verif.FEBasis
open Matrix

variable {N E C Q : Type} {d : ℕ}

/-- `mesh.p` and `mesh.t` (loader.py lines 18, 21): coordinates of the nodes, corners of the elements. -/
structure Mesh (N E C : Type) (d : ℕ) where
  p : N → Fin d → ℝ
  t : E → C → N

/-- A reference element with a quadrature rule: the derivatives of the shape function of each corner at each quadrature point, the weights
(loader.py lines 19, 22, 29–32: `element`, `intorder`). -/
structure Ref (C Q : Type) (d : ℕ) where
  dphi : Q → C → Fin d → ℝ
  weight : Q → ℝ

noncomputable section

variable [Fintype C]

/-- The derivative of the reference mapping (`mapping.DF`): column `l` is the derivative of the position in the reference direction `l`
(within `skfem.Basis`, loader.py lines 29–32). -/
def jac (M : Mesh N E C d) (R : Ref C Q d) (e : E) (q : Q) : Matrix (Fin d) (Fin d) ℝ :=
  Matrix.of fun i l => ∑ c, M.p (M.t e c) i * R.dphi q c l

/-- The gradient of the shape function of a corner: reference gradient times `mapping.invDF` (within `skfem.Basis`, loader.py lines 29–32). -/
def shapeGrad (M : Mesh N E C d) (R : Ref C Q d) (e : E) (q : Q) (c : C) (j : Fin d) : ℝ :=
  ∑ l, R.dphi q c l * (jac M R e q)⁻¹ l j

open Classical in
/-- `skfem.Basis(mesh, ElementVector(element), intorder)` (loader.py lines 29–32): the vector-valued basis function of node `n` and component
`k` has gradient `∂_j u_k` in row `k`; `dx = |det DF| * weight`. -/
def basis (M : Mesh N E C d) (R : Ref C Q d) : Elastic.FE (N × Fin d) E Q d where
  grad nk e q := Matrix.of fun i j => if i = nk.2 then ∑ c, (if M.t e c = nk.1 then shapeGrad M R e q c j else 0) else 0
  dx e q := |(jac M R e q).det| * R.weight q

/-- `ElementTetP1` (loader.py line 22): `1 - ∑ x_l` at corner 0, `x_a` at corner `a + 1`, for simplices of any dimension. -/
def p1 (d : ℕ) (weight : Q → ℝ) : Ref (Fin (d + 1)) Q d where
  dphi _ c := Fin.cases (motive := fun _ => Fin d → ℝ) (fun _ => -1) (fun a l => if l = a then 1 else 0) c
  weight := weight

/-- The corners of `skfem`'s reference cube (`RefHex`): 000, 001, 010, 100, 011, 101, 110, 111. -/
def hexCorner : Fin 8 → Fin 3 → ℝ :=
  ![![0, 0, 0], ![0, 0, 1], ![0, 1, 0], ![1, 0, 0], ![0, 1, 1], ![1, 0, 1], ![1, 1, 0], ![1, 1, 1]]

/-- `ElementHex1` (loader.py line 19): the product over the directions `k` of `x_k` or `1 - x_k`, differentiated in direction `l`; the
quadrature points are `X q`. -/
def q1 (X : Q → Fin 3 → ℝ) (weight : Q → ℝ) : Ref (Fin 8) Q 3 where
  dphi q c l := ∏ k, if k = l then 2 * hexCorner c k - 1 else hexCorner c k * X q k + (1 - hexCorner c k) * (1 - X q k)
  weight := weight

/-- The Gauss points of order 2 in one direction (`intorder=2`, loader.py line 11, toy_problem.py line 80). -/
def gauss2 : Fin 2 → ℝ := ![1 / 2 - Real.sqrt 3 / 6, 1 / 2 + Real.sqrt 3 / 6]

/-- `ElementHex1` with `intorder=2` or `3`: the tensor product of the two-point rule, all weights 1/8. -/
def hex2 : Ref (Fin 8) (Fin 3 → Fin 2) 3 := q1 (fun q k => gauss2 (q k)) fun _ => 1 / 8

/-- `ElementHex1` with one integration point (`intorder=1`, unless `skfem` raises it to 2): the midpoint of the cube, weight 1. -/
def hexMid : Ref (Fin 8) Unit 3 := q1 (fun _ _ => 1 / 2) fun _ => 1

/-- A mesh of the toy problems (toy_problem.py lines 32–36) with its points and elements as finite types. -/
def ofHex (M : BoxMesh.HexMesh) (h : ∀ t ∈ M.t, ∀ c, t c < M.npoints) : Mesh (Fin M.npoints) (Fin M.t.length) (Fin 8) 3 where
  p n := M.p n
  t e c := ⟨M.t[e] c, h _ (List.getElem_mem e.isLt) c⟩

open Classical in
/-- The degrees of freedom `from_facets` fixes for the Dirichlet facets and `dirichlet_dir="all"` (toy_problem.py lines 81–84;
task_common.py lines 159–163, 291–305): all components of every corner of every facet. -/
def clamped (M : BoxMesh.HexMesh) (facets : List (ℕ × (Fin 4 → ℕ))) : Finset (Fin M.npoints × Fin 3) :=
  Finset.univ.filter fun x => ∃ F ∈ facets, ∃ c, F.2 c = x.1

end
end Verif.FEBasis
