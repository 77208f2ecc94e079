import Verif.Model.Adjacency
import Mathlib.Analysis.SpecialFunctions.Exp
import Mathlib.Analysis.InnerProductSpace.PiL2

/-!
Model of `/repo/scikit-topt/sktopt/filters/helmholtz_filter_element.py` and `helmholtz_filter_nodal.py`.

Element filter: `n` elements with centres in `ℝ^3`, adjacency lists from the shared faces, positive volumes. The linear
solvers (SuperLU, CG, AMG: external) are an arbitrary function `solve` that is assumed, where stated, to solve the
system exactly.

Nodal filter: elements `E` with `k` nodes each out of a finite node set `N`; the FEM solve is an arbitrary function.
-/
namespace Verif.Helmholtz

noncomputable section
open Classical

variable {n : ℕ}

/-- A mesh as the element filter sees it. -/
structure Mesh (n : ℕ) where
  centers : Fin n → EuclideanSpace ℝ (Fin 3)
  adj : Fin n → List (Fin n)
  vol : Fin n → ℝ

/-- The mesh with adjacency from face keys (helmholtz_filter_element.py:167-192). -/
def Mesh.ofFaces (centers : Fin n → EuclideanSpace ℝ (Fin 3)) (faces : Fin n → List (List ℕ)) (vol : Fin n → ℝ) :
    Mesh n := { centers, adj := Adjacency.adjacency faces, vol }

/-- helmholtz_filter_element.py:213-218, the weight of a neighbour; neighbours closer than `1e-12` are skipped. -/
def weight (M : Mesh n) (r : ℝ) (i j : Fin n) : ℝ :=
  if dist (M.centers i) (M.centers j) < 1 / 10 ^ 12 then 0
  else Real.exp (-(dist (M.centers i) (M.centers j)) ^ 2 / (2 * r ^ 2))

/-- helmholtz_filter_element.py:195-234 `element_to_element_laplacian` applied to `x`: off-diagonal entries
`-radius**2 * w`, diagonal the sum of `radius**2 * w`; duplicate COO entries add up. -/
def laplacian (M : Mesh n) (r : ℝ) (x : Fin n → ℝ) (i : Fin n) : ℝ :=
  ((M.adj i).map fun j => -r ^ 2 * weight M r i j * x j).sum + ((M.adj i).map fun j => r ^ 2 * weight M r i j).sum * x i

/-- helmholtz_filter_element.py:274, `volumes / np.mean(volumes)`. -/
def vnorm (M : Mesh n) (i : Fin n) : ℝ := M.vol i / ((∑ k, M.vol k) / n)

/-- helmholtz_filter_element.py:277 `A = V + radius**2 * laplacian`, applied to `x`. -/
def opA (M : Mesh n) (r : ℝ) (x : Fin n → ℝ) (i : Fin n) : ℝ := vnorm M i * x i + r ^ 2 * laplacian M r x i

/-- helmholtz_filter_element.py:276 `V`, applied to `x`. -/
def opV (M : Mesh n) (x : Fin n → ℝ) (i : Fin n) : ℝ := vnorm M i * x i

/-- helmholtz_filter_element.py:281-306, 320-370, 502-517: every `apply_helmholtz_filter_*` solves `A y = V rho`. -/
def forward (M : Mesh n) (solve : (Fin n → ℝ) → (Fin n → ℝ)) (rho : Fin n → ℝ) : Fin n → ℝ := solve (opV M rho)

/-- helmholtz_filter_element.py:309-317, 373-426, 519-536: every `apply_filter_gradient_*` solves `A y = V v`. -/
def gradient (M : Mesh n) (solve : (Fin n → ℝ) → (Fin n → ℝ)) (v : Fin n → ℝ) : Fin n → ℝ := solve (opV M v)

/-! ### Nodal filter -/

variable {E N : Type} [Fintype E] [Fintype N] {k : ℕ}

/-- helmholtz_filter_nodal.py:26-27 `node_to_element_density`. -/
def nodeToElement (t : E → Fin k → N) (x : N → ℝ) (e : E) : ℝ := (∑ i, x (t e i)) / k

/-- helmholtz_filter_nodal.py:30-56 `element_to_node_density_averaging`. `rho_node[nodes] += ...` with fancy indexing
adds once per distinct node; `design = none` is `design_mask is None`. -/
def elementToNode (t : E → Fin k → N) (vol : E → ℝ) (design : Option (Finset E)) (weighted : Bool) (fixedValue : ℝ)
    (rho : E → ℝ) (m : N) : ℝ :=
  let S := design.getD Finset.univ
  let val := fun e => if e ∈ S then rho e else fixedValue
  let w := fun e => if weighted then vol e else 1
  let num := ∑ e, if ∃ i, t e i = m then w e * val e else 0
  let wsum := ∑ e, if ∃ i, t e i = m then w e else 0
  num / if wsum = 0 then 1 else wsum

/-- helmholtz_filter_nodal.py:180-198 `forward`; `solveF` is `solve_helmholtz("forward", ...)`. -/
def nodalForward (t : E → Fin k → N) (vol : E → ℝ) (design : Option (Finset E)) (solveF : (N → ℝ) → (N → ℝ))
    (rho : E → ℝ) : E → ℝ :=
  nodeToElement t (solveF (elementToNode t vol design true 1 rho))

/-- helmholtz_filter_nodal.py:200-233 `gradient`; `solveG` is `solve_helmholtz("gradient", ..., design_mask=None)`. -/
def nodalGradient (t : E → Fin k → N) (vol : E → ℝ) (design : Option (Finset E)) (solveG : (N → ℝ) → (N → ℝ))
    (v : E → ℝ) (e : E) : ℝ :=
  min (nodeToElement t (solveG (elementToNode t vol design true 0 v)) e) 0

/-- helmholtz_filter_nodal.py:121-157 `solve_helmholtz` as a relation, over the assembled mass matrix `Mm` and stiffness
matrix `K` (external assembly): the weak form at every free node, the prescribed value at the fixed nodes. -/
def SolvesNodal (Mm K : N → N → ℝ) (r fixedValue : ℝ) (fixedNodes : Finset N) (y x : N → ℝ) : Prop :=
  (∀ m ∉ fixedNodes, ∑ l, (Mm m l + r ^ 2 * K m l) * x l = ∑ l, Mm m l * y l) ∧ ∀ m ∈ fixedNodes, x m = fixedValue

end
end Verif.Helmholtz
