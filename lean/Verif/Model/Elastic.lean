import Verif.Model.Material
import Verif.Model.Solver
import Mathlib.LinearAlgebra.Matrix.NonsingularInverse
import Mathlib.LinearAlgebra.Matrix.Trace

/-!
Linear elasticity analysis: `/repo/scikit-topt/sktopt/fea/composer.py` lines 53–101 and
`/repo/scikit-topt/sktopt/fea/solver_elastic.py` lines 146–237, 240–537, 643–676.

A finite element basis is given by what scikit-fem evaluates: the gradient of every (vector-valued) basis function at every quadrature
point of every element (zero on elements outside its support) and the quadrature weights `dx`. Degrees of freedom `ι`, elements `E` and
quadrature points `Q` are arbitrary finite types, the space dimension `d` is arbitrary. Floats are real numbers. The linear solvers are
specified by the system they solve (`Solves`).
-/
namespace Verif.Elastic

open Matrix Material

variable {ι E Q : Type} [Fintype ι] [Fintype E] [Fintype Q] {d : ℕ}

/-- The data of an `skfem.Basis`. -/
structure FE (ι E Q : Type) (d : ℕ) where
  grad : ι → E → Q → Matrix (Fin d) (Fin d) ℝ
  dx : E → Q → ℝ

noncomputable section

/-- `skfem.helpers.sym_grad` and `0.5 * (grad + transpose(grad))` (solver_elastic.py line 473). -/
def sym (g : Matrix (Fin d) (Fin d) ℝ) : Matrix (Fin d) (Fin d) ℝ := (1 / 2 : ℝ) • (g + gᵀ)

/-- `skfem.helpers.ddot`. -/
def ddot (a b : Matrix (Fin d) (Fin d) ℝ) : ℝ := ∑ i, ∑ j, a i j * b i j

/-- `skfem.helpers.eye(w, n)`: the scalar `w` on the diagonal. -/
def eye (w : ℝ) : Matrix (Fin d) (Fin d) ℝ := w • (1 : Matrix (Fin d) (Fin d) ℝ)

/-- The integrand of `assemble_stiffness_matrix` (composer.py lines 88–99) for Young's modulus `Em`. -/
def stiffForm (Em nu : ℝ) (gu gv : Matrix (Fin d) (Fin d) ℝ) : ℝ :=
  (lamMu Em nu).1 * (sym gu).trace * (sym gv).trace + 2 * (lamMu Em nu).2 * ddot (sym gu) (sym gv)

/-- `assemble_stiffness_matrix` (composer.py lines 53–101); `Em` is `elem_func(rho, E0, Emin, p)`. -/
def stiffness (B : FE ι E Q d) (Em : E → ℝ) (nu : ℝ) : Matrix ι ι ℝ :=
  fun i j => ∑ e, ∑ q, stiffForm (Em e) nu (B.grad j e q) (B.grad i e q) * B.dx e q

open Classical in
/-- The matrix returned by `skfem.enforce(K, f, D=D)` (solver_elastic.py line 211): rows in `D` become rows of the identity. -/
def enforceK (K : Matrix ι ι ℝ) (D : Finset ι) : Matrix ι ι ℝ :=
  fun i j => if i ∈ D then (if i = j then 1 else 0) else K i j

open Classical in
/-- The right-hand side returned by `skfem.enforce(K, f, D=D)`: entries in `D` become the prescribed value 0. -/
def enforceF (f : ι → ℝ) (D : Finset ι) : ι → ℝ := fun i => if i ∈ D then 0 else f i

/-- `u` is what an exact linear solver returns for the enforced system. -/
def Solves (K : Matrix ι ι ℝ) (D : Finset ι) (f u : ι → ℝ) : Prop := enforceK K D *ᵥ u = enforceF f D

open Classical in
/-- The compliance of one load case: `F_e[free_dofs] @ u[free_dofs]` (solver_elastic.py lines 207, 236). -/
def complianceSingle (D : Finset ι) (f u : ι → ℝ) : ℝ := ∑ i ∈ Finset.univ \ D, enforceF f D i * u i

/-- The compliance of one of several load cases: a column of `np.einsum('ij,ij->j', F_stack, u_view)` (line 465). -/
def complianceMulti (D : Finset ι) (f u : ι → ℝ) : ℝ := ∑ i, enforceF f D i * u i

/-- `basis.interpolate(u).grad`. -/
def gradOf (B : FE ι E Q d) (u : ι → ℝ) (e : E) (q : Q) : Matrix (Fin d) (Fin d) ℝ := ∑ i, u i • B.grad i e q

/-- `_strain_energy_density_` (solver_elastic.py lines 470–485; the same in composer.py lines 374–388). -/
def energyDensity (Em nu : ℝ) (g : Matrix (Fin d) (Fin d) ℝ) : ℝ :=
  let s := sym g
  let stress := (2 * (lamMu Em nu).2) • s + (lamMu Em nu).1 • eye s.trace
  (1 / 2) * ddot stress s

/-- `strain_energy_skfem` and each column of `strain_energy_skfem_multi` (solver_elastic.py lines 487–537). -/
def elemEnergy (B : FE ι E Q d) (Em : E → ℝ) (nu : ℝ) (u : ι → ℝ) (e : E) : ℝ :=
  ∑ q, energyDensity (Em e) nu (gradOf B u e q) * B.dx e q

/-- `compute_compliance_basis` (solver_elastic.py lines 146–237) for the assembled matrix `K`. -/
def computeSingle (B : Solver.Backend ℝ (Matrix ι ι ℝ) (ι → ℝ)) (c : Solver.Cfg ℝ) (K : Matrix ι ι ℝ) (D : Finset ι) (f : ι → ℝ) :
    Res (ℝ × (ι → ℝ)) :=
  (Solver.solveSingle B c (Fintype.card ι) (enforceK K D) (enforceF f D)).map fun u => (complianceSingle D f u, u)

/-- `compute_compliance_basis_multi_load` (solver_elastic.py lines 398–467): compliances, and the columns written to `u_all`. -/
def computeMulti (B : Solver.Backend ℝ (Matrix ι ι ℝ) (ι → ℝ)) (c : Solver.Cfg ℝ) (K : Matrix ι ι ℝ) (D : Finset ι)
    (fs : List (ι → ℝ)) : Res (List ℝ × List (ι → ℝ)) :=
  match fs with
  | [f] => (computeSingle B c K D f).map fun r => ([r.1], [r.2])
  | _ => (Solver.solveMulti B c (Fintype.card ι) (enforceK K D) (fs.map fun f => enforceF f D)).map fun us =>
      (List.zipWith (fun f u => complianceMulti D f u) fs us, us)

/-- `FEM_SimpLinearElasticity.objectives_multi_load` (solver_elastic.py lines 643–667): every load vector is multiplied by
`force_scale` first. -/
def objectives (B : Solver.Backend ℝ (Matrix ι ι ℝ) (ι → ℝ)) (c : Solver.Cfg ℝ) (K : Matrix ι ι ℝ) (D : Finset ι)
    (fs : List (ι → ℝ)) (scale : ℝ) : Res (List ℝ × List (ι → ℝ)) :=
  computeMulti B c K D (fs.map fun f i => f i * scale)

end
end Verif.Elastic
