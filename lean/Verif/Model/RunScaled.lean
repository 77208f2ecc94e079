import Verif.Model.Run

/-!
Runs with `scaling=True` on an elasticity task: `/repo/scikit-topt/sktopt/core/optimizers/common_density.py` lines 539–540, 626–636 and
`mesh/task_common.py` lines 403–422, followed by the run of `Verif.Model.Run`.

Simplifications: the largest edge `L` of the bounding box (lines 627–630) is a parameter; `skfem.Basis(mesh_scaled, elem)` uses the same
quadrature as the basis it replaces. `elements_volume`, all index sets and the configuration are not touched by `scale`. Heat tasks have no
attribute `force`, so that `scaling=True` raises AttributeError for them (not modelled).
-/
namespace Verif.Run
open Verif Verif.Driver

noncomputable section
open Classical

variable {ι E Q : Type} [Fintype ι] [Fintype E] [Fintype Q] {d m : ℕ}

/-- What `skfem` assembles for the nodal filter on the mesh with coordinates `p / L`: integrals get the factor `L^-d`, each derivative a
factor `L` (filters/helmholtz_filter_nodal.py 121–157, called after scaling). -/
def scaledNodal (N : Nodal E) (L : ℝ) (d : ℕ) : Nodal E :=
  { N with
    mass := fun i j => (1 / L) ^ d * N.mass i j
    stiff := fun i j => L ^ 2 * (1 / L) ^ d * N.stiff i j }

/-- The task after `self.scale()` (common_density.py 626–636 with `F_scale = 10**5`; task_common.py 403–422). -/
def scaledSetup (R : Setup ι E Q d m) (L : ℝ) : Setup ι E Q d m :=
  { R with
    centers := fun e => (1 / L) • R.centers e
    nodal := R.nodal.map fun N => scaledNodal N L d
    fe := { grad := fun i e q => L • R.fe.grad i e q, dx := fun e q => (1 / L) ^ d * R.fe.dx e q }
    loads := fun j i => R.loads j i * (1 / 10 ^ 5) }

/-- `n_tasks` after scaling (mesh/task_elastic.py lines 113–124): the setter of `force` replaces the list of one load by the load vector,
whose length is the number of degrees of freedom. -/
def nTasks (ι : Type) [Fintype ι] (m : ℕ) : ℕ := if m = 1 then Fintype.card ι else m

/-- Lines 1055–1064 and 1085–1095 for the scaled task `R`: `n_tasks` columns of `u_dofs`, of which the solver fills the first `m`; the
others stay zero (line 817 and solver_elastic.py). -/
def scaledResponse (R : Setup ι E Q d m) (v : Vals) (proj : E → ℝ) : Res (ℝ × (Fin (nTasks ι m) → E → ℝ)) :=
  let Em := modulus R v.p proj
  match Elastic.objectives R.backend R.solver (Elastic.stiffness R.fe Em R.nu) R.dirichlet (List.ofFn R.loads) v.neumannScale with
  | .error e => .error e
  | .ok (cs, us) =>
    .ok (cs.sum / m, fun j e =>
      Material.dCSimp (proj e) (Elastic.elemEnergy R.fe Em R.nu (us.getD j 0) e) R.E0 (R.E0 * R.eMinCoeff) v.p)

/-- An OC run with `scaling=True`. -/
def scaledSys (R : Setup ι E Q d m) (L : ℝ) : Sys E ℝ (State E d) :=
  sysWith (scaledSetup R L).toCommon (stepWith (scaledSetup R L).toCommon (scaledResponse (scaledSetup R L)))

end
end Verif.Run
