import Verif.Model.RunHeat
import Verif.Spec.RunLog
import Verif.Spec.Heat

/-!
What complete OC and LogMOC runs on a heat task compute. As in `Verif.Spec.Trajectory`, only the records the user configures or reads
(`HeatSetup`, `Heat.Task`, `Rec`, `LogRec`, `Vals`) are shared with the model.
-/
namespace Verif.Spec
open Verif.Sched Verif.Run Verif.Heat

noncomputable section
open Classical

variable {ι Q : Type} [Fintype ι] [Fintype Q] {d nE k : ℕ}

/-- A run on a heat task a user may expect to work, whatever the optimizer: a task as constructed by the package on a mesh of first-order
elements with positive weights, positive conductivity, no negative film coefficient; one prescribed temperature per load case, all of them on
the same nodes (C82), which every part of the mesh is connected to; Robin boundaries if the objective or the option asks for them; a direct
solver. -/
structure HeatSound (R : HeatSetup ι Q d nE k) : Prop extends Basics R.toCommon where
  built : ∃ T0 : Task ι Q d nE k, T0.build = .ok R.task
  weights : ∀ e q, 0 < R.task.fe.dx e q
  shapes : ∀ i e q, 0 ≤ R.task.fe.val i e q
  partition : ∀ e q, ∑ i, R.task.fe.val i e q = 1
  corners : ∀ e, Function.Injective fun a => R.task.t a e
  surfaces : ∀ G ∈ R.task.regions, ∀ q, 0 ≤ G.dx q
  film : ∀ h Tenv, R.task.robin = some (h, Tenv) → 0 ≤ h
  material : 0 < R.task.k ∧ 0 < R.eMinCoeff ∧ R.eMinCoeff ≤ 1
  loadCases : R.task.values ≠ []
  regions : R.task.dirichlet.length = R.task.values.length
  same : ∀ D ∈ R.task.dirichlet, ∀ D' ∈ R.task.dirichlet, D = D'
  /-- a temperature that is zero on the prescribed nodes and has no slope is zero -/
  connected : ∀ D ∈ R.task.dirichlet, ∀ w : ι → ℝ, (∀ i ∈ D, w i = 0) → (∀ e q a, Heat.slope R.task.fe w e q a = 0) → w = 0
  robin : R.task.objective = .heatExchange ∨ R.task.designRobin = true → R.task.robin ≠ none
  /-- the direct solvers return the solution of a nonsingular system -/
  direct : ∀ K : Matrix ι ι ℝ, K.det ≠ 0 → (∀ f, R.backend.spsolve K f = .ok (K⁻¹.mulVec f)) ∧
    ∀ fs, R.backend.splu K fs = .ok (fs.map fun f => K⁻¹.mulVec f)
  solver : R.solver.solver = "auto" ∨ R.solver.solver = "spsolve"

/-- An OC run on a heat task a user may expect to work. The objective "compliance" with Robin boundaries needs the default filter: its
sensitivities may be positive, from which OC makes NaN densities unless the filter cuts them off (C103). -/
structure HeatWellPosed (R : HeatSetup ι Q d nE k) : Prop extends HeatSound R, OCRules R.toCommon where
  sign : R.task.objective = .compliance → R.task.robin ≠ none → R.nodal ≠ none

/-- A LogMOC run on a heat task a user may expect to work. -/
structure HeatLogWellPosed (L : HeatLogSetup ι Q d nE k) : Prop extends HeatSound L.toHeatSetup, LogRules L.common

/-- SIMP: the conductivity of an element with physical density `x`. -/
def conductivity (T : Task ι Q d nE k) (c p x : ℝ) : ℝ := T.k * c + (T.k - T.k * c) * x ^ p

/-- The number of elements at a node, at least 1. -/
def valence (T : Task ι Q d nE k) (i : ι) : ℝ := max ((Finset.univ.filter fun e => ∃ a, T.t a e = i).card : ℝ) 1

/-- The nodal densities: for vertex `a` of element `e` at the node, the density of element `⌊(a nE + e) / k⌋` (which is *not* `e`, see C52),
divided by the number of elements there. -/
def gathered (T : Task ι Q d nE k) (x : Fin nE → ℝ) (i : ι) : ℝ :=
  (∑ a : Fin k, ∑ e : Fin nE, ∑ e' : Fin nE, if T.t a e = i ∧ (a * nE + e : ℕ) / k = e' then x e' else 0) / valence T i

/-- The temperature `u` of load case `j`: the prescribed value on its nodes, heat balance elsewhere. -/
def Warmed (T : Task ι Q d nE k) (c p : ℝ) (x : Fin nE → ℝ) (j : Fin T.values.length) (u : ι → ℝ) : Prop :=
  Heat.Balanced T.fe (fun e => conductivity T c p (x e)) T.robin T.regions p T.q (gathered T x) (T.dirichlet.getD j ∅) (T.values.get j) u

/-- The mean of some numbers. -/
def meanOf {n : ℕ} (x : Fin n → ℝ) : ℝ := (∑ j, x j) / n

/-- The mean modulus, at least `1e-12`. -/
def sizeOf {n : ℕ} (x : Fin n → ℝ) : ℝ := max (meanOf fun j => |x j|) (1 / 10 ^ 12)

/-- The recorded objective for the temperatures `u` of the load cases: mean dissipated heat; mean sum of the nodal temperatures; mean heat
exchanged with the interface, plus weighted sum of the temperatures, both divided by their mean size if there are several load cases (0 if
there is no interface). -/
def heatObjective {n : ℕ} (T : Task ι Q d nE k) (c p : ℝ) (x : Fin nE → ℝ) (u : Fin n → ι → ℝ) : ℝ :=
  match T.objective, T.robin with
  | .compliance, _ => meanOf fun j => Heat.dissipated T.fe (fun e => conductivity T c p (x e)) T.robin T.regions p T.q (gathered T x) (u j)
  | .averagedTemp, _ => meanOf fun j => ∑ i, u j i
  | .heatExchange, none => 0
  | .heatExchange, some (h, Tenv) =>
    if Heat.interfaceSize T.fe (gathered T x) ≤ 1 / 10 ^ 16 then 0
    else
      let swap := fun j => Heat.exchanged T.fe (gathered T x) h Tenv (u j)
      let warm := fun j => ∑ i, u j i
      if T.avgWeight = 0 then meanOf swap
      else if 1 < n then meanOf fun j => swap j / sizeOf swap + T.avgWeight * (warm j / sizeOf warm)
      else meanOf fun j => swap j + T.avgWeight * warm j

/-- How the losses through the interface, `∫ h ρ^p (1-ρ)^q |∇ρ| (2 Tenv T - T²)`, change with the nodal density of node `i`; the direction of
`∇ρ` is `∇ρ / max(|∇ρ|, 1e-12)`. -/
def interfaceSlope (T : Task ι Q d nE k) (h Tenv p : ℝ) (x : Fin nE → ℝ) (u : ι → ℝ) (i : ι) : ℝ :=
  ∑ e, ∑ y, h * (2 * Tenv * Heat.field T.fe u e y - Heat.field T.fe u e y ^ 2) *
    ((p * Heat.field T.fe (gathered T x) e y ^ (p - 1) * (1 - Heat.field T.fe (gathered T x) e y) ^ (T.q : ℝ) -
        T.q * Heat.field T.fe (gathered T x) e y ^ p * (1 - Heat.field T.fe (gathered T x) e y) ^ ((T.q : ℝ) - 1)) *
        Heat.steepness T.fe (gathered T x) e y * T.fe.val i e y +
      Heat.field T.fe (gathered T x) e y ^ p * (1 - Heat.field T.fe (gathered T x) e y) ^ (T.q : ℝ) *
        ((∑ a, Heat.slope T.fe (gathered T x) e y a * T.fe.grad i e y a) / max (Heat.steepness T.fe (gathered T x) e y) (1 / 10 ^ 12))) *
    T.fe.dx e y

/-- What is used as the derivative of the objective with respect to the physical density of element `e`, whatever the objective is (C84): the
slope of the conduction energy `½ ∫ k |∇T|²`, and for the compliance with Robin boundaries the change of the interface losses. -/
def heatColumn (T : Task ι Q d nE k) (c p : ℝ) (x : Fin nE → ℝ) (u : ι → ℝ) (e : Fin nE) : ℝ :=
  slopeOf T.k c p (x e) ((∑ y, conductivity T c p (x e) * (∑ a, Heat.slope T.fe u e y a ^ 2) * T.fe.dx e y) / 2) +
  match T.objective, T.robin with
  | .compliance, some (h, Tenv) => ∑ a, interfaceSlope T h Tenv p x u (T.t a e) / valence T (T.t a e)
  | _, _ => 0

/-- One OC iteration on a heat task: from the densities `rho` and the running scale `rs` to `rho'` and `rs'`, recording the line `r`. -/
def HeatIteration (R : HeatSetup ι Q d nE k) (rho : Fin nE → ℝ) (rs : ℝ) (r : Rec) (rho' : Fin nE → ℝ) (rs' : ℝ) : Prop :=
  ∃ (v : Vals) (u : Fin R.task.values.length → ι → ℝ), AllScheduled R.toCommon r.iter v ∧
    (∀ j, Warmed R.task R.eMinCoeff v.p (physical R.toCommon v rho) j (u j)) ∧
    r.compliance = heatObjective R.task R.eMinCoeff v.p (physical R.toCommon v rho) u ∧ r.neumannScale = v.neumannScale ∧
    OCStep R.toCommon v (chained R.toCommon v rho fun j => heatColumn R.task R.eMinCoeff v.p (physical R.toCommon v rho) (u j)) rho rs r rho' rs'

/-- One LogMOC iteration on a heat task. -/
def HeatLogIteration (L : HeatLogSetup ι Q d nE k) (rho : Fin nE → ℝ) (lam rs : ℝ) (r : LogRec) (rho' : Fin nE → ℝ) (rs' : ℝ) : Prop :=
  ∃ (v : Vals) (u : Fin L.task.values.length → ι → ℝ), AllScheduled L.toCommon r.iter v ∧
    (∀ j, Warmed L.task L.eMinCoeff v.p (physical L.toCommon v rho) j (u j)) ∧
    r.compliance = heatObjective L.task L.eMinCoeff v.p (physical L.toCommon v rho) u ∧ r.neumannScale = v.neumannScale ∧
    LogStep L.common v (chained L.toCommon v rho fun j => heatColumn L.task L.eMinCoeff v.p (physical L.toCommon v rho) (u j))
      rho lam rs r rho' rs'

/-- An iteration that ignores the objective and the volume: every unpinned design density shrinks as fast as the smallest growth factor, the
move limit and the box allow. -/
def Fades (R : HeatSetup ι Q d nE k) (rho : Fin nE → ℝ) (_ : ℝ) (r : Rec) (rho' : Fin nE → ℝ) (_ : ℝ) : Prop :=
  ∃ ml, Scheduled R.toCommon R.cMoveLimit r.iter (some ml) ∧ (R.task.objective = .compliance → r.compliance = 0) ∧
    ∀ e ∈ R.design, ¬ Pinned R.toCommon e → rho' e = max (R.rateMin * rho e) (max (rho e - ml) R.rhoMin)

end
end Verif.Spec
