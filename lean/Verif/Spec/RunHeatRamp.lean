import Verif.Spec.RunHeat

/-! What a run with the RAMP law on a heat task computes, in mathematical terms only. -/
namespace Verif.Spec
open Verif.Sched Verif.Run Verif.Heat

noncomputable section
open Classical

variable {ι Q : Type} [Fintype ι] [Fintype Q] {d nE k : ℕ}

/-- RAMP: the conductivity of an element with physical density `x`. -/
def rampConductivity (T : Task ι Q d nE k) (c p x : ℝ) : ℝ := T.k * c + (T.k - T.k * c) * (x / (1 + p * (1 - x)))

/-- The temperature `u` of load case `j` for these conductivities: the prescribed value on its nodes, heat balance elsewhere. -/
def RampWarmed (T : Task ι Q d nE k) (c p : ℝ) (x : Fin nE → ℝ) (j : Fin T.values.length) (u : ι → ℝ) : Prop :=
  Heat.Balanced T.fe (fun e => rampConductivity T c p (x e)) T.robin T.regions p T.q (gathered T x) (T.dirichlet.getD j ∅) (T.values.get j) u

/-- The recorded objective: the mean dissipated heat for these conductivities; the other objectives are functions of the temperatures. -/
def rampHeatObjective {n : ℕ} (T : Task ι Q d nE k) (c p : ℝ) (x : Fin nE → ℝ) (u : Fin n → ι → ℝ) : ℝ :=
  match T.objective with
  | .compliance => meanOf fun j => Heat.dissipated T.fe (fun e => rampConductivity T c p (x e)) T.robin T.regions p T.q (gathered T x) (u j)
  | _ => heatObjective T c p x u

/-- What is used as the derivative of the objective with respect to the physical density of element `e`: the conduction energy is that of
the RAMP conductivities, but its slope is taken as if the law were SIMP (`slopeOf`). -/
def rampHeatColumn (T : Task ι Q d nE k) (c p : ℝ) (x : Fin nE → ℝ) (u : ι → ℝ) (e : Fin nE) : ℝ :=
  slopeOf T.k c p (x e) ((∑ y, rampConductivity T c p (x e) * (∑ a, Heat.slope T.fe u e y a ^ 2) * T.fe.dx e y) / 2) +
  match T.objective, T.robin with
  | .compliance, some (h, Tenv) => ∑ a, interfaceSlope T h Tenv p x u (T.t a e) / valence T (T.t a e)
  | _, _ => 0

/-- One OC iteration. -/
def RampHeatIteration (R : HeatSetup ι Q d nE k) (rho : Fin nE → ℝ) (rs : ℝ) (r : Rec) (rho' : Fin nE → ℝ) (rs' : ℝ) : Prop :=
  ∃ (v : Vals) (u : Fin R.task.values.length → ι → ℝ), AllScheduled R.toCommon r.iter v ∧
    (∀ j, RampWarmed R.task R.eMinCoeff v.p (physical R.toCommon v rho) j (u j)) ∧
    r.compliance = rampHeatObjective R.task R.eMinCoeff v.p (physical R.toCommon v rho) u ∧ r.neumannScale = v.neumannScale ∧
    OCStep R.toCommon v (chained R.toCommon v rho fun j => rampHeatColumn R.task R.eMinCoeff v.p (physical R.toCommon v rho) (u j))
      rho rs r rho' rs'

/-- One LogMOC iteration. -/
def RampHeatLogIteration (L : HeatLogSetup ι Q d nE k) (rho : Fin nE → ℝ) (lam rs : ℝ) (r : LogRec) (rho' : Fin nE → ℝ) (rs' : ℝ) : Prop :=
  ∃ (v : Vals) (u : Fin L.task.values.length → ι → ℝ), AllScheduled L.toCommon r.iter v ∧
    (∀ j, RampWarmed L.task L.eMinCoeff v.p (physical L.toCommon v rho) j (u j)) ∧
    r.compliance = rampHeatObjective L.task L.eMinCoeff v.p (physical L.toCommon v rho) u ∧ r.neumannScale = v.neumannScale ∧
    LogStep L.common v (chained L.toCommon v rho fun j => rampHeatColumn L.task L.eMinCoeff v.p (physical L.toCommon v rho) (u j))
      rho lam rs r rho' rs'

end
end Verif.Spec
