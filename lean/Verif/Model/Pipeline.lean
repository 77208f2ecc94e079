import Verif.Model.Elastic
import Verif.Model.Projection
import Verif.Model.Material

/-!
The part of one optimization iteration between the design densities and the update:
`/repo/scikit-topt/sktopt/core/optimizers/common_density.py` lines 1041–1110 (filter, project, analyse, differentiate).

The filter is a pair of maps `fwd`, `grad` (`filter.forward`, `filter.gradient` for the current radius). `m` is the number of load cases.
-/
namespace Verif.Pipeline

open Projection Material Elastic

variable {ι E Q : Type} [Fintype ι] [Fintype E] [Fintype Q] {d m : ℕ}

noncomputable section

/-- `rho_projected` (common_density.py lines 1044–1047). -/
def projected (fwd : (E → ℝ) → (E → ℝ)) (beta eta : ℝ) (rho : E → ℝ) : E → ℝ :=
  fun e => heavisideInplace (fwd rho e) beta eta

/-- `compliance_avg` (common_density.py lines 1057–1060): the mean of the compliances of the load cases `f k` with displacements
`u k`. -/
def meanCompliance (D : Finset ι) (f u : Fin m → ι → ℝ) : ℝ := (∑ k, complianceMulti D (f k) (u k)) / m

/-- `dC_drho_full` (common_density.py lines 1073–1107) for the sensitivities `cols k` of the load cases with respect to the projected
density: per load case times the derivative of the projection, pulled back through the filter; summed, divided by the number of load cases
and, if requested, filtered once more. -/
def pullback (fwd grad : (E → ℝ) → (E → ℝ)) (beta eta : ℝ) (cols : Fin m → E → ℝ) (sensFilter : Bool) (rho : E → ℝ) : E → ℝ :=
  let filt := fwd rho
  let one := fun k => grad fun e => cols k e * heavisideDerivInplace (filt e) beta eta
  let full := fun e => (∑ k, one k e) / m
  if sensFilter then fwd full else full

/-- `dC_drho_full` of an elasticity task (common_density.py lines 1050–1107, without the branch for a custom sensitivity, lines 1068–1084).
`dC` is the sensitivity law, `energy k` the element energies of load case `k`. -/
def sensitivity (fwd grad : (E → ℝ) → (E → ℝ)) (dC : ℝ → ℝ → ℝ → ℝ → ℝ → ℝ) (E0 Emin p beta eta : ℝ) (energy : Fin m → E → ℝ)
    (sensFilter : Bool) (rho : E → ℝ) : E → ℝ :=
  let proj := projected fwd beta eta rho
  pullback fwd grad beta eta (fun k e => dC (proj e) (energy k e) E0 Emin p) sensFilter rho

end
end Verif.Pipeline
