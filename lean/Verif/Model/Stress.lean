import Verif.Model.Elastic
import Mathlib.Analysis.SpecialFunctions.Pow.Real
import Mathlib.Data.Real.Sqrt

/-!
Stress post-processing: `/repo/scikit-topt/sktopt/fea/composer.py` lines 444–517. The finite element data are those of
`Verif/Model/Elastic.lean`; floats are real numbers.
-/
namespace Verif.Stress

open Matrix Material Elastic

variable {ι E Q : Type} [Fintype ι] [Fintype Q] {d : ℕ}

noncomputable section

/-- The integrand of `compute_element_stress_tensor` (composer.py lines 444–465) at one quadrature point, for the displacement gradient `g`
and Young's modulus `Em`. -/
def stressAt (Em nu : ℝ) (g : Matrix (Fin d) (Fin d) ℝ) : Matrix (Fin d) (Fin d) ℝ :=
  (2 * (lamMu Em nu).2) • sym g + (lamMu Em nu).1 • eye (sym g).trace

/-- `stress_tensor_skfem` (composer.py lines 468–489), entry `[:, :, e]` of the returned array. The `@Functional` is evaluated with
`.elemental(basis, …)`, which is `np.sum(form(w) * dx, axis=-1)` in scikit-fem: the quadrature axis is summed with the weights, as in
`strain_energy_skfem`. -/
def stressTensor (B : FE ι E Q d) (Em : E → ℝ) (nu : ℝ) (u : ι → ℝ) (e : E) : Matrix (Fin d) (Fin d) ℝ :=
  ∑ q, B.dx e q • stressAt (Em e) nu (gradOf B u e q)

/-- `von_mises_from_stress_tensor` (composer.py lines 492–517) for one element (and quadrature point). -/
def vonMises (s : Matrix (Fin 3) (Fin 3) ℝ) : ℝ :=
  Real.sqrt ((1 / 2) * ((s 0 0 - s 1 1) ^ 2 + (s 1 1 - s 2 2) ^ 2 + (s 2 2 - s 0 0) ^ 2 +
    6 * (s 0 1 ^ 2 + s 1 2 ^ 2 + s 2 0 ^ 2)))

end
end Verif.Stress
