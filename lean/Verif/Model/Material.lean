import Verif.Model.Py
import Mathlib.Analysis.SpecialFunctions.Pow.Real

/-!
Model of the material interpolation laws and their sensitivities:
`/repo/scikit-topt/sktopt/fea/composer.py:19-50` and `/repo/scikit-topt/sktopt/core/derivatives.py`.
Element-wise, over exact reals.
-/
namespace Verif.Material
open Verif

noncomputable section

/-- composer.py:19-22 `simp_interpolation`. -/
def simp (rho E0 Emin p : ℝ) : ℝ := Emin + (E0 - Emin) * rho ^ p

/-- composer.py:25-39 `ramp_interpolation`. -/
def ramp (rho E0 Emin p : ℝ) : ℝ := Emin + (E0 - Emin) * (rho / (1 + p * (1 - rho)))

/-- composer.py:46-50 `lam_mu` (also inlined at composer.py:82-83). -/
def lamMu (E nu : ℝ) : ℝ × ℝ := (nu * E / ((1 + nu) * (1 - 2 * nu)), E / (2 * (1 + nu)))

/-- The density floor `1e-6` of derivatives.py:26, 39. -/
def floor6 : ℝ := 1 / 10 ^ 6

/-- The modulus floor `1e-12` of derivatives.py:52, 68. -/
def floor12 : ℝ := 1 / 10 ^ 12

/-- derivatives.py:25-26 `_E_simp`. -/
def eSimp (rho E0 Emin p : ℝ) : ℝ := Emin + (E0 - Emin) * (max rho floor6) ^ p

/-- derivatives.py:29-31 `_E_ramp`. -/
def eRamp (rho E0 Emin p : ℝ) : ℝ :=
  let denom := 1 + p * (1 - rho)
  Emin + (E0 - Emin) * (rho / denom)

/-- derivatives.py:34-39 `dE_drho_simp`. -/
def dESimp (rho E0 Emin p : ℝ) : ℝ := p * (E0 - Emin) * (max rho floor6) ^ (p - 1)

/-- derivatives.py:42-52 `dC_drho_simp`. -/
def dCSimp (rho U E0 Emin p : ℝ) : ℝ :=
  let dE := dESimp rho E0 Emin p
  let E := eSimp rho E0 Emin p
  (-2) * U * dE / max E floor12

/-- derivatives.py:56-62 `dE_drho_ramp`. -/
def dERamp (rho E0 Emin p : ℝ) : ℝ :=
  let denom := 1 + p * (1 - rho)
  (E0 - Emin) * (denom - p * rho) / denom ^ 2

/-- derivatives.py:65-68 `dC_drho_ramp`. -/
def dCRamp (rho U E0 Emin p : ℝ) : ℝ :=
  let dE := dERamp rho E0 Emin p
  let E := eRamp rho E0 Emin p
  (-2) * U * dE / max E floor12

/-- derivatives.py:71-78 `dE_drho_ramp_inplace` (the value written to `out`). -/
def dERampInplace (rho E0 Emin p : ℝ) : ℝ :=
  let denom := 1 + p * (1 - rho)
  (E0 - Emin) * (denom - p * rho) / denom ^ 2

/-- derivatives.py:81-89 `dC_drho_ramp_inplace`. -/
def dCRampInplace (rho U E0 Emin p : ℝ) : ℝ :=
  let out0 := dERampInplace rho E0 Emin p
  let E := eRamp rho E0 Emin p
  let out1 := out0 / max E floor12
  out1 * ((-2) * U)

/-- derivatives.py:6-22 `_sensitivity_mode` on the environment value (`none` = unset). Stripping and lower-casing are
passed in as the already normalised string `norm raw`. -/
def sensitivityMode (norm : String → String) (raw : Option String) : Res String :=
  let r := raw.getD "current"
  if norm r ∈ ["current", "default", "physical", "scaled"] then .ok "current" else .error .valueError

/-- common_density.py:392-404 `interpolation_funcs`: the pair (modulus law, compliance sensitivity) selected. -/
def interpolationFuncs (interp : String) :
    Res ((ℝ → ℝ → ℝ → ℝ → ℝ) × (ℝ → ℝ → ℝ → ℝ → ℝ → ℝ)) :=
  if interp = "SIMP" then .ok (simp, dCSimp)
  else if interp = "RAMP" then .ok (ramp, dCRamp)
  else .error .valueError

end
end Verif.Material
