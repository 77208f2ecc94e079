import Verif.Model.Rounded

/-!
Projection and material law in floating-point arithmetic: `/repo/scikit-topt/sktopt/core/projection.py` lines 27–118,
`/repo/scikit-topt/sktopt/fea/composer.py` lines 19–39 and `/repo/scikit-topt/sktopt/core/derivatives.py` lines 26–54, one element.
`tanh` and `cosh` are those of the mathematical library.
-/
namespace Verif.Rounded

noncomputable section

variable {α : Type} [LinearOrder α]

/-- projection.py lines 73–74 (also 115): `tanh(beta * eta) + tanh(beta * (1.0 - eta)) + 1e-12`. -/
def projectDenominator (A : Arith α) (tanh : Flt α → Flt α) (beta eta : Flt α) : Flt α :=
  A.add (A.add (tanh (A.mul beta eta)) (tanh (A.mul beta (A.sub (some (A.lit 1)) eta)))) (some (A.lit (1 / 10 ^ 12)))

/-- projection.py lines 27–77 `heaviside_projection_inplace`. -/
def project (A : Arith α) (tanh : Flt α → Flt α) (rho beta eta : Flt α) : Flt α :=
  let t0 := A.sub rho eta
  let t1 := A.mul t0 beta
  let t2 := tanh t1
  let numerator := tanh (A.mul beta eta)
  let out := A.add numerator t2
  A.div out (projectDenominator A tanh beta eta)

/-- projection.py lines 80–118 `heaviside_projection_derivative_inplace`. -/
def projectDeriv (A : Arith α) (tanh cosh : Flt α → Flt α) (rho beta eta : Flt α) : Flt α :=
  let o0 := A.sub rho eta
  let o1 := A.mul o0 beta
  let o2 := cosh o1
  let o3 := A.mul o2 o2
  let o4 := A.div (some (A.lit 1)) o3
  let o5 := A.mul o4 beta
  A.div o5 (projectDenominator A tanh beta eta)

/-- composer.py lines 19–22 `simp_interpolation`. -/
def simpModulus (A : Arith α) (rho E0 Emin p : Flt α) : Flt α := A.add Emin (A.mul (A.sub E0 Emin) (A.pow rho p))

/-- composer.py lines 25–39 `ramp_interpolation`. -/
def rampModulus (A : Arith α) (rho E0 Emin p : Flt α) : Flt α :=
  A.add Emin (A.mul (A.sub E0 Emin) (A.div rho (A.add (some (A.lit 1)) (A.mul p (A.sub (some (A.lit 1)) rho)))))

/-- derivatives.py lines 35–40 `dE_drho_simp`. -/
def simpDeriv (A : Arith α) (rho E0 Emin p : Flt α) : Flt α :=
  A.mul (A.mul p (A.sub E0 Emin)) (A.pow (maximum rho (some (A.lit (1 / 10 ^ 6)))) (A.sub p (some (A.lit 1))))

/-- derivatives.py lines 43–53 `dC_drho_simp` (with `_E_simp`, lines 26–27). -/
def simpSensitivity (A : Arith α) (rho energy E0 Emin p : Flt α) : Flt α :=
  let dE := simpDeriv A rho E0 Emin p
  let E := A.add Emin (A.mul (A.sub E0 Emin) (A.pow (maximum rho (some (A.lit (1 / 10 ^ 6)))) p))
  A.div (A.mul (A.mul (some (A.lit (-2))) energy) dE) (maximum E (some (A.lit (1 / 10 ^ 12))))

end
end Verif.Rounded
