import Mathlib.Analysis.Complex.Trigonometric

/-!
Model of `/repo/scikit-topt/sktopt/core/projection.py` (element-wise; NumPy broadcasting is applied by callers).
`1e-12` is the exact rational `1/10^12`.
-/
namespace Verif.Projection
open Real

noncomputable section

/-- The literal `1e-12` of projection.py:11, 24, 74, 115. -/
def eps12 : ℝ := 1 / 10 ^ 12

/-- projection.py:4-11 `heaviside_projection`. -/
def heaviside (rho beta eta : ℝ) : ℝ :=
  let numerator := tanh (beta * eta) + tanh (beta * (rho - eta))
  let denominator := tanh (beta * eta) + tanh (beta * (1 - eta))
  numerator / (denominator + eps12)

/-- projection.py:14-24 `heaviside_projection_derivative`. -/
def heavisideDeriv (rho beta eta : ℝ) : ℝ :=
  let numerator := beta * (1 - tanh (beta * (rho - eta)) ^ 2)
  let denominator := tanh (beta * eta) + tanh (beta * (1 - eta))
  numerator / (denominator + eps12)

/-- projection.py:27-77 `heaviside_projection_inplace`: the statements in order on one element, returning the value
of `out` (the input array is not modified: line 60 allocates `out` when it is `None`). -/
def heavisideInplace (rho beta eta : ℝ) : ℝ :=
  let t0 := rho - eta            -- 66
  let t1 := t0 * beta            -- 67
  let t2 := tanh t1              -- 68
  let numerator := tanh (beta * eta)   -- 70
  let out := numerator + t2      -- 71
  let denominator := tanh (beta * eta) + tanh (beta * (1 - eta)) + eps12   -- 74
  out / denominator              -- 76

/-- projection.py:80-118 `heaviside_projection_derivative_inplace`. -/
def heavisideDerivInplace (rho beta eta : ℝ) : ℝ :=
  let o0 := rho - eta            -- 105
  let o1 := o0 * beta            -- 106
  let o2 := cosh o1              -- 109
  let o3 := o2 ^ 2               -- 110
  let o4 := o3⁻¹                 -- 111 (cosh ≥ 1, never a division by zero)
  let o5 := o4 * beta            -- 113
  let denom := tanh (beta * eta) + tanh (beta * (1 - eta)) + eps12   -- 115
  o5 / denom                     -- 116

end
end Verif.Projection
