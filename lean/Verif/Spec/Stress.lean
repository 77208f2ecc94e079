import Mathlib.LinearAlgebra.Matrix.Trace
import Mathlib.Data.Real.Sqrt

/-!
Mechanics of stress, independent of the code.
-/
namespace Verif.StressSpec

open Matrix

/-- The deviator of a stress tensor: the tensor without its mean pressure. -/
noncomputable def deviator (s : Matrix (Fin 3) (Fin 3) ℝ) : Matrix (Fin 3) (Fin 3) ℝ := s - (s.trace / 3) • (1 : Matrix (Fin 3) (Fin 3) ℝ)

/-- The von Mises equivalent stress `√(3/2 s':s')` of the deviator `s'`. -/
noncomputable def equivalent (s : Matrix (Fin 3) (Fin 3) ℝ) : ℝ := Real.sqrt (3 / 2 * ∑ i, ∑ j, deviator s i j ^ 2)

/-- Hooke's law of an isotropic material for the strain `ε`, Young's modulus `E` and Poisson's ratio `ν`. -/
noncomputable def hooke {d : ℕ} (E ν : ℝ) (ε : Matrix (Fin d) (Fin d) ℝ) : Matrix (Fin d) (Fin d) ℝ :=
  (E / (1 + ν)) • (ε + (ν / (1 - 2 * ν) * ε.trace) • (1 : Matrix (Fin d) (Fin d) ℝ))

/-- The strain of a displacement gradient. -/
noncomputable def strain {d : ℕ} (g : Matrix (Fin d) (Fin d) ℝ) : Matrix (Fin d) (Fin d) ℝ := Matrix.of fun i j => (g i j + g j i) / 2

end Verif.StressSpec
