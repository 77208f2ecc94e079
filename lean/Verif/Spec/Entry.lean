import Verif.Model.Elastic

/-!
Specification for the public analysis functions (C126–C129): the displacement of a loaded elastic body by virtual work, and the temperatures of
a body with prescribed temperatures.
-/
namespace Verif.Spec.Entry

variable {ι E Q : Type} [Fintype ι] [Fintype E] [Fintype Q] {d : ℕ}

noncomputable section

/-- The strain of the displacement `u` at a quadrature point. -/
def strain (B : Elastic.FE ι E Q d) (u : ι → ℝ) (e : E) (q : Q) : Matrix (Fin d) (Fin d) ℝ :=
  Matrix.of fun a b => ((∑ i, u i * B.grad i e q a b) + ∑ i, u i * B.grad i e q b a) / 2

/-- The work `σ(s) : t` of the stress of the strain `s` on the strain `t` (Hooke's law, Young's modulus `Em`, Poisson's ratio `nu`). -/
def hookeWork (Em nu : ℝ) (s t : Matrix (Fin d) (Fin d) ℝ) : ℝ :=
  nu * Em / ((1 + nu) * (1 - 2 * nu)) * s.trace * t.trace + Em / (1 + nu) * ∑ a, ∑ b, s a b * t a b

/-- `u` is a displacement of the body with element moduli `Em`, held at `D`, under the load `f`: it is 0 on `D`, and the inner work on every
virtual displacement that is 0 on `D` is the work of the load. -/
def Deformed (B : Elastic.FE ι E Q d) (Em : E → ℝ) (nu : ℝ) (D : Finset ι) (f u : ι → ℝ) : Prop :=
  (∀ i ∈ D, u i = 0) ∧
  ∀ w : ι → ℝ, (∀ i ∈ D, w i = 0) → ∑ e, ∑ q, hookeWork (Em e) nu (strain B u e q) (strain B w e q) * B.dx e q = ∑ i, f i * w i

/-- The body is held so that it cannot move without load. -/
def Held (B : Elastic.FE ι E Q d) (Em : E → ℝ) (nu : ℝ) (D : Finset ι) : Prop := ∀ u, Deformed B Em nu D 0 u → u = 0

/-- `T` has the temperature `v` on `D` and balances the heat `emit` at the other nodes. -/
def Settled (K : Matrix ι ι ℝ) (emit : ι → ℝ) (D : Finset ι) (v : ℝ) (T : ι → ℝ) : Prop :=
  (∀ i ∈ D, T i = v) ∧ ∀ i ∉ D, ∑ j, K i j * T j = emit i

end
end Verif.Spec.Entry
