import Verif.Model.Heat

/-!
What a heat analysis should compute, written directly as integrals (sums over quadrature points) of fields; no matrices, no averaging code.
-/
namespace Verif.Spec.Heat

open Verif.Heat

variable {ι Q : Type} [Fintype ι] [Fintype Q] {E : Type} [Fintype E] {d : ℕ}

noncomputable section

/-- The value of the finite element function with nodal values `x` at a quadrature point. -/
def field (B : FE ι E Q d) (x : ι → ℝ) (e : E) (q : Q) : ℝ := ∑ i, x i * B.val i e q

/-- A component of its gradient. -/
def slope (B : FE ι E Q d) (x : ι → ℝ) (e : E) (q : Q) (a : Fin d) : ℝ := ∑ i, x i * B.grad i e q a

/-- The length of its gradient. -/
def steepness (B : FE ι E Q d) (x : ι → ℝ) (e : E) (q : Q) : ℝ := Real.sqrt (∑ a, slope B x e q a ^ 2)

/-- The heat flowing out of the control volume of node `i` by conduction. -/
def conducted (B : FE ι E Q d) (ke : E → ℝ) (T : ι → ℝ) (i : ι) : ℝ :=
  ∑ e, ∑ q, ke e * (∑ a, slope B T e q a * B.grad i e q a) * B.dx e q

/-- The heat lost through one surface region with film coefficient `h` and ambient temperature `Tenv`. -/
def surfaceLoss (R : Region ι) (h Tenv : ℝ) (T : ι → ℝ) (i : ι) : ℝ :=
  ∑ q, h * ((∑ j, T j * R.val j q) - Tenv) * R.val i q * R.dx q

/-- The heat lost through the moving solid–void interface described by the nodal densities `rn`: film coefficient
`h ρ^p (1-ρ)^m`, surface measure `|∇ρ|`. -/
def interfaceLoss (B : FE ι E Q d) (h Tenv p : ℝ) (m : ℕ) (rn T : ι → ℝ) (i : ι) : ℝ :=
  ∑ e, ∑ q, (h * field B rn e q ^ p * (1 - field B rn e q) ^ m) * steepness B rn e q * (field B T e q - Tenv) * B.val i e q * B.dx e q

/-- All losses at node `i`; without Robin boundaries there are none. -/
def losses (B : FE ι E Q d) (robin : Option (ℝ × ℝ)) (regions : List (Region ι)) (p : ℝ) (m : ℕ) (rn T : ι → ℝ) (i : ι) : ℝ :=
  match robin with
  | none => 0
  | some (h, Tenv) => (regions.map fun R => surfaceLoss R h Tenv T i).sum + interfaceLoss B h Tenv p m rn T i

/-- Steady heat balance: prescribed temperature `v` on the nodes `D`; at every other node conduction and losses cancel. -/
def Balanced (B : FE ι E Q d) (ke : E → ℝ) (robin : Option (ℝ × ℝ)) (regions : List (Region ι)) (p : ℝ) (m : ℕ) (rn : ι → ℝ)
    (D : Finset ι) (v : ℝ) (T : ι → ℝ) : Prop :=
  (∀ i ∈ D, T i = v) ∧
  ∀ i ∉ D, conducted B ke T i + losses B robin regions p m rn T i = 0

/-- The heat dissipated by conduction, and through surfaces and interface relative to the temperature 0. -/
def dissipated (B : FE ι E Q d) (ke : E → ℝ) (robin : Option (ℝ × ℝ)) (regions : List (Region ι)) (p : ℝ) (m : ℕ) (rn T : ι → ℝ) : ℝ :=
  (∑ e, ∑ q, ke e * (∑ a, slope B T e q a ^ 2) * B.dx e q) +
  match robin with
  | none => 0
  | some (h, _) => (regions.map fun R => ∑ q, h * (∑ j, T j * R.val j q) ^ 2 * R.dx q).sum +
      ∑ e, ∑ q, (h * field B rn e q ^ p * (1 - field B rn e q) ^ m) * steepness B rn e q * field B T e q ^ 2 * B.dx e q

/-- The size of the interface described by the nodal densities. -/
def interfaceSize (B : FE ι E Q d) (rn : ι → ℝ) : ℝ := ∑ e, ∑ q, steepness B rn e q * B.dx e q

/-- The mean over the interface of `-Tenv h (T - Tenv)`, the heat-exchange objective of the documentation. -/
def exchanged (B : FE ι E Q d) (rn : ι → ℝ) (h Tenv : ℝ) (T : ι → ℝ) : ℝ :=
  (∑ e, ∑ q, -(Tenv * h * (field B T e q - Tenv)) * steepness B rn e q * B.dx e q) / interfaceSize B rn

open Classical in
/-- `x` is the mean of `rho` over the elements that have node `i` as a vertex; `t a e` is the `a`-th vertex of element `e`. -/
def IsMean {k : ℕ} (t : Fin k → E → ι) (rho : E → ℝ) (i : ι) (x : ℝ) : Prop :=
  x = (∑ e with ∃ a, t a e = i, rho e) / (Finset.univ.filter fun e => ∃ a, t a e = i).card

end
end Verif.Spec.Heat
