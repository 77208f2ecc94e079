import Verif.Model.HeatBasis

/-!
The element values of heat analyses offered as functions of their own (`/repo/scikit-topt/sktopt/fea/solver_heat.py` lines 256–379, 444–550):
energies, averaged temperatures and products of gradients, for one field and for the columns of an array of fields. `basis.interpolate` and
`elemental` are those of `Verif.Model.Heat`.
-/
namespace Verif.Heat

variable {ι Q : Type} [Fintype ι] [Fintype Q] {E : Type} {d m n : ℕ}

noncomputable section

/-- `avg_temp_skfem` (lines 444–486): `_avg_temp_density_` integrated over each element, with the ambient temperature as a field. -/
def avgTemp (B : FE ι E Q d) (T : ι → ℝ) (Tenv : ℝ) (e : E) : ℝ := ∑ q, (valAt B T e q - valAt B (fun _ => Tenv) e q) * B.dx e q

/-- `A[:, i] = col` (lines 302, 377, 524, 549). -/
def setColumn (A : E → Fin m → ℝ) (i : Fin m) (col : E → ℝ) : E → Fin m → ℝ := fun e j => if j = i then col e else A e j

/-- The loop over the load cases: an array of zeros, one column assigned after the other (lines 296–303, 367–379, 515–526, 543–550). -/
def fillColumns (f : Fin m → Res (E → ℝ)) : Res (E → Fin m → ℝ) :=
  (List.finRange m).foldlM (fun A i => do pure (setColumn A i (← f i))) fun _ _ => 0

/-- `X[:, i]`: IndexError outside the array. -/
def column (X : ι → Fin n → ℝ) (i : ℕ) : Res (ι → ℝ) := if h : i < n then .ok fun v => X v ⟨i, h⟩ else .error .indexError

/-- `avg_temp_skfem_multi` (lines 489–526). -/
def avgTempMulti (B : FE ι E Q d) (Tall : ι → Fin m → ℝ) (Tenv : ℝ) : Res (E → Fin m → ℝ) :=
  fillColumns fun i => do pure (avgTemp B (← column Tall i) Tenv)

/-- `heat_energy_skfem_multi` (lines 282–303); `heat_energy_skfem` (lines 266–279) is `energy` with the same conductivities. -/
def energyMulti (B : FE ι E Q d) (law : ℝ → ℝ → ℝ → ℝ → ℝ) (k0 kmin p : ℝ) (rho : E → ℝ) (Tall : ι → Fin m → ℝ) : Res (E → Fin m → ℝ) :=
  fillColumns fun i => do pure (energy B (fun e => law (rho e) k0 kmin p) (← column Tall i))

/-- `heat_exchange_grad_density_multi` (lines 341–379) and `avg_temp_grad_density_multi` (lines 536–550): the number of load cases is that of
the temperatures. -/
def gradDensityMulti (B : FE ι E Q d) (Tall : ι → Fin m → ℝ) (lamAll : ι → Fin n → ℝ) : Res (E → Fin m → ℝ) :=
  fillColumns fun i => do pure (gradDensity B (← column Tall i) (← column lamAll i))

end
end Verif.Heat
