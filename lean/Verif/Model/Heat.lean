import Verif.Model.Elastic

/-!
Heat conduction: `/repo/scikit-topt/sktopt/fea/solver_heat.py`, `assemble_conduction_matrix` (composer.py lines 104–145) and
`assemble_surface_robin`, `LinearHeatConduction` (mesh/task_heat.py lines 60–249).

A finite element basis is given by what scikit-fem evaluates: value and gradient of every basis function at every quadrature point of
every element, and the quadrature weights. Elements are numbered `0 … nE-1` (type `Fin nE`), `ι` is the finite type of nodes; the elements
are of first order, so nodes and degrees of freedom coincide. `k` is the number of nodes of an element. Floats are real numbers.
`skfem.enforce(K, f, D=D, x=val)` replaces the rows in `D` by rows of the identity and the entries of `f` in `D` by `val`.
Not modelled: a *list* of Robin coefficients in the virtual Robin terms (numpy would broadcast it against the quadrature points).
-/
namespace Verif.Heat

open Matrix Material Elastic

/-- The data of a scalar `skfem.Basis`. -/
structure FE (ι E Q : Type) (d : ℕ) where
  val : ι → E → Q → ℝ
  grad : ι → E → Q → Fin d → ℝ
  dx : E → Q → ℝ

/-- The data of `skfem.FacetBasis(mesh, elem, facets=…)`: the quadrature points of all its facets, numbered. -/
structure Region (ι : Type) where
  n : ℕ
  val : ι → Fin n → ℝ
  dx : Fin n → ℝ

variable {ι Q : Type} [Fintype ι] [Fintype Q] {E : Type} [Fintype E] {d nE k : ℕ}

noncomputable section

/-! ### Fields -/

/-- `basis.interpolate(x)`. -/
def valAt (B : FE ι E Q d) (x : ι → ℝ) (e : E) (q : Q) : ℝ := ∑ i, x i * B.val i e q

/-- `basis.interpolate(x).grad`. -/
def gradAt (B : FE ι E Q d) (x : ι → ℝ) (e : E) (q : Q) (a : Fin d) : ℝ := ∑ i, x i * B.grad i e q a

/-- `skfem.helpers.dot`. -/
def dot (g h : Fin d → ℝ) : ℝ := ∑ a, g a * h a

/-- `np.sqrt(np.sum(grad_rho**2, axis=0))` (solver_heat.py lines 319, 388, 560, 568, 585). -/
def interface (B : FE ι E Q d) (rn : ι → ℝ) (e : E) (q : Q) : ℝ := Real.sqrt (∑ a, gradAt B rn e q a ^ 2)

/-! ### Averaging -/

/-- `t.ravel()` for `t` of shape (nodes per element, elements): row by row. -/
def ravel (t : Fin k → Fin nE → ι) : List ι := (List.finRange k).flatMap fun a => (List.finRange nE).map fun e => t a e

/-- `np.repeat(rho, m)`: every entry `m` times in a row. -/
def repeatEach (rho : Fin nE → ℝ) (m : ℕ) : List ℝ := (List.finRange nE).flatMap fun e => List.replicate m (rho e)

open Classical in
/-- `np.add.at(zeros, ids, vals)`. -/
def addAt (ids : List ι) (vals : List ℝ) (i : ι) : ℝ := (((ids.zip vals).filter fun p => p.1 = i).map Prod.snd).sum

/-- `count` of `_element_to_nodal_average` (solver_heat.py lines 609, 611; also 734, 736): `np.add.at(count, t.ravel(), 1.0)`. -/
def count (t : Fin k → Fin nE → ι) (i : ι) : ℝ := addAt (ravel t) (List.replicate (ravel t).length 1) i

/-- `_element_to_nodal_average` (solver_heat.py lines 600–613), and the same code at lines 729–737 and task_heat.py lines 90–95. -/
def nodalAverage (t : Fin k → Fin nE → ι) (rho : Fin nE → ℝ) (i : ι) : ℝ :=
  addAt (ravel t) (repeatEach rho k) i / max (count t i) 1

/-- `_nodal_gradient_to_element_gradient` (solver_heat.py lines 616–625). -/
def toElements (t : Fin k → Fin nE → ι) (g : ι → ℝ) (e : Fin nE) : ℝ := ∑ a, g (t a e) / max (count t (t a e)) 1

/-! ### The system -/

/-- `assemble_conduction_matrix` (composer.py lines 104–145) for the element conductivities `ke = elem_func(rho, k0, kmin, p)`. -/
def conduction (B : FE ι E Q d) (ke : E → ℝ) : Matrix ι ι ℝ :=
  fun i j => ∑ e, ∑ q, ke e * dot (B.grad j e q) (B.grad i e q) * B.dx e q

/-- The Robin coefficient of one region at a quadrature point (task_heat.py lines 115–126); `rhoField` is the variable of that name. -/
def robinH (R : Region ι) (h : ℝ) (rhoField : Option (ι → ℝ)) (p : ℝ) (q : Fin R.n) : ℝ :=
  match rhoField with
  | none => h
  | some x => h * (∑ i, x i * R.val i q) ^ p

/-- `robin_form` assembled on one region (task_heat.py lines 113–119, 133). -/
def robinForm (R : Region ι) (h : ℝ) (rhoField : Option (ι → ℝ)) (p : ℝ) : Matrix ι ι ℝ :=
  fun i j => ∑ q, robinH R h rhoField p q * R.val j q * R.val i q * R.dx q

/-- `robin_load` assembled on one region (task_heat.py lines 121–127, 134). -/
def robinLoad (R : Region ι) (h Tenv : ℝ) (rhoField : Option (ι → ℝ)) (p : ℝ) : ι → ℝ :=
  fun i => ∑ q, robinH R h rhoField p q * Tenv * R.val i q * R.dx q

/-- A coefficient argument: a float or a list of floats. -/
inductive Coef where
  | one (x : ℝ)
  | many (xs : List ℝ)

/-- task_heat.py lines 72–77. -/
def Coef.expand (c : Coef) (n : ℕ) : List ℝ :=
  match c with
  | .one x => List.replicate n x
  | .many xs => xs

/-- `assemble_surface_robin` (task_heat.py lines 60–139). `rho_field` is initialised to `None` and the only assignment to it is commented
out (lines 85, 99), so the nodal densities computed from `rho` (lines 86–97) are never used. -/
def assembleRobin (regions : List (Region ι)) (h Tenv : Coef) (rho : Option (Fin nE → ℝ)) (p : ℝ) :
    Res (List (Matrix ι ι ℝ) × List (ι → ℝ)) :=
  let hs := h.expand regions.length
  let Ts := Tenv.expand regions.length
  if regions.length = hs.length ∧ hs.length = Ts.length then
    let rhoField : Option (ι → ℝ) := rho.bind fun _ => none
    .ok (List.zipWith (fun R x => robinForm R x rhoField p) regions hs,
      List.zipWith (fun R (y : ℝ × ℝ) => robinLoad R y.1 y.2 rhoField p) regions (hs.zip Ts))
  else .error .valueError

/-- `h_eff` of the virtual Robin terms (solver_heat.py lines 561, 569). -/
def hEff (h p : ℝ) (qe : ℕ) (r : ℝ) : ℝ := h * r ^ p * (1 - r) ^ qe

/-- `robin_virtual_bilinear` (solver_heat.py lines 556–562). -/
def virtualForm (B : FE ι E Q d) (h p : ℝ) (qe : ℕ) (rn : ι → ℝ) : Matrix ι ι ℝ :=
  fun i j => ∑ e, ∑ q, hEff h p qe (valAt B rn e q) * interface B rn e q * B.val j e q * B.val i e q * B.dx e q

/-- `robin_virtual_linear` (solver_heat.py lines 564–570). -/
def virtualLoad (B : FE ι E Q d) (h Tenv p : ℝ) (qe : ℕ) (rn : ι → ℝ) : ι → ℝ :=
  fun i => ∑ e, ∑ q, hEff h p qe (valAt B rn e q) * interface B rn e q * Tenv * B.val i e q * B.dx e q

/-- The objectives of a heat task (task_heat.py line 147); any other string is rejected by `from_facets` (lines 187–191). -/
inductive Objective where
  | compliance
  | heatExchange
  | averagedTemp
  deriving DecidableEq

/-- `LinearHeatConduction` as far as the analysis reads it, with the exponent `q` of the solver (solver_heat.py line 689). `robin` holds
`robin_coefficient`, `robin_bc_value` and the facet bases when Robin boundaries are given. -/
structure Task (ι Q : Type) (d nE k : ℕ) where
  fe : FE ι (Fin nE) Q d
  t : Fin k → Fin nE → ι
  /-- `basis.get_dofs(nodes=…)` of every Dirichlet region -/
  dirichlet : List (Finset ι)
  /-- `dirichlet_values` as a list -/
  values : List ℝ
  robin : Option (ℝ × ℝ)
  regions : List (Region ι)
  /-- `robin_bilinear`, `robin_linear` -/
  bilinear : List (Matrix ι ι ℝ)
  linear : List (ι → ℝ)
  designRobin : Bool
  objective : Objective
  avgWeight : ℝ
  k : ℝ
  q : ℕ := 4

/-- `LinearHeatConduction.from_facets` (task_heat.py lines 171–249): assemble the Robin terms of a new task. -/
def Task.build (T : Task ι Q d nE k) : Res (Task ι Q d nE k) :=
  match T.robin with
  | none => .ok { T with bilinear := [], linear := [] }
  | some (h, Tenv) =>
    (assembleRobin (nE := nE) T.regions (.one h) (.one Tenv) none 0).map fun r => { T with bilinear := r.1, linear := r.2 }

/-- `update_robin_bc` (task_heat.py lines 150–159). -/
def Task.updateRobin (T : Task ι Q d nE k) (rho : Fin nE → ℝ) (p : ℝ) : Res (Task ι Q d nE k) :=
  match T.robin with
  | none => .error .typeError
  | some (h, Tenv) =>
    (assembleRobin T.regions (.one h) (.one Tenv) (some rho) p).map fun r => { T with bilinear := r.1, linear := r.2 }

/-- The nodal densities of the virtual Robin terms (solver_heat.py lines 723–737). -/
def Task.nodal (T : Task ι Q d nE k) (rho : Fin nE → ℝ) : ι → ℝ := nodalAverage T.t rho

/-- `robin_bilinear` of `objectives_multi_load` (solver_heat.py lines 719, 723–742). -/
def Task.forms (T : Task ι Q d nE k) (rho : Fin nE → ℝ) (p : ℝ) : List (Matrix ι ι ℝ) :=
  match T.robin with
  | none => T.bilinear
  | some (h, _) => T.bilinear ++ [virtualForm T.fe h p T.q (T.nodal rho)]

/-- `robin_linear` of `objectives_multi_load` (solver_heat.py lines 720, 723–745). -/
def Task.loads (T : Task ι Q d nE k) (rho : Fin nE → ℝ) (p : ℝ) : List (ι → ℝ) :=
  match T.robin with
  | none => T.linear
  | some (h, Tenv) => T.linear ++ [virtualLoad T.fe h Tenv p T.q (T.nodal rho)]

/-- The conductivities `elem_func(rho, k_max, k_min, p)` (solver_heat.py lines 692–693, composer.py line 136). -/
def Task.ke (T : Task ι Q d nE k) (law : ℝ → ℝ → ℝ → ℝ → ℝ) (Ec : ℝ) (rho : Fin nE → ℝ) (p : ℝ) (e : Fin nE) : ℝ :=
  law (rho e) T.k (T.k * Ec) p

/-- `K_csr` of `solve_multi_load` (solver_heat.py lines 220–228, 237). -/
def Task.matrix (T : Task ι Q d nE k) (law : ℝ → ℝ → ℝ → ℝ → ℝ) (Ec : ℝ) (rho : Fin nE → ℝ) (p : ℝ) : Matrix ι ι ℝ :=
  (T.forms rho p).foldl (· + ·) (conduction T.fe (T.ke law Ec rho p))

/-- `emit` of `solve_multi_load` (solver_heat.py lines 230–235). -/
def Task.emit (T : Task ι Q d nE k) (rho : Fin nE → ℝ) (p : ℝ) : ι → ℝ := (T.loads rho p).foldl (· + ·) 0

open Classical in
/-- The right-hand side returned by `skfem.enforce(K, emit, D=D, x=np.full(D.N, val))`. -/
def enforceRhs (emit : ι → ℝ) (D : Finset ι) (v : ℝ) : ι → ℝ := fun i => if i ∈ D then v else emit i

/-- Assigning the `c` solution columns to `u_all[:, :]` with `n` columns (solver_heat.py line 194): numpy broadcasts one column. -/
def broadcast (n : ℕ) (us : List (ι → ℝ)) : Res (List (ι → ℝ)) :=
  if us.length = n then .ok us
  else match us with
    | [u] => .ok (List.replicate n u)
    | _ => .error .valueError

/-- `solve_heat_system_multi` (solver_heat.py lines 136–195): the columns written to `u_all`. The matrix is enforced on the first
Dirichlet region only. An empty list of regions fails at `dirichlet_dofs_list[0]`. -/
def solveMulti (S : Solver.Backend ℝ (Matrix ι ι ℝ) (ι → ℝ)) (c : Solver.Cfg ℝ) (K : Matrix ι ι ℝ) (emit : ι → ℝ)
    (Ds : List (Finset ι)) (vals : List ℝ) : Res (List (ι → ℝ)) :=
  let name := if c.solver = "auto" then "spsolve" else c.solver
  if name ≠ "spsolve" ∧ name ≠ "petsc" ∧ name ≠ "petsc_spdirect" then .error .notImplemented
  else if vals.length = 0 then .ok []
  else match Ds with
    | [] => .error .indexError
    | D0 :: _ =>
      let Ke := enforceK K D0
      let F := List.zipWith (fun D v => enforceRhs emit D v) Ds vals
      if name = "spsolve" then S.splu Ke F >>= broadcast vals.length
      else match Solver.optsForSolver name c.petsc with
        | .error e => .error e
        | .ok o => (S.petscMulti c.rtol c.maxiter (o.getD {}) Ke F).map Prod.fst >>= broadcast vals.length

/-! ### Objectives -/

/-- `float(T_i @ (K_csr @ T_i))` (solver_heat.py line 788). -/
def compliance (K : Matrix ι ι ℝ) (T : ι → ℝ) : ℝ := ∑ i, T i * ∑ j, K i j * T j

/-- `_hx_den_density_` summed over the elements (solver_heat.py lines 382–389, 799–801). -/
def hxDen (B : FE ι E Q d) (rn : ι → ℝ) : ℝ := ∑ e, ∑ q, interface B rn e q * B.dx e q

/-- `J_num` of `heat_exchange_objective` (solver_heat.py lines 306–321, 424–435). -/
def hxNum (B : FE ι E Q d) (T rn : ι → ℝ) (Tenv h : ℝ) : ℝ :=
  ∑ e, ∑ q, -(valAt B (fun _ => Tenv) e q) * valAt B (fun _ => h) e q * (valAt B T e q - valAt B (fun _ => Tenv) e q) *
    interface B rn e q * B.dx e q

/-- `heat_exchange_objective` (solver_heat.py lines 411–440). -/
def heatExchange (B : FE ι E Q d) (T rn : ι → ℝ) (Tenv h : ℝ) : ℝ :=
  if hxDen B rn ≤ 1 / 10 ^ 16 then 0 else hxNum B T rn Tenv h / hxDen B rn

/-- `float(np.sum(u_dofs[:, i]))` (solver_heat.py lines 847, 878). -/
def sumTemp (T : ι → ℝ) : ℝ := ∑ i, T i

/-- `float(np.mean(np.abs(v)))` floored at `1e-12` (solver_heat.py lines 859–860). -/
def absScale (v : List ℝ) : ℝ := max ((v.map abs).sum / v.length) (1 / 10 ^ 12)

/-- The objective values of `objectives_multi_load` for the temperatures `Ts` of the load cases (solver_heat.py lines 784–895). -/
def Task.objectiveValues (T : Task ι Q d nE k) (K : Matrix ι ι ℝ) (rho : Fin nE → ℝ) (Ts : List (ι → ℝ)) : Res (List ℝ) :=
  match T.objective with
  | .compliance => .ok (Ts.map (compliance K))
  | .averagedTemp => .ok (Ts.map sumTemp)
  | .heatExchange =>
    match T.robin with
    | none => .error .runtimeError
    | some (h, Tenv) =>
      if hxDen T.fe (T.nodal rho) ≤ 1 / 10 ^ 16 then .ok (Ts.map fun _ => 0)
      else
        let hx := Ts.map fun u => heatExchange T.fe u (T.nodal rho) Tenv h
        let avg := Ts.map sumTemp
        if T.avgWeight = 0 then .ok hx
        else if 1 < Ts.length then
          .ok (List.zipWith (fun x y => x / absScale hx + T.avgWeight * (y / absScale avg)) hx avg)
        else .ok (List.zipWith (fun x y => x + T.avgWeight * y) hx avg)

/-- The temperatures computed by `objectives_multi_load` (solver_heat.py lines 705–768, 198–253). -/
def Task.solve (T : Task ι Q d nE k) (S : Solver.Backend ℝ (Matrix ι ι ℝ) (ι → ℝ)) (c : Solver.Cfg ℝ) (law : ℝ → ℝ → ℝ → ℝ → ℝ)
    (Ec : ℝ) (rho : Fin nE → ℝ) (p : ℝ) : Res (List (ι → ℝ)) :=
  solveMulti S c (T.matrix law Ec rho p) (T.emit rho p) T.dirichlet T.values

/-- `rhs_vec` of the heat-exchange adjoint (solver_heat.py lines 392–408, 824–834): `_hx_adj_rhs_` assembled with the nodal interpolant of
`h ρ^p (1-ρ)^q`, divided by `J_den`. -/
def hxAdjRhs (B : FE ι E Q d) (h Tenv p : ℝ) (qe : ℕ) (rn : ι → ℝ) (i : ι) : ℝ :=
  (∑ e, ∑ q, -(valAt B (fun _ => Tenv) e q) * valAt B (fun j => hEff h p qe (rn j)) e q * interface B rn e q * B.val i e q * B.dx e q) /
    hxDen B rn

/-- `self.λ_all` after `objectives_multi_load` (solver_heat.py lines 784–895). The adjoint systems are enforced with the Dirichlet
*temperatures* of the state problem. -/
def Task.adjoints (T : Task ι Q d nE k) (S : Solver.Backend ℝ (Matrix ι ι ℝ) (ι → ℝ)) (c : Solver.Cfg ℝ) (K : Matrix ι ι ℝ)
    (rho : Fin nE → ℝ) (p : ℝ) (Ts : List (ι → ℝ)) : Res (List (ι → ℝ)) :=
  match T.objective with
  | .compliance => .ok (Ts.map fun u i => -2 * u i)
  | .averagedTemp => solveMulti S c K (fun _ => 1) T.dirichlet T.values
  | .heatExchange =>
    match T.robin with
    | none => .error .runtimeError
    | some (h, Tenv) =>
      if hxDen T.fe (T.nodal rho) ≤ 1 / 10 ^ 16 then .ok (Ts.map fun _ _ => 0)
      else do
        let lam ← solveMulti S c K (hxAdjRhs T.fe h Tenv p T.q (T.nodal rho)) T.dirichlet T.values
        if T.avgWeight = 0 then pure lam
        else do
          let lavg ← solveMulti S c K (fun _ => 1) T.dirichlet T.values
          if 1 < Ts.length then
            let hs := absScale (Ts.map fun u => heatExchange T.fe u (T.nodal rho) Tenv h)
            let as := absScale (Ts.map sumTemp)
            pure (List.zipWith (fun x y i => x i / hs + T.avgWeight / as * y i) lam lavg)
          else pure (List.zipWith (fun x y i => x i + T.avgWeight * y i) lam lavg)

/-- `objectives_multi_load` (solver_heat.py lines 705–895): the task afterwards (`update_robin_bc` is called after the Robin terms of this
analysis have been collected), the objective values, the temperatures and the adjoint fields. -/
def Task.objectives (T : Task ι Q d nE k) (S : Solver.Backend ℝ (Matrix ι ι ℝ) (ι → ℝ)) (c : Solver.Cfg ℝ)
    (law : ℝ → ℝ → ℝ → ℝ → ℝ) (Ec : ℝ) (rho : Fin nE → ℝ) (p : ℝ) :
    Res (Task ι Q d nE k × List ℝ × List (ι → ℝ) × List (ι → ℝ)) := do
  let T' ← if T.designRobin then T.updateRobin rho p else .ok T
  let Ts ← T.solve S c law Ec rho p
  let Js ← T.objectiveValues (T.matrix law Ec rho p) rho Ts
  let lam ← T.adjoints S c (T.matrix law Ec rho p) rho p Ts
  pure (T', Js, Ts, lam)

/-! ### Sensitivities -/

/-- `_heat_energy_density_` integrated over one element (solver_heat.py lines 256–303). -/
def energy (B : FE ι E Q d) (ke : E → ℝ) (T : ι → ℝ) (e : E) : ℝ :=
  ∑ q, (1 / 2) * ke e * dot (gradAt B T e q) (gradAt B T e q) * B.dx e q

/-- `_heat_exchange_grad_density_` / `_avg_temp_grad_density_` integrated over one element (solver_heat.py lines 324–379, 526–548). -/
def gradDensity (B : FE ι E Q d) (T lam : ι → ℝ) (e : E) : ℝ := ∑ q, dot (gradAt B T e q) (gradAt B lam e q) * B.dx e q

/-- One column of `energy_multi_load` (solver_heat.py lines 897–925) for the temperature `u` and the adjoint field `lam` of a load case. -/
def Task.energyColumn (T : Task ι Q d nE k) (law : ℝ → ℝ → ℝ → ℝ → ℝ) (Ec : ℝ) (rho : Fin nE → ℝ) (p : ℝ) (u lam : ι → ℝ) (e : Fin nE) : ℝ :=
  match T.objective with
  | .compliance => energy T.fe (T.ke law Ec rho p) u e
  | _ => gradDensity T.fe u lam e

/-- `da` of `_robin_compliance_explicit_grad_` (solver_heat.py lines 589–592). -/
def dA (p q r : ℝ) : ℝ := p * r ^ (p - 1) * (1 - r) ^ q - q * r ^ p * (1 - r) ^ (q - 1)

/-- The integrand of `_robin_compliance_explicit_grad_` for the test function of node `i` (solver_heat.py lines 575–597). -/
def explicitGrad (B : FE ι E Q d) (h Tenv p q : ℝ) (rn T : ι → ℝ) (i : ι) : ℝ :=
  ∑ e, ∑ x, h * (dA p q (valAt B rn e x) * interface B rn e x *
      (2 * valAt B (fun _ => Tenv) e x * valAt B T e x - valAt B T e x * valAt B T e x) * B.val i e x +
    valAt B rn e x ^ p * (1 - valAt B rn e x) ^ q *
      (2 * valAt B (fun _ => Tenv) e x * valAt B T e x - valAt B T e x * valAt B T e x) *
      dot (fun a => gradAt B rn e x a / max (interface B rn e x) (1 / 10 ^ 12)) (B.grad i e x)) * B.dx e x

/-- One column of `compliance_sensitivity_multi_load` (solver_heat.py lines 928–980), for the temperature `u` of that load case. It is used
as the sensitivity of *every* objective (common_density.py lines 1068–1080). The derivative of the SIMP law is used whatever the material law
is (solver_heat.py line 945). -/
def Task.sensitivity (T : Task ι Q d nE k) (law : ℝ → ℝ → ℝ → ℝ → ℝ) (Ec : ℝ) (rho : Fin nE → ℝ) (p : ℝ) (u : ι → ℝ) (e : Fin nE) : ℝ :=
  let base := dCSimp (rho e) (energy T.fe (T.ke law Ec rho p) u e) T.k (T.k * Ec) p
  match T.objective, T.robin with
  | .compliance, some (h, Tenv) => base + toElements T.t (explicitGrad T.fe h Tenv p T.q (T.nodal rho) u) e
  | _, _ => base

end
end Verif.Heat
