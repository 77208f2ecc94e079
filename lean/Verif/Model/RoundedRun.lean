import Verif.Model.RoundedMaterial

/-!
An OC run with the spatial filter and the SIMP law in floating-point arithmetic:
`/repo/scikit-topt/sktopt/filters/spacial.py` lines 51–166, `/repo/scikit-topt/sktopt/core/projection.py` lines 27–118,
`/repo/scikit-topt/sktopt/core/derivatives.py` lines 26–54 and `/repo/scikit-topt/sktopt/core/optimizers/common_density.py` lines 1014–1129,
for the design elements (the only ones the filter matrix couples and the update reads).

Kernel values, energies, schedules, statistics and volume errors are given; scipy's sparse products add up from the left, starting at 0.0,
without fused operations.
-/
namespace Verif.Rounded

noncomputable section
open Classical

variable {α : Type} [LinearOrder α] {E X : Type}

/-- Numbers added up from the left, from 0.0 (scipy's `csr_matvec`, `csc_matvec` for one entry of the result; `W.sum(axis=1)`). -/
def total (A : Arith α) (l : List (Flt α)) : Flt α := l.foldl A.add (some (A.lit 0))

/-- spacial.py lines 97–102: a row of kernel values divided by its sum (1 if the sum is 0). -/
def normRow (A : Arith α) (row : List (E × Flt α)) : List (E × Flt α) :=
  let s := total A (row.map Prod.snd)
  let inv := A.div (some (A.lit 1)) (if s = some (A.lit 0) then some (A.lit 1) else s)
  row.map fun e => (e.1, A.mul inv e.2)

/-- spacial.py lines 135–157 `forward`: `W @ rho`, one entry. -/
def filterForward (A : Arith α) (W : E → List (E × Flt α)) (rho : E → Flt α) (i : E) : Flt α :=
  total A ((W i).map fun e => A.mul e.2 (rho e.1))

/-- spacial.py lines 159–166 `gradient`: `W.T @ v`, one entry; `ids` are the design elements in ascending order. -/
def filterGradient (A : Arith α) (ids : List E) (W : E → List (E × Flt α)) (v : E → Flt α) (j : E) : Flt α :=
  total A (ids.flatMap fun i => ((W i).filter fun e => e.1 = j).map fun e => A.mul e.2 (v i))

/-- What the schedules of an iteration return (common_density.py lines 1019–1036), as far as the update needs it. -/
structure Values (α : Type) where
  p : Flt α
  beta : Flt α
  moveLimit : Flt α
  eta : Flt α

/-- What a run is given besides the driver's configuration. -/
structure Setup (α E X : Type) where
  /-- the design elements in ascending order -/
  ids : List E
  /-- kernel values of the neighbours of an element, by column, in iteration `k` (the radius may change) -/
  rows : ℕ → E → List (E × Flt α)
  /-- `tsk.material_coef`, `cfg.E_min_coeff`, `cfg.beta_eta`, `cfg.sensitivity_filter` -/
  E0 : Flt α
  coeff : Flt α
  betaEta : Flt α
  sensitivityFilter : Bool
  /-- the schedules, or what they raise -/
  values : ℕ → X → X × Res (Values α)
  /-- the finite elements: the energies of each load case for the projected densities, or what they raise -/
  energies : ℕ → Flt α → (E → Flt α) → X → X × Res (List (E → Flt α))
  /-- `np.percentile` or `np.max` of the absolute values of the sensitivities -/
  stat : ℕ → X → (E → Flt α) → Flt α
  /-- the volume error of a candidate -/
  volError : ℕ → X → (E → Flt α) → (E → Flt α) → Flt α

variable (A : Arith α) (tanh cosh : Flt α → Flt α) (S : Setup α E X)

/-- common_density.py lines 1045–1047: the filtered density. -/
def filtered (k : ℕ) (rho : E → Flt α) : E → Flt α := filterForward A (fun i => normRow A (S.rows k i)) rho

/-- common_density.py lines 1048–1050: the projected density. -/
def projected (k : ℕ) (beta : Flt α) (rho : E → Flt α) (e : E) : Flt α := project A tanh (filtered A S k rho e) beta S.betaEta

/-- common_density.py lines 1083–1101: sensitivity of one load case with respect to the filtered density. -/
def loadGradient (k : ℕ) (v : Values α) (rho : E → Flt α) (U : E → Flt α) (i : E) : Flt α :=
  A.mul (simpSensitivity A (projected A tanh S k v.beta rho i) (U i) S.E0 (A.mul S.E0 S.coeff) v.p)
    (projectDeriv A tanh cosh (filtered A S k rho i) v.beta S.betaEta)

/-- common_density.py lines 1102–1105: `dC_drho_full`, summed over the load cases and divided by their number. -/
def meanGradient (k : ℕ) (v : Values α) (rho : E → Flt α) (Us : List (E → Flt α)) (e : E) : Flt α :=
  A.div (total A (Us.map fun U => filterGradient A S.ids (fun i => normRow A (S.rows k i)) (loadGradient A tanh cosh S k v rho U) e))
    (some (A.lit Us.length))

/-- common_density.py lines 1102–1112: the sensitivities handed to the update. -/
def sensitivities (k : ℕ) (v : Values α) (rho : E → Flt α) (Us : List (E → Flt α)) : E → Flt α :=
  if S.sensitivityFilter = true then filterForward A (fun i => normRow A (S.rows k i)) (meanGradient A tanh cosh S k v rho Us)
  else meanGradient A tanh cosh S k v rho Us

/-- common_density.py lines 1014–1129 for OC, up to the update. -/
def simpAnalyse (k : ℕ) (rho : E → Flt α) (x : X) : X × Res (Inputs α E) :=
  match S.values k x with
  | (y, .error e) => (y, .error e)
  | (y, .ok v) =>
    match S.energies k v.p (projected A tanh S k v.beta rho) y with
    | (z, .error e) => (z, .error e)
    | (z, .ok Us) =>
      let dC := sensitivities A tanh cosh S k v rho Us
      (z, .ok { dC := dC, stat := S.stat k z dC, moveLimit := v.moveLimit, eta := v.eta, volError := S.volError k z rho })

/-- The run: `p` with the analysis above. -/
def simpPlan (p : Plan α E X (Inputs α E)) : Plan α E X (Inputs α E) := { p with analyse := simpAnalyse A tanh cosh S }

end
end Verif.Rounded
