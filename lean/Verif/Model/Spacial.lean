import Verif.Model.Py
import Mathlib.Analysis.SpecialFunctions.Exp
import Mathlib.Analysis.InnerProductSpace.PiL2

/-!
Model of `/repo/scikit-topt/sktopt/filters/spacial.py`. Points are in `ℝ^d`; the element set is a finite type `E` and
the boolean `design_mask` a `Finset` (`none` when the mask is `None`). `cKDTree.query_ball_point(x, r)` (external) is
the set of points at distance at most `r`. Sparse matrices are functions; `float64` is `ℝ`.
-/
namespace Verif.Spacial
open Verif

noncomputable section
open Classical

variable {E : Type} [Fintype E] {d : ℕ}

/-- spacial.py:13-16 `get_element_centers`: the mean of the element's vertices (`k` vertices per element). -/
def center {k : ℕ} {N : Type} (p : N → EuclideanSpace ℝ (Fin d)) (t : E → Fin k → N) (e : E) :
    EuclideanSpace ℝ (Fin d) := (k : ℝ)⁻¹ • ∑ i, p (t e i)

/-- The three documented kernels (spacial.py:19-48). -/
inductive Kind where
  | linear
  | quadratic
  | gaussian

/-- spacial.py:19-48 `make_kernel`, the kernel. -/
def kernel (kind : Kind) (rMin : ℝ) (sigma : Option ℝ) (x : ℝ) : ℝ :=
  match kind with
  | .linear => max 0 (rMin - x)
  | .quadratic => if x ≥ rMin then 0 else 1 - x / rMin * (x / rMin)
  | .gaussian => Real.exp (-0.5 * (x / sigma.getD (rMin / 3)) ^ 2)

/-- spacial.py:19-48 `make_kernel`, the support radius. -/
def support (kind : Kind) (rMin : ℝ) (sigma : Option ℝ) : ℝ :=
  match kind with
  | .linear => rMin
  | .quadratic => rMin
  | .gaussian => 3 * sigma.getD (rMin / 3)

/-- spacial.py:51-85, the unnormalised entry for design elements `i`, `j` (`vol` is `elem_volume` when volume
correction applies). -/
def weight (c : E → EuclideanSpace ℝ (Fin d)) (ker : ℝ → ℝ) (sup : ℝ) (vol : Option (E → ℝ)) (i j : E) : ℝ :=
  if dist (c j) (c i) ≤ sup then
    match vol with
    | some v => ker (dist (c j) (c i)) * v j
    | none => ker (dist (c j) (c i))
  else 0

/-- spacial.py:96-103, the row-normalised matrix over the design elements; zero row sums are replaced by 1. -/
def matrix (c : E → EuclideanSpace ℝ (Fin d)) (ker : ℝ → ℝ) (sup : ℝ) (vol : Option (E → ℝ)) (S : Finset E)
    (i j : E) : ℝ :=
  let rs := ∑ k ∈ S, weight c ker sup vol i k
  (1 / if rs = 0 then 1 else rs) * weight c ker sup vol i j

/-- spacial.py:51-103 `build_filter_matrix`: raises RuntimeError when no design element has a neighbour within the
support radius (`data` empty). -/
def buildFilterMatrix (c : E → EuclideanSpace ℝ (Fin d)) (ker : ℝ → ℝ) (sup : ℝ) (vol : Option (E → ℝ))
    (mask : Option (Finset E)) : Res (E → E → ℝ) :=
  let S := mask.getD Finset.univ
  if ∃ i ∈ S, ∃ j ∈ S, dist (c j) (c i) ≤ sup then .ok (matrix c ker sup vol S) else .error .runtimeError

/-- The filter object (spacial.py:106-133): centres, mask, current radius, and the attribute `W`, which only `forward`
sets (`none` = missing). -/
structure Filter (E : Type) (d : ℕ) where
  centers : E → EuclideanSpace ℝ (Fin d)
  mask : Option (Finset E)
  radius : ℝ
  W : Option (E → E → ℝ) := none

/-- spacial.py:110-115 `update_radius`. -/
def updateRadius (f : Filter E d) (r : ℝ) : Filter E d := { f with radius := r }

/-- spacial.py:135-157 `forward`: rebuilds `W` with the gaussian kernel for the current radius, applies it to the design
part and copies the rest. -/
def forward (f : Filter E d) (rho : E → ℝ) : Res ((E → ℝ) × Filter E d) := do
  let W ← buildFilterMatrix f.centers (kernel .gaussian f.radius none) (support .gaussian f.radius none) none f.mask
  let S := f.mask.getD Finset.univ
  pure (fun i => if i ∈ S then ∑ j ∈ S, W i j * rho j else rho i, { f with W := some W })

/-- spacial.py:159-166 `gradient`: the transpose of the stored `W` on the design part, zero elsewhere. -/
def gradient (f : Filter E d) (v : E → ℝ) : Res (E → ℝ) :=
  match f.W with
  | none => .error .attributeError
  | some W =>
    let S := f.mask.getD Finset.univ
    .ok fun j => if j ∈ S then ∑ i ∈ S, W i j * v i else 0

end
end Verif.Spacial
