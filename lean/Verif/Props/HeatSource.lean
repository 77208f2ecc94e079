import Verif.Model.HeatSource
import Verif.Props.HeatedRun

/-! C146: surface heat sources. -/
namespace Verif.HeatSource
open Verif.Heat

variable {ι : Type} [Fintype ι]

omit [Fintype ι] in
/-- **C146 (shape of the result).** The number of facet sets and of values must agree, otherwise a `ValueError` is raised; one region gives one vector,
whether it was passed as a list or not; any other number gives a list with one vector per region, in order, each of them the vector of that region
alone. -/
theorem C146_result (facets : OneOrList (Region ι)) (values : OneOrList ℝ) :
    (facets.toList.length ≠ values.toList.length → assembleSurfaceNeumann facets values = .error .valueError) ∧
    (facets.toList.length = values.toList.length →
      ∃ r, assembleSurfaceNeumann facets values = .ok r ∧ r.toList.length = facets.toList.length ∧
        ((∃ f, r = .one f) ↔ facets.toList.length = 1) ∧
        ∀ (k : ℕ) (R : Region ι) (q : ℝ), facets.toList[k]? = some R → values.toList[k]? = some q →
          ∃ f, assembleSurfaceNeumann (.one R) (.one q) = .ok (.one f) ∧ r.toList[k]? = some f) := by
  unfold assembleSurfaceNeumann
  simp only
  refine ⟨fun h => if_neg h, fun h => ?_⟩
  rw [if_pos h]
  generalize hz : List.zipWith source facets.toList values.toList = z
  have hlen : z.length = facets.toList.length := by rw [← hz, List.length_zipWith]; omega
  have hk : ∀ (k : ℕ) (R : Region ι) (q : ℝ), facets.toList[k]? = some R → values.toList[k]? = some q → z[k]? = some (source R q) := by
    intro k R q h1 h2
    rw [← hz, List.getElem?_zipWith, h1, h2]
  have hone : ∀ (R : Region ι) (q : ℝ), (if (OneOrList.one R).toList.length = (OneOrList.one q).toList.length then
      (match List.zipWith source (OneOrList.one R).toList (OneOrList.one q).toList with
        | [f] => (.ok (.one f) : Res (OneOrList (ι → ℝ)))
        | heats => .ok (.list heats)) else .error .valueError) = .ok (.one (source R q)) := fun R q => rfl
  rcases z with _ | ⟨f, _ | ⟨g, z⟩⟩
  · exact ⟨.list [], rfl, hlen, ⟨by rintro ⟨_, ⟨⟩⟩, fun h1 => by rw [h1] at hlen; cases hlen⟩, fun k R q h1 h2 => ⟨_, rfl, hk k R q h1 h2⟩⟩
  · exact ⟨.one f, rfl, hlen, ⟨fun _ => hlen.symm, fun _ => ⟨f, rfl⟩⟩, fun k R q h1 h2 => ⟨_, rfl, hk k R q h1 h2⟩⟩
  · refine ⟨.list (f :: g :: z), rfl, hlen, ⟨by rintro ⟨_, ⟨⟩⟩, fun h1 => ?_⟩, fun k R q h1 h2 => ⟨_, rfl, hk k R q h1 h2⟩⟩
    rw [h1] at hlen
    simp at hlen

/-- **C146 (total heat).** On a surface whose shape functions add up to 1 at every point, the entries of the vector add up to flux times area; with
shape functions that are not negative, every entry has the sign of the flux; nodes away from the surface get nothing. -/
theorem C146_total_heat (R : Region ι) (q : ℝ) (hone : ∀ x, ∑ i, R.val i x = 1) :
    ∃ f, assembleSurfaceNeumann (.one R) (.one q) = .ok (.one f) ∧ ∑ i, f i = q * ∑ x, R.dx x ∧
      ((∀ i x, 0 ≤ R.val i x) → (∀ x, 0 ≤ R.dx x) → ∀ i, 0 ≤ q * f i) ∧
      ∀ i, (∀ x, R.val i x = 0) → f i = 0 := by
  refine ⟨source R q, rfl, ?_, fun hv hd i => ?_, fun i hi => ?_⟩
  · unfold source
    rw [Finset.sum_comm, Finset.mul_sum]
    refine Finset.sum_congr rfl fun x _ => ?_
    rw [← Finset.sum_mul, ← Finset.mul_sum, hone x, mul_one]
  · unfold source
    rw [Finset.mul_sum]
    refine Finset.sum_nonneg fun x _ => ?_
    have : q * (q * R.val i x * R.dx x) = q ^ 2 * (R.val i x * R.dx x) := by ring
    rw [this]
    exact mul_nonneg (sq_nonneg q) (mul_nonneg (hv i x) (hd x))
  · unfold source
    exact Finset.sum_eq_zero fun x _ => by rw [hi x]; ring

open Verif.FEBasis in
/-- **C146 (surfaces of a mesh).** The hypotheses hold for every set of facets of a mesh of first-order elements: the total heat is the flux times the
sum of the weights. -/
theorem C146_mesh_surface {E C : Type} {d : ℕ} [Fintype C] (M : FEBasis.Mesh ι E C d) (ps : List (SurfacePoint E C))
    (hps : ∀ x ∈ ps, ∑ c, x.phi c = 1) (q : ℝ) :
    ∃ f, assembleSurfaceNeumann (.one (surface M ps)) (.one q) = .ok (.one f) ∧ ∑ i, f i = q * (ps.map SurfacePoint.dx).sum := by
  classical
  have hone : ∀ x : Fin ps.length, ∑ i, (surface M ps).val i x = 1 := by
    intro x
    have h := value_scalar M ps[x].phi (fun _ => 1) ps[x].element
    simp only [one_mul] at h
    have h3 : ∑ c, ps[x].phi c = 1 := hps ps[x] (List.getElem_mem x.isLt)
    rw [h3] at h
    rw [← h]
    exact Finset.sum_congr rfl fun n _ => Finset.sum_congr rfl fun c _ => by congr
  obtain ⟨f, h1, h2, -⟩ := C146_total_heat (surface M ps) q hone
  refine ⟨f, h1, h2.trans ?_⟩
  congr 1
  show ∑ x : Fin ps.length, ps[x].dx = _
  rw [← List.sum_ofFn]
  congr 1
  apply List.ext_getElem <;> simp

/-- Non-vacuity: the cooled right end of the two rods. -/
example : ∃ f, assembleSurfaceNeumann (.one (FEBasis.surface Supported.rodMesh Supported.rightEnd)) (.one 5) = .ok (.one f) ∧ ∑ i, f i = 5 := by
  obtain ⟨f, h1, h2⟩ := C146_mesh_surface Supported.rodMesh Supported.rightEnd (by simp [Supported.rightEnd]) 5
  exact ⟨f, h1, h2.trans (by simp [Supported.rightEnd])⟩

/-- Non-vacuity: two regions, two values. -/
example (R : Region (Fin 3)) : ∃ fs, assembleSurfaceNeumann (.list [R, R]) (.list [1, 2]) = .ok (.list fs) ∧ fs.length = 2 := ⟨_, rfl, rfl⟩

end Verif.HeatSource
