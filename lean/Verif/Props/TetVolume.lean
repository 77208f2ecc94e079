import Verif.Lemmas.TetVolume
import Verif.Props.Geometry

/-! C43 continued: the element volumes are geometric volumes. -/
namespace Verif.Geometry
open MeasureTheory

/-- Specification: Lebesgue volume of the solid tetrahedron with corner numbers `t`. -/
noncomputable def solidVolume (p : ℕ → Vec) (t : Fin 4 → ℕ) : ℝ :=
  (volume (convexHull ℝ (Set.range fun i => p (t i)))).toReal

theorem solidVolume_eq (p : ℕ → Vec) (t : Fin 4 → ℕ) : solidVolume p t = |tetVol p t| := by
  unfold solidVolume tetVol
  exact volume_hull fun i => p (t i)

/-- **C43 (the volumes are geometric).** For every mesh: the volumes computed after the orientation repair are, element by
element, the Lebesgue volumes of the original solid tetrahedra. -/
theorem C43_repaired_volumes_geometric (p : ℕ → Vec) (ts : List (Fin 4 → ℕ)) :
    volumesTet p (fixTets p ts) = .ok (ts.map (solidVolume p)) := by
  rw [C43_repaired_mesh_volumes]
  congr 1
  exact List.map_congr_left fun t _ => (solidVolume_eq p t).symm

/-- **C43 (what the volume computation accepts).** Without repair, a mesh is rejected exactly if some element is inverted
by more than 1e-12 of volume; otherwise one volume per element is returned, each at least -1e-12, equal in size to the
Lebesgue volume of the solid tetrahedron. -/
theorem C43_volumes_reject_inverted (p : ℕ → Vec) (ts : List (Fin 4 → ℕ)) :
    (volumesTet p ts = .error .valueError ↔ ∃ t ∈ ts, triple (p (t 1) - p (t 0)) (p (t 2) - p (t 0)) (p (t 3) - p (t 0)) < 0 ∧
      1 / 10 ^ 12 < solidVolume p t) ∧
    (∀ vs, volumesTet p ts = .ok vs → List.Forall₂ (fun t v => |v| = solidVolume p t ∧ -(1 / 10 ^ 12) ≤ v) ts vs) ∧
    ∀ e, volumesTet p ts = .error e → e = .valueError := by
  have key : ∀ t : Fin 4 → ℕ, (tetVol p t < -(1 / 10 ^ 12) ↔
      triple (p (t 1) - p (t 0)) (p (t 2) - p (t 0)) (p (t 3) - p (t 0)) < 0 ∧ 1 / 10 ^ 12 < solidVolume p t) := by
    intro t
    rw [solidVolume_eq]
    have h6 : triple (p (t 1) - p (t 0)) (p (t 2) - p (t 0)) (p (t 3) - p (t 0)) = 6 * tetVol p t := by
      unfold tetVol signedVol; ring
    rw [h6]
    constructor
    · intro h
      have : tetVol p t < 0 := lt_trans h (by norm_num)
      refine ⟨by linarith, ?_⟩
      rw [abs_of_neg this]; linarith
    · rintro ⟨h, h'⟩
      rw [abs_of_neg (by linarith)] at h'
      linarith
  induction ts with
  | nil =>
    refine ⟨by simp [volumesTet], ?_, by simp [volumesTet]⟩
    intro vs h
    simp only [volumesTet, Except.ok.injEq] at h
    subst h; exact .nil
  | cons t ts ih =>
    obtain ⟨i1, i2, i3⟩ := ih
    by_cases ht : tetVol p t < -(1 / 10 ^ 12)
    · have hv : volumesTet p (t :: ts) = .error .valueError := by rw [volumesTet, if_pos ht]
      rw [hv]
      refine ⟨⟨fun _ => ⟨t, by simp, (key t).1 ht⟩, fun _ => rfl⟩, by simp, ?_⟩
      intro e h; simp only [Except.error.injEq] at h; exact h.symm
    · rcases hr : volumesTet p ts with e | vs
      · have hv : volumesTet p (t :: ts) = .error e := by rw [volumesTet, if_neg ht, hr]
        rw [hv]
        have he := i3 e hr
        subst he
        obtain ⟨u, hu, hu'⟩ := i1.1 hr
        refine ⟨⟨fun _ => ⟨u, List.mem_cons_of_mem _ hu, hu'⟩, fun _ => rfl⟩, by simp, ?_⟩
        intro e h; simp only [Except.error.injEq] at h; exact h.symm
      · have hv : volumesTet p (t :: ts) = .ok (tetVol p t :: vs) := by rw [volumesTet, if_neg ht, hr]
        rw [hv]
        refine ⟨⟨by simp, ?_⟩, ?_, by simp⟩
        · rintro ⟨u, hu, hu'⟩
          rcases List.mem_cons.1 hu with rfl | hu
          · exact absurd ((key u).2 hu') ht
          · have := i1.2 ⟨u, hu, hu'⟩
            rw [hr] at this; cases this
        · intro ws h
          simp only [Except.ok.injEq] at h
          subst h
          exact .cons ⟨(solidVolume_eq p t).symm, not_lt.1 ht⟩ (i2 vs hr)

/-- Non-vacuity: the unit corner tetrahedron has volume 1/6, is rejected when inverted and accepted otherwise. -/
example : solidVolume unitP ![0, 2, 1, 3] = 1 / 6 ∧ volumesTet unitP [![0, 2, 1, 3]] = .error .valueError ∧
    volumesTet unitP [![0, 1, 2, 3]] = .ok [1 / 6] := by
  have h1 : tetVol unitP ![0, 2, 1, 3] = -(1 / 6) := by
    simp [tetVol, signedVol, triple, unitP]; norm_num
  have h2 : tetVol unitP ![0, 1, 2, 3] = 1 / 6 := by
    simp [tetVol, signedVol, triple, unitP]
  refine ⟨by rw [solidVolume_eq, h1]; norm_num, ?_, ?_⟩
  · rw [volumesTet, if_pos (by rw [h1]; norm_num)]
  · rw [volumesTet, if_neg (by rw [h2]; norm_num), h2]; rfl

end Verif.Geometry
