import Verif.Props.NodalMax
import Verif.Props.Lagrangian

/-!
C55 for the default filter: the volume derivative LogMOC uses is not the derivative of the volume.
-/
namespace Verif.Props
open Verif Verif.Helmholtz

/-- The nodes of the last three of the four cubes: those the filter holds at 1 when only the first cube is a design element. -/
def rowHeld : Finset RowNode := Finset.univ.filter fun n => n.1 ≠ 0

theorem rowHeld_spec (n : RowNode) : n ∈ rowHeld ↔ ∃ e, e ∉ ({0} : Finset (Fin 4)) ∧ ∃ i, rowT e i = n := by
  simp only [rowT_mem]
  revert n; decide

theorem row_nodes_first (x : Fin 4 → ℝ) (n : RowNode) : elementToNode rowT (fun _ => 1) (some {0}) true 1 x n =
    (![x 0, (x 0 + 1) / 2, 1, 1, 1] : Fin 5 → ℝ) n.1 := by
  unfold elementToNode
  simp only [Option.getD_some, Finset.mem_singleton, if_true, rowT_mem, Fin.sum_univ_four]
  obtain ⟨i, b⟩ := n
  fin_cases i <;> simp <;> norm_num

/-- The filtered density of the first cube. -/
theorem row_forward_first (solve : (RowNode → ℝ) → (RowNode → ℝ))
    (hsolve : ∀ x, let y := elementToNode rowT (fun _ => 1) (some {0}) true 1 x
      SolvesNodal (assembled cubeMass) (assembled cubeStiff) 1 1 rowHeld y (solve y)) (x : Fin 4 → ℝ) :
    nodalForward rowT (fun _ => 1) (some {0}) solve x 0 = 5 / 32 * x 0 + 27 / 32 := by
  unfold nodalForward
  obtain ⟨y, hy⟩ : ∃ y, y = elementToNode rowT (fun _ => 1) (some {0}) true 1 x := ⟨_, rfl⟩
  have hs := hsolve x
  simp only at hs
  rw [← hy] at hs ⊢
  obtain ⟨z, hz⟩ : ∃ z, z = solve y := ⟨_, rfl⟩
  rw [← hz] at hs ⊢
  obtain ⟨w, hw⟩ : ∃ w : RowNode → ℝ, w = fun n => (![1, 0, 0, 0, 0] : Fin 5 → ℝ) n.1 := ⟨_, rfl⟩
  have h1 : ∑ a, w a * ∑ b, (assembled cubeMass a b + 1 ^ 2 * assembled cubeStiff a b) * z b =
      ∑ a, w a * ∑ b, assembled cubeMass a b * y b := by
    refine Finset.sum_congr rfl fun a _ => ?_
    by_cases ha : a ∈ rowHeld
    · have : w a = 0 := by
        rw [hw]
        obtain ⟨i, bc⟩ := a
        simp only [rowHeld, Finset.mem_filter, Finset.mem_univ, true_and] at ha
        fin_cases i
        · exact absurd rfl ha
        all_goals simp
      rw [this]; ring
    · rw [hs.1 a ha]
  have h2 : ∑ a, w a * ∑ b, (assembled cubeMass a b + 1 ^ 2 * assembled cubeStiff a b) * z b =
      ∑ a, w a * ∑ b, assembled cubeMass a b * z b + ∑ a, w a * ∑ b, assembled cubeStiff a b * z b := by
    rw [← Finset.sum_add_distrib]
    refine Finset.sum_congr rfl fun a _ => ?_
    simp only [one_pow, one_mul, add_mul, Finset.sum_add_distrib, mul_add]
  rw [h2, hw, row_form cubeMass_sum, row_form cubeMass_sum, row_form cubeStiff_sum] at h1
  rw [rowMean]
  have hyv : ∀ i b c, y (i, b, c) = (![x 0, (x 0 + 1) / 2, 1, 1, 1] : Fin 5 → ℝ) i := fun i b c => by rw [hy]; exact row_nodes_first x _
  have hz1 : ∀ b c, z (1, b, c) = 1 := fun b c => hs.2 _ (by simp [rowHeld])
  obtain ⟨S, hS⟩ : ∃ S : ℝ, S = ∑ b, ∑ c, z (0, b, c) := ⟨_, rfl⟩
  have hS' : z (0, 0, 0) + z (0, 0, 1) + (z (0, 1, 0) + z (0, 1, 1)) = S := by rw [hS]; simp [Fin.sum_univ_two]
  simp only [hyv] at h1
  simp [Fin.sum_univ_four, Fin.sum_univ_two, mass1_eq, stiff1_eq, hz1, hS'] at h1 ⊢
  linarith

/-- **C55 (refuted for the default filter).** Four unit cubes in a row of which only the first is a design element, filter radius
1, exact solvers, any densities, projection sharpness and threshold: increasing the density of the design element increases the
physical volume fraction at some rate `D > 0`, but the derivative LogMOC uses is either not positive or `D + 27/32`: when the
filter's `gradient` (which clamps everything to at most 0) returns nothing, `forward` is substituted, which adds the value 1 it
holds at the nodes of non-design elements. -/
theorem C55_default_filter_wrong (solve : (RowNode → ℝ) → (RowNode → ℝ))
    (hsolve : ∀ x, let y := elementToNode rowT (fun _ => 1) (some {0}) true 1 x
      SolvesNodal (assembled cubeMass) (assembled cubeStiff) 1 1 rowHeld y (solve y))
    (solveG : (RowNode → ℝ) → (RowNode → ℝ)) (c : LogMOC.Cfg (Fin 4)) (hd : c.design = {0}) (hv : c.volume = fun _ => 1)
    (hf : c.forward = nodalForward rowT (fun _ => 1) (some {0}) solve)
    (hg : c.gradient = nodalGradient rowT (fun _ => 1) (some {0}) solveG) (beta : ℝ) (hb : 0 < beta) (x : Fin 4 → ℝ) :
    ∃ D, 0 < D ∧
      HasDerivAt (fun t : ℝ => volumeFraction c.design c.volume fun e =>
        Projection.heaviside (c.forward (fun e' => x e' + if e' = 0 then t else 0) e) beta c.betaEta) D 0 ∧
      (LogMOC.dVChain c beta (c.forward x) 0 ≤ 0 ∨ LogMOC.dVChain c beta (c.forward x) 0 = D + 27 / 32) := by
  have hfwd := row_forward_first solve hsolve
  refine ⟨Projection.heavisideDeriv (c.forward x 0) beta c.betaEta * (5 / 32), mul_pos (by
    unfold Projection.heavisideDeriv
    rw [Projection.one_sub_tanh_sq]
    exact div_pos (mul_pos hb (inv_pos.mpr (pow_pos (Real.cosh_pos _) 2))) (Projection.denom_eps_pos hb.le _)) (by norm_num), ?_, ?_⟩
  · have h1 : HasDerivAt (fun t : ℝ => c.forward (fun e' => x e' + if e' = 0 then t else 0) 0) (5 / 32) 0 := by
      have e : (fun t : ℝ => c.forward (fun e' => x e' + if e' = 0 then t else 0) 0) = fun t => 5 / 32 * (x 0 + t) + 27 / 32 := by
        funext t; rw [hf, hfwd]; simp
      rw [e]
      exact ((((hasDerivAt_id (0 : ℝ)).const_add (x 0)).const_mul (5 / 32)).add_const (27 / 32)).congr_deriv (by ring)
    have h2 := Projection.hasDerivAt_heaviside (c.forward (fun e' => x e' + if e' = 0 then (0 : ℝ) else 0) 0) beta c.betaEta
    have h3 := HasDerivAt.comp (0 : ℝ) (h₂ := fun z => Projection.heaviside z beta c.betaEta) h2 h1
    have e0 : (fun e' : Fin 4 => x e' + if e' = 0 then (0 : ℝ) else 0) = x := by funext e'; simp
    rw [e0] at h3
    refine h3.congr_of_eventuallyEq (Filter.Eventually.of_forall fun t => ?_)
    simp [volumeFraction, hd, hv]
  · unfold LogMOC.dVChain
    split_ifs
    · right
      rw [hf, hfwd, ← hf]
      have : LogMOC.dVFiltered c beta (c.forward x) 0 = Projection.heavisideDeriv (c.forward x 0) beta c.betaEta := by
        unfold LogMOC.dVFiltered LogMOC.volSum
        rw [hd, hv]
        simp only [Finset.mem_singleton, if_true, Finset.sum_singleton, div_one, mul_one]
        exact (C23_inplace_agree _ _ _).2
      rw [this]; ring
    · left
      rw [hg]
      exact min_le_right _ _

/-- Non-vacuity of C55 (refutation): the equations have a solution. -/
example (solveG : (RowNode → ℝ) → (RowNode → ℝ)) :=
  C55_default_filter_wrong (fun y n => (![5 / 16 * y (0, 0, 0) + 11 / 16, 1, 1, 1, 1] : Fin 5 → ℝ) n.1) (fun x => by
    have hm : ∀ p q, cubeMass p q = cubeMass q p := fun p q => by simp only [cubeMass, mass1_eq, eq_comm]
    have hk : ∀ p q, cubeStiff p q = cubeStiff q p := fun p q => by simp only [cubeStiff, mass1_eq, stiff1_eq, eq_comm]
    simp only [row_nodes_first]
    refine ⟨fun a ha => ?_, fun a ha => ?_⟩
    · have e1 : ∀ u : Fin 5 → ℝ, ∑ b : RowNode, (assembled cubeMass a b + 1 ^ 2 * assembled cubeStiff a b) * u b.1 =
          ∑ b, assembled cubeMass a b * u b.1 + ∑ b, assembled cubeStiff a b * u b.1 := by
        intro u
        rw [← Finset.sum_add_distrib]
        exact Finset.sum_congr rfl fun b _ => by ring
      rw [e1]
      simp only [row_nodes_first]
      rw [row_apply hm cubeMass_sum, row_apply hm cubeMass_sum, row_apply hk cubeStiff_sum]
      obtain ⟨i, bc⟩ := a
      simp only [rowHeld, Finset.mem_filter, Finset.mem_univ, true_and, not_not] at ha
      subst ha
      simp only [Fin.sum_univ_four, Fin.sum_univ_two, mass1_eq, stiff1_eq]
      simp
      ring
    · obtain ⟨i, bc⟩ := a
      simp only [rowHeld, Finset.mem_filter, Finset.mem_univ, true_and] at ha
      fin_cases i
      · exact absurd rfl ha
      all_goals simp)
    solveG { rhoMin := 1 / 100, rhoMax := 1, betaEta := 1 / 2, design := {0}, volume := fun _ => 1, forward := _, gradient := _, pct := fun _ _ => 0 }
    rfl rfl rfl rfl 4 (by norm_num) (fun _ => 1 / 2)

end Verif.Props
