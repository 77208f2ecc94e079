import Verif.Model.Submesh
import Verif.Spec.Submesh
import Verif.Lemmas.Mesh
import Mathlib.Tactic.Linarith
import Mathlib.Tactic.NormNum

/-! C107: the exported final mesh is the part of the mesh with the solid elements. -/
namespace Verif.Submesh
open Verif Verif.Mesh Verif.Spec

noncomputable section

variable {α : Type}

theorem mem_kept {all design : List ℕ} {rho : ℕ → ℝ} {c : ℝ} {e : ℕ} :
    e ∈ kept all design rho c ↔ e ∈ all ∧ (e ∈ design → c < rho e) := by
  unfold kept setdiff removed
  simp only [List.mem_filter, decide_eq_true_eq, not_and, not_le]

theorem kept_eq {all design : List ℕ} {rho : ℕ → ℝ} {c : ℝ} :
    kept all design rho c = (open Classical in all.filter fun e => decide (e ∈ design → c < rho e)) := by
  unfold kept setdiff removed
  congr 1
  funext e
  simp only [List.mem_filter, decide_eq_true_eq, not_and, not_le]

theorem lookup_zipIdx (l : List ℕ) (hl : l.Nodup) (n : ℕ) (i : ℕ) (h : i < l.length) :
    (l.zipIdx n).lookup l[i] = some (n + i) := by
  induction l generalizing n i with
  | nil => simp at h
  | cons a l ih =>
    rw [List.zipIdx_cons]
    cases i with
    | zero => simp [List.lookup]
    | succ i =>
      simp only [List.getElem_cons_succ]
      simp only [List.length_cons, Nat.add_lt_add_iff_right] at h
      have hne : l[i] ≠ a := by
        intro e
        exact (List.nodup_cons.mp hl).1 (e ▸ List.getElem_mem h)
      rw [List.lookup, show (l[i] == a) = false from by simpa using hne]
      simp only
      rw [ih (List.nodup_cons.mp hl).2 (n + 1) i h]
      congr 1
      omega

/-- **C107.** If all indices are in range and a kept element has a corner, `export_submesh` saves the mesh made of exactly the elements
that are outside the design or above the threshold, in their order, with the points of the original mesh and without unused points. -/
theorem C107_exported_mesh [Inhabited α] (p : List α) (t : Conn) (all design : List ℕ) (rho : ℕ → ℝ) (c : ℝ)
    (hall : ∀ e ∈ all, e < t.length) (ht : ∀ el ∈ t, ∀ v ∈ el, v < p.length)
    (hsome : ∃ e ∈ all, (e ∈ design → c < rho e) ∧ ∃ v, v ∈ t.getD e []) :
    ∃ p' t' old, exportSubmesh p t all design rho c = .ok (p', t') ∧
      IsPart p t (open Classical in all.filter fun e => decide (e ∈ design → c < rho e)) p' t' old := by
  unfold exportSubmesh
  rw [← kept_eq]
  obtain ⟨K, hK⟩ : ∃ K, K = kept all design rho c := ⟨_, rfl⟩
  rw [← hK]
  simp only
  obtain ⟨T, hT⟩ : ∃ T, T = K.map fun e => t.getD e [] := ⟨_, rfl⟩
  rw [← hT]
  have hne : T.flatten ≠ [] := by
    obtain ⟨e, e1, e2, v, e3⟩ := hsome
    refine List.ne_nil_of_mem (a := v) (List.mem_flatten.mpr ⟨t.getD e [], ?_, e3⟩)
    rw [hT]
    exact List.mem_map.mpr ⟨e, by rw [hK]; exact mem_kept.mpr ⟨e1, e2⟩, rfl⟩
  rw [if_neg hne]
  obtain ⟨V, hV⟩ : ∃ V, V = unique T.flatten := ⟨_, rfl⟩
  rw [← hV]
  have hmem : ∀ v, v ∈ V ↔ ∃ el ∈ T, v ∈ el := fun v => by rw [hV, mem_unique, List.mem_flatten]
  have hpw : V.Pairwise (· < ·) := by rw [hV]; exact sorted_pairwise (List.nodup_dedup _)
  have hnd : V.Nodup := hpw.imp fun h => Nat.ne_of_lt h
  have hlt : ∀ v ∈ V, v < p.length := by
    intro v hv
    obtain ⟨el, h1, h2⟩ := (hmem v).mp hv
    rw [hT] at h1
    obtain ⟨e, h3, rfl⟩ := List.mem_map.mp h1
    have he := hall e (mem_kept.mp (hK ▸ h3)).1
    rw [List.getD_eq_getElem?_getD, List.getElem?_eq_getElem he, Option.getD_some] at h2
    exact ht _ (List.getElem_mem he) v h2
  have hlook : ∀ v ∈ V, ∃ i, ∃ h : i < V.length, V[i] = v ∧ ((indexMap V).lookup v).getD 0 = i := by
    intro v hv
    obtain ⟨i, hi, rfl⟩ := List.getElem_of_mem hv
    refine ⟨i, hi, rfl, ?_⟩
    unfold indexMap
    rw [lookup_zipIdx V hnd 0 i hi]
    simp
  have hTV : ∀ el ∈ T, ∀ v ∈ el, v ∈ V := fun el h1 v h2 => (hmem v).mpr ⟨el, h1, h2⟩
  refine ⟨_, _, fun i => V.getD i 0, rfl, ?_⟩
  constructor
  · intro i j hij hj
    rw [List.length_map] at hj
    rw [List.getD_eq_getElem?_getD, List.getD_eq_getElem?_getD, List.getElem?_eq_getElem hj, List.getElem?_eq_getElem (hij.trans hj)]
    exact List.pairwise_iff_getElem.mp hpw i j (hij.trans hj) hj hij
  · intro i hi
    rw [List.length_map] at hi
    rw [List.getElem?_map, List.getElem?_eq_getElem hi, Option.map_some, List.getD_eq_getElem?_getD, List.getD_eq_getElem?_getD,
      List.getElem?_eq_getElem hi, Option.getD_some, List.getElem?_eq_getElem (hlt _ (List.getElem_mem hi)), Option.getD_some]
  · intro i hi
    rw [List.length_map] at hi
    obtain ⟨el, h1, h2⟩ := (hmem V[i]).mp (List.getElem_mem hi)
    refine ⟨_, List.mem_map.mpr ⟨el, h1, rfl⟩, List.mem_map.mpr ⟨V[i], h2, ?_⟩⟩
    unfold indexMap
    rw [lookup_zipIdx V hnd 0 i hi]
    simp
  · intro el hel i hi
    obtain ⟨el', h1, rfl⟩ := List.mem_map.mp hel
    obtain ⟨v, h2, rfl⟩ := List.mem_map.mp hi
    obtain ⟨j, hj, -, h3⟩ := hlook v (hTV el' h1 v h2)
    rw [h3, List.length_map]
    exact hj
  · rw [List.length_map, hT, List.length_map]
  · intro j
    rw [List.getElem?_map, Option.map_map, hT, List.getElem?_map, Option.map_map]
    rcases hj : K[j]? with _ | e
    · rfl
    · have heK : e ∈ K := List.mem_of_getElem? hj
      have he := hall e (mem_kept.mp (hK ▸ heK)).1
      simp only [Option.map_some, Function.comp_apply, Option.bind_some]
      rw [List.getElem?_eq_getElem he, List.getD_eq_getElem?_getD, List.getElem?_eq_getElem he, Option.getD_some, List.map_map]
      congr 1
      conv_rhs => rw [← List.map_id t[e]]
      refine List.map_congr_left fun v hv => ?_
      have hvT : t[e] ∈ T := by
        rw [hT]
        refine List.mem_map.mpr ⟨e, heK, ?_⟩
        rw [List.getD_eq_getElem?_getD, List.getElem?_eq_getElem he, Option.getD_some]
      obtain ⟨i, hi, h1, h2⟩ := hlook v (hTV _ hvT v hv)
      simp only [Function.comp_apply, id_eq]
      rw [h2, List.getD_eq_getElem?_getD, List.getElem?_eq_getElem hi, Option.getD_some, h1]

/-- **C107.** Corners of a part of a mesh are where the corners of the original elements are, and two elements share a vertex exactly if
the original elements do. -/
theorem C107_same_geometry {p : List α} {t : Conn} {keep : List ℕ} {p' : List α} {t' : Conn} {old : ℕ → ℕ} (h : IsPart p t keep p' t' old)
    (i j : ℕ) (e f : ℕ) (he : keep[i]? = some e) (hf : keep[j]? = some f) (a b : List ℕ) (ha : t[e]? = some a) (hb : t[f]? = some b) :
    ∃ a' b' : List ℕ, t'[i]? = some a' ∧ t'[j]? = some b' ∧ a'.map (p'[·]?) = a.map (p[·]?) ∧ ((∃ v, v ∈ a ∧ v ∈ b) ↔ ∃ v, v ∈ a' ∧ v ∈ b') := by
  have key : ∀ (i e : ℕ) (a : List ℕ), keep[i]? = some e → t[e]? = some a → ∃ a' : List ℕ, t'[i]? = some a' ∧ a = a'.map old ∧ ∀ v ∈ a', v < p'.length := by
    intro i e a he ha
    have := h.elements i
    rw [he, Option.bind_some, ha] at this
    obtain ⟨a', h1, h2⟩ := Option.map_eq_some_iff.mp this
    exact ⟨a', h1, h2.symm, fun v hv => h.inside a' (List.mem_of_getElem? h1) v hv⟩
  obtain ⟨a', a1, a2, a3⟩ := key i e a he ha
  obtain ⟨b', b1, b2, b3⟩ := key j f b hf hb
  refine ⟨a', b', a1, b1, ?_, ?_, ?_⟩
  · rw [a2, List.map_map]
    exact List.map_congr_left fun v hv => h.points v (a3 v hv)
  · rintro ⟨v, hv, hw⟩
    rw [a2] at hv
    rw [b2] at hw
    obtain ⟨x, hx, rfl⟩ := List.mem_map.mp hv
    obtain ⟨y, hy, hxy⟩ := List.mem_map.mp hw
    have : x = y := by
      rcases Nat.lt_trichotomy x y with hlt | heq | hlt
      · exact absurd hxy (Nat.ne_of_gt (h.monotone x y hlt (b3 y hy)))
      · exact heq
      · exact absurd hxy (Nat.ne_of_lt (h.monotone y x hlt (a3 x hx)))
    exact ⟨x, hx, this ▸ hy⟩
  · rintro ⟨v, hv, hw⟩
    exact ⟨old v, a2 ▸ List.mem_map.mpr ⟨v, hv, rfl⟩, b2 ▸ List.mem_map.mpr ⟨v, hw, rfl⟩⟩

/-- **C107.** If every element is a design element at or below the threshold, the export raises ValueError. -/
theorem C107_nothing_left_raises [Inhabited α] (p : List α) (t : Conn) (all design : List ℕ) (rho : ℕ → ℝ) (c : ℝ)
    (h : ∀ e ∈ all, e ∈ design ∧ rho e ≤ c) : exportSubmesh p t all design rho c = .error .valueError := by
  have hk : kept all design rho c = [] := by
    rw [List.eq_nil_iff_forall_not_mem]
    intro e he
    obtain ⟨h1, h2⟩ := mem_kept.mp he
    obtain ⟨h3, h4⟩ := h e h1
    linarith [h2 h3]
  unfold exportSubmesh
  rw [hk]
  simp

/-- Three rods in a row: the middle one, with the density equal to the threshold, goes; the first one is not designed. -/
example : exportSubmesh ["a", "b", "c", "d", "x"] [[0, 1], [1, 2], [3, 2]] [0, 1, 2] [1, 2] (fun e => if e = 2 then 0.6 else 0.5) 0.5 =
    .ok (["a", "b", "c", "d"], [[0, 1], [3, 2]]) ∧
    ∃ e ∈ [0, 1, 2], (e ∈ [1, 2] → (0.5 : ℝ) < if e = 2 then 0.6 else 0.5) ∧ ∃ v, v ∈ [[0, 1], [1, 2], [3, 2]].getD e [] := by
  refine ⟨?_, 0, by simp, by simp, 0, by simp⟩
  have hk : kept [0, 1, 2] [1, 2] (fun e => if e = 2 then (0.6 : ℝ) else 0.5) 0.5 = [0, 2] := by
    rw [kept_eq]
    have h1 : decide ((0.5 : ℝ) < 0.6) = true := by norm_num
    simp [List.filter, h1]
  unfold exportSubmesh
  rw [hk]
  rfl

end
end Verif.Submesh
