import Verif.Model.Parallel
import Verif.Props.Geometry
import Mathlib.Logic.Function.Basic

/-! C141: the parallel loops give the same result under every schedule. -/
namespace Verif.Parallel
open Verif.Geometry

variable {A V : Type} [DecidableEq A]

/-- What a program does when it runs alone. -/
def alone : Prog A V → (A → V) → (A → V)
  | .done, m => m
  | .load a next, m => alone (next (m a)) m
  | .store a v next, m => alone next (Function.update m a v)

/-- A program touches only the cells of `S`. -/
inductive Owns (S : Set A) : Prog A V → Prop
  | done : Owns S .done
  | load (a next) (ha : a ∈ S) (h : ∀ v, Owns S (next v)) : Owns S (.load a next)
  | store (a v next) (ha : a ∈ S) (h : Owns S next) : Owns S (.store a v next)

/-- A program finishes within `k` actions. -/
inductive Within : ℕ → Prog A V → Prop
  | done (k) : Within k .done
  | load (k a next) (h : ∀ v, Within k (next v)) : Within (k + 1) (.load a next)
  | store (k a v next) (h : Within k next) : Within (k + 1) (.store a v next)

theorem alone_congr {S : Set A} {q : Prog A V} (h : Owns S q) :
    ∀ m m' : A → V, (∀ a ∈ S, m a = m' a) → ∀ a ∈ S, alone q m a = alone q m' a := by
  induction h with
  | done => intro m m' hm a ha; exact hm a ha
  | load a next ha h ih =>
    intro m m' hm b hb
    simp only [alone]
    rw [hm a ha]
    exact ih _ m m' hm b hb
  | store a v next ha h ih =>
    intro m m' hm b hb
    simp only [alone]
    refine ih _ _ (fun c hc => ?_) b hb
    by_cases hca : c = a
    · subst hca; simp
    · rw [Function.update_of_ne hca, Function.update_of_ne hca]; exact hm c hc

theorem alone_outside {S : Set A} {q : Prog A V} (h : Owns S q) :
    ∀ m : A → V, ∀ a, a ∉ S → alone q m a = m a := by
  induction h with
  | done => intro m a _; rfl
  | load a next ha h ih => intro m b hb; exact ih _ m b hb
  | store a v next ha h ih =>
    intro m b hb
    simp only [alone]
    rw [ih _ b hb, Function.update_of_ne (by rintro rfl; exact hb ha)]

/-- The invariant of every schedule: what remains to be done would give every iteration's cells their final contents, and cells of no
iteration are untouched. -/
theorem run_invariant (S : ℕ → Set A) (hdis : ∀ i j, i ≠ j → ∀ a, a ∈ S i → a ∉ S j) :
    ∀ (schedule : List ℕ) (s : State A V) (_ : ∀ i, Owns (S i) (s.todo i)),
      (∀ i, Owns (S i) ((run s schedule).todo i)) ∧
      (∀ i, ∀ a ∈ S i, alone ((run s schedule).todo i) (run s schedule).mem a = alone (s.todo i) s.mem a) ∧
      ∀ a, (∀ i, a ∉ S i) → (run s schedule).mem a = s.mem a := by
  intro schedule
  induction schedule with
  | nil => intro s hs; exact ⟨hs, fun _ _ _ => rfl, fun _ _ => rfl⟩
  | cons i rest ih =>
    intro s hs
    have hstep : (∀ j, Owns (S j) ((step s i).todo j)) ∧
        (∀ j, ∀ a ∈ S j, alone ((step s i).todo j) (step s i).mem a = alone (s.todo j) s.mem a) ∧
        ∀ a, (∀ j, a ∉ S j) → (step s i).mem a = s.mem a := by
      unfold step
      have hi := hs i
      cases htodo : s.todo i with
      | done => exact ⟨hs, fun _ _ _ => rfl, fun _ _ => rfl⟩
      | load a next =>
        rw [htodo] at hi
        cases hi with
        | load _ _ ha hn =>
          refine ⟨fun j => ?_, fun j b hb => ?_, fun _ _ => rfl⟩
          · by_cases hj : j = i
            · subst hj; simp only [Function.update_self]; exact hn _
            · simp only [Function.update_of_ne hj]; exact hs j
          · by_cases hj : j = i
            · subst hj; simp only [Function.update_self]; rw [htodo]; rfl
            · simp only [Function.update_of_ne hj]
      | store a v next =>
        rw [htodo] at hi
        cases hi with
        | store _ _ _ ha hn =>
          refine ⟨fun j => ?_, fun j b hb => ?_, fun b hb => ?_⟩
          · by_cases hj : j = i
            · subst hj; simp only [Function.update_self]; exact hn
            · simp only [Function.update_of_ne hj]; exact hs j
          · by_cases hj : j = i
            · subst hj; simp only [Function.update_self]; rw [htodo]; rfl
            · simp only [Function.update_of_ne hj]
              refine alone_congr (hs j) _ _ (fun c hc => ?_) b hb
              rw [Function.update_of_ne]
              rintro rfl
              exact hdis i j (Ne.symm hj) _ ha hc
          · exact Function.update_of_ne (by rintro rfl; exact hb i ha) _ _
    obtain ⟨r1, r2, r3⟩ := ih (step s i) hstep.1
    refine ⟨r1, fun j a ha => ?_, fun a ha => ?_⟩
    · exact (r2 j a ha).trans (hstep.2.1 j a ha)
    · exact (r3 a ha).trans (hstep.2.2 a ha)

/-- A loop whose iterations touch disjoint cells returns, under every schedule, what the iterations leave when each runs alone. -/
theorem finished_mem (S : ℕ → Set A) (hdis : ∀ i j, i ≠ j → ∀ a, a ∈ S i → a ∉ S j) (s : State A V)
    (hs : ∀ i, Owns (S i) (s.todo i)) (schedule : List ℕ) (hf : (run s schedule).Finished) :
    (∀ i, ∀ a ∈ S i, (run s schedule).mem a = alone (s.todo i) s.mem a) ∧
      ∀ a, (∀ i, a ∉ S i) → (run s schedule).mem a = s.mem a := by
  obtain ⟨-, h2, h3⟩ := run_invariant S hdis schedule s hs
  refine ⟨fun i a ha => ?_, h3⟩
  rw [← h2 i a ha, hf i]
  rfl

/-- Every schedule that gives each iteration enough turns finishes the loop. -/
theorem run_finishes : ∀ (schedule : List ℕ) (s : State A V) (left : ℕ → ℕ) (_ : ∀ e, Within (left e) (s.todo e))
    (_ : ∀ e, left e ≤ schedule.count e), (run s schedule).Finished := by
  intro schedule
  induction schedule with
  | nil =>
    intro s left hw hl e
    have h0 : left e = 0 := by simpa using hl e
    have := hw e
    rw [h0] at this
    show s.todo e = .done
    cases hq : s.todo e with
    | done => rfl
    | load a next => rw [hq] at this; cases this
    | store a v next => rw [hq] at this; cases this
  | cons i rest ih =>
    intro s left hw hl
    refine ih (step s i) (fun e => if e = i then left e - 1 else left e) (fun e => ?_) (fun e => ?_)
    · unfold step
      have hi := hw i
      by_cases he : e = i
      · subst he
        simp only [if_true]
        cases htodo : s.todo e with
        | done => simp only; rw [htodo]; exact .done _
        | load a next =>
          rw [htodo] at hi
          simp only [Function.update_self]
          generalize hL : left e = L at hi ⊢
          cases hi with
          | load k _ _ h => exact h _
        | store a v next =>
          rw [htodo] at hi
          simp only [Function.update_self]
          generalize hL : left e = L at hi ⊢
          cases hi with
          | store k _ _ _ h => exact h
      · rw [if_neg he]
        cases htodo : s.todo i with
        | done => exact hw e
        | load a next => simp only [Function.update_of_ne he]; exact hw e
        | store a v next => simp only [Function.update_of_ne he]; exact hw e
    · have := hl e
      rw [List.count_cons] at this
      by_cases he : e = i
      · subst he; simp at this ⊢; omega
      · simp [he, Ne.symm he] at this ⊢; omega

/-- The cells of column `e`. -/
def column (k : ℕ) (e : ℕ) : Set (Fin k × ℕ) := {a | a.2 = e}

theorem orientBody_owns (p : ℕ → Vec) (e : ℕ) : Owns (column 4 e) (orientBody p e) := by
  refine .load _ _ rfl fun n0 => .load _ _ rfl fun n1 => .load _ _ rfl fun n2 => .load _ _ rfl fun n3 => ?_
  split_ifs
  · exact .load _ _ rfl fun x => .load _ _ rfl fun y => .store _ _ _ rfl (.store _ _ _ rfl .done)
  · exact .done

theorem orientBody_within (p : ℕ → Vec) (e : ℕ) : Within 8 (orientBody p e) := by
  refine .load _ _ _ fun n0 => .load _ _ _ fun n1 => .load _ _ _ fun n2 => .load _ _ _ fun n3 => ?_
  split_ifs
  · exact .load _ _ _ fun x => .load _ _ _ fun y => .store _ _ _ _ (.store _ _ _ _ (.done _))
  · exact .done _

theorem orientBody_alone (p : ℕ → Vec) (ts : List (Fin 4 → ℕ)) (e : ℕ) (t : Fin 4 → ℕ) (ht : ts[e]? = some t) (r : Fin 4) :
    alone (orientBody p e) (cells ts) (r, e) = fixTet p t r := by
  have hc : ∀ k, cells ts (k, e) = t k := by intro k; unfold cells; simp only [ht]
  unfold orientBody fixTet tetVol
  simp only [alone, hc]
  split_ifs with h
  · simp only [alone, hc]
    fin_cases r <;> simp [Function.update, hc]
  · simp only [alone, hc]

/-- **C141 (a)** The parallel orientation repair returns, under every schedule of its iterations that runs them to their end, exactly what
the sequential repair returns (so by C43 positively oriented tetrahedra with the same vertices). -/
theorem C141_orientation_every_schedule (p : ℕ → Vec) (ts : List (Fin 4 → ℕ)) (schedule : List ℕ)
    (hf : (orientParallel p ts schedule).Finished) :
    columns ts.length (orientParallel p ts schedule).mem = fixTets p ts := by
  have hown : ∀ i, Owns (column 4 i) ((prange ts.length (orientBody p) (cells ts)).todo i) := by
    intro i
    simp only [prange]
    split_ifs
    · exact orientBody_owns p i
    · exact .done
  obtain ⟨h1, -⟩ := finished_mem (column 4) (fun i j hij a ha hb => hij (ha.symm.trans hb)) _ hown schedule hf
  unfold columns fixTets
  refine List.ext_getElem (by simp) fun e he _ => ?_
  have he' : e < ts.length := by simpa using he
  rw [List.getElem_map, List.getElem_map, List.getElem_range]
  funext r
  refine (h1 e (r, e) rfl).trans ?_
  simp only [prange, if_pos he']
  exact orientBody_alone p ts e _ (List.getElem?_eq_getElem he') r

/-- **C141 (b)** No schedule can keep the loop from returning: eight turns for every iteration suffice. -/
theorem C141_orientation_finishes (p : ℕ → Vec) (ts : List (Fin 4 → ℕ)) (schedule : List ℕ)
    (h : ∀ e < ts.length, 8 ≤ schedule.count e) : (orientParallel p ts schedule).Finished := by
  refine run_finishes schedule _ (fun e => if e < ts.length then 8 else 0) (fun e => ?_) (fun e => ?_)
  · simp only [prange]
    split_ifs
    · exact orientBody_within p e
    · exact .done _
  · split_ifs with he
    · exact h e he
    · exact Nat.zero_le _

theorem stores_every_schedule (n : ℕ) (value : ℕ → Option V) (hv : ∀ e < n, (value e).isSome) (m : ℕ → V) (schedule : List ℕ)
    (body : ℕ → Prog ℕ V) (hb : ∀ e v, value e = some v → body e = .store e v .done)
    (hf : (run (prange n body m) schedule).Finished) :
    ∀ e < n, value e = some ((run (prange n body m) schedule).mem e) := by
  have hown : ∀ i, Owns {i} ((prange n body m).todo i) := by
    intro i
    simp only [prange]
    split_ifs with hi
    · obtain ⟨v, hv⟩ := Option.isSome_iff_exists.mp (hv i hi)
      rw [hb i v hv]
      exact .store _ _ _ rfl .done
    · exact .done
  obtain ⟨h1, -⟩ := finished_mem (fun i : ℕ => ({i} : Set ℕ)) (fun i j hij a ha hb => hij (ha.symm.trans hb)) _ hown schedule hf
  intro e he
  obtain ⟨v, hv⟩ := Option.isSome_iff_exists.mp (hv e he)
  have := h1 e e rfl
  rw [this]
  simp only [prange, if_pos he, hb e v hv, alone, Function.update_self, hv]

/-- **C141 (c)** The parallel tetrahedron volumes are, under every schedule, the signed volumes; wherever the sequential routine accepts
the mesh both return the same numbers. (An inverted element, which the sequential routine rejects, gets a negative volume.) -/
theorem C141_tet_volumes_every_schedule (p : ℕ → Vec) (ts : List (Fin 4 → ℕ)) (schedule : List ℕ)
    (hf : (tetVolumesParallel p ts schedule).Finished) :
    ((List.range ts.length).map (tetVolumesParallel p ts schedule).mem = ts.map (tetVol p)) ∧
      ∀ vs, volumesTet p ts = .ok vs → (List.range ts.length).map (tetVolumesParallel p ts schedule).mem = vs := by
  have h := stores_every_schedule ts.length (fun e => (ts[e]?).map (tetVol p)) (fun e he => by
      simp [List.getElem?_eq_getElem he]) (fun _ => (0 : ℝ)) schedule _ (fun e v hv => by
      simp only [Option.map_eq_some_iff] at hv
      obtain ⟨t, ht, rfl⟩ := hv
      simp only [ht]) hf
  have h1 : (List.range ts.length).map (tetVolumesParallel p ts schedule).mem = ts.map (tetVol p) := by
    refine List.ext_getElem (by simp) fun e he _ => ?_
    have he' : e < ts.length := by simpa using he
    have := h e he'
    rw [List.getElem?_eq_getElem he', Option.map_some, Option.some.injEq] at this
    simp only [List.getElem_map, List.getElem_range]
    exact this.symm
  refine ⟨h1, fun vs hvs => ?_⟩
  rw [h1]
  clear h1 h hf
  induction ts generalizing vs with
  | nil => simp only [volumesTet, Except.ok.injEq] at hvs; simp [← hvs]
  | cons t ts ih =>
    simp only [volumesTet] at hvs
    split_ifs at hvs
    cases hr : volumesTet p ts with
    | error e => rw [hr] at hvs; simp at hvs
    | ok ws =>
      rw [hr] at hvs
      simp only [Except.ok.injEq] at hvs
      rw [← hvs, List.map_cons, ih ws hr]

/-- **C141 (d)** The parallel hexahedron volumes are, under every schedule, those of the sequential routine (what `get_elements_volume`
returns for a hexahedral mesh). -/
theorem C141_hex_volumes_every_schedule (p : ℕ → Vec) (ts : List (Fin 8 → ℕ)) (schedule : List ℕ)
    (hf : (hexVolumesParallel p ts schedule).Finished) :
    getElementsVolume .hex p [] ts = .ok ((List.range ts.length).map (hexVolumesParallel p ts schedule).mem) := by
  have h := stores_every_schedule ts.length (fun e => (ts[e]?).map fun t => volumeHex fun k => p (t k)) (fun e he => by
      simp [List.getElem?_eq_getElem he]) (fun _ => (0 : ℝ)) schedule _ (fun e v hv => by
      simp only [Option.map_eq_some_iff] at hv
      obtain ⟨t, ht, rfl⟩ := hv
      simp only [ht, volumeHex, zero_add]) hf
  refine congrArg Except.ok ?_
  refine List.ext_getElem (by simp) fun e he _ => ?_
  have he' : e < ts.length := by simpa using he
  have := h e he'
  rw [List.getElem?_eq_getElem he', Option.map_some, Option.some.injEq] at this
  simp only [List.getElem_map, List.getElem_range]
  exact this

/-- **C141 (e)** The volume loops return under every schedule that gives each iteration a turn. -/
theorem C141_volumes_finish (p : ℕ → Vec) (ts : List (Fin 4 → ℕ)) (hs : List (Fin 8 → ℕ)) (schedule : List ℕ) :
    ((∀ e < ts.length, e ∈ schedule) → (tetVolumesParallel p ts schedule).Finished) ∧
    ((∀ e < hs.length, e ∈ schedule) → (hexVolumesParallel p hs schedule).Finished) := by
  constructor
  · intro h
    refine run_finishes schedule _ (fun e => if e < ts.length then 1 else 0) (fun e => ?_) (fun e => ?_)
    · simp only [prange]
      split_ifs
      · split
        · exact .store _ _ _ _ (.done _)
        · exact .done _
      · exact .done _
    · split_ifs with he
      · exact List.count_pos_iff.mpr (h e he)
      · exact Nat.zero_le _
  · intro h
    refine run_finishes schedule _ (fun e => if e < hs.length then 1 else 0) (fun e => ?_) (fun e => ?_)
    · simp only [prange]
      split_ifs
      · split
        · exact .store _ _ _ _ (.done _)
        · exact .done _
      · exact .done _
    · split_ifs with he
      · exact List.count_pos_iff.mpr (h e he)
      · exact Nat.zero_le _

/-- The hypotheses are met by a schedule that interleaves two iterations action by action (and starts in the middle of none): an
inverted and a right tetrahedron. -/
example : let p : ℕ → Vec := fun n => if n = 1 then ![1, 0, 0] else if n = 2 then ![0, 1, 0] else if n = 3 then ![0, 0, 1] else 0
    let ts : List (Fin 4 → ℕ) := [![0, 2, 1, 3], ![0, 1, 2, 3]]
    let schedule := [0, 1, 1, 0, 0, 1, 1, 0, 0, 1, 1, 0, 0, 1, 1, 0]
    (orientParallel p ts schedule).Finished ∧
      columns 2 (orientParallel p ts schedule).mem = [![0, 1, 2, 3], ![0, 1, 2, 3]] := by
  intro p ts schedule
  have hf : (orientParallel p ts schedule).Finished := C141_orientation_finishes p ts schedule (by
    intro e he
    have : e = 0 ∨ e = 1 := by simp [ts] at he; omega
    rcases this with rfl | rfl <;> decide)
  refine ⟨hf, (C141_orientation_every_schedule p ts schedule hf).trans ?_⟩
  have h1 : tetVol p ![0, 2, 1, 3] < 0 := by
    simp [tetVol, signedVol, triple, p]
    norm_num
  have h2 : ¬ tetVol p ![0, 1, 2, 3] < 0 := by
    simp [tetVol, signedVol, triple, p]
  simp only [fixTets, ts, List.map_cons, List.map_nil, fixTet, if_pos h1, if_neg h2]
  congr 1

end Verif.Parallel
