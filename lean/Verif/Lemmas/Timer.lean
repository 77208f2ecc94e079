import Mathlib.Algebra.Order.BigOperators.Group.List
import Mathlib.Tactic.Linarith
import Verif.Model.Timer
import Verif.Lemmas.History

namespace Verif.Timer

open Snapshot (Name)
open History (dset dget dset_new dget_of_mem dget_none dset_keys dset_nodup mem_dset)

noncomputable section

/-- Programs without `add` and `reset`. -/
def Plain : Prog → Prop
  | .skip | .fail => True
  | .seq p q | .attempt p q => Plain p ∧ Plain q
  | .sect _ b => Plain b
  | .add _ _ | .reset _ => False

/-- The log of a program entered with the sections `o` open and `n` clock readings done: path and duration of every section in
the order of leaving, the readings done, and whether an exception propagates. -/
def log (clock : ℕ → ℝ) : List Name → ℕ → Prog → List (List Name × ℝ) × ℕ × Bool
  | _, n, .skip => ([], n, false)
  | _, n, .fail => ([], n, true)
  | o, n, .seq p q =>
    let a := log clock o n p
    if a.2.2 then a else
      let b := log clock o a.2.1 q
      (a.1 ++ b.1, b.2)
  | o, n, .attempt p q =>
    let a := log clock o n p
    if a.2.2 then
      let b := log clock o a.2.1 q
      (a.1 ++ b.1, b.2)
    else a
  | o, n, .sect m b =>
    let a := log clock (o ++ [m]) (n + 1) b
    (a.1 ++ [(o ++ [m], clock a.2.1 - clock n)], a.2.1 + 1, a.2.2)
  | _, n, .add _ _ => ([], n, false)
  | _, n, .reset _ => ([], n, false)

/-- The recorded name of a path. -/
def Cfg.pathName (C : Cfg) (π : List Name) : Name :=
  if C.hierarchical then [C.sep].intercalate π else π.getLast?.getD []

theorem fullName_eq (C : Cfg) (o : List Name) (m : Name) : C.fullName o m = C.pathName (o ++ [m]) := by
  unfold Cfg.fullName Cfg.pathName
  cases C.hierarchical
  · simp
  · cases o
    · simp [List.intercalate]
    · simp

/-- Adding a log to the records. -/
def addLog (C : Cfg) (d : List (Name × List ℝ)) (L : List (List Name × ℝ)) : List (Name × List ℝ) :=
  L.foldl (fun d x => appendRec d (C.pathName x.1) x.2) d

theorem run_log (C : Cfg) (p : Prog) (hp : Plain p) (s : St) :
    run C p s = (⟨s.stack, addLog C s.records (log C.clock s.stack s.reads p).1, (log C.clock s.stack s.reads p).2.1⟩,
      (log C.clock s.stack s.reads p).2.2) := by
  induction p generalizing s with
  | skip => rfl
  | fail => rfl
  | seq p q ihp ihq =>
    simp only [run, log, ihp hp.1 s]
    split_ifs with h
    · simp [h]
    · rw [ihq hp.2]
      simp [addLog, List.foldl_append]
  | attempt p q ihp ihq =>
    simp only [run, log, ihp hp.1 s]
    split_ifs with h
    · rw [ihq hp.2]
      simp [addLog, List.foldl_append]
    · simp [h]
  | sect m b ih =>
    simp only [run, log]
    rw [ih hp]
    simp [addLog, List.foldl_append, fullName_eq]
  | add _ _ => exact hp.elim
  | reset _ => exact hp.elim

/-! ### Sums over dictionaries and logs -/

open Classical in
/-- The sum of the logged durations whose path satisfies `P`. -/
def wsum (L : List (List Name × ℝ)) (P : List Name → Prop) : ℝ := (L.map fun x => if P x.1 then x.2 else 0).sum

theorem wsum_append (L M : List (List Name × ℝ)) (P : List Name → Prop) : wsum (L ++ M) P = wsum L P + wsum M P := by
  simp [wsum]

theorem wsum_nil (P : List Name → Prop) : wsum [] P = 0 := by simp [wsum]

theorem wsum_single (π : List Name) (d : ℝ) (P : List Name → Prop) [Decidable (P π)] :
    wsum [(π, d)] P = if P π then d else 0 := by
  simp only [wsum, List.map_cons, List.map_nil, List.sum_cons, List.sum_nil, add_zero]

theorem wsum_congr {L : List (List Name × ℝ)} {P Q : List Name → Prop} (h : ∀ x ∈ L, P x.1 ↔ Q x.1) :
    wsum L P = wsum L Q := by
  unfold wsum
  congr 1
  apply List.map_congr_left
  intro x hx
  by_cases hP : P x.1
  · rw [if_pos hP, if_pos ((h x hx).1 hP)]
  · rw [if_neg hP, if_neg (fun hQ => hP ((h x hx).2 hQ))]

theorem wsum_zero {L : List (List Name × ℝ)} {P : List Name → Prop} (h : ∀ x ∈ L, ¬ P x.1) : wsum L P = 0 := by
  unfold wsum
  apply List.sum_eq_zero
  intro y hy
  obtain ⟨x, hx, rfl⟩ := List.mem_map.1 hy
  rw [if_neg (h x hx)]

open Classical in
/-- The sum of all records under names satisfying `P`. -/
def dsum (d : List (Name × List ℝ)) (P : Name → Prop) : ℝ := (d.map fun x => if P x.1 then x.2.sum else 0).sum

theorem dsum_appendRec (d : List (Name × List ℝ)) (hd : (d.map Prod.fst).Nodup) (k : Name) (x : ℝ) (P : Name → Prop)
    [Decidable (P k)] : dsum (appendRec d k x) P = dsum d P + if P k then x else 0 := by
  unfold appendRec
  by_cases hk : k ∈ d.map Prod.fst
  · obtain ⟨y, hy, hyk⟩ := List.mem_map.1 hk
    have hg : dget d k = some y.2 := by rw [← hyk]; exact dget_of_mem hd hy
    rw [hg]
    unfold dset
    rw [if_pos (List.any_eq_true.2 ⟨y, hy, by simpa using hyk⟩)]
    clear hg hk
    unfold dsum
    simp only [Option.getD_some]
    induction d with
    | nil => simp at hy
    | cons z d ih =>
      rw [List.map_cons, List.nodup_cons] at hd
      simp only [List.map_cons, List.sum_cons]
      rcases List.mem_cons.1 hy with rfl | hy
      · have hrest : d.map (fun x_1 => if x_1.1 = k then (k, y.2 ++ [x]) else x_1) = d := by
          conv_rhs => rw [← List.map_id d]
          apply List.map_congr_left
          intro z hz
          rw [if_neg]; rfl
          intro hzk
          exact hd.1 (List.mem_map.2 ⟨z, hz, by rw [hzk, hyk]⟩)
        rw [hrest, if_pos hyk]
        by_cases hP : P k
        · simp only [hyk, if_pos hP, List.sum_append, List.sum_cons, List.sum_nil]; ring
        · simp only [hyk, if_neg hP]; ring
      · have hzk : z.1 ≠ k := by
          intro hzk
          exact hd.1 (List.mem_map.2 ⟨y, hy, by rw [hyk, hzk]⟩)
        rw [if_neg hzk, ih hd.2 hy, add_assoc]
  · rw [dget_none hk, dset_new hk]
    simp only [dsum, Option.getD_none, List.nil_append, List.map_append, List.map_cons, List.map_nil, List.sum_append,
      List.sum_cons, List.sum_nil, add_zero]
    congr 1
    split_ifs <;> rfl

theorem appendRec_nodup {d : List (Name × List ℝ)} (hd : (d.map Prod.fst).Nodup) (k : Name) (x : ℝ) :
    ((appendRec d k x).map Prod.fst).Nodup := dset_nodup hd

theorem addLog_nodup (C : Cfg) (L : List (List Name × ℝ)) (d : List (Name × List ℝ)) (hd : (d.map Prod.fst).Nodup) :
    ((addLog C d L).map Prod.fst).Nodup := by
  induction L generalizing d with
  | nil => exact hd
  | cons x L ih => exact ih _ (appendRec_nodup hd _ _)

theorem dsum_addLog (C : Cfg) (L : List (List Name × ℝ)) (d : List (Name × List ℝ)) (hd : (d.map Prod.fst).Nodup)
    (P : Name → Prop) : dsum (addLog C d L) P = dsum d P + wsum L fun π => P (C.pathName π) := by
  classical
  induction L generalizing d with
  | nil => simp [addLog, wsum]
  | cons x L ih =>
    show dsum (addLog C (appendRec d (C.pathName x.1) x.2) L) P = _
    rw [ih _ (appendRec_nodup hd _ _), dsum_appendRec d hd]
    have : wsum (x :: L) (fun π => P (C.pathName π)) =
        (if P (C.pathName x.1) then x.2 else 0) + wsum L fun π => P (C.pathName π) := by
      simp [wsum]
    rw [this, add_assoc]

/-! ### Nested durations -/

/-- Direct children of a path. -/
def kids (L : List (List Name × ℝ)) (π : List Name) : ℝ := wsum L fun ρ => ρ.dropLast = π
def own (L : List (List Name × ℝ)) (π : List Name) : ℝ := wsum L fun ρ => ρ = π

theorem dropLast_ext {o t : List Name} (h : t ≠ []) : (o ++ t).dropLast = o ++ t.dropLast := List.dropLast_append_of_ne_nil h

/-- What holds of every log. -/
structure Good (clock : ℕ → ℝ) (o : List Name) (n : ℕ) (r : List (List Name × ℝ) × ℕ × Bool) : Prop where
  le : n ≤ r.2.1
  ext : ∀ x ∈ r.1, ∃ t, t ≠ [] ∧ x.1 = o ++ t
  nonneg : ∀ x ∈ r.1, 0 ≤ x.2
  top : kids r.1 o ≤ clock r.2.1 - clock n
  nest : ∀ π, π ≠ o → kids r.1 π ≤ own r.1 π
  parent : ∀ x ∈ r.1, x.1.dropLast = o ∨ ∃ y ∈ r.1, y.1 = x.1.dropLast

theorem good_append {clock : ℕ → ℝ} {o : List Name} {n : ℕ}
    {a b : List (List Name × ℝ) × ℕ × Bool} (ha : Good clock o n a) (hb : Good clock o a.2.1 b) :
    Good clock o n (a.1 ++ b.1, b.2) where
  le := ha.le.trans hb.le
  ext := fun x hx => (List.mem_append.1 hx).elim (ha.ext x) (hb.ext x)
  nonneg := fun x hx => (List.mem_append.1 hx).elim (ha.nonneg x) (hb.nonneg x)
  top := by
    have h1 := ha.top; have h2 := hb.top
    simp only [kids, wsum_append] at *
    linarith
  nest := fun π hπ => by
    have h1 := ha.nest π hπ; have h2 := hb.nest π hπ
    simp only [kids, own, wsum_append] at *
    linarith
  parent := fun x hx => by
    rcases List.mem_append.1 hx with hx | hx
    · exact (ha.parent x hx).imp id fun ⟨y, hy, h⟩ => ⟨y, List.mem_append_left _ hy, h⟩
    · exact (hb.parent x hx).imp id fun ⟨y, hy, h⟩ => ⟨y, List.mem_append_right _ hy, h⟩

theorem good_nil {clock : ℕ → ℝ} (o : List Name) (n : ℕ) (b : Bool) : Good clock o n ([], n, b) where
  le := le_refl _
  ext := by simp
  nonneg := by simp
  top := by simp [kids, wsum_nil]
  nest := by simp [kids, own, wsum_nil]
  parent := by simp

theorem log_good {clock : ℕ → ℝ} (hc : Monotone clock) (p : Prog) (o : List Name) (n : ℕ) :
    Good clock o n (log clock o n p) := by
  classical
  induction p generalizing o n with
  | skip => exact good_nil _ _ _
  | fail => exact good_nil _ _ _
  | add => exact good_nil _ _ _
  | reset => exact good_nil _ _ _
  | seq p q ihp ihq =>
    simp only [log]
    split_ifs
    · exact ihp o n
    · exact good_append (ihp o n) (ihq o _)
  | attempt p q ihp ihq =>
    simp only [log]
    split_ifs
    · exact good_append (ihp o n) (ihq o _)
    · exact ihp o n
  | sect m b ih =>
    have g := ih (o ++ [m]) (n + 1)
    simp only [log]
    set a := log clock (o ++ [m]) (n + 1) b
    have hle : n ≤ a.2.1 := (Nat.le_succ n).trans g.le
    have hdl : (o ++ [m]).dropLast = o := by simp
    have hkid0 : wsum a.1 (fun ρ => ρ.dropLast = o) = 0 := by
      apply wsum_zero
      intro x hx hx'
      obtain ⟨t, ht, hxt⟩ := g.ext x hx
      rw [hxt, dropLast_ext ht] at hx'
      have := congrArg List.length hx'
      simp at this
    have hown0 : wsum a.1 (fun ρ => ρ = o ++ [m]) = 0 := by
      apply wsum_zero
      intro x hx hx'
      obtain ⟨t, ht, hxt⟩ := g.ext x hx
      rw [hxt] at hx'
      exact ht (by simpa using hx')
    have hmono : clock n ≤ clock a.2.1 := hc hle
    constructor
    · exact hle.trans (Nat.le_succ _)
    · intro x hx
      rcases List.mem_append.1 hx with hx | hx
      · obtain ⟨t, ht, hxt⟩ := g.ext x hx
        exact ⟨m :: t, by simp, by rw [hxt]; simp⟩
      · rw [List.mem_singleton.1 hx]; exact ⟨[m], by simp, rfl⟩
    · intro x hx
      rcases List.mem_append.1 hx with hx | hx
      · exact g.nonneg x hx
      · rw [List.mem_singleton.1 hx]; exact sub_nonneg.2 hmono
    · simp only [kids, wsum_append, wsum_single, hkid0, hdl, if_true, zero_add]
      have : clock a.2.1 ≤ clock (a.2.1 + 1) := hc (Nat.le_succ _)
      linarith
    · intro π hπ
      simp only [kids, own, wsum_append, wsum_single, hdl]
      rw [if_neg (Ne.symm hπ)]
      by_cases hm : π = o ++ [m]
      · subst hm
        rw [hown0, if_pos rfl]
        have h1 := g.top
        have h2 : clock n ≤ clock (n + 1) := hc (Nat.le_succ _)
        simp only [kids] at h1
        linarith
      · rw [if_neg (Ne.symm hm)]
        have := g.nest π hm
        simp only [kids, own] at this
        linarith
    · intro x hx
      rcases List.mem_append.1 hx with hx | hx
      · right
        rcases g.parent x hx with h | ⟨y, hy, h⟩
        · exact ⟨(o ++ [m], _), List.mem_append_right _ (List.mem_singleton.2 rfl), h.symm⟩
        · exact ⟨y, List.mem_append_left _ hy, h⟩
      · left; rw [List.mem_singleton.1 hx]; exact hdl

/-- The section names of a program. -/
def names : Prog → List Name
  | .seq p q | .attempt p q => names p ++ names q
  | .sect m b => m :: names b
  | _ => []

theorem log_names (clock : ℕ → ℝ) (p : Prog) (o : List Name) (n : ℕ) :
    ∀ x ∈ (log clock o n p).1, ∀ m ∈ x.1, m ∈ o ∨ m ∈ names p := by
  induction p generalizing o n with
  | skip => simp [log]
  | fail => simp [log]
  | add => simp [log]
  | reset => simp [log]
  | seq p q ihp ihq =>
    intro x hx m hm
    simp only [log] at hx
    simp only [names, List.mem_append]
    split_ifs at hx
    · have := ihp o n x hx m hm; tauto
    · rcases List.mem_append.1 hx with hx | hx
      · have := ihp o n x hx m hm; tauto
      · have := ihq o _ x hx m hm; tauto
  | attempt p q ihp ihq =>
    intro x hx m hm
    simp only [log] at hx
    simp only [names, List.mem_append]
    split_ifs at hx
    · rcases List.mem_append.1 hx with hx | hx
      · have := ihp o n x hx m hm; tauto
      · have := ihq o _ x hx m hm; tauto
    · have := ihp o n x hx m hm; tauto
  | sect k b ih =>
    intro x hx m hm
    simp only [log] at hx
    simp only [names, List.mem_cons]
    rcases List.mem_append.1 hx with hx | hx
    · have := ih _ _ x hx m hm
      simp only [List.mem_append, List.mem_singleton] at this
      tauto
    · rw [List.mem_singleton.1 hx] at hm
      simp only [List.mem_append, List.mem_singleton] at hm
      tauto

end
end Verif.Timer
