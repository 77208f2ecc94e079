import Verif.Model.Snapshot
import Mathlib.Tactic

namespace Verif.Snapshot

theorem zfill6_value (k : ℕ) : Nat.ofDigitChars 10 (zfill6 k) 0 = k := by
  simp [zfill6, Nat.ofDigitChars_append, Nat.ofDigitChars_replicate_zero,
    Nat.ofDigitChars_ten_toDigits]

theorem toDigits_length_le {k : ℕ} (h : k < 10 ^ 6) : (Nat.toDigits 10 k).length ≤ 6 := by
  exact (Nat.length_toDigits_le_iff (by norm_num) (by norm_num)).2 h

theorem zfill6_length {k : ℕ} (h : k < 10 ^ 6) : (zfill6 k).length = 6 := by
  have := toDigits_length_le h
  simp [zfill6]; omega

theorem zfill6_digits (k : ℕ) : (zfill6 k).all Char.isDigit := by
  simp only [zfill6, List.all_append, Bool.and_eq_true, List.all_eq_true]
  refine ⟨fun c hc => ?_, fun c hc => Nat.isDigit_of_mem_toDigits (by norm_num) (by norm_num) hc⟩
  rw [List.eq_of_mem_replicate hc]; decide

theorem snapshotName_injective : Function.Injective snapshotName := by
  intro a b h
  have := List.append_cancel_right h
  rw [← zfill6_value a, ← zfill6_value b, this]

theorem matchName_snapshotName {k : ℕ} (h : k < 10 ^ 6) : matchName (snapshotName k) = some k := by
  have hl := zfill6_length h
  have ht : (snapshotName k).take 6 = zfill6 k := by
    simp [snapshotName, hl]
  have hd : (snapshotName k).drop 6 = suffix := by
    simp [snapshotName, hl]
  unfold matchName
  rw [ht, hd, if_pos ⟨hl, zfill6_digits k, List.prefix_refl _⟩, zfill6_value]

theorem matchName_snapshotName_big {k : ℕ} (h : 10 ^ 6 ≤ k) : matchName (snapshotName k) = none := by
  unfold matchName
  rw [if_neg]
  rintro ⟨-, -, hp⟩
  have hlen : 6 < (Nat.toDigits 10 k).length := by
    by_contra hc
    have := (Nat.length_toDigits_le_iff (b := 10) (k := 6) (n := k) (by norm_num) (by norm_num)).1 (by omega)
    omega
  have hz : zfill6 k = Nat.toDigits 10 k := by
    have : 6 - (Nat.toDigits 10 k).length = 0 := by omega
    simp [zfill6, this]
  have hdrop : (snapshotName k).drop 6 = (Nat.toDigits 10 k).drop 6 ++ suffix := by
    rw [snapshotName, hz, List.drop_append_of_le_length (by omega)]
  rw [hdrop] at hp
  cases hq : (Nat.toDigits 10 k).drop 6 with
  | nil =>
    have := congrArg List.length hq
    simp at this; omega
  | cons c cs =>
    rw [hq] at hp
    have hc : c.isDigit := by
      refine Nat.isDigit_of_mem_toDigits (b := 10) (n := k) (by norm_num) (by norm_num) ?_
      exact List.mem_of_mem_drop (by rw [hq]; simp : c ∈ (Nat.toDigits 10 k).drop 6)
    simp only [suffix, List.cons_append, List.cons_prefix_cons] at hp
    rw [← hp.1] at hc
    exact absurd hc (by decide)

/-- Invariant of the fold. -/
theorem foldl_latest (dir : List Name) : ∀ acc : ℤ × Option Name,
    let r := dir.foldl latestStep acc
    (acc.1 ≤ r.1) ∧ (∀ n ∈ dir, ∀ k, matchName n = some k → (k : ℤ) ≤ r.1) ∧
    (r = acc ∨ ∃ n ∈ dir, ∃ k, matchName n = some k ∧ r = ((k : ℤ), some n) ∧ acc.1 < (k : ℤ)) := by
  induction dir with
  | nil => intro acc; simp
  | cons a l ih =>
    intro acc
    obtain ⟨h1, h2, h3⟩ := ih (latestStep acc a)
    simp only [List.foldl_cons]
    have hmono : acc.1 ≤ (latestStep acc a).1 := by
      unfold latestStep; split
      · split <;> simp_all; omega
      · exact le_refl _
    refine ⟨hmono.trans h1, ?_, ?_⟩
    · intro n hn k hk
      rcases List.mem_cons.1 hn with rfl | hn
      · refine le_trans ?_ h1
        unfold latestStep; rw [hk]; simp only
        split <;> simp_all
      · exact h2 n hn k hk
    · rcases h3 with h3 | ⟨n, hn, k, hk, hr, hlt⟩
      · rw [h3]
        unfold latestStep
        cases hm : matchName a with
        | none => simp
        | some k =>
          simp only
          by_cases hlt : acc.1 < (k : ℤ)
          · rw [if_pos hlt]; exact Or.inr ⟨a, by simp, k, hm, rfl, hlt⟩
          · rw [if_neg hlt]; exact Or.inl rfl
      · exact Or.inr ⟨n, by simp [hn], k, hk, hr, by omega⟩

theorem load_save_self {C : Type} (files : List (Name × C)) (n : Name) (c : C) :
    load (save files n c) n = some c := by simp [load, save]

theorem load_save_ne {C : Type} (files : List (Name × C)) {m n : Name} (c : C) (h : m ≠ n) :
    load (save files n c) m = load files m := by
  simp only [load, save]
  rw [List.find?_cons_of_neg (by simpa using h.symm)]
  congr 1
  rw [List.find?_filter]
  congr 1
  funext f
  by_cases hf : f.1 = m
  · simp [hf, h]
  · simp [hf]

end Verif.Snapshot
