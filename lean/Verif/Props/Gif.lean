import Verif.Model.Gif
import Mathlib.Data.List.Perm.Basic
import Mathlib.Tactic.Linarith
import Mathlib.Tactic.NormNum

/-! C120: the animation shows the pictures of the run in the order of the iterations. -/
namespace Verif.Gif
open Verif.Snapshot (Name)

theorem zfill8_value (k : ℕ) : Nat.ofDigitChars 10 (zfill8 k) 0 = k := by
  simp [zfill8, Nat.ofDigitChars_append, Nat.ofDigitChars_replicate_zero, Nat.ofDigitChars_ten_toDigits]

theorem zfill8_length {k : ℕ} (h : k < 10 ^ 8) : (zfill8 k).length = 8 := by
  have := (Nat.length_toDigits_le_iff (b := 10) (k := 8) (n := k) (by norm_num) (by norm_num)).2 h
  simp [zfill8]; omega

theorem zfill8_digits {k : ℕ} {c : Char} (hc : c ∈ zfill8 k) : c.isDigit = true := by
  simp only [zfill8, List.mem_append] at hc
  rcases hc with hc | hc
  · rw [List.eq_of_mem_replicate hc]; decide
  · exact Nat.isDigit_of_mem_toDigits (by norm_num) (by norm_num) hc

theorem leName_refl (s : Name) : leName s s = true := by
  induction s with
  | nil => rfl
  | cons a s ih => simp [leName, ih]

theorem leName_trans : ∀ a b c : Name, leName a b = true → leName b c = true → leName a c = true
  | [], _, _, _, _ => by simp [leName]
  | _ :: _, [], _, h, _ => by simp [leName] at h
  | _ :: _, _ :: _, [], _, h => by simp [leName] at h
  | a :: s, b :: t, c :: u, h₁, h₂ => by
    simp only [leName] at h₁ h₂ ⊢
    by_cases hab : a.toNat < b.toNat
    · by_cases hbc : b.toNat < c.toNat
      · rw [if_pos (by omega)]
      · rw [if_neg hbc] at h₂
        by_cases e : b.toNat = c.toNat
        · rw [if_pos (by omega)]
        · simp [e] at h₂
    · rw [if_neg hab] at h₁
      by_cases e : a.toNat = b.toNat
      · rw [if_pos e] at h₁
        by_cases hbc : b.toNat < c.toNat
        · rw [if_pos (by omega)]
        · rw [if_neg hbc] at h₂
          by_cases e' : b.toNat = c.toNat
          · rw [if_pos e'] at h₂
            rw [if_neg (by omega), if_pos (by omega)]
            exact leName_trans s t u h₁ h₂
          · simp [e'] at h₂
      · simp [e] at h₁

theorem leName_total : ∀ a b : Name, (leName a b || leName b a) = true
  | [], _ => by simp [leName]
  | _ :: _, [] => by simp [leName]
  | a :: s, b :: t => by
    have ih := leName_total s t
    simp only [leName]
    rcases lt_trichotomy a.toNat b.toNat with h | h | h
    · simp [h]
    · simpa [h] using ih
    · simp [h]

theorem leName_antisymm : ∀ a b : Name, leName a b = true → leName b a = true → a = b
  | [], [], _, _ => rfl
  | [], _ :: _, _, h => by simp [leName] at h
  | _ :: _, [], h, _ => by simp [leName] at h
  | a :: s, b :: t, h₁, h₂ => by
    simp only [leName] at h₁ h₂
    rcases lt_trichotomy a.toNat b.toNat with h | h | h
    · rw [if_neg (by omega), if_neg (by omega)] at h₂; simp at h₂
    · rw [if_neg (by omega), if_pos h] at h₁
      rw [if_neg (by omega), if_pos h.symm] at h₂
      rw [leName_antisymm s t h₁ h₂, Char.toNat_inj.1 h]
    · rw [if_neg (by omega), if_neg (by omega)] at h₁; simp at h₁

theorem leName_append_left (p s t : Name) : leName (p ++ s) (p ++ t) = leName s t := by
  induction p with
  | nil => rfl
  | cons a p ih => simp [leName, ih]

/-- Of two strings of equal length, the one of the smaller digits is the smaller number. -/
theorem value_le : ∀ (s t r : Name), s.length = t.length → (∀ c ∈ s, c.isDigit = true) → (∀ c ∈ t, c.isDigit = true) →
    leName (s ++ r) (t ++ r) = true → Nat.ofDigitChars 10 s 0 ≤ Nat.ofDigitChars 10 t 0
  | [], [], _, _, _, _, _ => le_rfl
  | [], _ :: _, _, h, _, _, _ => by simp at h
  | _ :: _, [], _, h, _, _, _ => by simp at h
  | a :: s, b :: t, r, hl, hs, ht, h => by
    have hl' : s.length = t.length := by simpa using hl
    have bound : ∀ u : Name, (∀ c ∈ u, c.isDigit = true) → Nat.ofDigitChars 10 u 0 < 10 ^ u.length := by
      intro u
      induction u with
      | nil => intro _; simp
      | cons c u ih =>
        intro hu
        rw [Nat.ofDigitChars_cons, Nat.ofDigitChars_eq_ofDigitChars_zero]
        have h1 := ih (fun x hx => hu x (List.mem_cons_of_mem _ hx))
        have h2 := hu c (by simp)
        simp only [Char.isDigit, Bool.and_eq_true, decide_eq_true_eq] at h2
        have h3 : c.toNat - '0'.toNat ≤ 9 := by
          have : c.toNat ≤ 57 := h2.2
          have e : '0'.toNat = 48 := rfl
          omega
        simp only [List.length_cons, pow_succ]
        nlinarith [Nat.mul_le_mul_left (10 ^ u.length) h3]
    have h0 : ∀ c : Char, c.isDigit = true → 48 ≤ c.toNat := by
      intro c hc
      simp only [Char.isDigit, Bool.and_eq_true, decide_eq_true_eq] at hc
      exact hc.1
    have e : '0'.toNat = 48 := rfl
    rw [Nat.ofDigitChars_cons, Nat.ofDigitChars_cons, Nat.ofDigitChars_eq_ofDigitChars_zero,
      Nat.ofDigitChars_eq_ofDigitChars_zero (l := t), hl']
    have bs := bound s (fun x hx => hs x (List.mem_cons_of_mem _ hx))
    have ha := h0 a (hs a (by simp))
    have hb := h0 b (ht b (by simp))
    simp only [List.cons_append, leName] at h
    rcases lt_trichotomy a.toNat b.toNat with hab | hab | hab
    · have : a.toNat - '0'.toNat + 1 ≤ b.toNat - '0'.toNat := by omega
      have := Nat.mul_le_mul_left (10 ^ t.length) this
      rw [hl'] at bs
      simp only [mul_zero, zero_add]
      nlinarith
    · rw [if_neg (by omega), if_pos hab] at h
      have := value_le s t r hl' (fun x hx => hs x (List.mem_cons_of_mem _ hx))
        (fun x hx => ht x (List.mem_cons_of_mem _ hx)) h
      rw [hab]; omega
    · rw [if_neg (by omega), if_neg (by omega)] at h; simp at h

theorem imageName_eq (pre : Name) (k : ℕ) :
    imageName pre k = ("info_".toList ++ pre ++ ['-']) ++ (zfill8 k ++ ".jpg".toList) := by
  unfold imageName
  rw [List.append_assoc (_ ++ _)]

theorem imageName_injective (pre : Name) : Function.Injective (imageName pre) := by
  intro a b h
  rw [imageName_eq, imageName_eq] at h
  have h1 := List.append_cancel_right (List.append_cancel_left h)
  rw [← zfill8_value a, ← zfill8_value b, h1]

theorem leName_of_le {pre : Name} {a b : ℕ} (ha : a < 10 ^ 8) (hb : b < 10 ^ 8) (h : a ≤ b) :
    leName (imageName pre a) (imageName pre b) = true := by
  rcases Nat.lt_or_eq_of_le h with h | h
  · by_contra hc
    have ht := leName_total (imageName pre a) (imageName pre b)
    rw [Bool.or_eq_true] at ht
    have h2 := ht.resolve_left hc
    rw [imageName_eq, imageName_eq, leName_append_left] at h2
    have := value_le (zfill8 b) (zfill8 a) _ (by rw [zfill8_length ha, zfill8_length hb])
      (fun _ hx => zfill8_digits hx) (fun _ hx => zfill8_digits hx) h2
    rw [zfill8_value, zfill8_value] at this
    omega
  · subst h; exact leName_refl _

theorem stride_get? {α : Type} (n : ℕ) : ∀ (l : List α) (i : ℕ), (stride n l)[i]? = l[i * (n + 1)]?
  | [], i => by simp [stride]
  | x :: l, 0 => by simp [stride]
  | x :: l, i + 1 => by
    rw [stride, List.getElem?_cons_succ, stride_get? n (l.drop n) i, List.getElem?_drop]
    have : (i + 1) * (n + 1) = (n + i * (n + 1)) + 1 := by
      rw [Nat.add_mul]; omega
    rw [this, List.getElem?_cons_succ]
  termination_by l => l.length
  decreasing_by simp; omega

theorem C120_matching (pre : Name) (k : ℕ) : globMatch pre (imageName pre k) = true := by
  simp only [globMatch, Bool.and_eq_true]
  rw [imageName_eq, List.drop_left]
  exact ⟨List.isPrefixOf_iff_prefix.2 (List.prefix_append _ _), List.isSuffixOf_iff_suffix.2 (List.suffix_append _ _)⟩

/-- C120: let the pictures with a prefix in the directory (each name once, listed in any order) be those of the iterations
`S`, in increasing order. Then nothing is written iff there are none, and otherwise frame `i` of the animation is the picture of
iteration number `i * (skip + 1)` of `S` (no skipping for a `skip_frame` that is not positive). -/
theorem C120_frames_in_order (dir : List Name) (pre : Name) (skip : ℤ) (S : List ℕ) (hd : dir.Nodup)
    (hS : S.Pairwise (· < ·)) (hb : ∀ k ∈ S, k < 10 ^ 8)
    (hm : ∀ n ∈ dir, globMatch pre n = true ↔ ∃ k ∈ S, n = imageName pre k) (hk : ∀ k ∈ S, imageName pre k ∈ dir) :
    (frames dir pre skip = none ↔ S = []) ∧
      ∀ L, frames dir pre skip = some L → ∀ i, L[i]? = (S[i * (skip.toNat + 1)]?).map (imageName pre) := by
  have hp : (dir.filter (globMatch pre)).Perm (S.map (imageName pre)) := by
    rw [List.perm_ext_iff_of_nodup (hd.filter _) (List.Nodup.map (imageName_injective pre) (hS.imp (fun h => Nat.ne_of_lt h)))]
    intro n
    simp only [List.mem_filter, List.mem_map]
    constructor
    · rintro ⟨h1, h2⟩
      obtain ⟨k, hk1, hk2⟩ := (hm n h1).1 h2
      exact ⟨k, hk1, hk2.symm⟩
    · rintro ⟨k, hk1, rfl⟩
      exact ⟨hk k hk1, C120_matching pre k⟩
  have hsort : (dir.filter (globMatch pre)).mergeSort leName = S.map (imageName pre) := by
    refine List.Perm.eq_of_pairwise (le := fun a b => leName a b = true) (fun a b _ _ => leName_antisymm a b)
      (List.pairwise_mergeSort leName_trans leName_total _) ?_ ((List.mergeSort_perm _ _).trans hp)
    rw [List.pairwise_map]
    exact hS.imp_of_mem (fun ha hb' hab => leName_of_le (hb _ ha) (hb _ hb') hab.le)
  simp only [frames, hsort, List.length_map, List.length_eq_zero_iff]
  constructor
  · split_ifs with h <;> simp [h]
  · intro L hL i
    split_ifs at hL with h h2
    · cases hL
      rw [stride_get?, List.getElem?_map]
    · cases hL
      rw [show skip.toNat = 0 by omega]
      simp

/-- The names of two different kinds of pictures never match the same pattern: a run writes `rho_projected` and `energy`. -/
theorem C120_kinds_apart (k : ℕ) : globMatch "rho_projected".toList (imageName "energy".toList k) = false ∧
    globMatch "energy".toList (imageName "rho_projected".toList k) = false := by
  have e1 : "info_".toList = ['i', 'n', 'f', 'o', '_'] := by decide
  have e2 : "energy".toList = ['e', 'n', 'e', 'r', 'g', 'y'] := by decide
  have e3 : "rho_projected".toList = ['r', 'h', 'o', '_', 'p', 'r', 'o', 'j', 'e', 'c', 't', 'e', 'd'] := by decide
  constructor <;>
  · simp only [globMatch, Bool.and_eq_false_iff]
    left
    rw [imageName_eq, e1, e2, e3]
    simp only [List.cons_append, List.nil_append, List.isPrefixOf]
    rfl

/-- The files written in iteration `k`, meshes and pictures, carry the number `k` in at least eight decimal digits, so the files of
different iterations never overwrite each other. -/
theorem C120_files_carry_iteration (k : ℕ) :
    (∃ ds : Name, vtuName k = "info_mesh-".toList ++ ds ++ ".vtu".toList ∧ 8 ≤ ds.length ∧ (∀ c ∈ ds, c.isDigit = true) ∧
      Nat.ofDigitChars 10 ds 0 = k) ∧
    (∀ pre, ∃ ds : Name, imageName pre k = "info_".toList ++ pre ++ "-".toList ++ ds ++ ".jpg".toList ∧ 8 ≤ ds.length ∧
      (∀ c ∈ ds, c.isDigit = true) ∧ Nat.ofDigitChars 10 ds 0 = k) ∧
    ∀ k', (vtuName k = vtuName k' → k = k') ∧ ∀ pre, imageName pre k = imageName pre k' → k = k' := by
  have hl : 8 ≤ (zfill8 k).length := by
    simp only [zfill8, List.length_append, List.length_replicate]; omega
  refine ⟨⟨zfill8 k, rfl, hl, fun _ h => zfill8_digits h, zfill8_value k⟩,
    fun pre => ⟨zfill8 k, rfl, hl, fun _ h => zfill8_digits h, zfill8_value k⟩,
    fun k' => ⟨fun h => ?_, fun pre h => imageName_injective pre h⟩⟩
  unfold vtuName at h
  have h1 := List.append_cancel_left (List.append_cancel_right h)
  rw [← zfill8_value k, ← zfill8_value k', h1]

/-- The mesh files of the same directory are never frames. -/
theorem C120_mesh_files_no_frames (pre : Name) (k : ℕ) : globMatch pre (vtuName k) = false := by
  simp only [globMatch, Bool.and_eq_false_iff]
  right
  rw [Bool.eq_false_iff]
  intro h
  have h1 := (List.isSuffixOf_iff_suffix.1 h).trans (List.drop_suffix _ _)
  have h2 : ".vtu".toList <:+ vtuName k := List.suffix_append _ _
  have := List.IsSuffix.eq_of_length (List.suffix_of_suffix_length_le h1 h2 (by decide)) (by decide)
  exact absurd this (by decide)

/-- The limit of `C120_frames_in_order` cannot be dropped: from iteration 100000000 on the pictures are out of order. -/
theorem C120_limit_sharp : leName (imageName "energy".toList (10 ^ 8)) (imageName "energy".toList (10 ^ 8 - 1)) = true := by
  decide +kernel

/-- The hypotheses of `C120_frames_in_order` are met: three pictures among other files, out of order; with `skip_frame = 1` the
first and the third are shown. -/
example : let p := "energy".toList
    let dir := [imageName p 10, vtuName 9, imageName p 9, imageName "rho_projected".toList 9, imageName p 100]
    frames dir p 1 = some [imageName p 9, imageName p 100] := by
  have := C120_frames_in_order [imageName "energy".toList 10, vtuName 9, imageName "energy".toList 9,
    imageName "rho_projected".toList 9, imageName "energy".toList 100] "energy".toList 1 [9, 10, 100] (by decide +kernel)
    (by decide) (by decide) (by decide +kernel) (by decide +kernel)
  intro p dir
  cases h : frames dir p 1 with
  | none => have := this.1.1 h; simp at this
  | some L =>
    have h2 := this.2 L h
    refine congrArg some (List.ext_getElem? fun i => ?_)
    rw [h2 i]
    match i with
    | 0 => rfl
    | 1 => rfl
    | i + 2 => 
      rw [List.getElem?_eq_none (by simp; omega), List.getElem?_eq_none (by simp)]
      rfl

end Verif.Gif
