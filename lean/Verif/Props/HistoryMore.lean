import Verif.Props.History

/-! C45, C65 continued: files without headers, and scalar feeds. -/
namespace Verif.History
open Snapshot (Name)

/-- **C45 (files without headers).** A file with one array and no header is read as one history under the array's own key, with plot
type `value` and exactly the stored numbers; constants and the y scale are those of the history of that name before, if any. -/
theorem C45_headerless_file {α : Type} (D : Dir α) (fname key : Name) (xs : List α) (old : Coll α)
    (hD : D fname = some [(key, .one xs)]) (hk : ¬ headerSuffix <:+ key) :
    ∃ s, importHistories D fname old = .ok [(key, s)] ∧ s.name = key ∧ s.plotType = "value".toList ∧ s.data = xs.map .scalar ∧
      (∀ s₀, dget old key = some s₀ → s.constants = s₀.constants ∧ s.constantNames = s₀.constantNames ∧ s.ylog = s₀.ylog) ∧
      (dget old key = none → s.constants = none ∧ s.constantNames = none ∧ s.ylog = false) := by
  refine ⟨rebuild old key "value".toList (.one xs), ?_, rfl, rfl, rfl, ?_, ?_⟩
  · unfold importHistories
    rw [hD]
    simp only [importLoop]
    rw [if_neg hk]
    have : readHeader [(key, Arr.one xs)] key = .ok (key, "value".toList) := by
      unfold readHeader
      have : dget [(key, Arr.one xs)] (key ++ headerSuffix) = none := by
        unfold dget
        simp only [List.find?_cons, List.find?_nil]
        have h : (key == key ++ headerSuffix) = false := by
          simp only [beq_eq_false_iff_ne, ne_eq]
          intro h
          have := congrArg List.length h
          simp [headerSuffix] at this
        rw [h]; rfl
      rw [this]
    rw [this]
    rfl
  · intro s₀ h; simp [rebuild, h]
  · intro h; simp [rebuild, h]

/-- Non-vacuity. -/
example : ¬ headerSuffix <:+ "compliance".toList := by decide

/-- **C45 (short headers).** A header with a name only gives the history that name and the plot type `min-max-mean`. -/
theorem C45_short_header {α : Type} (D : Dir α) (fname key n : Name) (xs : List α) (old : Coll α)
    (hD : D fname = some [(key, .one xs), (key ++ headerSuffix, .strs [n])]) (hk : ¬ headerSuffix <:+ key) :
    ∃ s, importHistories D fname old = .ok [(n, s)] ∧ s.name = n ∧ s.plotType = "min-max-mean".toList ∧ s.data = xs.map .scalar := by
  refine ⟨rebuild old n "min-max-mean".toList (.one xs), ?_, rfl, rfl, rfl⟩
  unfold importHistories
  rw [hD]
  simp only [importLoop]
  rw [if_neg hk]
  have : readHeader [(key, Arr.one xs), (key ++ headerSuffix, .strs [n])] key = .ok (n, "min-max-mean".toList) := by
    unfold readHeader
    have : dget [(key, Arr.one xs), (key ++ headerSuffix, .strs [n])] (key ++ headerSuffix) = some (.strs [n]) := by
      unfold dget
      simp only [List.find?_cons, List.find?_nil]
      have h : (key == key ++ headerSuffix) = false := by
        simp only [beq_eq_false_iff_ne, ne_eq]
        intro h
        have := congrArg List.length h
        simp [headerSuffix] at this
      rw [h]; simp
    rw [this]
  rw [this]
  simp only
  rw [if_pos (List.suffix_append _ _)]
  rfl

/-- **C65 (scalars).** Feeding scalars one after another to a history appends exactly those scalars, in that order, and the latest is
the last one fed. -/
theorem C65_scalars_in_order (s : Series ℝ) (xs : List ℝ) :
    ∃ s', s.feed (xs.map .scalar) = .ok s' ∧ s'.data = s.data ++ xs.map .scalar ∧ s'.name = s.name ∧ s'.plotType = s.plotType ∧
      ∀ x, xs.getLast? = some x → s'.latest = .ok (.scalar x) := by
  induction xs generalizing s with
  | nil => exact ⟨s, rfl, by simp, rfl, rfl, by simp⟩
  | cons x xs ih =>
    obtain ⟨s', h1, h2, h3, h4, h5⟩ := ih { s with data := s.data ++ [.scalar x] }
    refine ⟨s', ?_, by simpa using h2, h3, h4, ?_⟩
    · simp only [List.map_cons, Series.feed, Series.add, bind, Except.bind]
      exact h1
    · intro y hy
      cases hx : xs.getLast? with
      | some z =>
        have hyz : y = z := by
          rw [List.getLast?_cons, hx] at hy; simpa using hy.symm
        rw [hyz]; exact h5 z hx
      | none =>
        have : xs = [] := by simpa using hx
        subst this
        simp only [List.getLast?_singleton, Option.some.injEq] at hy
        subst hy
        unfold Series.latest
        rw [h2]; simp

end Verif.History
