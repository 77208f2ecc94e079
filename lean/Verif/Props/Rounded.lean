import Verif.Lemmas.DriverInv
import Verif.Model.OC
import Verif.Model.LogMOC
import Verif.Spec.Rounded
import Mathlib.Tactic.Linarith
import Mathlib.Tactic.NormNum

/-!
C130–C132: bounds, absence of NaN and the multiplier's bracket in floating-point arithmetic.
-/
namespace Verif.Rounded
open Verif.Spec Verif.Driver Verif.Snapshot

noncomputable section
open Classical

variable {α E X : Type} [LinearOrder α]

/-! ### Clipping -/

/-- A clipped value that is a number comes from numbers, and lies between consistent bounds. -/
theorem clip_some {x lo hi : Flt α} {v : α} (h : clip x lo hi = some v) :
    ∃ a l u, x = some a ∧ lo = some l ∧ hi = some u ∧ v = min (max a l) u := by
  rcases x with _ | a <;> rcases lo with _ | l <;> rcases hi with _ | u <;> simp [clip, maximum, minimum] at h ⊢
  exact h.symm

theorem maximum_some {x y : Flt α} {v : α} (h : maximum x y = some v) : ∃ a b, x = some a ∧ y = some b ∧ v = max a b := by
  rcases x with _ | a <;> rcases y with _ | b <;> simp [maximum] at h ⊢
  exact h.symm

theorem minimum_some {x y : Flt α} {v : α} (h : minimum x y = some v) : ∃ a b, x = some a ∧ y = some b ∧ v = min a b := by
  rcases x with _ | a <;> rcases y with _ | b <;> simp [minimum] at h ⊢
  exact h.symm

/-! ### C130 -/

/-- **C130 (one element, one trial multiplier).** Whatever the sensitivities: the candidate is NaN, or in `[rho_min, rho_max]` and between
the rounded `rho - move_limit` and the rounded `rho + move_limit`. -/
theorem C130_candidate_in_box {A : Arith α} (hA : Directed A) (P : Params α E) {lo hi r : α} (hlo : P.rhoMin = some lo)
    (hhi : P.rhoMax = some hi) (lmid : Flt α) (e : E) (hr : P.rhoE e = some r) (hbox : lo ≤ r ∧ r ≤ hi)
    (hml : ∀ m, P.moveLimit = some m → A.lit 0 ≤ m) (v : α) (hv : candidate A P lmid e = some v) :
    (lo ≤ v ∧ v ≤ hi) ∧ ∃ d u, A.sub (some r) P.moveLimit = some d ∧ A.add (some r) P.moveLimit = some u ∧ d ≤ v ∧ v ≤ u ∧
      d ≤ r ∧ r ≤ u := by
  obtain ⟨a, l, u, -, h2, h3, rfl⟩ := clip_some hv
  obtain ⟨d, l', hd, hl', rfl⟩ := maximum_some h2
  obtain ⟨w, u', hw, hu', rfl⟩ := minimum_some h3
  rw [hlo] at hl'; rw [hhi] at hu'; rw [hr] at hd hw
  cases hl'; cases hu'
  rcases hm : P.moveLimit with _ | m
  · rw [hm, (hA.sub_nan _).1] at hd; cases hd
  · rw [hm] at hd hw
    have h0 := hml m hm
    have h1 := hA.sub_le _ _ _ h0 hd
    have h2 := hA.add_ge _ _ _ h0 hw
    refine ⟨⟨?_, ?_⟩, d, w, hd, hw, ?_, ?_, h1, h2⟩
    · refine le_min (le_max_of_le_right (le_max_right _ _)) (le_min (hbox.1.trans h2) (hbox.1.trans hbox.2))
    · exact (min_le_right _ _).trans (min_le_right _ _)
    · exact le_min (le_max_of_le_right (le_max_left _ _)) (le_min (h1.trans h2) (h1.trans hbox.2))
    · exact (min_le_right _ _).trans (min_le_left _ _)

/-- The densities the bisection leaves behind are those of one trial multiplier. -/
theorem bisect_rho (A : Arith α) (P : Params α E) : ∀ k l1 l2, ∃ lmid, (bisect A P k l1 l2).1 = lmid ∧
    (bisect A P k l1 l2).2.1 = P.volError (candidate A P lmid) ∧ (bisect A P k l1 l2).2.2 = candidate A P lmid
  | 0, l1, l2 => by
    unfold bisect
    simp only
    split_ifs <;> exact ⟨_, rfl, rfl, rfl⟩
  | k + 1, l1, l2 => by
    unfold bisect
    simp only
    split_ifs
    · exact ⟨_, rfl, rfl, rfl⟩
    · exact ⟨_, rfl, rfl, rfl⟩
    · exact bisect_rho A P k _ _
    · exact bisect_rho A P k _ _

/-- **C130 (OC update).** For every rounding in which adding a non-negative number does not decrease: with a move limit that is NaN or
non-negative, an OC update of densities in `[rho_min, rho_max]` returns NaN or a density in `[rho_min, rho_max]` that lies between the
rounded `rho - move_limit` and the rounded `rho + move_limit`, whatever sensitivities, statistics, filter, projection and volumes are. -/
theorem C130_oc_update {A : Arith α} (hA : Directed A) (c : OCCfg α) (k : ℕ) (i : Inputs α E) (rs : Flt α) (rho : E → Flt α)
    (hml : ∀ m, i.moveLimit = some m → A.lit 0 ≤ m) (e : E) (r : α) (hr : rho e = some r) (hbox : c.rhoMin ≤ r ∧ r ≤ c.rhoMax) :
    NanOrIn c.rhoMin c.rhoMax ((ocUpdate A c k i rs rho).2 e) ∧
    ∀ v, (ocUpdate A c k i rs rho).2 e = some v →
      ∃ d u, A.sub (some r) i.moveLimit = some d ∧ A.add (some r) i.moveLimit = some u ∧ d ≤ v ∧ v ≤ u := by
  obtain ⟨lmid, -, -, h⟩ := bisect_rho A (mkParams A c i (runningScale A c k rs i.stat) rho) 1000 (some c.lambdaLower) (some c.lambdaUpper)
  have key := C130_candidate_in_box hA (mkParams A c i (runningScale A c k rs i.stat) rho) (lo := c.rhoMin) (hi := c.rhoMax) (r := r)
    rfl rfl lmid e hr hbox hml
  constructor
  · intro v hv
    exact (key v (by rw [← h]; exact hv)).1
  · intro v hv
    obtain ⟨-, d, u, h1, h2, h3, h4, -⟩ := key v (by rw [← h]; exact hv)
    exact ⟨d, u, h1, h2, h3, h4⟩

/-- A NaN density stays NaN. -/
theorem candidate_nan {A : Arith α} (hA : Directed A) (P : Params α E) (lmid : Flt α) (e : E) (h : P.rhoE e = none) :
    candidate A P lmid e = none := by
  rcases hc : candidate A P lmid e with _ | v
  · rfl
  · obtain ⟨a, l, u, -, h2, -, -⟩ := clip_some hc
    obtain ⟨d, l', hd, -, -⟩ := maximum_some h2
    rw [h, (hA.sub_nan _).2] at hd; cases hd

/-- **C130 (LogMOC update).** For every arithmetic whatsoever: a LogMOC update returns NaN or a density in `[rho_min, rho_max]`. -/
theorem C130_logmoc_update (A : Arith α) (rho dL eta moveLimit lagClip : Flt α) (lo hi : α) (h : lo ≤ hi) :
    NanOrIn lo hi (logUpdate A rho dL eta moveLimit (some lo) (some hi) lagClip) := by
  intro v hv
  obtain ⟨a, l, u, -, h2, h3, rfl⟩ := clip_some hv
  cases h2; cases h3
  exact ⟨le_min (le_max_right _ _) h, min_le_right _ _⟩

/-! ### Runs -/

variable [DecidableEq E]

/-- If the update keeps `G` on the elements `P` of the design domain, every history of calls does, in the densities and in the snapshots;
elements that are set to 1 need `G 1`. -/
theorem history_keep [Zero α] [One α] (S : Sys E (Flt α) X) (P : E → Prop) (G : Flt α → Prop) (B : X → Prop) (hP : ∀ e, P e → e ∈ S.design)
    (hone : ∀ e, P e → (e ∈ S.fixed ∨ ∀ s, S.pinned = some s → e ∈ s) → G 1)
    (h0 : G (min S.rhoMax (max S.rhoMin S.valInit)))
    (hinit : ∀ x, B x → B (S.initSched x).1) (himp : ∀ x, B x → B (S.importHist x)) (hexp : ∀ x, B x → B (S.exportHist x))
    (hrec : ∀ k rho rho' x, B x → B (S.record k rho rho' x).1)
    (hstep : ∀ k rho x, B x → (∀ e, P e → G (rho e)) → B (S.step k rho x).1 ∧
      ∀ new, (S.step k rho x).2 = .ok new → ∀ e, P e → G (new e))
    (rho0 : E → Flt α) (x : X) (hx : B x) (files : List (Name × (E → Flt α)))
    (hfiles : ∀ n c, load files n = some c → ∀ e, P e → G (c e)) (cs : List Call) :
    ((history S cs (fresh rho0 x files)).started = true →
      ∀ e, P e → G ((history S cs (fresh rho0 x files)).world.rho e)) ∧
    ∀ n c, load (history S cs (fresh rho0 x files)).world.files n = some c → ∀ e, P e → G (c e) := by
  have fin : ∀ r : E → Flt α, (∀ e, P e → G (r e)) →
      ∀ e, P e → G (pin (some S.fixed) (pin S.pinned r) e) := by
    rintro r hr e he
    by_cases h2 : e ∈ S.fixed
    · simpa [pin, h2] using hone e he (Or.inl h2)
    · rcases hp : S.pinned with _ | s
      · simpa [pin, h2] using hone e he (Or.inr fun s hs => by rw [hp] at hs; exact nomatch hs)
      · by_cases h4 : e ∈ s
        · simpa [pin, h2, h4] using hone e he (Or.inr fun s' hs => by rw [hp] at hs; rwa [← Option.some.inj hs])
        · simpa [pin, h2, h4] using hr e he
  have new1 : ∀ new rho, (∀ e, P e → G (new e)) →
      ∀ e, P e → G (newRho S new rho e) := by
    rintro r rho hr e he
    have h1 := hP e he
    rcases hp : S.pinned with _ | s
    · simpa [newRho, hp, pin] using hone e he (Or.inr fun s hs => by rw [hp] at hs; exact nomatch hs)
    · by_cases h4 : e ∈ s
      · simpa [newRho, hp, pin, h4] using hone e he (Or.inr fun s' hs => by rw [hp] at hs; rwa [← Option.some.inj hs])
      · simpa [newRho, hp, pin, setDesign, h1, h4] using hr e he
  have part : ∀ r : E → Flt α, (∀ e, P e → G (r e)) →
      ∀ e, P e → G (designPart S.design r e) := by
    intro r hr e he
    simpa [designPart, hP e he] using hr e he
  have main := history_inv (S := S)
    (N := fun w => B w.aux ∧ ∀ n c, load w.files n = some c → ∀ e, P e → G (c e))
    (W := fun w => B w.aux ∧ (∀ e, P e → G (w.rho e)) ∧
      ∀ n c, load w.files n = some c → ∀ e, P e → G (c e)) ?_ ?_ ?_ cs
    (fresh rho0 x files) ⟨fun _ => ⟨hx, hfiles⟩, fun h => by simp [fresh] at h⟩
  · obtain ⟨m1, m2⟩ := main
    by_cases hs : (history S cs (fresh rho0 x files)).started = true
    · exact ⟨fun _ => (m2 hs).2.1, (m2 hs).2.2⟩
    · exact ⟨fun h => absurd h hs, (m1 (by simpa using hs)).2⟩
  · rintro o hs ⟨hB, hF⟩
    have i1 := hinit _ hB
    unfold ensureInit
    simp only [hs, Bool.false_eq_true, if_false]
    rcases hi : S.initSched o.world.aux with ⟨y, e | u⟩
    · rw [hi] at i1
      refine ⟨?_, by simp⟩
      intro o1 e' h
      simp only [Prod.mk.injEq] at h
      rw [← h.1]; exact ⟨i1, hF⟩
    · rw [hi] at i1
      simp only
      rcases hd : initializeDensity S o.world.files with e | ⟨rho, k⟩
      · refine ⟨?_, by simp⟩
        intro o1 e' h
        simp only [Prod.mk.injEq] at h
        rw [← h.1]; exact ⟨i1, hF⟩
      · refine ⟨by simp, ?_⟩
        intro o1 h
        simp only [Prod.mk.injEq, and_true] at h
        rw [← h]
        refine ⟨?_, ?_, hF⟩
        · simp only
          split_ifs
          · exact himp _ i1
          · exact i1
        · unfold initializeDensity at hd
          simp only at hd
          split_ifs at hd
          · cases hl : load o.world.files (snapshotName S.restartFrom.toNat) with
            | none => rw [hl] at hd; simp at hd
            | some c =>
              rw [hl] at hd
              simp only [Except.ok.injEq, Prod.mk.injEq] at hd
              rw [← hd.1]; exact fin _ (part _ (hF _ c hl))
          · rcases hfl : findLatest (o.world.files.map Prod.fst) with ⟨n, _ | name⟩
            · rw [hfl] at hd; simp at hd
            · rw [hfl] at hd
              simp only at hd
              cases hl : load o.world.files name with
              | none => rw [hl] at hd; simp at hd
              | some c =>
                rw [hl] at hd
                simp only [Except.ok.injEq, Prod.mk.injEq] at hd
                rw [← hd.1]; exact fin _ (part _ (hF _ c hl))
          · simp only [Except.ok.injEq, Prod.mk.injEq] at hd
            rw [← hd.1]
            exact fin _ (fun _ _ => h0)
  · rintro b k w ⟨hB, hD, hF⟩
    obtain ⟨s1, s2⟩ := hstep k w.rho w.aux hB hD
    rcases iterate_cases S b k w with ⟨x, e, hs, h⟩ | ⟨x, new, hs, ⟨y, e, hr, h⟩ | ⟨y, c, hr, ⟨-, h⟩ | ⟨-, h⟩⟩⟩ <;> rw [h] <;>
      simp only [hs] at s1 s2
    · exact ⟨s1, hD, hF⟩
    · have hn := new1 new w.rho (s2 new rfl)
      have := hrec k w.rho (newRho S new w.rho) x s1
      rw [hr] at this
      exact ⟨this, hn, hF⟩
    · have hn := new1 new w.rho (s2 new rfl)
      have := hrec k w.rho (newRho S new w.rho) x s1
      rw [hr] at this
      exact ⟨this, hn, hF⟩
    · have hn := new1 new w.rho (s2 new rfl)
      have := hrec k w.rho (newRho S new w.rho) x s1
      rw [hr] at this
      refine ⟨this, hn, ?_⟩
      simp only
      intro n c' hc
      split_ifs at hc
      · by_cases hnm : n = snapshotName k
        · subst hnm
          rw [load_save_self] at hc
          simp only [Option.some.injEq] at hc
          subst hc
          exact part _ hn
        · rw [load_save_ne _ _ hnm] at hc; exact hF _ _ hc
      · exact hF _ _ hc
  · rintro w ⟨hB, hD, hF⟩
    exact ⟨hexp _ hB, hD, hF⟩

/-- If the update keeps `G` on the free elements, every history of calls does, in the densities and in the snapshots. -/
theorem history_good [Zero α] [One α] (S : Sys E (Flt α) X) (G : Flt α → Prop) (B : X → Prop)
    (h0 : G (min S.rhoMax (max S.rhoMin S.valInit)))
    (hinit : ∀ x, B x → B (S.initSched x).1) (himp : ∀ x, B x → B (S.importHist x)) (hexp : ∀ x, B x → B (S.exportHist x))
    (hrec : ∀ k rho rho' x, B x → B (S.record k rho rho' x).1)
    (hstep : ∀ k rho x, B x → (∀ e, Free S.design S.pinned S.fixed e → G (rho e)) → B (S.step k rho x).1 ∧
      ∀ new, (S.step k rho x).2 = .ok new → ∀ e, Free S.design S.pinned S.fixed e → G (new e))
    (rho0 : E → Flt α) (x : X) (hx : B x) (files : List (Name × (E → Flt α)))
    (hfiles : ∀ n c, load files n = some c → ∀ e, Free S.design S.pinned S.fixed e → G (c e)) (cs : List Call) :
    ((history S cs (fresh rho0 x files)).started = true →
      ∀ e, Free S.design S.pinned S.fixed e → G ((history S cs (fresh rho0 x files)).world.rho e)) ∧
    ∀ n c, load (history S cs (fresh rho0 x files)).world.files n = some c → ∀ e, Free S.design S.pinned S.fixed e → G (c e) :=
  history_keep S (Free S.design S.pinned S.fixed) G B (fun _ h => h.1)
    (fun _ h hh => by
      obtain ⟨-, h2, s, h3, h4⟩ := h
      rcases hh with hh | hh
      · exact absurd hh h2
      · exact absurd (hh s h3) h4) h0 hinit himp hexp hrec hstep rho0 x hx files hfiles cs

theorem init_nanOrIn [Zero α] [One α] {lo hi : α} (h : lo ≤ hi) (v : Flt α) : NanOrIn lo hi (min (some hi) (max (some lo) v) : Flt α) := by
  intro w hw
  obtain ⟨a, b, h1, h2, rfl⟩ := minimum_some hw
  obtain ⟨c, d, h3, -, rfl⟩ := maximum_some h2
  cases h1; cases h3
  exact ⟨le_min h (le_max_left _ _), min_le_left _ _⟩

/-- **C130 (OC runs).** In floating-point arithmetic of any rounding (`Directed`), for every task, filter, solver and schedule: if
`rho_min ≤ rho_max` and no move limit is a negative number, then after every history of `optimize` and `optimize_steps` calls — raising or
not, new or restarted from snapshots in the box — every free element has a density that is NaN or in `[rho_min, rho_max]`, and so do all
snapshots in the directory. -/
theorem C130_oc_run [Zero α] [One α] {A : Arith α} (hA : Directed A) (c : OCCfg α) (hbox : c.rhoMin ≤ c.rhoMax)
    (p : Plan α E X (Inputs α E)) (hml : ∀ k rho x y i m, p.analyse k rho x = (y, .ok i) → i.moveLimit = some m → A.lit 0 ≤ m)
    (rho0 : E → Flt α) (x : X × Flt α) (files : List (Name × (E → Flt α)))
    (hfiles : ∀ n r, load files n = some r → ∀ e, Free p.design p.pinned p.fixed e → NanOrIn c.rhoMin c.rhoMax (r e)) (cs : List Call) :
    ((history (ocSys A c p) cs (fresh rho0 x files)).started = true →
      ∀ e, Free p.design p.pinned p.fixed e → NanOrIn c.rhoMin c.rhoMax ((history (ocSys A c p) cs (fresh rho0 x files)).world.rho e)) ∧
    ∀ n r, load (history (ocSys A c p) cs (fresh rho0 x files)).world.files n = some r →
      ∀ e, Free p.design p.pinned p.fixed e → NanOrIn c.rhoMin c.rhoMax (r e) := by
  refine history_good (ocSys A c p) (NanOrIn c.rhoMin c.rhoMax) (fun _ => True) (init_nanOrIn hbox _) (fun _ _ => trivial)
    (fun _ _ => trivial) (fun _ _ => trivial) (fun _ _ _ _ _ => trivial) ?_ rho0 x trivial files hfiles cs
  intro k rho s _ hG
  refine ⟨trivial, fun new hn e he => ?_⟩
  rcases ha : p.analyse k rho s.1 with ⟨y, er | i⟩
  · simp [ocSys, ha] at hn
  · simp only [ocSys, ha, Except.ok.injEq] at hn
    subst hn
    rcases hr : rho e with _ | r
    · obtain ⟨lmid, -, -, h⟩ := bisect_rho A (mkParams A c i (runningScale A c k s.2 i.stat) rho) 1000 (some c.lambdaLower) (some c.lambdaUpper)
      intro v hv
      have h2 := candidate_nan hA (mkParams A c i (runningScale A c k s.2 i.stat) rho) lmid e hr
      rw [← h] at h2
      simp only [ocUpdate] at hv
      rw [hv] at h2; cases h2
    · exact (C130_oc_update hA c k i s.2 rho (fun m hm => hml k rho s.1 y i m ha hm) e r hr (hG e he r hr)).1

/-- **C130 (LogMOC runs).** The same for LogMOC, for every arithmetic whatsoever and every move limit. -/
theorem C130_logmoc_run [Zero α] [One α] (A : Arith α) (lo hi lagClip : α) (hbox : lo ≤ hi) (p : Plan α E X (LogInputs α E))
    (rho0 : E → Flt α) (x : X) (files : List (Name × (E → Flt α)))
    (hfiles : ∀ n r, load files n = some r → ∀ e, Free p.design p.pinned p.fixed e → NanOrIn lo hi (r e)) (cs : List Call) :
    ((history (logSys A lo hi lagClip p) cs (fresh rho0 x files)).started = true →
      ∀ e, Free p.design p.pinned p.fixed e → NanOrIn lo hi ((history (logSys A lo hi lagClip p) cs (fresh rho0 x files)).world.rho e)) ∧
    ∀ n r, load (history (logSys A lo hi lagClip p) cs (fresh rho0 x files)).world.files n = some r →
      ∀ e, Free p.design p.pinned p.fixed e → NanOrIn lo hi (r e) := by
  refine history_good (logSys A lo hi lagClip p) (NanOrIn lo hi) (fun _ => True) (init_nanOrIn hbox _) (fun _ _ => trivial)
    (fun _ _ => trivial) (fun _ _ => trivial) (fun _ _ _ _ _ => trivial) ?_ rho0 x trivial files hfiles cs
  intro k rho s _ hG
  refine ⟨trivial, fun new hn e he => ?_⟩
  rcases ha : p.analyse k rho s with ⟨y, er | i⟩
  · simp [logSys, ha] at hn
  · simp only [logSys, ha, Except.ok.injEq] at hn
    subst hn
    exact C130_logmoc_update A _ _ _ _ _ lo hi hbox

/-! ### C132: the multiplier -/

omit [DecidableEq E] in
/-- **C132 (OC).** The multiplier the bisection returns is a number in `[lambda_lower, lambda_upper]`, whatever the volume errors are (NaN
included), if `0 ≤ lambda_lower ≤ lambda_upper` and twice `lambda_upper` does not overflow. -/
theorem C132_oc_multiplier {A : Arith α} {fin : α → Prop} (hA : Halves A fin) (hD : Directed A) (hS : Signs A fin)
    (P : Params α E) (n : ℕ) (l u s : α) (h0 : A.lit 0 ≤ l) (hlu : l ≤ u) (hu : fin u)
    (hs : A.add (some u) (some u) = some s) (hfs : fin s) :
    NumberIn l u (bisect A P n (some l) (some u)).1 := by
  induction n generalizing l u s with
  | zero =>
    obtain ⟨m, h1, h2, h3⟩ := hA l u s h0 hlu hs hfs
    unfold bisect
    simp only
    split_ifs <;> exact ⟨m, h1, h2, h3⟩
  | succ n ih =>
    obtain ⟨m, h1, h2, h3⟩ := hA l u s h0 hlu hs hfs
    unfold bisect
    simp only
    split_ifs
    · exact ⟨m, h1, h2, h3⟩
    · exact ⟨m, h1, h2, h3⟩
    · obtain ⟨v, e1, e2, e3⟩ := ih m u s (h0.trans h2) h3 hu hs hfs
      refine ⟨v, ?_, h2.trans e2, e3⟩
      rw [show middle A (some l) (some u) = some m from h1]; exact e1
    · have hm : fin m := hS.convex _ _ _ hS.zero hu (h0.trans h2) h3
      obtain ⟨x, hx⟩ := hS.add_fin m m hm hm
      have h4 := hD.add_ge _ _ _ (h0.trans h2) hx
      have h5 := hS.add_mono _ _ _ _ _ _ h3 h3 hx hs
      obtain ⟨v, e1, e2, e3⟩ := ih l m x h0 h2 hm hx (hS.convex _ _ _ hS.zero hfs ((h0.trans h2).trans h4) h5)
      refine ⟨v, ?_, e2, e3.trans h3⟩
      rw [show middle A (some l) (some u) = some m from h1]; exact e1

/-- **C132 (LogMOC).** For every arithmetic: the new multiplier is NaN or in `[lower, upper]`, in both dual updates. -/
theorem C132_logmoc_multiplier (A : Arith α) (augmented : Bool) (muP decay : Flt α) (lo hi : α) (h : lo ≤ hi) (k : ℕ) (lam vErr : Flt α) :
    NanOrIn lo hi (lambdaUpdate A augmented muP decay (some lo) (some hi) k lam vErr) := by
  intro v hv
  obtain ⟨a, l, u, -, h2, h3, rfl⟩ := clip_some hv
  cases h2; cases h3
  exact ⟨le_min (le_max_right _ _) h, min_le_right _ _⟩

/-! ### C131: no NaN -/

/-- The new running scale is a positive number. -/
theorem runningScale_pos {A : Arith α} {fin : α → Prop} (hS : Signs A fin) {c : OCCfg α} (hc : Sane A fin c) (k : ℕ) {r t : α}
    (hr : A.lit 0 ≤ r) : ∃ s, runningScale A c k (some r) (some t) = some s ∧ A.lit 0 < s := by
  obtain ⟨m, hm, hmf⟩ : ∃ m, pyMax (some t) (some c.scaleFloor) = some m ∧ c.scaleFloor ≤ m := by
    unfold pyMax
    split_ifs with h
    · exact ⟨_, rfl, le_rfl⟩
    · refine ⟨t, rfl, ?_⟩
      by_contra hlt
      exact h ⟨t, _, rfl, rfl, not_le.mp hlt⟩
  unfold runningScale
  simp only [hm]
  split_ifs
  · obtain ⟨w, f, hw, hw0, hwf, hf, hf0⟩ := hc.weight
    rw [hw]
    obtain ⟨a, ha, ha0⟩ := hS.mul_nonneg _ _ hS.sixty.1 hS.sixty.2 hr
    obtain ⟨b, hb, -⟩ := hS.mul_nonneg w m hw0 hwf (hc.floor.le.trans hmf)
    rw [ha, hb]
    exact hS.add_pos a b ha0 (hf0.trans_le (hS.mul_mono _ _ _ _ _ hw0.le hmf hf hb))
  · exact ⟨m, rfl, hc.floor.trans_le hmf⟩

/-- **C131 (OC update).** Finite non-positive sensitivities, a statistic and an exponent that are numbers, a finite move limit and running
scale that are not negative: from densities in the box the update returns numbers in the box (and a positive running scale). -/
theorem C131_oc_update {A : Arith α} {fin : α → Prop} (hH : Halves A fin) (hD : Directed A) (hS : Signs A fin) (c : OCCfg α)
    (hc : Sane A fin c) (k : ℕ) (i : Inputs α E) (r t m h : α) (rho : E → Flt α) (hr : A.lit 0 ≤ r) (ht : i.stat = some t)
    (hm : i.moveLimit = some m) (hm0 : A.lit 0 ≤ m) (hmf : fin m) (hh : i.eta = some h) (e : E)
    (he : ∃ d, i.dC e = some d ∧ fin d ∧ d ≤ A.lit 0) (hrho : NumberIn c.rhoMin c.rhoMax (rho e)) :
    NumberIn c.rhoMin c.rhoMax ((ocUpdate A c k i (some r) rho).2 e) ∧ ∃ s, (ocUpdate A c k i (some r) rho).1 = some s ∧ A.lit 0 < s := by
  obtain ⟨s, hs, hs0⟩ := runningScale_pos hS hc k (t := t) hr
  rw [← ht] at hs
  refine ⟨?_, s, hs, hs0⟩
  obtain ⟨x, hx, hx1, hx2⟩ := hrho
  obtain ⟨d, hd, hdf, hd0⟩ := he
  obtain ⟨tw, htw, htwf⟩ := hc.twice
  obtain ⟨lm, hlm, hlm1, hlm2⟩ := C132_oc_multiplier hH hD hS (mkParams A c i (some s) rho) 1000 c.lambdaLower c.lambdaUpper tw hc.l0
    hc.l1 hc.l2 htw htwf
  obtain ⟨lmid, e1, -, e3⟩ := bisect_rho A (mkParams A c i (some s) rho) 1000 (some c.lambdaLower) (some c.lambdaUpper)
  rw [hlm] at e1
  have hupd : (ocUpdate A c k i (some r) rho).2 = candidate A (mkParams A c i (some s) rho) (some lm) := by
    unfold ocUpdate
    simp only [hs]
    rw [e3, ← e1]
  rw [hupd]
  -- the scaling rate
  have hxf : fin x := hS.convex _ _ _ hc.lo hc.hi hx1 hx2
  obtain ⟨q, hq, hq0⟩ := hS.div_nonpos d s hd0 hs0 (Or.inl hdf)
  obtain ⟨nq, hnq, hnq0⟩ := hS.neg q hq0
  obtain ⟨g, hg, hg0⟩ := hS.add_pos lm (A.lit (1 / 10 ^ 12)) (hc.l0.trans hlm1) hS.eps
  obtain ⟨g2, hg2, hg2f⟩ := hc.shifted
  have hgf : fin g := hS.convex _ _ _ hS.zero hg2f hg0.le (hS.add_mono _ _ _ _ _ _ hlm2 le_rfl hg hg2)
  obtain ⟨b, hb, hb0⟩ := hS.div_nonneg nq g hnq0 hg0 (Or.inr hgf)
  obtain ⟨w, hw, -⟩ := hS.pow_nonneg b h hb0
  have hsc : scaling A (mkParams A c i (some s) rho) (some lm) e = some (min (max w c.rateMin) c.rateMax) := by
    simp only [scaling, mkParams, hd, hq, hnq, hg, hb, hh, hw, clip, maximum, minimum]
  have hscf : fin (min (max w c.rateMin) c.rateMax) :=
    hS.convex _ _ _ hc.rlo hc.rhi (le_min (le_max_right _ _) hc.rates) (min_le_right _ _)
  obtain ⟨y, hy⟩ := hS.mul_fin x _ hxf hscf
  obtain ⟨l, hl⟩ := hS.sub_fin x m hxf hmf
  obtain ⟨u, hu⟩ := hS.add_fin x m hxf hmf
  have hcand : ∃ v, candidate A (mkParams A c i (some s) rho) (some lm) e = some v := by
    refine Option.isSome_iff_exists.mp ?_
    unfold candidate
    rw [hsc]
    simp only [mkParams, hx, hm, hy, hl, hu, clip, maximum, minimum, Option.isSome_some]
  obtain ⟨v, hv⟩ := hcand
  refine ⟨v, hv, (C130_candidate_in_box hD (mkParams A c i (some s) rho) (lo := c.rhoMin) (hi := c.rhoMax) (r := x) rfl rfl _ e hx
    ⟨hx1, hx2⟩ ?_ v hv).1⟩
  intro m' hm'
  have : i.moveLimit = some m' := hm'
  rw [hm] at this; cases this; exact hm0

/-- **C131 (OC runs).** If whenever the free densities are numbers in the box the analysis hands on finite non-positive sensitivities of the
free elements, a statistic and an exponent that are numbers and a finite non-negative move limit, then no history of calls ever makes a free
density NaN: all of them are numbers in `[rho_min, rho_max]`, and so are those in all snapshots. -/
theorem C131_oc_run [Zero α] [One α] {A : Arith α} {fin : α → Prop} (hH : Halves A fin) (hD : Directed A) (hS : Signs A fin) (c : OCCfg α)
    (hc : Sane A fin c) (p : Plan α E X (Inputs α E)) (v0 : α) (hv0 : p.valInit = some v0)
    (hin : ∀ k rho x y i, p.analyse k rho x = (y, .ok i) →
      (∀ e, Free p.design p.pinned p.fixed e → NumberIn c.rhoMin c.rhoMax (rho e)) →
      (∃ t, i.stat = some t) ∧ (∃ h, i.eta = some h) ∧ (∃ m, i.moveLimit = some m ∧ A.lit 0 ≤ m ∧ fin m) ∧
      ∀ e, Free p.design p.pinned p.fixed e → ∃ d, i.dC e = some d ∧ fin d ∧ d ≤ A.lit 0)
    (rho0 : E → Flt α) (x : X) (r : α) (hr : A.lit 0 ≤ r) (files : List (Name × (E → Flt α)))
    (hfiles : ∀ n r, load files n = some r → ∀ e, Free p.design p.pinned p.fixed e → NumberIn c.rhoMin c.rhoMax (r e)) (cs : List Call) :
    ((history (ocSys A c p) cs (fresh rho0 (x, some r) files)).started = true →
      ∀ e, Free p.design p.pinned p.fixed e →
        NumberIn c.rhoMin c.rhoMax ((history (ocSys A c p) cs (fresh rho0 (x, some r) files)).world.rho e)) ∧
    ∀ n r', load (history (ocSys A c p) cs (fresh rho0 (x, some r) files)).world.files n = some r' →
      ∀ e, Free p.design p.pinned p.fixed e → NumberIn c.rhoMin c.rhoMax (r' e) := by
  refine history_good (ocSys A c p) (NumberIn c.rhoMin c.rhoMax) (fun s => ∃ r, s.2 = some r ∧ A.lit 0 ≤ r) ?_ ?_ (fun _ h => h)
    (fun _ h => h) ?_ ?_ rho0 (x, some r) ⟨r, rfl, hr⟩ files hfiles cs
  · refine ⟨min c.rhoMax (max c.rhoMin v0), ?_, le_min hc.box (le_max_left _ _), min_le_left _ _⟩
    show minimum (some c.rhoMax) (maximum (some c.rhoMin) p.valInit) = _
    rw [hv0]; rfl
  · intro s h; exact h
  · intro k rho rho' s h; exact h
  · rintro k rho s ⟨r, hr, hr0⟩ hG
    rcases ha : p.analyse k rho s.1 with ⟨y, er | i⟩
    · simp only [ocSys, ha]
      exact ⟨⟨r, hr, hr0⟩, by simp⟩
    · obtain ⟨⟨t, ht⟩, ⟨h, hh⟩, ⟨m, hm, hm0, hmf⟩, hdc⟩ := hin k rho s.1 y i ha hG
      simp only [ocSys, ha, Except.ok.injEq]
      refine ⟨?_, ?_⟩
      · obtain ⟨s', hs', hs0⟩ := runningScale_pos hS hc k (t := t) hr0
        refine ⟨s', ?_, hs0.le⟩
        simp only [ocUpdate, hr, ht, hs']
      · rintro new rfl e he
        rw [hr]
        exact (C131_oc_update hH hD hS c hc k i r t m h rho hr0 ht hm hm0 hmf hh e (hdc e he) (hG e he)).1

omit [DecidableEq E] in
theorem clip_number {x lo hi : α} : clip (some x) (some lo) (some hi) = some (min (max x lo) hi) := rfl

/-- **C131 (LogMOC update).** Positive finite bounds, finite exponent and clip value, a derivative of the Lagrangian that is a number, and a
move limit for which `move_limit / rho + 1` does not overflow: the update of a density that is a number returns a number in the box. -/
theorem C131_logmoc_update {A : Arith α} {fin small : α → Prop} (hS : Signs A fin) (hL : Logs A fin small) {lo hi r d h m g : α}
    (hlo : fin lo) (hhi : fin hi) (hpos : A.lit 0 < lo) (hbox : lo ≤ hi) (hh : fin h) (hg : fin g)
    (hgn : ∀ n, A.neg (some g) = some n → fin n ∧ n ≤ g) (hm : Bounded A fin lo hi m) :
    NumberIn lo hi (logUpdate A (some r) (some d) (some h) (some m) (some lo) (some hi) (some g)) := by
  have hnum : ∃ v, logUpdate A (some r) (some d) (some h) (some m) (some lo) (some hi) (some g) = some v := by
    obtain ⟨x, hx, hx1, hx2⟩ : ∃ x, clip (some r) (some lo) (some hi) = some x ∧ lo ≤ x ∧ x ≤ hi :=
      ⟨_, rfl, le_min (le_max_right _ _) hbox, min_le_right _ _⟩
    have hxf : fin x := hS.convex _ _ _ hlo hhi hx1 hx2
    obtain ⟨n, hn⟩ := hL.neg g
    obtain ⟨hnf, hng⟩ := hgn n hn
    obtain ⟨y, hy, hy1⟩ := hL.log x hxf (hpos.trans_le hx1)
    obtain ⟨u, hu, huf, hu0⟩ := hm x hx1 hx2
    obtain ⟨z, hz, hz1⟩ := hL.log u huf hu0
    obtain ⟨l, hl, hlf⟩ := hL.sub_small y z hy1 hz1
    obtain ⟨t, ht, htf⟩ := hL.twice z hz1
    obtain ⟨w, hw⟩ := hS.add_fin l t hlf htf
    obtain ⟨q, hq, hq1, hq2⟩ : ∃ q, clip (some d) (some n) (some g) = some q ∧ n ≤ q ∧ q ≤ g :=
      ⟨_, rfl, le_min (le_max_right _ _) hng, min_le_right _ _⟩
    obtain ⟨a, ha⟩ := hS.mul_fin h q hh (hS.convex _ _ _ hnf hg hq1 hq2)
    obtain ⟨b, hb⟩ := hL.sub_num y a hy1
    obtain ⟨c, hc⟩ := hL.exp (min (max b l) w)
    refine ⟨min (max c lo) hi, ?_⟩
    rw [hy] at hu
    simp only [logUpdate, hx, hn, hq, hy, hu, hz, hl, ht, hw, ha, hb, clip_number, hc]
  obtain ⟨v, hv⟩ := hnum
  exact ⟨v, hv, C130_logmoc_update A _ _ _ _ _ lo hi hbox v hv⟩

/-- **C131 (LogMOC runs).** If whenever the free densities are numbers in the box the derivative of the Lagrangian consists of numbers, the
exponent is finite and the move limit is one for which `move_limit / rho + 1` does not overflow, no history of calls makes a free density
NaN. -/
theorem C131_logmoc_run [Zero α] [One α] {A : Arith α} {fin small : α → Prop} (hS : Signs A fin) (hL : Logs A fin small) {lo hi g : α}
    (hlo : fin lo) (hhi : fin hi) (hpos : A.lit 0 < lo) (hbox : lo ≤ hi) (hg : fin g)
    (hgn : ∀ n, A.neg (some g) = some n → fin n ∧ n ≤ g) (p : Plan α E X (LogInputs α E)) (v0 : α) (hv0 : p.valInit = some v0)
    (hin : ∀ k rho x y i, p.analyse k rho x = (y, .ok i) →
      (∀ e, Free p.design p.pinned p.fixed e → NumberIn lo hi (rho e)) →
      (∃ h, i.eta = some h ∧ fin h) ∧ (∃ m, i.moveLimit = some m ∧ Bounded A fin lo hi m) ∧
      ∀ e, Free p.design p.pinned p.fixed e → ∃ d, i.dL e = some d)
    (rho0 : E → Flt α) (x : X) (files : List (Name × (E → Flt α)))
    (hfiles : ∀ n r, load files n = some r → ∀ e, Free p.design p.pinned p.fixed e → NumberIn lo hi (r e)) (cs : List Call) :
    ((history (logSys A lo hi g p) cs (fresh rho0 x files)).started = true →
      ∀ e, Free p.design p.pinned p.fixed e → NumberIn lo hi ((history (logSys A lo hi g p) cs (fresh rho0 x files)).world.rho e)) ∧
    ∀ n r, load (history (logSys A lo hi g p) cs (fresh rho0 x files)).world.files n = some r →
      ∀ e, Free p.design p.pinned p.fixed e → NumberIn lo hi (r e) := by
  refine history_good (logSys A lo hi g p) (NumberIn lo hi) (fun _ => True) ?_ (fun _ _ => trivial)
    (fun _ _ => trivial) (fun _ _ => trivial) (fun _ _ _ _ _ => trivial) ?_ rho0 x trivial files hfiles cs
  · refine ⟨min hi (max lo v0), ?_, le_min hbox (le_max_left _ _), min_le_left _ _⟩
    show minimum (some hi) (maximum (some lo) p.valInit) = _
    rw [hv0]; rfl
  intro k rho s _ hG
  refine ⟨trivial, fun new hn e he => ?_⟩
  rcases ha : p.analyse k rho s with ⟨y, er | i⟩
  · simp [logSys, ha] at hn
  · simp only [logSys, ha, Except.ok.injEq] at hn
    subst hn
    obtain ⟨⟨h, hh, hhf⟩, ⟨m, hm, hmb⟩, hd⟩ := hin k rho s y i ha hG
    obtain ⟨d, hd⟩ := hd e he
    obtain ⟨r, hr, -⟩ := hG e he
    simp only [hr, hd, hh, hm]
    exact C131_logmoc_update hS hL hlo hhi hpos hbox hhf hg hgn hmb

/-! ### The laws are satisfiable: exact real arithmetic and a lossy fixed-point arithmetic -/

/-- A binary operation on numbers, NaN otherwise. -/
def lift2 {β : Type} (f : β → β → Option β) : Flt β → Flt β → Flt β
  | some a, some b => f a b
  | _, _ => none

/-- Real arithmetic without rounding; what has no real value is NaN. -/
def exact : Arith ℝ where
  lit := fun q => (q : ℝ)
  neg := Option.map fun a => -a
  abs := Option.map fun a => |a|
  log := fun x => x.bind fun a => if 0 < a then some (Real.log a) else none
  exp := Option.map Real.exp
  add := lift2 fun a b => some (a + b)
  sub := lift2 fun a b => some (a - b)
  mul := lift2 fun a b => some (a * b)
  div := lift2 fun a b => if b = 0 then none else some (a / b)
  pow := lift2 fun a b => if a < 0 ∧ ¬ ∃ k : ℤ, (k : ℝ) = b then none else some (a ^ b)

/-- Fixed-point numbers with unit `1 / (2 * 10 ^ 12)`; products and quotients are rounded down. -/
def fixedPoint : Arith ℤ where
  lit := fun q => ⌊q * 2000000000000⌋
  neg := Option.map fun a => -a
  abs := Option.map fun a => |a|
  log := id
  exp := id
  add := lift2 fun a b => some (a + b)
  sub := lift2 fun a b => some (a - b)
  mul := lift2 fun a b => some (a * b / 2000000000000)
  div := lift2 fun a b => if b = 0 then none else some (a * 2000000000000 / b)
  pow := lift2 fun a _ => if a < 0 then none else some a

theorem exact_directed : Directed exact where
  add_nan := by rintro (_ | x) <;> rfl
  sub_nan := by rintro (_ | x) <;> exact ⟨rfl, rfl⟩
  add_ge := by
    intro a b c hb h
    simp only [exact, lift2, Option.some.injEq, Rat.cast_zero] at h hb
    linarith
  sub_le := by
    intro a b c hb h
    simp only [exact, lift2, Option.some.injEq, Rat.cast_zero] at h hb
    linarith

theorem exact_halves : Halves exact fun _ => True := by
  intro a b s ha hab _ _
  refine ⟨1 / 2 * (a + b), ?_, ?_, ?_⟩
  · simp [exact, lift2]
  · linarith
  · linarith

theorem exact_signs : Signs exact fun _ => True where
  convex := fun _ _ _ _ _ _ _ => trivial
  zero := trivial
  eps := by simp only [exact, Rat.cast_lt]; norm_num
  sixty := ⟨by simp only [exact, Rat.cast_lt]; norm_num, trivial⟩
  neg := fun a h => ⟨-a, rfl, by simp only [exact, Rat.cast_zero] at h ⊢; linarith⟩
  add_pos := fun a b ha hb => ⟨a + b, rfl, by simp only [exact, Rat.cast_zero] at ha hb ⊢; linarith⟩
  add_mono := by
    intro a b c d x y h1 h2 h3 h4
    simp only [exact, lift2, Option.some.injEq] at h3 h4
    linarith
  add_fin := fun a b _ _ => ⟨a + b, rfl⟩
  sub_fin := fun a b _ _ => ⟨a - b, rfl⟩
  mul_fin := fun a b _ _ => ⟨a * b, rfl⟩
  mul_nonneg := fun a b ha _ hb => ⟨a * b, rfl, by
    simp only [exact, Rat.cast_zero] at ha hb ⊢; exact _root_.mul_nonneg ha.le hb⟩
  mul_mono := by
    intro a b c x y ha h h3 h4
    simp only [exact, lift2, Option.some.injEq, Rat.cast_zero] at h3 h4 ha
    rw [← h3, ← h4]; exact mul_le_mul_of_nonneg_left h ha
  div_nonneg := by
    intro a b ha hb _
    simp only [exact, lift2, Rat.cast_zero] at ha hb ⊢
    exact ⟨a / b, by rw [if_neg hb.ne'], _root_.div_nonneg ha hb.le⟩
  div_nonpos := by
    intro a b ha hb _
    simp only [exact, lift2, Rat.cast_zero] at ha hb ⊢
    exact ⟨a / b, by rw [if_neg hb.ne'], div_nonpos_of_nonpos_of_nonneg ha hb.le⟩
  pow_nonneg := by
    intro a b ha
    simp only [exact, lift2, Rat.cast_zero] at ha ⊢
    exact ⟨a ^ b, by rw [if_neg (fun h => absurd h.1 (not_lt.mpr ha))], Real.rpow_nonneg ha b⟩

theorem fixedPoint_zero : fixedPoint.lit 0 = 0 := by
  show ⌊(0 : ℚ) * 2000000000000⌋ = 0
  norm_num

theorem fixedPoint_directed : Directed fixedPoint where
  add_nan := by rintro (_ | x) <;> rfl
  sub_nan := by rintro (_ | x) <;> exact ⟨rfl, rfl⟩
  add_ge := by
    intro a b c hb h
    rw [fixedPoint_zero] at hb
    simp only [fixedPoint, lift2, Option.some.injEq] at h
    omega
  sub_le := by
    intro a b c hb h
    rw [fixedPoint_zero] at hb
    simp only [fixedPoint, lift2, Option.some.injEq] at h
    omega

theorem fixedPoint_halves (fin : ℤ → Prop) : Halves fixedPoint fin := by
  intro a b s ha hab _ _
  have hl : fixedPoint.lit (1 / 2) = 1000000000000 := by
    show ⌊(1 / 2 : ℚ) * 2000000000000⌋ = _
    norm_num
  refine ⟨1000000000000 * (a + b) / 2000000000000, ?_, ?_, ?_⟩
  · rw [hl]; rfl
  · omega
  · omega

/-- `fin`: at most `2 ^ 80` in absolute value. -/
theorem fixedPoint_signs : Signs fixedPoint fun x => -1208925819614629174706176 ≤ x ∧ x ≤ 1208925819614629174706176 where
  convex := by intros; omega
  zero := by rw [fixedPoint_zero]; omega
  eps := by
    rw [fixedPoint_zero]
    show 0 < ⌊(1 / 10 ^ 12 : ℚ) * 2000000000000⌋
    norm_num
  sixty := by
    have : fixedPoint.lit (6 / 10) = 1200000000000 := by
      show ⌊(6 / 10 : ℚ) * 2000000000000⌋ = _
      norm_num
    rw [this, fixedPoint_zero]; omega
  neg := by intro a h; rw [fixedPoint_zero] at *; exact ⟨-a, rfl, by omega⟩
  add_pos := by intro a b ha hb; rw [fixedPoint_zero] at *; exact ⟨a + b, rfl, by omega⟩
  add_mono := by
    intro a b c d x y h1 h2 h3 h4
    simp only [fixedPoint, lift2, Option.some.injEq] at h3 h4
    omega
  add_fin := fun a b _ _ => ⟨a + b, rfl⟩
  sub_fin := fun a b _ _ => ⟨a - b, rfl⟩
  mul_fin := fun a b _ _ => ⟨_, rfl⟩
  mul_nonneg := by
    intro a b ha _ hb
    rw [fixedPoint_zero] at *
    exact ⟨_, rfl, Int.ediv_nonneg (Int.mul_nonneg ha.le hb) (by omega)⟩
  mul_mono := by
    intro a b c x y ha h h3 h4
    rw [fixedPoint_zero] at ha
    simp only [fixedPoint, lift2, Option.some.injEq] at h3 h4
    rw [← h3, ← h4]
    exact Int.ediv_le_ediv (by omega) (mul_le_mul_of_nonneg_left h ha)
  div_nonneg := by
    intro a b ha hb _
    rw [fixedPoint_zero] at *
    refine ⟨a * 2000000000000 / b, ?_, Int.ediv_nonneg (by omega) hb.le⟩
    simp only [fixedPoint, lift2]
    rw [if_neg hb.ne']
  div_nonpos := by
    intro a b ha hb _
    rw [fixedPoint_zero] at *
    refine ⟨a * 2000000000000 / b, ?_, ?_⟩
    · simp only [fixedPoint, lift2]
      rw [if_neg hb.ne']
    · exact Int.ediv_nonpos_of_nonpos_of_neg (by omega) hb
  pow_nonneg := by
    intro a b ha
    rw [fixedPoint_zero] at *
    refine ⟨a, ?_, ha⟩
    simp only [fixedPoint, lift2]
    rw [if_neg (not_lt.mpr ha)]

omit [DecidableEq E] in
/-- **C130 (link to the exact model).** With exact arithmetic the floating-point candidate is the one C13–C18 are about, for exponents
that are not negative. -/
theorem C130_exact_arithmetic_agrees [Fintype E] (Q : OC.Params E) (hEta : 0 ≤ Q.eta) (v : (E → Flt ℝ) → Flt ℝ) (tol vtol : Flt ℝ)
    (lmid : ℝ) (e : E) :
    candidate exact { dC := fun e => some (Q.dC e), rhoE := fun e => some (Q.rhoE e), rhoMin := some Q.rhoMin, rhoMax := some Q.rhoMax,
                      moveLimit := some Q.moveLimit, eta := some Q.eta, eps := some Q.eps, rateMin := some Q.rateMin,
                      rateMax := some Q.rateMax, volError := v, tolerance := tol, volTol := vtol } (some lmid) e =
      OC.candidate Q lmid e := by
  simp only [candidate, scaling, OC.candidate, OC.scaling, exact, lift2, Option.map_some]
  by_cases h : lmid + Q.eps = 0
  · simp [h, clip, maximum, minimum]
  · simp only [h, if_false]
    by_cases h2 : -(Q.dC e) / (lmid + Q.eps) < 0 ∧ ¬ ∃ k : ℤ, (k : ℝ) = Q.eta
    · rw [if_pos h2, if_pos h2]; rfl
    · rw [if_neg h2, if_neg h2, if_neg (fun h => absurd h.2 (not_lt.mpr hEta))]
      simp [clip, maximum, minimum, OC.clip]

/-- The arguments of the exact model's bisection as floats; the volume error is the exact model's whenever the densities are the
candidates of some multiplier. -/
def ofExact [Fintype E] (Q : OC.Params E) (v : (E → Flt ℝ) → Flt ℝ) : Params ℝ E where
  dC := fun e => some (Q.dC e)
  rhoE := fun e => some (Q.rhoE e)
  rhoMin := some Q.rhoMin
  rhoMax := some Q.rhoMax
  moveLimit := some Q.moveLimit
  eta := some Q.eta
  eps := some Q.eps
  rateMin := some Q.rateMin
  rateMax := some Q.rateMax
  volError := v
  tolerance := some Q.tolerance
  volTol := some Q.volTol

omit [DecidableEq E] in
/-- **C130 (link to the exact model, whole bisection).** With exact arithmetic, an exponent that is not negative and the exact model's
volume error, the floating-point bisection returns what the bisection of C13–C18 returns: multiplier, volume error and densities. -/
theorem C130_exact_bisection_agrees [Fintype E] (Q : OC.Params E) (hEta : 0 ≤ Q.eta) (v : (E → Flt ℝ) → Flt ℝ)
    (hv : ∀ lmid, v (OC.candidate Q lmid) = OC.volError Q lmid) (n j : ℕ) (l1 l2 : ℝ) :
    bisect exact (ofExact Q v) n (some l1) (some l2) =
      (some (OC.bisect Q n j l1 l2).lmid, (OC.bisect Q n j l1 l2).volError, (OC.bisect Q n j l1 l2).rho) := by
  have hmid : ∀ a b : ℝ, middle exact (some a) (some b) = some (0.5 * (a + b)) := by
    intro a b
    simp only [middle, exact, lift2]
    norm_num
  have hcand : ∀ m : ℝ, candidate exact (ofExact Q v) (some m) = OC.candidate Q m :=
    fun m => funext fun e => C130_exact_arithmetic_agrees Q hEta v _ _ m e
  have hlt : ∀ x : Flt ℝ, Lt (exact.abs x) (some Q.volTol) ↔ ∃ y, x = some y ∧ |y| < Q.volTol := by
    rintro (_ | x) <;> simp [Lt, exact]
  have hpos : ∀ x : Flt ℝ, Lt (some (exact.lit 0)) x ↔ ∃ y, x = some y ∧ y > 0 := by
    rintro (_ | x) <;> simp [Lt, exact]
  have hle : ∀ a b : ℝ, Le (exact.abs (exact.sub (some b) (some a))) (some Q.tolerance) ↔ |b - a| ≤ Q.tolerance := by
    intro a b; simp [Le, exact, lift2]
  induction n generalizing j l1 l2 with
  | zero =>
    unfold bisect OC.bisect
    simp only [hmid, hcand]
    have hvv : (ofExact Q v).volError (OC.candidate Q (0.5 * (l1 + l2))) = OC.volError Q (0.5 * (l1 + l2)) := hv _
    rw [hvv]
    split_ifs <;> simp [OC.stop]
  | succ n ih =>
    unfold bisect OC.bisect
    simp only [hmid, hcand]
    have hvv : (ofExact Q v).volError (OC.candidate Q (0.5 * (l1 + l2))) = OC.volError Q (0.5 * (l1 + l2)) := hv _
    rw [hvv]
    have e1 := hlt (OC.volError Q (0.5 * (l1 + l2)))
    have e2 := hpos (OC.volError Q (0.5 * (l1 + l2)))
    have e3 := hle l1 l2
    have t1 : (ofExact Q v).volTol = some Q.volTol := rfl
    have t2 : (ofExact Q v).tolerance = some Q.tolerance := rfl
    rw [t1, t2]
    simp only [e1, e2, e3]
    split_ifs
    · simp [OC.stop]
    · simp [OC.stop]
    · exact ih (j + 1) (0.5 * (l1 + l2)) l2
    · exact ih (j + 1) l1 (0.5 * (l1 + l2))

/-- The volume error the hypothesis of `C130_exact_bisection_agrees` asks for exists. -/
example [Fintype E] (Q : OC.Params E) (hEta : 0 ≤ Q.eta) (n : ℕ) (l1 l2 : ℝ) : ∃ v, bisect exact (ofExact Q v) n (some l1) (some l2) =
    (some (OC.bisect Q n 0 l1 l2).lmid, (OC.bisect Q n 0 l1 l2).volError, (OC.bisect Q n 0 l1 l2).rho) :=
  ⟨fun r => if ∃ e ∈ Q.design, r e = none then none
    else some ((∑ e ∈ Q.design, Projection.heavisideInplace (Q.filter (fun e => if e ∈ Q.design then (r e).getD 0 else Q.rhoFull e) e)
      Q.beta Q.betaEta * Q.volume e) / Q.volumeSum - Q.volFrac),
    C130_exact_bisection_agrees Q hEta _ (fun lmid => by
      have h : (fun e => if e ∈ Q.design then (OC.candidate Q lmid e).getD 0 else Q.rhoFull e) = OC.fullCandidate Q lmid := by
        funext e; unfold OC.fullCandidate; congr
      simp only [h, OC.volError]) n 0 l1 l2⟩

theorem exact_logs : Logs exact (fun _ => True) (fun _ => True) where
  log := by
    intro a _ h
    simp only [exact, Rat.cast_zero] at h ⊢
    exact ⟨Real.log a, by simp [h], trivial⟩
  exp := fun a => ⟨_, rfl⟩
  neg := fun a => ⟨_, rfl⟩
  sub_small := fun a b _ _ => ⟨_, rfl, trivial⟩
  twice := fun a _ => ⟨_, rfl, trivial⟩
  sub_num := fun a b _ => ⟨_, rfl⟩

/-- Exact arithmetic with positive bounds and a move limit that is not negative meets the hypotheses of `C131_logmoc_update`. -/
example (r d h m g : ℝ) (hm : 0 ≤ m) (hg : 0 ≤ g) :
    NumberIn (0.01 : ℝ) 1 (logUpdate exact (some r) (some d) (some h) (some m) (some 0.01) (some 1) (some g)) := by
  refine C131_logmoc_update exact_signs exact_logs trivial trivial (by simp only [exact, Rat.cast_zero]; norm_num) (by norm_num) trivial
    trivial (fun n hn => ⟨trivial, ?_⟩) ?_
  · simp only [exact, Option.map_some, Option.some.injEq] at hn
    linarith
  · intro x hx _
    have h0 : (0 : ℝ) < x := lt_of_lt_of_le (by norm_num) hx
    refine ⟨m / x + 1, ?_, trivial, ?_⟩
    · simp [exact, lift2, h0, Real.exp_log h0, h0.ne']
    · simp only [exact, Rat.cast_zero]
      have := div_nonneg hm h0.le
      linarith

/-- The configuration of the exact model. -/
def exactCfg (c : OC.Cfg E) : OCCfg ℝ where
  rhoMin := c.rhoMin
  rhoMax := c.rhoMax
  rateMin := c.rateMin
  rateMax := c.rateMax
  scaleFloor := c.scaleFloor
  lambdaLower := c.lambdaLower
  lambdaUpper := c.lambdaUpper

/-- The inputs of the exact model. -/
def exactInputs (a : OC.StepArgs E) (dC : E → ℝ) (stat : ℝ) (v : (E → Flt ℝ) → Flt ℝ) : Inputs ℝ E where
  dC := fun e => some (dC e)
  stat := some stat
  moveLimit := some a.moveLimit
  eta := some a.eta
  volError := v

omit [DecidableEq E] in
/-- **C130 (link to the exact model, OC update).** What the exact model's update returns (densities, running scale) the floating-point
update returns in exact arithmetic, for the same sensitivities, statistic, schedules and volume error, whenever the exponent is not negative
and the running scale not 0. -/
theorem C130_exact_oc_update_agrees [Fintype E] (c : OC.Cfg E) (a : OC.StepArgs E) (rs : ℝ) (rhoState rho dC : E → ℝ) (out : OC.UpdateOut E)
    (h : OC.rhoUpdate c a rs rhoState rho dC = .ok out) (hEta : 0 ≤ a.eta) (hrs : out.runningScale ≠ 0) (stat : ℝ)
    (hstat : OC.sensScale c a dC = .ok (max stat c.scaleFloor)) (v : (E → Flt ℝ) → Flt ℝ)
    (hv : ∀ lmid, v (OC.candidate (OC.mkParams c a out.runningScale rhoState rho dC) lmid) =
      OC.volError (OC.mkParams c a out.runningScale rhoState rho dC) lmid) :
    ocUpdate exact (exactCfg c) a.iterNum
      (exactInputs a dC stat v)
      (some rs) (fun e => some (rho e)) = (some out.runningScale, out.rho) := by
  unfold OC.rhoUpdate at h
  rw [hstat] at h
  replace h := Except.ok.inj h
  have hrs' : out.runningScale = OC.newRunningScale a.iterNum rs (max stat c.scaleFloor) := by rw [← h]
  have hrho : out.rho = (OC.bisection (OC.mkParams c a out.runningScale rhoState rho dC) 1000 c.lambdaLower c.lambdaUpper).rho := by
    rw [hrs', ← h]
  have hmax : pyMax (some stat) (some c.scaleFloor) = some (max stat c.scaleFloor) := by
    unfold pyMax
    by_cases hl : stat < c.scaleFloor
    · rw [if_pos ⟨_, _, rfl, rfl, hl⟩, max_eq_right hl.le]
    · rw [if_neg, max_eq_left (not_lt.mp hl)]
      rintro ⟨x, y, hx, hy, hxy⟩
      cases hx; cases hy
      exact hl hxy
  have hscale : ∀ C : OCCfg ℝ, C.scaleFloor = c.scaleFloor → runningScale exact C a.iterNum (some rs) (some stat) = some out.runningScale := by
    intro C hC
    rw [hrs']
    unfold runningScale OC.newRunningScale
    simp only [hC, hmax]
    split_ifs
    · simp only [exact, lift2]
      norm_num
    · rfl
  unfold ocUpdate
  simp only
  rw [show (exactInputs a dC stat v).stat = some stat from rfl, hscale (exactCfg c) rfl, hrho]
  have hP : mkParams exact (exactCfg c)
      (exactInputs a dC stat v)
      (some out.runningScale) (fun e => some (rho e)) = ofExact (OC.mkParams c a out.runningScale rhoState rho dC) v := by
    simp only [mkParams, ofExact, OC.mkParams, exact, lift2, if_neg hrs, exactCfg, exactInputs]
    norm_num
  rw [hP, show (exactCfg c).lambdaLower = c.lambdaLower from rfl, show (exactCfg c).lambdaUpper = c.lambdaUpper from rfl,
    C130_exact_bisection_agrees _ hEta v hv 1000 0 c.lambdaLower c.lambdaUpper]
  rfl

omit [DecidableEq E] in
/-- **C130 (link to the exact model, LogMOC update).** In exact arithmetic, with `0 < rho_min ≤ rho_max` and a move limit that is not
negative, the floating-point update is the one C19–C21 are about. -/
theorem C130_exact_logmoc_agrees (rho dL eta moveLimit lo hi lagClip : ℝ) (hpos : 0 < lo) (hbox : lo ≤ hi) (hm : 0 ≤ moveLimit) :
    logUpdate exact (some rho) (some dL) (some eta) (some moveLimit) (some lo) (some hi) (some lagClip) =
      some (LogMOC.logUpdate rho dL eta moveLimit lo hi lagClip) := by
  have h1 : 0 < min (max rho lo) hi := lt_min (lt_max_of_lt_right hpos) (hpos.trans_le hbox)
  have h2 : 0 < moveLimit / Real.exp (Real.log (min (max rho lo) hi)) + 1 := by
    have := div_nonneg hm (Real.exp_pos (Real.log (min (max rho lo) hi))).le
    linarith
  simp [logUpdate, exact, lift2, clip_number, h1, h2, LogMOC.logUpdate, OC.clip, (Real.exp_pos _).ne', Option.bind]

omit [DecidableEq E] in
/-- **C132 (link to the exact model).** The same for LogMOC's multiplier. -/
theorem C132_exact_multiplier_agrees [Fintype E] (c : LogMOC.Cfg E) (k : ℕ) (lam vErr : ℝ) :
    lambdaUpdate exact c.augmented (some c.muP) (some c.lambdaDecay) (some c.lambdaLower) (some c.lambdaUpper) k (some lam) (some vErr) =
      some (LogMOC.lambdaUpdate c k lam vErr) := by
  unfold lambdaUpdate LogMOC.lambdaUpdate
  simp only
  split_ifs <;> simp [exact, lift2, clip_number, OC.clip]

/-- A run in fixed-point arithmetic: three elements, the last one pinned; the sensitivities are minus the densities, the volume error is
the density of element 0 minus 0.4. -/
def demoPlan : Plan ℤ (Fin 3) Unit (Inputs ℤ (Fin 3)) where
  maxIters := 10
  recordTimes := 5
  restart := false
  restartFrom := -1
  valInit := some 800000000000
  design := {0, 1, 2}
  pinned := some {2}
  fixed := ∅
  analyse := fun _ rho _ => ((), .ok
    { dC := fun e => (rho e).map fun a => -a, stat := rho 0, moveLimit := some 400000000000, eta := some 1000000000000,
      volError := fun r => (r 0).map fun a => a - 800000000000 })
  record := fun _ _ _ _ => ((), .ok false)
  exportHist := id
  importHist := id
  initSched := fun _ => ((), .ok ())

/-- `rho_min = 0.01`, `rho_max = 1`, rates 0.7 and 1.3, scale floor 0.001, multipliers from 1e-7 to 1000. -/
def demoCfg : OCCfg ℤ where
  rhoMin := 20000000000
  rhoMax := 2000000000000
  rateMin := 1400000000000
  rateMax := 2600000000000
  scaleFloor := 2000000000
  lambdaLower := 200000
  lambdaUpper := 2000000000000000

theorem demoCfg_sane : Sane fixedPoint (fun x => -1208925819614629174706176 ≤ x ∧ x ≤ 1208925819614629174706176) demoCfg where
  box := by decide
  lo := by decide
  hi := by decide
  rates := by decide
  rlo := by decide
  rhi := by decide
  l0 := by rw [fixedPoint_zero]; decide
  l1 := by decide
  l2 := by decide
  twice := ⟨4000000000000000, by decide, by decide⟩
  shifted := by
    have : fixedPoint.lit (1 / 10 ^ 12) = 2 := by
      show ⌊(1 / 10 ^ 12 : ℚ) * 2000000000000⌋ = _
      norm_num
    rw [this]
    exact ⟨2000000000000002, by decide, by decide⟩
  floor := by rw [fixedPoint_zero]; decide
  weight := by
    have h1 : fixedPoint.lit (6 / 10) = 1200000000000 := by
      show ⌊(6 / 10 : ℚ) * 2000000000000⌋ = _
      norm_num
    have h2 : fixedPoint.lit 1 = 2000000000000 := by
      show ⌊(1 : ℚ) * 2000000000000⌋ = _
      norm_num
    rw [h1, h2, fixedPoint_zero]
    exact ⟨800000000000, 800000000, by decide, by decide, by decide, by decide, by decide⟩

/-- Case for C130–C132: every history of calls of the fixed-point run keeps elements 0 and 1 numbers in `[0.01, 1]`. -/
example (cs : List Call) (h : (history (ocSys fixedPoint demoCfg demoPlan) cs (fresh (fun _ => none) ((), some 0) [])).started = true) :
    NumberIn 20000000000 2000000000000
      ((history (ocSys fixedPoint demoCfg demoPlan) cs (fresh (fun _ => none) ((), some 0) [])).world.rho 0) := by
  refine (C131_oc_run (fixedPoint_halves _) fixedPoint_directed fixedPoint_signs demoCfg demoCfg_sane demoPlan 800000000000 rfl ?_ _ () 0
    (by rw [fixedPoint_zero]) [] (fun _ _ h => (nomatch h)) cs).1 h 0 ⟨by decide, by decide, {2}, rfl, by decide⟩
  rintro k rho x y i hi hG
  simp only [demoPlan, Prod.mk.injEq, Except.ok.injEq] at hi
  obtain ⟨-, rfl⟩ := hi
  obtain ⟨v, hv, hv1, hv2⟩ := hG 0 ⟨by decide, by decide, {2}, rfl, by decide⟩
  refine ⟨⟨v, hv⟩, ⟨_, rfl⟩, ⟨_, rfl, by rw [fixedPoint_zero]; decide, by decide⟩, ?_⟩
  intro e he
  obtain ⟨w, hw, hw1, hw2⟩ := hG e he
  have h1 : demoCfg.rhoMin = 20000000000 := rfl
  have h2 : demoCfg.rhoMax = 2000000000000 := rfl
  rw [h1] at hw1; rw [h2] at hw2
  refine ⟨-w, by simp [hw], by omega, by rw [fixedPoint_zero]; omega⟩

/-- The hypotheses of C130 without those of C131: a run whose sensitivities are positive numbers. -/
example (cs : List Call) :=
  C130_oc_run (X := Unit) fixedPoint_directed demoCfg (by decide)
    { demoPlan with analyse := fun _ rho _ => ((), .ok { dC := rho, stat := rho 0, moveLimit := some 1, eta := none, volError := fun _ => none }) }
    (by
      rintro k rho x y i m h hm
      simp only [Prod.mk.injEq, Except.ok.injEq] at h
      obtain ⟨-, rfl⟩ := h
      cases hm
      rw [fixedPoint_zero]; decide)
    (fun _ => none) ((), some 0) [] (fun _ _ h => (nomatch h)) cs

end
end Verif.Rounded
