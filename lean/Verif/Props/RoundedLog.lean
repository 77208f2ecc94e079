import Verif.Lemmas.Size
import Verif.Props.RoundedRun

/-! **C140** Whole LogMOC runs in double precision. -/
namespace Verif.Spec.Format
open Verif.Rounded Verif.Spec
open Verif.Driver (history)

noncomputable section
open Classical

variable {fl : ℝ → WithBot (WithTop doubles)} (h : DoubleRounding fl)
variable (log exp tanh cosh : Flt (doubleFormat fl h).Num → Flt (doubleFormat fl h).Num)
variable {E X : Type}

local notation "𝔻" => doubleFormat fl h

theorem fin_some {f : Format} {c : f.Num} {lo hi : ℝ} (hc : Within f lo hi (some c)) : f.Fin c := by
  obtain ⟨z, hz, -, -⟩ := within_iff.mp hc
  rw [Option.some.inj hz]
  exact f.fin_num z

theorem lit_zero : ((𝔻).arith log exp).lit 0 = fl 0 := by show fl ((0 : ℚ) : ℝ) = _; rw [Rat.cast_zero]

/-- The laws `C131_logmoc_update` asks for hold in double precision. -/
theorem C140_double_logs (hl : FairLogExp (𝔻) log exp) :
    Logs ((𝔻).arith log exp) (𝔻).Fin (fun c => Within (𝔻) (-1024) 1024 (some c)) where
  log := by
    intro a ha h0
    obtain ⟨z, rfl⟩ := (𝔻).fin_cases ha
    rw [lit_zero] at h0
    have := hl.log_value z ((𝔻).zero_lt_num.mp h0)
    obtain ⟨c, hc, -⟩ := within_fin this
    exact ⟨c, hc, by rw [← hc]; exact this⟩
  exp := hl.exp_value
  neg := fun a => ⟨(𝔻).negate a, rfl⟩
  sub_small := by
    intro a b ha hb
    have m : (2 : ℝ) ^ 11 ∈ (𝔻).F := p2_mem h 11 (by norm_num)
    exact within_fin (within_sub ha hb ((𝔻).neg _ m) m (by norm_num) (by norm_num))
  twice := by
    intro a ha
    have m : (2 : ℝ) ^ 1 ∈ (𝔻).F := p2_mem h 1 (by norm_num)
    have h2 : Size (𝔻) 1 (some (((𝔻).arith log exp).lit 2)) :=
      within_lit ((𝔻).neg _ m) m (by push_cast; norm_num) (by push_cast; norm_num)
    exact within_fin (Size.mul h2 (Size.of ha (k := 10) (by norm_num) (by norm_num)) (c := 11) (by norm_num) (by norm_num))
  sub_num := by
    intro a b ha
    obtain ⟨z, hz, -, -⟩ := within_iff.mp ha
    rw [Option.some.inj hz]
    rcases (𝔻).num_cases b with rfl | rfl | ⟨w, rfl⟩
    · exact ⟨_, rfl⟩
    · exact ⟨_, rfl⟩
    · show ∃ c, (𝔻).add (some ((𝔻).num z)) (some ((𝔻).negate ((𝔻).num w))) = some c
      rw [negate_num, add_num]; exact ⟨_, rfl⟩

theorem lo_tenth : Within (𝔻) (2 ^ (-10 : ℤ)) 1 (some (fl (1 / 100))) :=
  within_fl (f := 𝔻) (doubles_dyadic (-10) (by norm_num) (by norm_num)) (𝔻).one (by norm_num) (by norm_num)

/-- Densities from 0.01 to 1 keep the quotient of the move limit finite. -/
theorem C140_double_bounded (hl : FairLogExp (𝔻) log exp) {m : (𝔻).Num} (hm : Within (𝔻) 0 (2 ^ 200) (some m)) :
    Bounded ((𝔻).arith log exp) (𝔻).Fin (fl (1 / 100)) (fl 1) m := by
  intro x h1 h2
  have h3 : x ≤ (𝔻).num ⟨1, (𝔻).one⟩ := by rw [← fl_one]; exact h2
  obtain ⟨w, hw, w0, w1⟩ := within_iff.mp (lo_tenth h)
  rw [Option.some.inj hw] at h1
  have h1' : (𝔻).num w ≤ x := h1
  obtain ⟨z, rfl⟩ : ∃ z, x = (𝔻).num z := by
    rcases (𝔻).num_cases x with rfl | rfl | hz
    · exact absurd (le_bot_iff.mp h1') ((𝔻).fin_num _).1
    · exact absurd (top_le_iff.mp h3) ((𝔻).fin_num _).2
    · exact hz
  have z1 : 2 ^ (-10 : ℤ) ≤ (z : ℝ) := w0.trans ((𝔻).num_le.mp h1')
  have he := hl.inverse z z1 ((𝔻).num_le.mp h3)
  have p211 : (2 : ℝ) ^ 211 ∈ (𝔻).F := p2_mem h 211 (by norm_num)
  have hd := within_div hm he (by positivity) p211 (by
    rw [show (2 : ℝ) ^ (-11 : ℤ) = (2 ^ 11)⁻¹ by norm_num, le_mul_inv_iff₀ (by positivity)]
    exact p2_mul (by norm_num))
  have one' : Within (𝔻) 1 1 (some (((𝔻).arith log exp).lit 1)) := within_lit (𝔻).one (𝔻).one (by norm_num) (by norm_num)
  have hu := within_add hd one' (𝔻).one (p2_mem h 212 (by norm_num)) (by norm_num) (by
    rw [pow_succ (2 : ℝ) 211, mul_two]
    exact add_le_add le_rfl (one_le_pow₀ (by norm_num)))
  obtain ⟨u, hu1, hu2, -⟩ := within_iff.mp hu
  refine ⟨_, hu1, (𝔻).fin_num u, ?_⟩
  rw [lit_zero]
  exact (𝔻).zero_lt_num.mpr (lt_of_lt_of_le one_pos hu2)

section
variable {S : LogSetup (doubleFormat fl h).Num E X}

/-- The filter, or its transpose, of numbers of bounded size. -/
theorem forward_size {T : Setup (doubleFormat fl h).Num E X} (hS : UsualSetup (𝔻) T) (k : ℕ) {v : E → Flt (𝔻).Num} {a c : ℕ}
    (hv : ∀ i ∈ T.ids, Size (𝔻) a (v i)) (hc : 20 + a ≤ c) (h971 : c ≤ 971) {i : E} (hi : i ∈ T.ids) :
    Size (𝔻) c (filterForward ((𝔻).arith log exp) (fun i => normRow ((𝔻).arith log exp) (T.rows k i)) v i) := by
  obtain ⟨r1, r2⟩ := hS.rows k i hi
  refine Size.total log exp (a := a) (b := 20) ?_ ?_ (by norm_num) hc h971
  · intro x hx
    obtain ⟨e, he, rfl⟩ := List.mem_map.mp hx
    obtain ⟨⟨e', he', e1⟩, hw⟩ := (normRow_mem h log exp r1).2 e he
    refine Size.mul (a := 0) (Size.of hw (by norm_num) (by norm_num)) (hv e.1 ?_) (by omega) (by omega)
    rw [← e1]; exact r2 e' he'
  · rw [List.length_map, (normRow_mem h log exp r1).1]; exact r1.count

theorem gradient_size {T : Setup (doubleFormat fl h).Num E X} (hS : UsualSetup (𝔻) T) (k : ℕ) {v : E → Flt (𝔻).Num} {a c : ℕ}
    (hv : ∀ i ∈ T.ids, Size (𝔻) a (v i)) (hc : 50 + a ≤ c) (h971 : c ≤ 971) (j : E) :
    Size (𝔻) c (filterGradient ((𝔻).arith log exp) T.ids (fun i => normRow ((𝔻).arith log exp) (T.rows k i)) v j) := by
  refine Size.total log exp (a := a) (b := 50) ?_ ?_ (by norm_num) hc h971
  · intro x hx
    obtain ⟨i, hi, hx⟩ := List.mem_flatMap.mp hx
    obtain ⟨e, he, rfl⟩ := List.mem_map.mp hx
    have hw := ((normRow_mem h log exp (hS.rows k i hi).1).2 e (List.mem_filter.mp he).1).2
    exact Size.mul (a := 0) (Size.of hw (by norm_num) (by norm_num)) (hv i hi) (by omega) (by omega)
  · have key : ∀ ids : List E, (∀ i ∈ ids, i ∈ T.ids) → (ids.flatMap fun i => ((normRow ((𝔻).arith log exp) (T.rows k i)).filter fun e => e.1 = j).map
        fun e => ((𝔻).arith log exp).mul e.2 (v i)).length ≤ ids.length * 2 ^ 20 := by
      intro ids
      induction ids with
      | nil => intro _; simp
      | cons i ids ih =>
        intro hh
        have i1 := ih fun i hi => hh i (List.mem_cons_of_mem _ hi)
        have hr := (hS.rows k i (hh i List.mem_cons_self)).1
        have l1 := (normRow_mem h log exp hr).1
        have l2 := List.length_filter_le (fun e : E × Flt (𝔻).Num => decide (e.1 = j)) (normRow ((𝔻).arith log exp) (T.rows k i))
        have l3 := hr.count
        rw [List.flatMap_cons, List.length_append, List.length_map, List.length_cons, Nat.succ_mul]
        omega
    refine (key T.ids fun _ hi => hi).trans ?_
    calc T.ids.length * 2 ^ 20 ≤ 2 ^ 30 * 2 ^ 20 := Nat.mul_le_mul_right _ hS.count
      _ = 2 ^ 50 := by norm_num

/-- The product of numbers that are not negative. -/
theorem within_mul_box {a b c d lo hi : ℝ} {x y : Flt (𝔻).Num} (hx : Within (𝔻) a b x) (hy : Within (𝔻) c d y) (ha : 0 ≤ a) (hc : 0 ≤ c)
    (m1 : lo ∈ (𝔻).F) (m2 : hi ∈ (𝔻).F) (h1 : lo ≤ a * c) (h2 : b * d ≤ hi) : Within (𝔻) lo hi ((𝔻).mul x y) := by
  obtain ⟨z, rfl, z0, z1⟩ := within_iff.mp hx
  obtain ⟨w, rfl, w0, w1⟩ := within_iff.mp hy
  rw [mul_num]
  exact within_fl m1 m2 (h1.trans (mul_le_mul z0 w0 hc (ha.trans z0))) (le_trans (mul_le_mul z1 w1 (hc.trans w0) ((ha.trans z0).trans z1)) h2)

/-- The derivative of the volume fraction. -/
theorem volumeChain_size (hs : (𝔻).Symmetric) (ht : GoodTanh (𝔻) tanh) (hc : FairCosh (𝔻) cosh) (hS : UsualLogRun (𝔻) S) (k : ℕ) (x : X)
    {beta : Flt (𝔻).Num} (hb : Within (𝔻) (1 / 2) (2 ^ 20) beta) (rho : E → Flt (𝔻).Num) (hrho : ∀ i ∈ S.ids, Within (𝔻) 0 1 (rho i))
    {i : E} (hi : i ∈ S.ids) : Size (𝔻) 73 (volumeChain ((𝔻).arith log exp) tanh cosh S k x beta rho i) := by
  have hf : ∀ i ∈ S.ids, Within (𝔻) 0 2 (filtered ((𝔻).arith log exp) S.toSetup k rho i) := by
    intro i hi
    obtain ⟨r1, r2⟩ := hS.rows k i hi
    exact Within.mono (C138_filter_range h log exp r1 rho (fun e he => hrho _ (r2 e he)) _ i rfl) le_rfl (by norm_num)
  have hv : ∀ i ∈ S.ids, Size (𝔻) 23 (((𝔻).arith log exp).mul (projectDeriv ((𝔻).arith log exp) tanh cosh (filtered ((𝔻).arith log exp) S.toSetup k rho i)
      beta S.betaEta) (S.weight i)) := fun i hi =>
    Size.mul (Size.of (projectDeriv_wide h log exp tanh cosh hs ht hc (hf i hi) hb hS.threshold) (k := 23) (by norm_num) le_rfl)
      (Size.of (hS.weight i hi) (k := 0) (by norm_num) (by norm_num)) (by norm_num) (by norm_num)
  unfold volumeChain
  split_ifs
  · exact forward_size h log exp hS.toUsualSetup k hv (by norm_num) (by norm_num) hi
  · exact gradient_size h log exp hS.toUsualSetup k hv (by norm_num) (by norm_num) i

theorem zp_inv (k : ℕ) : (2 : ℝ) ^ (-(k : ℤ)) = (2 ^ k)⁻¹ := by rw [zpow_neg, zpow_natCast]

/-- `max(percentile, floor)`. -/
theorem floored {b : ℕ} {x y : Flt (𝔻).Num} (hx : Within (𝔻) 0 (2 ^ b) x) (hy : Within (𝔻) (2 ^ (-40 : ℤ)) 1 y) :
    Within (𝔻) ((2 ^ 40)⁻¹) (2 ^ b) (pyMax x y) := by
  have := within_pyMax hx hy (one_le_pow₀ (by norm_num))
  refine Within.mono this ?_ le_rfl
  rw [show (-40 : ℤ) = -((40 : ℕ) : ℤ) by norm_num, zp_inv]
  exact le_max_right _ _

theorem chainFactor_size (hS : UsualLogRun (𝔻) S) (k : ℕ) (x : X) {dC dV : E → Flt (𝔻).Num} (hC : ∀ i ∈ S.ids, Size (𝔻) 687 (dC i))
    (hV : ∀ i ∈ S.ids, Size (𝔻) 73 (dV i)) (vErr : Flt (𝔻).Num) :
    Size (𝔻) 748 (chainFactor ((𝔻).arith log exp) S k x dC dV vErr) := by
  have h1 := floored h (hS.percentile 0 k x dC 687 (by norm_num) hC) hS.scaleFloor
  have h2 := floored h (hS.percentile 1 k x dV 73 (by norm_num) hV) hS.chainFloor
  have hd : Size (𝔻) 728 ((𝔻).div (pyMax (S.percentile 0 k x dC) S.scaleFloor) (pyMax (S.percentile 1 k x dV) S.chainFloor)) :=
    Size.div (Size.of h1 (k := 688) (le_trans (neg_nonpos.mpr (p2_pos _).le) (by positivity)) le_rfl) h2 (by norm_num) (by norm_num)
  unfold chainFactor
  rcases hgu : S.gainUnder with _ | g
  · exact Size.mul hS.gain hd (by norm_num) (by norm_num)
  · by_cases hv : Lt vErr (some (((𝔻).arith log exp).lit 0))
    · simp only [if_pos hv]
      exact Size.mul (hS.gainUnder g hgu) hd (by norm_num) (by norm_num)
    · simp only [if_neg hv]
      exact Size.mul hS.gain hd (by norm_num) (by norm_num)

/-- The derivative of the Lagrangian is a finite number. -/
theorem lagrangian_size (hs : (𝔻).Symmetric) (ht : GoodTanh (𝔻) tanh) (hc : FairCosh (𝔻) cosh) (hS : UsualLogRun (𝔻) S) (k : ℕ) (x : X)
    {beta : Flt (𝔻).Num} (hb : Within (𝔻) (1 / 2) (2 ^ 20) beta) (rho dC : E → Flt (𝔻).Num) (hrho : ∀ i ∈ S.ids, Within (𝔻) 0 1 (rho i))
    (hC : ∀ i ∈ S.ids, Size (𝔻) 687 (dC i)) (vErr : Flt (𝔻).Num) {coeff : Flt (𝔻).Num} (hco : Size (𝔻) 41 coeff) {i : E} (hi : i ∈ S.ids) :
    Size (𝔻) 883 (lagrangian ((𝔻).arith log exp) tanh cosh S k x beta rho dC vErr coeff i) := by
  have hV : ∀ i ∈ S.ids, Size (𝔻) 73 (volumeChain ((𝔻).arith log exp) tanh cosh S k x beta rho i) := fun i hi =>
    volumeChain_size h log exp tanh cosh hs ht hc hS k x hb rho hrho hi
  have key : ∀ dV' : E → Flt (𝔻).Num, (∀ i ∈ S.ids, Size (𝔻) 821 (dV' i)) →
      ∀ i ∈ S.ids, Size (𝔻) 863 (((𝔻).arith log exp).add (dC i) (((𝔻).arith log exp).mul coeff (dV' i))) := fun dV' hv i hi =>
    Size.add (hC i hi) (Size.mul hco (hv i hi) (c := 862) (by norm_num) (by norm_num)) (by norm_num) (by norm_num) (by norm_num)
  have hv' : ∀ i ∈ S.ids, Size (𝔻) 821 ((if S.normalizeChain = true then fun i => ((𝔻).arith log exp).mul
      (volumeChain ((𝔻).arith log exp) tanh cosh S k x beta rho i) (chainFactor ((𝔻).arith log exp) S k x dC
        (volumeChain ((𝔻).arith log exp) tanh cosh S k x beta rho) vErr) else volumeChain ((𝔻).arith log exp) tanh cosh S k x beta rho) i) := by
    intro i hi
    split_ifs
    · exact Size.mul (hV i hi) (chainFactor_size h log exp hS k x hC hV vErr) (by norm_num) (by norm_num)
    · exact Size.mono (hV i hi) (by norm_num)
  unfold lagrangian
  split_ifs with hfl
  · rename_i hn
    simp only [hn, if_true] at hv'
    exact forward_size h log exp hS.toUsualSetup k (key _ hv') (by norm_num) (by norm_num) hi
  · rename_i hn
    simp only [hn, if_false, Bool.false_eq_true] at hv'
    exact forward_size h log exp hS.toUsualSetup k (key _ hv') (by norm_num) (by norm_num) hi
  · rename_i hn
    simp only [hn, if_true] at hv'
    exact Size.mono (key _ hv' i hi) (by norm_num)
  · rename_i hn
    simp only [hn, if_false, Bool.false_eq_true] at hv'
    exact Size.mono (key _ hv' i hi) (by norm_num)

/-- The new multiplier. -/
theorem lambda_size (hS : UsualLogRun (𝔻) S) (k : ℕ) {lam vErr : Flt (𝔻).Num} (hlam : Size (𝔻) 100 lam) (hv : Size (𝔻) 10 vErr) :
    ∃ lo hi v : (𝔻).F, S.lambdaLower = some ((𝔻).num lo) ∧ S.lambdaUpper = some ((𝔻).num hi) ∧
      lambdaUpdate ((𝔻).arith log exp) S.augmented S.muP S.decay S.lambdaLower S.lambdaUpper k lam vErr = some ((𝔻).num v) ∧
      (lo : ℝ) ≤ v ∧ (v : ℝ) ≤ hi ∧ -2 ^ 40 ≤ (lo : ℝ) ∧ (hi : ℝ) ≤ 2 ^ 40 := by
  obtain ⟨lo, hi, e1, e2, b1, b2, b3⟩ := hS.bounds
  have hp : Size (𝔻) 30 ((𝔻).mul S.muP vErr) := Size.mul hS.muP hv (by norm_num) (by norm_num)
  have m1 : (2 : ℝ) ^ 1 ∈ (𝔻).F := p2_mem h 1 (by norm_num)
  have one' : Within (𝔻) 1 1 (some (((𝔻).arith log exp).lit 1)) := within_lit (𝔻).one (𝔻).one (by norm_num) (by norm_num)
  have hd : Size (𝔻) 1 ((𝔻).sub (some (((𝔻).arith log exp).lit 1)) S.decay) :=
    within_sub one' hS.decay ((𝔻).neg _ m1) m1 (by norm_num) (by norm_num)
  have hd0 : Size (𝔻) 0 S.decay := Size.of hS.decay (by norm_num) (by norm_num)
  have raw : ∃ r, lambdaUpdate ((𝔻).arith log exp) S.augmented S.muP S.decay S.lambdaLower S.lambdaUpper k lam vErr =
      clip (some r) S.lambdaLower S.lambdaUpper := by
    have go : ∀ {x : Flt (𝔻).Num}, Size (𝔻) 101 x → ∃ r, clip x S.lambdaLower S.lambdaUpper = clip (some r) S.lambdaLower S.lambdaUpper := by
      intro x hx
      obtain ⟨r, hr, -⟩ := within_fin hx
      exact ⟨r, by rw [hr]⟩
    unfold lambdaUpdate
    split_ifs
    · exact go (Size.add hlam hp (by norm_num) (by norm_num) (by norm_num))
    · exact go (Size.mono hp (by norm_num))
    · exact go (Size.add (Size.mul hd0 hlam (c := 100) (by norm_num) (by norm_num)) (Size.mul hd hp (c := 31) (by norm_num) (by norm_num))
        (by norm_num) (by norm_num) (by norm_num))
    · exact go (Size.mono hp (by norm_num))
  obtain ⟨r, hr⟩ := raw
  have hcl := within_clip (fl := fl) (h := h) (x := r) (lo := lo) (hi := hi) b2
  obtain ⟨v, hv1, hv2, hv3⟩ := within_iff.mp hcl
  refine ⟨lo, hi, v, e1, e2, ?_, hv2, hv3, b1, b3⟩
  rw [hr, e1, e2]
  exact hv1

/-- The new running scale. -/
theorem logScale_within (k : ℕ) {old : Option (Flt (𝔻).Num)} (hold : ∀ r, old = some r → Within (𝔻) ((2 ^ 41)⁻¹) (2 ^ 886) r) {scale : Flt (𝔻).Num}
    (hsc : Within (𝔻) ((2 ^ 40)⁻¹) (2 ^ 884) scale) {r : Flt (𝔻).Num} (hr : logScale ((𝔻).arith log exp) k old scale = .ok r) :
    Within (𝔻) ((2 ^ 41)⁻¹) (2 ^ 886) r := by
  have hle : ((2 : ℝ) ^ 41)⁻¹ ≤ (2 ^ 40)⁻¹ := inv_anti₀ (p2_pos _) (p2_le (by norm_num))
  have m41 : ((2 : ℝ) ^ 41)⁻¹ ∈ (𝔻).F := by
    rw [← zp_inv]; exact doubles_dyadic _ (by norm_num) (by norm_num)
  unfold logScale at hr
  by_cases hk : k > 1
  · rw [if_pos hk] at hr
    rcases old with _ | r0
    · simp at hr
    · simp only [Except.ok.injEq] at hr
      subst hr
      have h0 := hold r0 rfl
      have d8 : (1 / 8 : ℝ) ∈ (𝔻).F := ⟨1, -3, by norm_num, by norm_num, by norm_num, by norm_num⟩
      have d4 : (1 / 4 : ℝ) ∈ (𝔻).F := ⟨1, -2, by norm_num, by norm_num, by norm_num, by norm_num⟩
      have w2 : Within (𝔻) (1 / 8) (1 / 4) (some (((𝔻).arith log exp).lit (2 / 10))) := within_lit d8 d4 (by norm_num) (by norm_num)
      have one' : Within (𝔻) 1 1 (some (((𝔻).arith log exp).lit 1)) := within_lit (𝔻).one (𝔻).one (by norm_num) (by norm_num)
      have w8 : Within (𝔻) (1 / 2) 1 ((𝔻).sub (some (((𝔻).arith log exp).lit 1)) (some (((𝔻).arith log exp).lit (2 / 10)))) :=
        within_sub one' w2 (𝔻).half (𝔻).one (by norm_num) (by norm_num)
      have p1 : Within (𝔻) 0 (2 ^ 884) ((𝔻).mul (some (((𝔻).arith log exp).lit (2 / 10))) r0) :=
        within_mul_box h w2 h0 (by norm_num) (by positivity) (𝔻).zero (p2_mem h 884 (by norm_num)) (by positivity) (by
          rw [show (2 : ℝ) ^ 886 = 4 * 2 ^ 884 by rw [show (886 : ℕ) = 2 + 884 by norm_num, pow_add]; norm_num, ← mul_assoc]
          norm_num)
      have p2 : Within (𝔻) ((2 ^ 41)⁻¹) (2 ^ 884) ((𝔻).mul ((𝔻).sub (some (((𝔻).arith log exp).lit 1)) (some (((𝔻).arith log exp).lit (2 / 10)))) scale) :=
        within_mul_box h w8 hsc (by norm_num) (by positivity) m41 (p2_mem h 884 (by norm_num)) (by
          rw [pow_succ (2 : ℝ) 40, mul_inv]; linarith) (by rw [one_mul])
      refine within_add p1 p2 m41 (p2_mem h 886 (by norm_num)) (by rw [zero_add]) ?_
      rw [← mul_two, ← pow_succ]
      exact p2_le (by norm_num)
  · rw [if_neg hk] at hr
    cases hr
    exact Within.mono hsc hle (p2_le (by norm_num))

/-- What an iteration finds: a finite multiplier and, if there is one, a positive running scale. -/
def LogGood (f : Format) (s : LogState f.Num) : Prop :=
  Size f 100 s.lam ∧ ∀ r, s.scale = some r → Within f ((2 ^ 41)⁻¹) (2 ^ 886) r

/-- **C140 (b)** One analysis: whatever it raises, the multiplier stays finite and the running scale positive and finite; if it succeeds, the
multiplier is in `[lambda_lower, lambda_upper]`, the running scale exists and every scaled derivative of the Lagrangian is a finite number. -/
theorem C140_analysis (hs : (𝔻).Symmetric) (ht : GoodTanh (𝔻) tanh) (hc : FairCosh (𝔻) cosh) (hS : UsualLogRun (𝔻) S) (k : ℕ)
    (rho : E → Flt (𝔻).Num) (hrho : ∀ i ∈ S.ids, Within (𝔻) 0 1 (rho i)) (s : X × LogState (𝔻).Num) (hg : LogGood (𝔻) s.2) :
    let out := logAnalyse ((𝔻).arith log exp) tanh cosh S k rho s
    LogGood (𝔻) out.1.2 ∧ ∀ i, out.2 = .ok i →
      (∃ lo hi v : (𝔻).F, S.lambdaLower = some ((𝔻).num lo) ∧ S.lambdaUpper = some ((𝔻).num hi) ∧ out.1.2.lam = some ((𝔻).num v) ∧ (lo : ℝ) ≤ v ∧ (v : ℝ) ≤ hi) ∧
      (∃ r : (𝔻).F, out.1.2.scale = some (some ((𝔻).num r)) ∧ 0 < (r : ℝ)) ∧
      Within (𝔻) 0 (2 ^ 200) i.moveLimit ∧ Size (𝔻) 200 i.eta ∧ ∀ e ∈ S.ids, Size (𝔻) 924 (i.dL e) := by
  intro out
  obtain ⟨hlam, hold⟩ := hg
  have ho : out = logAnalyse ((𝔻).arith log exp) tanh cosh S k rho s := rfl
  unfold logAnalyse at ho
  rcases hv : S.values k s.1 with ⟨y1, er | v⟩
  · rw [hv] at ho
    simp only at ho
    rw [ho]
    exact ⟨⟨hlam, hold⟩, fun i hi => (nomatch hi)⟩
  · rw [hv] at ho
    simp only at ho
    obtain ⟨s1, s2, s3, s4⟩ := hS.schedules k _ _ v hv
    rcases hen : S.energies k v.p (projected ((𝔻).arith log exp) tanh S.toSetup k v.beta rho) y1 with ⟨y2, er | Us⟩
    · rw [hen] at ho
      simp only at ho
      rw [ho]
      exact ⟨⟨hlam, hold⟩, fun i hi => (nomatch hi)⟩
    · rw [hen] at ho
      simp only at ho
      obtain ⟨l1, l2, l3⟩ := hS.loads k _ _ _ _ Us hen
      have hf : ∀ i ∈ S.ids, Within (𝔻) 0 2 (filtered ((𝔻).arith log exp) S.toSetup k rho i) := by
        intro i hi
        obtain ⟨r1, r2⟩ := hS.rows k i hi
        exact Within.mono (C138_filter_range h log exp r1 rho (fun e he => hrho _ (r2 e he)) _ i rfl) le_rfl (by norm_num)
      obtain ⟨dC, edC⟩ : ∃ d, d = sensitivities ((𝔻).arith log exp) tanh cosh S.toSetup k v rho Us := ⟨_, rfl⟩
      obtain ⟨vErr, evE⟩ : ∃ d, d = S.error k y2 (projected ((𝔻).arith log exp) tanh S.toSetup k v.beta rho) := ⟨_, rfl⟩
      obtain ⟨lam, elam⟩ : ∃ d, d = lambdaUpdate ((𝔻).arith log exp) S.augmented S.muP S.decay S.lambdaLower S.lambdaUpper k s.2.lam vErr := ⟨_, rfl⟩
      rw [← edC, ← evE, ← elam] at ho
      have hC : ∀ i ∈ S.ids, Size (𝔻) 687 (dC i) := by
        intro i hi
        rw [edC]
        exact Size.of (sensitivities_within h log exp tanh cosh hs ht hc hS.toUsualSetup k rho hrho v s1 s2 Us l1 l2 l3 i hi) le_rfl (p2_pos _).le
      have hvE : Size (𝔻) 10 vErr := by
        rw [evE]
        exact hS.error k y2 _ fun i hi => project_wide h log exp tanh hs ht (hf i hi) s2 hS.threshold
      obtain ⟨lo, hi, w, e1, e2, e3, w1, w2, b1, b2⟩ := lambda_size h log exp hS k hlam hvE
      have hl40 : Size (𝔻) 40 lam := by
        rw [elam, e3]; exact ⟨w, rfl, b1.trans w1, w2.trans b2⟩
      have hco : Size (𝔻) 41 ((𝔻).add lam ((𝔻).mul S.augMu vErr)) :=
        Size.add hl40 (Size.mul hS.augMu hvE (c := 30) (by norm_num) (by norm_num)) (by norm_num) (by norm_num) (by norm_num)
      have hL : ∀ i ∈ S.ids, Size (𝔻) 883 (lagrangian ((𝔻).arith log exp) tanh cosh S k y2 v.beta rho dC vErr
          (((𝔻).arith log exp).add lam (((𝔻).arith log exp).mul S.augMu vErr)) i) := fun i hi =>
        lagrangian_size h log exp tanh cosh hs ht hc hS k y2 s2 rho dC hrho hC vErr hco hi
      obtain ⟨dL, edL⟩ : ∃ d, d = lagrangian ((𝔻).arith log exp) tanh cosh S k y2 v.beta rho dC vErr
          (((𝔻).arith log exp).add lam (((𝔻).arith log exp).mul S.augMu vErr)) := ⟨_, rfl⟩
      rw [← edL] at ho hL
      have hsc := floored h (hS.percentile 2 k y2 dL 883 (by norm_num) hL) hS.scaleFloor
      rcases hr : logScale ((𝔻).arith log exp) k s.2.scale (pyMax (S.percentile 2 k y2 dL) S.scaleFloor) with er | r
      · rw [hr] at ho
        simp only at ho
        rw [ho]
        exact ⟨⟨Size.mono hl40 (by norm_num), hold⟩, fun i hi => (nomatch hi)⟩
      · rw [hr] at ho
        simp only at ho
        rw [ho]
        have hrw := logScale_within h log exp k hold hsc hr
        refine ⟨⟨Size.mono hl40 (by norm_num), fun r' e => by cases e; exact hrw⟩, ?_⟩
        intro i ei
        cases ei
        refine ⟨⟨lo, hi, w, e1, e2, elam.trans e3, w1, w2⟩, ?_, s3, s4, ?_⟩
        · obtain ⟨z, hz, z0, -⟩ := within_iff.mp hrw
          exact ⟨z, by rw [hz], lt_of_lt_of_le (by positivity) z0⟩
        · intro e he
          exact Size.div (hL e he) hrw (by norm_num) (by norm_num)

variable [DecidableEq E]

/-- **C140 (a)** A LogMOC run in double precision with `rho_min = 0.01`, `rho_max = 1`, the spatial filter and the SIMP law: after every
history of calls, whatever they raised, the density of every design element and every density of a design element in a snapshot is a number
in `[rho_min, rho_max]`, never NaN. Energies, kernel values, schedules, percentiles and volume errors are arbitrary within the sizes of
`UsualLogRun`, `log` and `exp` within `FairLogExp`. -/
theorem C140_no_nan (hs : (𝔻).Symmetric) (hl : FairLogExp (𝔻) log exp) (ht : GoodTanh (𝔻) tanh) (hc : FairCosh (𝔻) cosh) (hS : UsualLogRun (𝔻) S)
    (p : Plan (𝔻).Num E X (LogInputs (𝔻).Num E)) (hd : ∀ e, e ∈ p.design ↔ e ∈ S.ids) (v0 : (𝔻).Num) (hv0 : p.valInit = some v0)
    (lagClip : (𝔻).F) (hclip : 0 ≤ (lagClip : ℝ)) (lam0 : Flt (𝔻).Num) (hlam0 : Size (𝔻) 100 lam0)
    (rho0 : E → Flt (𝔻).Num) (x : X) (files : List (Snapshot.Name × (E → Flt (𝔻).Num)))
    (hfiles : ∀ n r, Snapshot.load files n = some r → ∀ e ∈ p.design, NumberIn (fl (1 / 100)) (fl 1) (r e)) (cs : List Driver.Call) :
    let A := (𝔻).arith log exp
    let o := history (logSys A (fl (1 / 100)) (fl 1) ((𝔻).num lagClip) (logPlan A tanh cosh S p)) cs
      (Driver.fresh rho0 (x, { lam := lam0, scale := none }) files)
    (o.started = true → ∀ e ∈ p.design, NumberIn (fl (1 / 100)) (fl 1) (o.world.rho e)) ∧
    ∀ n r, Snapshot.load o.world.files n = some r → ∀ e ∈ p.design, NumberIn (fl (1 / 100)) (fl 1) (r e) := by
  intro A o
  have hbox : (fl (1 / 100) : (𝔻).Num) ≤ fl 1 := h.mono (by norm_num)
  refine history_keep (logSys A (fl (1 / 100)) (fl 1) ((𝔻).num lagClip) (logPlan A tanh cosh S p)) (fun e => e ∈ p.design) (NumberIn (fl (1 / 100)) (fl 1))
    (fun s => LogGood (𝔻) s.2) (fun _ h => h) ?_ ?_ ?_ (fun _ h => h) (fun _ h => h) ?_ ?_ rho0 (x, { lam := lam0, scale := none })
    ⟨hlam0, fun r e => absurd e (by simp)⟩ files hfiles cs
  · intro e _ _
    exact ⟨fl 1, rfl, hbox, le_rfl⟩
  · refine ⟨min (fl 1) (max (fl (1 / 100)) v0), ?_, le_min hbox (le_max_left _ _), min_le_left _ _⟩
    show minimum (some (fl 1)) (maximum (some (fl (1 / 100))) p.valInit) = _
    rw [hv0]; rfl
  · intro s hB; exact hB
  · intro k rho rho' s hB; exact hB
  · intro k rho s hB hG
    have hrho : ∀ i ∈ S.ids, Within (𝔻) 0 1 (rho i) := fun i hi => number_within h (hG i ((hd i).mpr hi))
    obtain ⟨hg, hi⟩ := C140_analysis h log exp tanh cosh hs ht hc hS k rho hrho s hB
    rcases ha : logAnalyse A tanh cosh S k rho s with ⟨y, er | i⟩
    · rw [show logAnalyse ((𝔻).arith log exp) tanh cosh S k rho s = _ from ha] at hg
      simp only [logSys, logPlan, ha]
      exact ⟨hg, by simp⟩
    · rw [show logAnalyse ((𝔻).arith log exp) tanh cosh S k rho s = _ from ha] at hg hi
      simp only [logSys, logPlan, ha, Except.ok.injEq]
      refine ⟨hg, ?_⟩
      rintro new rfl e he
      obtain ⟨-, -, hm, he1, hdL⟩ := hi i rfl
      obtain ⟨m, em, -⟩ := within_fin hm
      obtain ⟨η, eη, hη⟩ := within_fin he1
      obtain ⟨d, ed, -⟩ := within_fin (hdL e ((hd e).mp he))
      obtain ⟨r, er, -⟩ := hG e he
      show NumberIn (α := (𝔻).Num) (fl (1 / 100)) (fl 1) (logUpdate A (rho e) (i.dL e) i.eta i.moveLimit (some (fl (1 / 100))) (some (fl 1)) (some ((𝔻).num lagClip)))
      rw [em, eη, ed, er]
      refine C131_logmoc_update ((𝔻).C131_format_signs log exp) (C140_double_logs h log exp hl) ?_ ?_ ?_ hbox hη ((𝔻).fin_num lagClip) ?_
        (C140_double_bounded h log exp hl (by rw [← em]; exact hm))
      · exact fin_some (lo_tenth h)
      · rw [show fl 1 = (𝔻).num ⟨1, (𝔻).one⟩ from fl_one (𝔻)]; exact (𝔻).fin_num _
      · rw [lit_zero]
        obtain ⟨w, hw, w0, -⟩ := within_iff.mp (lo_tenth h)
        rw [Option.some.inj hw]
        exact (𝔻).zero_lt_num.mpr (lt_of_lt_of_le (by positivity) w0)
      · intro n hn
        have e1 : (𝔻).negate ((𝔻).num lagClip) = n := Option.some.inj hn
        rw [← e1, negate_num]
        exact ⟨(𝔻).fin_num _, (𝔻).num_le.mpr (by show -(lagClip : ℝ) ≤ lagClip; linarith)⟩

end

/-- The rounded real `log`. -/
def libLog (f : Format) : Flt f.Num → Flt f.Num
  | none => none
  | some none => none
  | some (some none) => some ⊤
  | some (some (some x)) => if 0 < (x : ℝ) then some (f.fl (Real.log x)) else if (x : ℝ) = 0 then some ⊥ else none

/-- The rounded real `exp`. -/
def libExp (f : Format) : Flt f.Num → Flt f.Num
  | none => none
  | some none => some (f.fl 0)
  | some (some none) => some ⊤
  | some (some (some x)) => some (f.fl (Real.exp x))

/-- The rounded real functions meet the hypothesis. -/
theorem fairLogExp_lib : FairLogExp (𝔻) (libLog (𝔻)) (libExp (𝔻)) where
  log_value := by
    rintro ⟨x, m, e, hm, e1, e2, hx⟩ h0
    have h0' : 0 < x := h0
    have l2 := Real.log_two_lt_d9
    have l2p := Real.log_pos (by norm_num : (1 : ℝ) < 2)
    have hz : (0 : ℝ) < 2 ^ e := by positivity
    have hm0 : 0 < (m : ℝ) := by
      rw [hx] at h0'
      exact (pos_iff_pos_of_mul_pos h0').mpr hz
    have hm1 : (1 : ℝ) ≤ m := by exact_mod_cast hm0
    have hm2 : (m : ℝ) ≤ 2 ^ 53 := by
      have := (le_abs_self m).trans hm.le
      exact_mod_cast this
    have hlog : Real.log x = Real.log m + e * Real.log 2 := by
      rw [hx, Real.log_mul hm0.ne' hz.ne', Real.log_zpow]
    have a1 : 0 ≤ Real.log m := Real.log_nonneg hm1
    have a2 : Real.log m ≤ 53 * Real.log 2 := by
      rw [show (53 : ℝ) * Real.log 2 = Real.log (2 ^ 53) by rw [Real.log_pow]; norm_num]
      exact Real.log_le_log hm0 hm2
    have b1 : (-1074 : ℝ) ≤ e := by exact_mod_cast e1
    have b2 : (e : ℝ) ≤ 971 := by exact_mod_cast e2
    have c1 : -1024 ≤ Real.log x := by rw [hlog]; nlinarith
    have c2 : Real.log x ≤ 1024 := by rw [hlog]; nlinarith
    have m10 : (1024 : ℝ) ∈ (𝔻).F := by
      have := p2_mem h 10 (by norm_num)
      norm_num at this; exact this
    have e3 : libLog (𝔻) (some ((𝔻).num ⟨x, m, e, hm, e1, e2, hx⟩)) = some ((𝔻).fl (Real.log x)) := if_pos h0'
    show Within (𝔻) _ _ (libLog (𝔻) (some ((𝔻).num ⟨x, m, e, hm, e1, e2, hx⟩)))
    rw [e3]
    exact within_fl ((𝔻).neg _ m10) m10 c1 c2
  exp_value := by
    intro a
    rcases (𝔻).num_cases a with rfl | rfl | ⟨z, rfl⟩ <;> exact ⟨_, rfl⟩
  inverse := by
    intro x h1 h2
    have h0 : 0 < (x : ℝ) := lt_of_lt_of_le (by positivity) h1
    have l1 := Real.log_two_lt_d9
    have l2 := Real.log_two_gt_d9
    have e1 : libLog (𝔻) (some ((𝔻).num x)) = some ((𝔻).fl (Real.log x)) := if_pos h0
    have b1 : -7 ≤ Real.log x := by
      have := Real.log_le_log (by positivity) h1
      rw [Real.log_zpow] at this
      push_cast at this
      linarith
    have b2 : Real.log x ≤ 0 := Real.log_nonpos h0.le h2
    have m7 : (7 : ℝ) ∈ (𝔻).F := ⟨7, 0, by norm_num, by norm_num, by norm_num, by norm_num⟩
    have hw : Within (𝔻) (-7) 0 (some ((𝔻).fl (Real.log x))) := within_fl ((𝔻).neg _ m7) (𝔻).zero b1 b2
    obtain ⟨y, hy, y1, y2⟩ := within_iff.mp hw
    show Within (𝔻) _ _ (libExp (𝔻) (libLog (𝔻) (some ((𝔻).num x))))
    rw [e1, hy]
    show Within (𝔻) _ _ (some ((𝔻).fl (Real.exp y)))
    have m2 : (2 : ℝ) ∈ (𝔻).F := ⟨2, 0, by norm_num, by norm_num, by norm_num, by norm_num⟩
    refine within_fl (doubles_dyadic (-11) (by norm_num) (by norm_num)) m2 ?_ ?_
    · rw [← Real.log_le_iff_le_exp (by positivity), Real.log_zpow]
      push_cast
      linarith
    · exact (Real.exp_le_one_iff.mpr y2).trans (by norm_num)

/-- `pairSetup` with the volume chain normalised and the Lagrangian filtered; percentiles and volume error are constants unless the first argument is NaN. -/
def pairLog : LogSetup (doubleFormat fl h).Num (_root_.Fin 2) Unit where
  toSetup := pairSetup h
  weight := fun _ => some (fl (1 / 2))
  fallback := fun _ _ => false
  error := fun _ _ r => if r 0 = none then none else some (fl (1 / 4))
  percentile := fun _ _ _ d => if d 0 = none then none else some (fl 1)
  normalizeChain := true
  gain := some (fl 1)
  gainUnder := some (some (fl (1 / 2)))
  scaleFloor := some (fl (1 / 10 ^ 8))
  chainFloor := some (fl (1 / 10 ^ 8))
  augmented := false
  muP := some (fl (5 : ℕ))
  decay := some (fl (9 / 10))
  lambdaLower := some (fl (-(10 ^ 7 : ℕ)))
  lambdaUpper := some (fl (10 ^ 7 : ℕ))
  augMu := some (fl 0)
  filterLagrangian := true

theorem pair_log_usual : UsualLogRun (𝔻) (pairLog h) := by
  have hu := pair_usual h
  have n : ∀ k : ℕ, k < 2 ^ 53 → Within (𝔻) k k (some (fl (k : ℝ))) := fun k hk => ⟨⟨_, int_mem h k hk⟩, congrArg some (h.repr ⟨_, int_mem h k hk⟩), le_rfl, le_rfl⟩
  have u : ∀ r : ℝ, 0 ≤ r → r ≤ 1 → Within (𝔻) 0 1 (some (fl r)) := fun r h0 h1 => within_fl (f := 𝔻) (𝔻).zero (𝔻).one h0 h1
  have us : ∀ (k : ℕ) (r : ℝ), 0 ≤ r → r ≤ 1 → Size (𝔻) k (some (fl r)) := fun k r h0 h1 =>
    Size.of (u r h0 h1) (neg_nonpos.mpr (p2_pos _).le) (one_le_pow₀ (by norm_num))
  have floor : Within (𝔻) (2 ^ (-40 : ℤ)) 1 (some (fl (1 / 10 ^ 8))) :=
    within_fl (f := 𝔻) (doubles_dyadic (-40) (by norm_num) (by norm_num)) (𝔻).one (by norm_num) (by norm_num)
  have p7 : ((10 ^ 7 : ℕ) : ℝ) ∈ (𝔻).F := int_mem h (10 ^ 7) (by norm_num)
  refine { toUsualSetup := hu.toUsualSetup, schedules := ?_, loads := hu.loads, weight := ?_, error := ?_, percentile := ?_, gain := us _ _ (by norm_num) le_rfl,
           gainUnder := ?_, scaleFloor := floor, chainFloor := floor, muP := ?_, decay := u _ (by norm_num) (by norm_num), bounds := ?_,
           augMu := us _ _ le_rfl (by norm_num) }
  · intro k x y v hv
    obtain ⟨s1, s2, s3, -⟩ := hu.schedules k x y v hv
    refine ⟨s1, s2, s3, ?_⟩
    simp only [pairLog, pairSetup, Prod.mk.injEq, Except.ok.injEq] at hv
    obtain ⟨-, rfl⟩ := hv
    exact us _ _ (by norm_num) (by norm_num)
  · intro i _
    exact u _ (by norm_num) (by norm_num)
  · intro k x r hr
    obtain ⟨z, hz, -⟩ := within_iff.mp (hr 0 (by simp [pairLog, pairSetup]))
    show Size (𝔻) 10 (if r 0 = none then none else some (fl (1 / 4)))
    rw [if_neg (by rw [hz]; simp)]
    exact us _ _ (by norm_num) (by norm_num)
  · intro m k x d b _ hd
    obtain ⟨z, hz, -⟩ := within_iff.mp (hd 0 (by simp [pairLog, pairSetup]))
    show Within (𝔻) 0 _ (if d 0 = none then none else some (fl 1))
    rw [if_neg (by rw [hz]; simp)]
    exact Within.mono (u 1 (by norm_num) le_rfl) le_rfl (one_le_pow₀ (by norm_num))
  · intro g hg
    cases hg
    exact us _ _ (by norm_num) (by norm_num)
  · exact Size.of (n 5 (by norm_num)) (by norm_num) (by norm_num)
  · refine ⟨⟨_, (𝔻).neg _ p7⟩, ⟨_, p7⟩, congrArg some (h.repr ⟨_, (𝔻).neg _ p7⟩), congrArg some (h.repr ⟨_, p7⟩), ?_, ?_, ?_⟩ <;> norm_num

/-- Case: the LogMOC run of `pairLog` in double precision, started and continued by any calls. -/
example : ∃ fl, ∃ h : DoubleRounding fl, ∃ p : Plan (doubleFormat fl h).Num (_root_.Fin 2) Unit (LogInputs (doubleFormat fl h).Num (_root_.Fin 2)), ∀ cs : List Driver.Call,
    let A := (doubleFormat fl h).arith (libLog _) (libExp _)
    let o := history (logSys A (fl (1 / 100)) (fl 1) (fl 1) (logPlan A (libTanh _) (libCosh _) (pairLog h) p)) cs
      (Driver.fresh (fun _ => none) ((), { lam := some (fl (1 / 10)), scale := none }) [])
    o.started = true → NumberIn (fl (1 / 100)) (fl 1) (o.world.rho 0) := by
  obtain ⟨fl, h, hs⟩ := exists_symmetric
  refine ⟨fl, h, {
    maxIters := 10, recordTimes := 5, restart := false, restartFrom := -1, valInit := some (fl (1 / 2)), design := {0, 1}, pinned := none, fixed := ∅
    analyse := fun _ _ _ => ((), .error .valueError), record := fun _ _ _ _ => ((), .ok false), exportHist := id, importHist := id
    initSched := fun _ => ((), .ok ()) }, fun cs => ?_⟩
  intro A o ho
  have e1 : fl 1 = (doubleFormat fl h).num ⟨1, (doubleFormat fl h).one⟩ := fl_one (doubleFormat fl h)
  have key := C140_no_nan h (libLog _) (libExp _) _ _ hs (fairLogExp_lib h) (goodTanh_lib h hs) fairCosh_lib (pair_log_usual h)
    (p := {
      maxIters := 10, recordTimes := 5, restart := false, restartFrom := -1, valInit := some (fl (1 / 2)), design := {0, 1}, pinned := none, fixed := ∅
      analyse := fun _ _ _ => ((), .error .valueError), record := fun _ _ _ _ => ((), .ok false), exportHist := id, importHist := id
      initSched := fun _ => ((), .ok ()) }) (fun e => by fin_cases e <;> simp [pairLog, pairSetup]) _ rfl ⟨1, (doubleFormat fl h).one⟩ (by norm_num)
    (some (fl (1 / 10))) (Size.of (within_fl (f := doubleFormat fl h) (doubleFormat fl h).zero (doubleFormat fl h).one (by norm_num) (by norm_num))
      (neg_nonpos.mpr (p2_pos _).le) (one_le_pow₀ (by norm_num))) (fun _ => none) () [] (fun _ _ hh => (nomatch hh)) cs
  rw [← e1] at key
  exact key.1 ho 0 (by simp)

end
end Verif.Spec.Format
