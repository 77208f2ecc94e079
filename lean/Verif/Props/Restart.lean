import Verif.Props.Snapshot
import Verif.Lemmas.OC
import Verif.Lemmas.Projection
import Mathlib.Analysis.Complex.ExponentialBounds

/-! Theorems about restarting a run (C40). -/
namespace Verif.Driver
open Verif.Snapshot

set_option linter.unusedSectionVars false

variable {E D X : Type} [DecidableEq E] [Zero D] [One D] [Max D] [Min D]

/-- The update and the convergence test of `S` depend on the iteration number and the densities only,
not on other state carried from iteration to iteration. -/
def Memoryless (S : Sys E D X) : Prop :=
  (∀ k rho x y, (S.step k rho x).2 = (S.step k rho y).2) ∧
  (∀ k rho rho' x y, (S.record k rho rho' x).2 = (S.record k rho rho' y).2)

theorem loop_memoryless {S T : Sys E D X} (hm : Memoryless S) (h1 : T.step = S.step)
    (h2 : T.record = S.record) (h3 : T.maxIters = S.maxIters) (h4 : T.recordTimes = S.recordTimes)
    (h5 : T.design = S.design) (h6 : T.pinned = S.pinned) : ∀ (n k : ℕ) (w v : World E D X),
    w.rho = v.rho → (loop S n k w).1.rho = (loop T n k v).1.rho ∧ (loop S n k w).2 = (loop T n k v).2 ∧
      ∃ l, (loop S n k w).1.trace = w.trace ++ l ∧ (loop T n k v).1.trace = v.trace ++ l
  | 0, k, w, v, h => ⟨h, rfl, [], by simp [loop], by simp [loop]⟩
  | n + 1, k, w, v, h => by
    have hit : ∀ b, (iterate S b k w).1.rho = (iterate T b k v).1.rho ∧
        (iterate S b k w).2 = (iterate T b k v).2 := by
      intro b
      have hs := hm.1 k w.rho w.aux v.aux
      unfold iterate
      simp only [h1, h2, h3, h4, h5, h6, ← h]
      revert hs
      rcases S.step k w.rho w.aux with ⟨x, e | new⟩ <;>
        rcases S.step k w.rho v.aux with ⟨y, e' | new'⟩ <;> intro hs <;>
        simp only [reduceCtorEq, Except.error.injEq, Except.ok.injEq] at hs
      · subst hs; exact ⟨rfl, rfl⟩
      · subst hs
        simp only
        have hr := hm.2 k w.rho (pin S.pinned (setDesign S.design new w.rho)) x y
        revert hr
        rcases S.record k w.rho (pin S.pinned (setDesign S.design new w.rho)) x with ⟨x', e | c⟩ <;>
          rcases S.record k w.rho (pin S.pinned (setDesign S.design new w.rho)) y with ⟨y', e' | c'⟩ <;>
          intro hr <;> simp only [reduceCtorEq, Except.error.injEq, Except.ok.injEq] at hr
        · subst hr; exact ⟨rfl, rfl⟩
        · subst hr
          simp only
          split_ifs <;> exact ⟨rfl, rfl⟩
    obtain ⟨hi1, hi2⟩ := hit (n == 0)
    have t1 := iterate_trace S (n == 0) k w
    have t2 := iterate_trace T (n == 0) k v
    simp only [loop]
    revert hi1 hi2 t1 t2
    rcases iterate S (n == 0) k w with ⟨w', e | _ | _⟩ <;>
      rcases iterate T (n == 0) k v with ⟨v', e' | _ | _⟩ <;> intro hi1 hi2 t1 t2 <;>
      simp only [reduceCtorEq, Except.error.injEq, Except.ok.injEq, Bool.false_eq_true, Bool.true_eq_false] at hi2 t1 t2
    · subst hi2; exact ⟨hi1, rfl, [k], t1, t2⟩
    · obtain ⟨r1, r2, l, r3, r4⟩ := loop_memoryless hm h1 h2 h3 h4 h5 h6 n (k + 1) w' v' hi1
      exact ⟨r1, r2, k :: l, by simp only; rw [r3, t1]; simp, by simp only; rw [r4, t2]; simp⟩
    · exact ⟨hi1, rfl, [k], t1, t2⟩

/-- **C40 (partial: update rules without carried state).** Let a run have been executed up to
iteration `k` (any program of calls, last call normal) and not be completed. Restart it from the
snapshot of `k`: same configuration, `restart=True`, `restart_from=k`, same directory. If the update
depends only on iteration number and densities, the restarted run executes the same further
iterations, ends in the same way and with the same densities as continuing the interrupted run. -/
theorem C40_memoryless_restart_reproduces_partial (S T : Sys E D X) (hm : Memoryless S) (c : Call)
    {o o' : Opt E D X} (hreach : Reachable S o) (h : c.run S o = (o', .ok ()))
    (hran : o'.world.trace ≠ o.world.trace) {k : ℕ} (hk : o'.world.trace.getLast? = some k)
    (hk1 : 0 < k) (hs' : o'.started = true) (hc' : o'.completed = false) (hnext : o'.iterNext = k + 1)
    {s : Finset E} (hpin : S.pinned = some s)
    (hT : T = { S with restart := true, restartFrom := k })
    (hsched : ∀ x, (S.initSched x).2 = .ok ())
    (hcover : ∀ e, e ∈ S.design ∨ e ∈ s ∨ e ∈ S.fixed) (hdisj : ∀ e ∈ S.fixed, e ∉ S.design)
    (rho0 : E → D) (x0 : X) :
    let cont := optimize S o'
    let rest := optimize T (fresh rho0 x0 o'.world.files)
    rest.1.world.rho = cont.1.world.rho ∧ rest.2 = cont.2 ∧
      ∃ l, cont.1.world.trace = o'.world.trace ++ l ∧ rest.1.world.trace = l := by
  have hinit := C39_save_restart_round_trip S T c hreach h hran hk hk1 hs' hpin (by simp [hT])
    (by simp [hT]) (by simp [hT]) (by simp [hT]) (by simp [hT]) hcover hdisj
  have hE : ∃ x1, ensureInit T (fresh rho0 x0 o'.world.files) =
      (⟨⟨o'.world.rho, x1, o'.world.files, []⟩, true, k + 1, false, none⟩, .ok ()) := by
    unfold ensureInit
    have hsc := hsched x0
    have : T.initSched = S.initSched := by simp [hT]
    simp only [fresh, Bool.false_eq_true, if_false, this]
    revert hsc
    rcases S.initSched x0 with ⟨x, e | ⟨⟩⟩ <;> intro hsc
    · simp at hsc
    · simp only [hinit]; exact ⟨_, rfl⟩
  obtain ⟨x1, hE⟩ := hE
  simp only [optimize]
  rw [optimizeImpl_eq, optimizeImpl_eq, if_neg (by simp [fresh]), if_neg (by simp [hc']), hE,
    ensureInit_started S hs']
  simp only
  have hmax : T.maxIters = S.maxIters := by simp [hT]
  unfold continueRun
  simp only [hnext, hmax]
  split_ifs with hd
  · exact ⟨rfl, rfl, [], by simp [finalize], rfl⟩
  · obtain ⟨r1, r2, l, r3, r4⟩ := loop_memoryless (T := T) hm (by simp [hT]) (by simp [hT]) hmax
      (by simp [hT]) (by simp [hT]) (by simp [hT]) (S.maxIters + 1 - (k + 1)) (k + 1) o'.world
      ⟨o'.world.rho, x1, o'.world.files, []⟩ rfl
    revert r1 r2 r3 r4
    rcases loop S (S.maxIters + 1 - (k + 1)) (k + 1) o'.world with ⟨w', e | ⟨k', c'⟩⟩ <;>
      rcases loop T (S.maxIters + 1 - (k + 1)) (k + 1) ⟨o'.world.rho, x1, o'.world.files, []⟩ with
        ⟨v', e' | ⟨k'', c''⟩⟩ <;> intro r1 r2 r3 r4 <;>
      simp only [reduceCtorEq, Except.error.injEq, Except.ok.injEq, Prod.mk.injEq] at r2
    · subst r2; exact ⟨r1.symm, rfl, l, r3, by simpa using r4⟩
    · obtain ⟨rfl, rfl⟩ := r2
      simp only
      split_ifs
      · exact ⟨r1.symm, rfl, l, r3, by simpa [finalize] using r4⟩
      · exact ⟨r1.symm, rfl, l, r3, by simpa using r4⟩

/-- A memoryless system: every iteration doubles the design densities and never converges. -/
def demoM : Sys (Fin 3) ℕ (List ℕ × Bool) :=
  { demo 7 2 100 100 with
    step := fun _ rho x => (x, .ok fun e => 2 * rho e)
    record := fun _ _ _ x => (x, .ok false) }

/-- Non-vacuity: three of seven iterations, then restart. -/
example : Memoryless demoM ∧
    let o' := ((Call.steps 3).run demoM demo0).1
    let T := { demoM with restart := true, restartFrom := 3 }
    o'.completed = false ∧ o'.iterNext = 4 ∧ o'.world.rho 1 = 40 ∧
    (optimize T (fresh (fun _ => 0) ([], false) o'.world.files)).1.world.trace = [4, 5, 6, 7] ∧
    (optimize T (fresh (fun _ => 0) ([], false) o'.world.files)).1.world.rho 1 = 640 ∧
    (optimize demoM o').1.world.rho 1 = 640 :=
  ⟨⟨fun _ _ _ _ => rfl, fun _ _ _ _ _ => rfl⟩, by decide⟩

end Verif.Driver

namespace Verif.Props
open Verif Verif.OC

/-! ### The OC update carries state a snapshot does not hold -/

/-- When every multiplier at or above `l1` leaves the volume too small by at least the tolerance, the
bisection walks down to `l1` and stops with a multiplier between `l1 + tol/4` and `l1 + tol/2`. -/
theorem bisect_always_low {E : Type} [Fintype E] {P : Params E} (htol : 0 < P.tolerance) (hvt : 0 < P.volTol) (l1 : ℝ)
    (hv : ∀ l, l1 ≤ l → ∃ x, volError P l = some x ∧ x ≤ -P.volTol) : ∀ k i l2,
    P.tolerance / 2 < l2 - l1 → l2 - l1 ≤ P.tolerance * 2 ^ k →
    l1 + P.tolerance / 4 ≤ (bisect P k i l1 l2).lmid ∧ (bisect P k i l1 l2).lmid ≤ l1 + P.tolerance / 2 := by
  have hcase : ∀ l2, l1 ≤ l2 → (¬ ∃ x, volError P (0.5 * (l1 + l2)) = some x ∧ |x| < P.volTol) ∧
      ¬ ∃ x, volError P (0.5 * (l1 + l2)) = some x ∧ x > 0 := by
    intro l2 h
    obtain ⟨x, hx, hneg⟩ := hv (0.5 * (l1 + l2)) (by linarith)
    constructor
    · rintro ⟨y, hy, hy'⟩
      rw [hx] at hy; simp only [Option.some.injEq] at hy; subst hy
      rw [abs_lt] at hy'; linarith
    · rintro ⟨y, hy, hy'⟩
      rw [hx] at hy; simp only [Option.some.injEq] at hy; subst hy
      linarith
  intro k
  induction k with
  | zero =>
    intro i l2 h1 h2
    obtain ⟨c1, c2⟩ := hcase l2 (by linarith)
    unfold bisect
    simp only [if_neg c1, stop]
    simp only [pow_zero, mul_one] at h2
    constructor <;> linarith
  | succ k ih =>
    intro i l2 h1 h2
    obtain ⟨c1, c2⟩ := hcase l2 (by linarith)
    unfold bisect
    simp only [if_neg c1, if_neg c2]
    split_ifs with h3
    · rw [abs_le] at h3
      simp only [stop]
      constructor <;> linarith [h3.2]
    · have h3 : P.tolerance < l2 - l1 := by
        rw [abs_le] at h3
        by_contra hle
        exact h3 ⟨by linarith, by linarith⟩
      refine ih (i + 1) (0.5 * (l1 + l2)) (by linarith) ?_
      have : P.tolerance * 2 ^ (k + 1) = 2 * (P.tolerance * 2 ^ k) := by ring
      rw [this] at h2; linarith

/-- Default OC configuration on two design elements of unit volume, no filtering, projection threshold 1/2. -/
noncomputable def restartCfg : Cfg (Fin 2) where
  rhoMin := 1 / 100
  rhoMax := 1
  betaEta := 1 / 2
  lambdaLower := 1 / 10 ^ 7
  lambdaUpper := 10 ^ 7
  design := Finset.univ
  filter := id
  volume := fun _ => 1
  dV := fun _ => 1 / 2

/-- Scheduled values: move limit 0.1, `eta` 1/2, `beta` 1, target volume fraction 0.9, no percentile. -/
noncomputable def restartArgs (k : ℕ) : OC.StepArgs (Fin 2) :=
  { iterNum := k, moveLimit := 1 / 10, eta := 1 / 2, beta := 1, volFrac := 9 / 10, percentile := none }

theorem heaviside_seven_tenths : Projection.heaviside (7 / 10) 1 (1 / 2) ≤ 89 / 100 := by
  have hp := Projection.denom_eps_pos (beta := 1) (by norm_num) (1 / 2)
  have he : (2.7 : ℝ) < Real.exp 1 := by have := Real.exp_one_gt_d9; linarith
  have t1 : (17 / 37 : ℝ) ≤ Real.tanh (1 / 2) := by
    rw [Real.tanh_eq_sinh_div_cosh, Real.sinh_eq, Real.cosh_eq]
    have h1 : Real.exp (1 / 2) = Real.exp 1 * Real.exp (-(1 / 2)) := by rw [← Real.exp_add]; norm_num
    have hpos := Real.exp_pos (-(1 / 2))
    rw [h1, div_div_div_cancel_right₀ (by norm_num), div_le_div_iff₀ (by norm_num) (by positivity)]
    nlinarith
  have t2 : Real.tanh (1 / 5) ≤ 1 / 4 := by
    rw [Real.tanh_eq_sinh_div_cosh, Real.sinh_eq, Real.cosh_eq]
    have hpos := Real.exp_pos (-(1 / 5) : ℝ)
    have h3 : Real.exp (2 / 5 : ℝ) ≤ 5 / 3 := by
      have := Real.add_one_le_exp (-(2 / 5) : ℝ)
      rw [Real.exp_neg] at this
      have hq := Real.exp_pos (2 / 5 : ℝ)
      have h4 : (3 / 5 : ℝ) ≤ (Real.exp (2 / 5))⁻¹ := by linarith
      have := inv_anti₀ (by norm_num : (0 : ℝ) < 3 / 5) h4
      rw [inv_inv] at this
      linarith
    have h1 : Real.exp (1 / 5) = Real.exp (2 / 5) * Real.exp (-(1 / 5)) := by rw [← Real.exp_add]; norm_num
    rw [h1, div_div_div_cancel_right₀ (by norm_num), div_le_div_iff₀ (by positivity) (by norm_num)]
    nlinarith
  unfold Projection.heaviside
  simp only [one_mul]
  have e1 : (7 / 10 - 1 / 2 : ℝ) = 1 / 5 := by norm_num
  have e2 : (1 - 1 / 2 : ℝ) = 1 / 2 := by norm_num
  rw [e1, e2]
  have heps := Projection.eps12_pos
  rw [div_le_iff₀ (by linarith)]
  nlinarith

/-- One OC update in this configuration, from densities at most 0.6 at both elements and
sensitivities that are not positive: the multiplier ends between 2.5e-6 and 5.2e-6. -/
theorem restart_update (k : ℕ) (rs : ℝ) (rhoState rho dC : Fin 2 → ℝ) (s : ℝ)
    (hrho : ∀ e, 1 / 10 ≤ rho e ∧ rho e ≤ 6 / 10) (hd : ∀ e, dC e ≤ 0)
    (hs : sensScale restartCfg (restartArgs k) dC = .ok s) (hpos : 0 < newRunningScale k rs s) :
    ∃ out, rhoUpdate restartCfg (restartArgs k) rs rhoState rho dC = .ok out ∧
      out.runningScale = newRunningScale k rs s ∧
      ∃ l, 25 / 10 ^ 7 ≤ l ∧ l ≤ 52 / 10 ^ 7 ∧
        out.rho = candidate (mkParams restartCfg (restartArgs k) (newRunningScale k rs s) rhoState rho dC) l := by
  set P := mkParams restartCfg (restartArgs k) (newRunningScale k rs s) rhoState rho dC with hP
  have hPd : ∀ e ∈ P.design, P.dC e ≤ 0 := fun e _ =>
    div_nonpos_of_nonpos_of_nonneg (hd e) hpos.le
  have hlow : ∀ l, 1 / 10 ^ 7 ≤ l → ∃ x, volError P l = some x ∧ x ≤ -P.volTol := by
    intro l hl
    have hl0 : 0 < l + P.eps := by simp only [hP, mkParams]; norm_num at hl ⊢; linarith
    have hnone : ¬ ∃ e ∈ P.design, candidate P l e = none := by
      rintro ⟨e, he, hn⟩
      obtain ⟨r, hr⟩ := candidate_some hl0 (hPd e he)
      rw [hn] at hr; simp at hr
    have hle : ∀ e, Projection.heavisideInplace (P.filter (fullCandidate P l) e) P.beta P.betaEta ≤ 89 / 100 := by
      intro e
      rw [heavisideInplace_eq]
      obtain ⟨r, hr⟩ := candidate_some hl0 (hPd e (by simp [hP, mkParams, restartCfg]))
      have hcb := candidate_box hr (by simp only [hP, mkParams, restartArgs]; norm_num)
        (by simp only [hP, mkParams, restartCfg]; linarith [(hrho e).1])
        (by simp only [hP, mkParams, restartCfg]; linarith [(hrho e).2])
      have hr7 : r ≤ 7 / 10 := by
        have h2 := abs_le.1 hcb.2
        simp only [hP, mkParams, restartArgs] at h2
        linarith [h2.2, (hrho e).2]
      have hfull : P.filter (fullCandidate P l) e = r := by
        have hmem : e ∈ P.design := by simp [hP, mkParams, restartCfg]
        show fullCandidate P l e = r
        simp [fullCandidate, hmem, hr]
      rw [hfull]
      exact le_trans (Projection.heaviside_mono (by simp [hP, mkParams, restartArgs]) _ hr7)
        heaviside_seven_tenths
    refine ⟨_, by rw [volError, if_neg hnone], ?_⟩
    have h0 := hle 0
    have h1 := hle 1
    have hvs : P.volumeSum = 2 := by simp [hP, mkParams, restartCfg]
    have hvol : ∀ e, P.volume e = 1 := fun e => rfl
    have hdes : P.design = Finset.univ := rfl
    have hvf : P.volFrac = 9 / 10 := rfl
    have hvt : P.volTol = 1 / 10 ^ 4 := rfl
    simp only [hvs, hvol, hdes, hvf, hvt, mul_one, Fin.sum_univ_two]
    linarith
  have hb := bisect_always_low (P := P) (by simp only [hP, mkParams]; norm_num)
    (by simp only [hP, mkParams]; norm_num) (1 / 10 ^ 7) hlow 1000 0 (10 ^ 7)
    (by simp only [hP, mkParams]; norm_num)
    (by
      simp only [hP, mkParams]
      have : (2 : ℝ) ^ 40 ≤ 2 ^ 1000 := pow_le_pow_right₀ (by norm_num) (by norm_num)
      have h40 : (10 : ℝ) ^ 7 - 1 / 10 ^ 7 ≤ 1 / 10 ^ 5 * 2 ^ 40 := by norm_num
      calc (10 : ℝ) ^ 7 - 1 / 10 ^ 7 ≤ 1 / 10 ^ 5 * 2 ^ 40 := h40
        _ ≤ 1 / 10 ^ 5 * 2 ^ 1000 := by gcongr)
  refine ⟨_, by simp [rhoUpdate, hs, bind, Except.bind, pure, Except.pure]; rfl, rfl,
    (bisect P 1000 0 (1 / 10 ^ 7) (10 ^ 7)).lmid, ?_, ?_, (bisect_out P 1000 0 _ _).2.2⟩
  · refine le_trans ?_ hb.1
    simp only [hP, mkParams]; norm_num
  · refine le_trans hb.2 ?_
    simp only [hP, mkParams]; norm_num

/-- **C40 (refuted for OC).** The OC update carries `running_scale`, which a snapshot does not hold and a restarted
optimizer starts at 0. Two elements at density 0.5, default multiplier bracket, target volume fraction 0.9. Iteration 1
has sensitivities (-10, -10) and brings both densities to 0.6. In iteration 2 the sensitivities are (-1, -4e-6):
continuing, the second density becomes 0.5; restarting from the snapshot of iteration 1 it becomes 0.7. -/
theorem C40_oc_restart_differs :
    ∃ out1 outCont outRest : UpdateOut (Fin 2),
      rhoUpdate restartCfg (restartArgs 1) 0 (fun _ => 1 / 2) (fun _ => 1 / 2) (fun _ => -10) = .ok out1 ∧
      (∀ e, out1.rho e = some (6 / 10)) ∧
      rhoUpdate restartCfg (restartArgs 2) out1.runningScale (fun _ => 6 / 10) (fun _ => 6 / 10)
        ![-1, -(4 / 10 ^ 6)] = .ok outCont ∧
      rhoUpdate restartCfg (restartArgs 2) 0 (fun _ => 6 / 10) (fun _ => 6 / 10)
        ![-1, -(4 / 10 ^ 6)] = .ok outRest ∧
      outCont.rho 1 = some (5 / 10) ∧ outRest.rho 1 = some (7 / 10) := by
  have hs1 : sensScale restartCfg (restartArgs 1) (fun _ => -10) = .ok 10 := by
    have hne : restartCfg.design.Nonempty := Finset.univ_nonempty
    have hp : (restartArgs 1).percentile = none := rfl
    have hf : restartCfg.scaleFloor = 1 / 10 ^ 12 := rfl
    simp only [sensScale, hp, hne, dif_pos, Finset.sup'_const, hf]
    norm_num
  have hs2 : sensScale restartCfg (restartArgs 2) ![-1, -(4 / 10 ^ 6)] = .ok 1 := by
    have hne : restartCfg.design.Nonempty := Finset.univ_nonempty
    have hp : (restartArgs 2).percentile = none := rfl
    have : (Finset.univ : Finset (Fin 2)).sup' Finset.univ_nonempty
        (fun e => |(![-1, -(4 / 10 ^ 6)] : Fin 2 → ℝ) e|) = 1 := by
      apply le_antisymm
      · apply Finset.sup'_le
        intro e _
        fin_cases e
        · simp
        · show |(-(4 / 10 ^ 6) : ℝ)| ≤ 1
          rw [abs_le]; constructor <;> norm_num
      · have := Finset.le_sup' (fun e => |(![-1, -(4 / 10 ^ 6)] : Fin 2 → ℝ) e|) (Finset.mem_univ (0 : Fin 2))
        simpa using this
    have this' : restartCfg.design.sup' hne
        (fun e => |(![-1, -(4 / 10 ^ 6)] : Fin 2 → ℝ) e|) = 1 := this
    have hf : restartCfg.scaleFloor = 1 / 10 ^ 12 := rfl
    simp only [sensScale, hp, hne, dif_pos, this', hf]
    norm_num
  have hd2 : ∀ e, (![-1, -(4 / 10 ^ 6)] : Fin 2 → ℝ) e ≤ 0 := by
    intro e; fin_cases e <;> simp; positivity
  obtain ⟨out1, h1, hr1, l1, hl1, hl1', hc1⟩ := restart_update 1 0 (fun _ => 1 / 2) (fun _ => 1 / 2) (fun _ => -10) 10
    (fun _ => by norm_num) (fun _ => by norm_num) hs1 (by norm_num [newRunningScale])
  have hn1 : newRunningScale 1 0 10 = 10 := by norm_num [newRunningScale]
  rw [hn1] at hr1 hc1
  obtain ⟨out2, h2, hr2, l2, hl2, hl2', hc2⟩ := restart_update 2 10 (fun _ => 6 / 10) (fun _ => 6 / 10)
    ![-1, -(4 / 10 ^ 6)] 1 (fun _ => by norm_num) hd2 hs2 (by norm_num [newRunningScale])
  obtain ⟨out3, h3, hr3, l3, hl3, hl3', hc3⟩ := restart_update 2 0 (fun _ => 6 / 10) (fun _ => 6 / 10)
    ![-1, -(4 / 10 ^ 6)] 1 (fun _ => by norm_num) hd2 hs2 (by norm_num [newRunningScale])
  have hn2 : newRunningScale 2 10 1 = 64 / 10 := by norm_num [newRunningScale]
  have hn3 : newRunningScale 2 0 1 = 4 / 10 := by norm_num [newRunningScale]
  rw [hn2] at hc2
  rw [hn3] at hc3
  -- value of a candidate whose rate is at least 1.3 or at most 0.7
  have hbig : ∀ (k : ℕ) (rs l r x : ℝ) (st : Fin 2 → ℝ) (dC : Fin 2 → ℝ) (e : Fin 2), 0 < l → dC e < 0 → 0 < rs →
      (5 / 10 ≤ r ∧ r ≤ 6 / 10) → 169 / 100 * (l + 1 / 10 ^ 12) ≤ -(dC e / rs) →
      candidate (mkParams restartCfg (restartArgs k) rs st (fun _ => r) dC) l e = some (r + 1 / 10) := by
    intro k rs l r x st dC e hl hdc hrs hr hb
    have hden : 0 < l + 1 / 10 ^ 12 := by positivity
    have hbase : 169 / 100 ≤ -(dC e / rs) / (l + 1 / 10 ^ 12) := by rw [le_div_iff₀ hden]; exact hb
    have hpow : (13 / 10 : ℝ) ≤ (-(dC e / rs) / (l + 1 / 10 ^ 12)) ^ (1 / 2 : ℝ) := by
      rw [← Real.sqrt_eq_rpow]
      rw [show (13 / 10 : ℝ) = Real.sqrt (169 / 100) by
        rw [show (169 / 100 : ℝ) = (13 / 10) ^ 2 by norm_num, Real.sqrt_sq (by norm_num)]]
      exact Real.sqrt_le_sqrt hbase
    set P := mkParams restartCfg (restartArgs k) rs st (fun _ => r) dC with hP
    have hsc : scaling P l e = some 1.3 := by
      have e1 : P.eps = 1 / 10 ^ 12 := rfl
      have e2 : P.dC e = dC e / rs := rfl
      have e3 : P.eta = 1 / 2 := rfl
      have e4 : P.rateMin = 0.7 := rfl
      have e5 : P.rateMax = 1.3 := rfl
      simp only [scaling]
      rw [if_neg (by rw [e1]; exact hden.ne'), if_neg (by rw [e1, e2]; rintro ⟨h, -⟩; linarith),
        if_neg (by rw [e1, e2]; rintro ⟨h, -⟩; linarith), e1, e2, e3, e4, e5]
      simp only [clip, Option.some.injEq]
      rw [max_eq_left (by norm_num at hpow ⊢; linarith), min_eq_right (by norm_num at hpow ⊢; linarith)]
    simp only [candidate, hsc, Option.map_some, Option.some.injEq]
    simp only [clip, hP, mkParams, restartArgs, restartCfg]
    rw [max_eq_left (a := r - 1 / 10) (by linarith), min_eq_left (a := r + 1 / 10) (by linarith),
      max_eq_left (by linarith), min_eq_right (by linarith)]
  have hsmall : ∀ (k : ℕ) (rs l r x : ℝ) (st : Fin 2 → ℝ) (dC : Fin 2 → ℝ) (e : Fin 2), 0 < l → dC e < 0 → 0 < rs →
      (5 / 10 ≤ r ∧ r ≤ 6 / 10) → -(dC e / rs) ≤ 49 / 100 * (l + 1 / 10 ^ 12) →
      candidate (mkParams restartCfg (restartArgs k) rs st (fun _ => r) dC) l e = some (r - 1 / 10) := by
    intro k rs l r x st dC e hl hdc hrs hr hb
    have hden : 0 < l + 1 / 10 ^ 12 := by positivity
    have hb0 : 0 < -(dC e / rs) / (l + 1 / 10 ^ 12) :=
      div_pos (by have := div_neg_of_neg_of_pos hdc hrs; linarith) hden
    have hbase : -(dC e / rs) / (l + 1 / 10 ^ 12) ≤ 49 / 100 := by rw [div_le_iff₀ hden]; exact hb
    have hpow : (-(dC e / rs) / (l + 1 / 10 ^ 12)) ^ (1 / 2 : ℝ) ≤ 7 / 10 := by
      rw [← Real.sqrt_eq_rpow]
      rw [show (7 / 10 : ℝ) = Real.sqrt (49 / 100) by
        rw [show (49 / 100 : ℝ) = (7 / 10) ^ 2 by norm_num, Real.sqrt_sq (by norm_num)]]
      exact Real.sqrt_le_sqrt hbase
    set P := mkParams restartCfg (restartArgs k) rs st (fun _ => r) dC with hP
    have hsc : scaling P l e = some 0.7 := by
      have e1 : P.eps = 1 / 10 ^ 12 := rfl
      have e2 : P.dC e = dC e / rs := rfl
      have e3 : P.eta = 1 / 2 := rfl
      have e4 : P.rateMin = 0.7 := rfl
      have e5 : P.rateMax = 1.3 := rfl
      simp only [scaling]
      rw [if_neg (by rw [e1]; exact hden.ne'), if_neg (by rw [e1, e2]; rintro ⟨h, -⟩; linarith),
        if_neg (by rw [e1, e2]; rintro ⟨h, -⟩; linarith), e1, e2, e3, e4, e5]
      simp only [clip, Option.some.injEq]
      rw [max_eq_right (by norm_num at hpow ⊢; linarith), min_eq_left (by norm_num)]
    simp only [candidate, hsc, Option.map_some, Option.some.injEq]
    simp only [clip, hP, mkParams, restartArgs, restartCfg]
    rw [max_eq_left (a := r - 1 / 10) (by linarith), min_eq_left (a := r + 1 / 10) (by linarith),
      max_eq_right (by linarith), min_eq_left (by linarith)]
  refine ⟨out1, out2, out3, h1, ?_, by rw [hr1]; exact h2, h3, ?_, ?_⟩
  · intro e
    rw [hc1, hbig 1 10 l1 (1 / 2) 0 _ _ e (by linarith) (by norm_num) (by norm_num) (by norm_num)
      (by norm_num; linarith)]
    norm_num
  · rw [hc2, hsmall 2 (64 / 10) l2 (6 / 10) 0 _ _ 1 (by linarith) (by simp) (by norm_num)
      (by norm_num) (by simp; norm_num; linarith)]
    norm_num
  · rw [hc3, hbig 2 (4 / 10) l3 (6 / 10) 0 _ _ 1 (by linarith) (by simp) (by norm_num)
      (by norm_num) (by simp; norm_num; linarith)]
    norm_num

end Verif.Props
