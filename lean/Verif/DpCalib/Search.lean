import Verif.DpCalib.Privacy
import Mathlib.Analysis.Real.Pi.Bounds

/-! # The searches of the calibration -/

namespace Psi.DpCalib

open Real Filter Topology Set

theorem two_dec : (2.0 : ℝ) = 2 := by norm_num

theorem one_dec : (1.0 : ℝ) = 1 := by norm_num

theorem zero_dec : (0.0 : ℝ) = 0 := by norm_num

/-- More rounds do not change the answer of a loop that has ended. -/
theorem doubling_more {stop : ℝ → Prop} {r : ℝ × ℝ} : ∀ (k j : ℕ) (a b : ℝ), k ≤ j →
    doubling stop k a b = some r → doubling stop j a b = some r
  | 0, _, _, _, _, h => by simp [doubling] at h
  | k + 1, 0, _, _, hk, _ => by omega
  | k + 1, j + 1, a, b, hk, h => by
    rw [doubling] at h ⊢
    split
    · rename_i hc; rwa [if_pos hc] at h
    · rename_i hc
      rw [if_neg hc] at h
      exact doubling_more k j _ _ (by omega) h

theorem binarySearch_more {stop left : ℝ → Prop} {r : ℝ} : ∀ (k j : ℕ) (a b : ℝ), k ≤ j →
    binarySearch stop left k a b = some r → binarySearch stop left j a b = some r
  | 0, _, _, _, _, h => by simp [binarySearch] at h
  | k + 1, 0, _, _, hk, _ => by omega
  | k + 1, j + 1, a, b, hk, h => by
    rw [binarySearch] at h ⊢
    split
    · rename_i hc; rwa [if_pos hc] at h
    · rename_i hc
      rw [if_neg hc] at h
      split
      · rename_i hl; rw [if_pos hl] at h
        exact binarySearch_more k j _ _ (by omega) h
      · rename_i hl; rw [if_neg hl] at h
        exact binarySearch_more k j _ _ (by omega) h

/-- The doubling ends when its condition holds from some point on, and leaves a bracket. -/
theorem doubling_ends {stop : ℝ → Prop} {S : ℝ} (hS : ∀ s, S ≤ s → stop s) :
    ∀ (k : ℕ) (a b : ℝ), 0 ≤ a → a < b → ¬ stop a → S ≤ 2 ^ k * b →
      ∃ a' b', doubling stop (k + 1) a b = some (a', b') ∧ 0 ≤ a' ∧ a' < b' ∧ ¬ stop a' ∧ stop b'
  | 0, a, b, ha, hab, hna, hk => by
    have : stop b := hS b (by simpa using hk)
    exact ⟨a, b, by rw [doubling, if_pos this], ha, hab, hna, this⟩
  | k + 1, a, b, ha, hab, hna, hk => by
    by_cases hb : stop b
    · exact ⟨a, b, by rw [doubling, if_pos hb], ha, hab, hna, hb⟩
    · rw [doubling, if_neg hb, two_dec]
      exact doubling_ends hS k b (2 * b) (by linarith) (by linarith) hb (by rw [pow_succ] at hk; linarith)

theorem doubling_loops {stop : ℝ → Prop} (h : ∀ s, 0 ≤ s → ¬ stop s) :
    ∀ (k : ℕ) (a b : ℝ), 0 ≤ b → doubling stop k a b = none
  | 0, _, _, _ => rfl
  | k + 1, a, b, hb => by
    rw [doubling, if_neg (h b hb)]
    exact doubling_loops h k _ _ (by rw [two_dec]; linarith)

/-- Bisection of a function that moves by less than `tol` over distances below `eta`. -/
theorem binarySearch_ends {g : ℝ → ℝ} {stop left : ℝ → Prop} {tol eta lo hi : ℝ} (heta : 0 < eta)
    (hu : ∀ x ∈ Icc lo hi, ∀ y ∈ Icc lo hi, |x - y| < eta → |g x - g y| ≤ tol)
    (hstop : ∀ s ∈ Icc lo hi, stop s ↔ |g s| ≤ tol) (hleft : ∀ s ∈ Icc lo hi, (left s → 0 ≤ g s) ∧ (¬ left s → g s ≤ 0)) :
    ∀ (k : ℕ) (a b : ℝ), lo ≤ a → a ≤ b → b ≤ hi → g a ≤ 0 → 0 ≤ g b → b - a < 2 ^ k * eta →
      ∃ s, binarySearch stop left (k + 1) a b = some s ∧ s ∈ Icc lo hi ∧ |g s| ≤ tol
  | k, a, b, hla, hab, hbh, hga, hgb, hk => by
    have hmid : a + (b - a) / 2.0 = (a + b) / 2 := by rw [two_dec]; ring
    have hm : (a + b) / 2 ∈ Icc lo hi := ⟨by linarith, by linarith⟩
    rw [binarySearch, hmid]
    by_cases hst : stop ((a + b) / 2)
    · rw [if_pos hst]
      exact ⟨_, rfl, hm, (hstop _ hm).mp hst⟩
    · rw [if_neg hst]
      match k with
      | 0 =>
        exfalso
        apply hst
        rw [hstop _ hm]
        simp only [pow_zero, one_mul] at hk
        have h1 := hu _ hm a ⟨hla, by linarith⟩ (by rw [abs_lt]; constructor <;> linarith)
        have h2 := hu _ hm b ⟨by linarith, hbh⟩ (by rw [abs_lt]; constructor <;> linarith)
        rw [abs_le] at h1 h2 ⊢
        constructor <;> linarith
      | k + 1 =>
        rw [pow_succ] at hk
        by_cases hl : left ((a + b) / 2)
        · rw [if_pos hl]
          exact binarySearch_ends heta hu hstop hleft k a _ hla (by linarith) (by linarith) hga
            ((hleft _ hm).1 hl) (by linarith)
        · rw [if_neg hl]
          exact binarySearch_ends heta hu hstop hleft k _ b (by linarith) (by linarith) hbh
            ((hleft _ hm).2 hl) hgb (by linarith)

/-- The two searches end at a point where the function is within `tol` of the target, for a continuous function that
starts on one side of the target and ends on the other. -/
theorem search_ends {toDelta : ℝ → ℝ} {stopDT left : ℝ → Prop} {delta tol S : ℝ} (g : ℝ → ℝ) (hc : Continuous g)
    (htol : 0 < tol) (hg : ∀ s, |g s| = |toDelta s - delta|) (hdt : ∀ s, stopDT s ↔ 0 ≤ g s)
    (hleft : ∀ s, left s ↔ 0 < g s) (h0 : g 0 < 0) (hS : ∀ s, S ≤ s → 0 ≤ g s) :
    ∃ N s, 0 ≤ s ∧ |toDelta s - delta| ≤ tol ∧ ∀ n, N ≤ n → search n toDelta stopDT left delta tol = some s := by
  obtain ⟨k, hk⟩ := pow_unbounded_of_one_lt S (by norm_num : (1 : ℝ) < 2)
  obtain ⟨a, b, hd, ha, hab, hna, hb⟩ := doubling_ends (stop := stopDT) (S := S)
    (fun s hs => (hdt s).mpr (hS s hs)) k 0 1 le_rfl one_pos (by rw [hdt]; linarith) (by linarith)
  have huc := (isCompact_Icc (a := a) (b := b)).uniformContinuousOn_of_continuous hc.continuousOn
  rw [Metric.uniformContinuousOn_iff] at huc
  obtain ⟨eta, heta, hu⟩ := huc tol htol
  obtain ⟨j, hj⟩ := pow_unbounded_of_one_lt ((b - a) / eta) (by norm_num : (1 : ℝ) < 2)
  have hj' : b - a < 2 ^ j * eta := by rwa [div_lt_iff₀ heta] at hj
  obtain ⟨s, hs, hmem, hfin⟩ := binarySearch_ends (g := g) (stop := fun s => |toDelta s - delta| ≤ tol)
    (left := left) (tol := tol) heta
    (fun x hx y hy hxy => (hu x hx y hy (by rwa [Real.dist_eq])).le) (fun s _ => by rw [hg])
    (fun s _ => ⟨fun h => ((hleft s).mp h).le, fun h => not_lt.mp fun h' => h ((hleft s).mpr h')⟩)
    j a b le_rfl hab.le le_rfl
    (not_lt.mp fun h => hna ((hdt a).mpr h.le)) ((hdt b).mp hb) hj'
  refine ⟨max (k + 1) (j + 1), s, le_trans ha hmem.1, by rw [← hg]; exact hfin, fun n hn => ?_⟩
  unfold search
  rw [zero_dec, one_dec, doubling_more (k + 1) n 0 1 (le_trans (le_max_left _ _) hn) hd]
  exact binarySearch_more (j + 1) n a b (le_trans (le_max_right _ _) hn) hs

/-- A search that ends, ends at a point within `tol` of the target. -/
theorem binarySearch_sound {stop left : ℝ → Prop} : ∀ (k : ℕ) (a b s : ℝ), 0 ≤ a → 0 ≤ b →
    binarySearch stop left k a b = some s → stop s ∧ 0 ≤ s
  | 0, _, _, _, _, _, h => by simp [binarySearch] at h
  | k + 1, a, b, s, ha, hb, h => by
    have hm : 0 ≤ a + (b - a) / 2.0 := by rw [two_dec]; linarith
    rw [binarySearch] at h
    split at h
    · rename_i hc
      injection h with h
      exact h ▸ ⟨hc, hm⟩
    · split at h
      · exact binarySearch_sound k _ _ s ha hm h
      · exact binarySearch_sound k _ _ s hm hb h

theorem doubling_nonneg {stop : ℝ → Prop} {r : ℝ × ℝ} : ∀ (k : ℕ) (a b : ℝ), 0 ≤ a → 0 ≤ b →
    doubling stop k a b = some r → 0 ≤ r.1 ∧ 0 ≤ r.2
  | 0, _, _, _, _, h => by simp [doubling] at h
  | k + 1, a, b, ha, hb, h => by
    rw [doubling] at h
    split at h
    · injection h with h
      subst h
      exact ⟨ha, hb⟩
    · exact doubling_nonneg k _ _ hb (by rw [two_dec]; linarith) h

theorem search_loops {toDelta : ℝ → ℝ} {stopDT left : ℝ → Prop} {delta tol : ℝ}
    (h : ∀ s, 0 ≤ s → ¬ stopDT s) (n : ℕ) : search n toDelta stopDT left delta tol = none := by
  unfold search
  rw [doubling_loops h n _ _ (by norm_num)]

theorem caseA_eq (epsilon s : ℝ) :
    caseA epsilon s = phi √(epsilon * s) - exp epsilon * phi (-√(epsilon * (s + 2))) := by
  unfold caseA; rw [two_dec]

theorem caseB_eq (epsilon s : ℝ) :
    caseB epsilon s = phi (-√(epsilon * s)) - exp epsilon * phi (-√(epsilon * (s + 2))) := by
  unfold caseB; rw [two_dec]

theorem caseA_continuous (epsilon : ℝ) : Continuous (caseA epsilon) := by
  have := phi_continuous
  unfold caseA
  fun_prop

theorem caseB_continuous (epsilon : ℝ) : Continuous (caseB epsilon) := by
  have := phi_continuous
  unfold caseB
  fun_prop

theorem caseA_zero (epsilon : ℝ) : caseA epsilon 0 = caseB epsilon 0 := by
  rw [caseA_eq, caseB_eq]; simp

theorem root_top {epsilon : ℝ} (he : 0 < epsilon) (c : ℝ) :
    Tendsto (fun s : ℝ => √(epsilon * (s + c))) atTop atTop := by
  refine tendsto_sqrt_atTop.comp ?_
  exact (tendsto_atTop_add_const_right _ c tendsto_id).const_mul_atTop he

theorem caseA_top {epsilon : ℝ} (he : 0 < epsilon) : Tendsto (caseA epsilon) atTop (𝓝 1) := by
  have h0 := root_top he 0
  simp only [add_zero] at h0
  have h1 := phi_top.comp h0
  have h2 := (phi_bot.comp (tendsto_neg_atTop_atBot.comp (root_top he 2))).const_mul (exp epsilon)
  have h3 := h1.sub h2
  simp only [mul_zero, sub_zero] at h3
  exact h3.congr fun s => (caseA_eq epsilon s).symm

theorem caseB_top {epsilon : ℝ} (he : 0 < epsilon) : Tendsto (caseB epsilon) atTop (𝓝 0) := by
  have h0 := root_top he 0
  simp only [add_zero] at h0
  have h1 := phi_bot.comp (tendsto_neg_atTop_atBot.comp h0)
  have h2 := (phi_bot.comp (tendsto_neg_atTop_atBot.comp (root_top he 2))).const_mul (exp epsilon)
  have h3 := h1.sub h2
  simp only [mul_zero, sub_zero] at h3
  exact h3.congr fun s => (caseB_eq epsilon s).symm

/-- The factor of a wide noise. -/
noncomputable def wide (s : ℝ) : ℝ := √(1 + s / 2) + √(s / 2)

/-- The factor of a narrow noise. -/
noncomputable def narrow (s : ℝ) : ℝ := √(1 + s / 2) - √(s / 2)

theorem narrow_wide {s : ℝ} (h : 0 ≤ s) : narrow s * wide s = 1 := by
  unfold narrow wide
  have h1 : √(1 + s / 2) * √(1 + s / 2) = 1 + s / 2 := Real.mul_self_sqrt (by linarith)
  have h2 : √(s / 2) * √(s / 2) = s / 2 := Real.mul_self_sqrt (by linarith)
  nlinarith

theorem wide_pos {s : ℝ} (h : 0 ≤ s) : 0 < wide s := by
  unfold wide
  have : 0 < √(1 + s / 2) := Real.sqrt_pos.mpr (by linarith)
  have : 0 ≤ √(s / 2) := Real.sqrt_nonneg _
  linarith

theorem narrow_pos {s : ℝ} (h : 0 ≤ s) : 0 < narrow s := by
  have h1 := narrow_wide h
  have h2 := wide_pos h
  by_contra hn
  have : narrow s * wide s ≤ 0 := mul_nonpos_of_nonpos_of_nonneg (not_lt.mp hn) h2.le
  linarith

/-- What the noise of factor `a` shows, for a factor with inverse `b`. -/
theorem loss_factor {epsilon gs a b : ℝ} (he : 0 < epsilon) (hg : 0 < gs) (ha : 0 < a) (hab : a * b = 1) :
    loss epsilon (a * gs / √(2 * epsilon)) gs
      = phi (√(epsilon / 2) * (b - a)) - exp epsilon * phi (-(√(epsilon / 2) * (b + a))) := by
  have hr : 0 < √(2 * epsilon) := Real.sqrt_pos.mpr (by linarith)
  have hb : b = 1 / a := by field_simp; linarith
  have h2 : √(2 * epsilon) = 2 * √(epsilon / 2) := by
    rw [show 2 * epsilon = 2 ^ 2 * (epsilon / 2) by ring, Real.sqrt_mul (by norm_num), Real.sqrt_sq (by norm_num)]
  have hq : 0 < √(epsilon / 2) := Real.sqrt_pos.mpr (by linarith)
  have hqq : √(epsilon / 2) * √(epsilon / 2) = epsilon / 2 := Real.mul_self_sqrt (by linarith)
  have hqq' : √(epsilon / 2) ^ 2 = epsilon / 2 := by rw [sq, hqq]
  have e1 : gs / (2 * (a * gs / √(2 * epsilon))) = √(epsilon / 2) * b := by
    rw [h2, hb]; field_simp
  have e2 : epsilon * (a * gs / √(2 * epsilon)) / gs = √(epsilon / 2) * a := by
    rw [h2]; field_simp; rw [hqq']; ring
  unfold loss
  rw [e1, e2]
  congr 2
  · ring
  · congr 1; ring

theorem root_twice {epsilon x : ℝ} (he : 0 < epsilon) :
    √(epsilon / 2) * (2 * √(x / 2)) = √(epsilon * x) := by
  rw [show epsilon * x = (epsilon / 2) * (2 ^ 2 * (x / 2)) by ring, Real.sqrt_mul (by linarith),
    Real.sqrt_mul (by norm_num), Real.sqrt_sq (by norm_num)]

theorem loss_narrow {epsilon gs s : ℝ} (he : 0 < epsilon) (hg : 0 < gs) (hs : 0 ≤ s) :
    loss epsilon (narrow s * gs / √(2 * epsilon)) gs = caseA epsilon s := by
  rw [loss_factor he hg (narrow_pos hs) (narrow_wide hs), caseA_eq]
  have e1 : wide s - narrow s = 2 * √(s / 2) := by unfold wide narrow; ring
  have e2 : wide s + narrow s = 2 * √((s + 2) / 2) := by
    unfold wide narrow; rw [show (s + 2) / 2 = 1 + s / 2 by ring]; ring
  rw [e1, e2, root_twice he, root_twice he]

theorem loss_wide {epsilon gs s : ℝ} (he : 0 < epsilon) (hg : 0 < gs) (hs : 0 ≤ s) :
    loss epsilon (wide s * gs / √(2 * epsilon)) gs = caseB epsilon s := by
  rw [loss_factor he hg (wide_pos hs) (by rw [mul_comm]; exact narrow_wide hs), caseB_eq]
  have e1 : narrow s - wide s = -(2 * √(s / 2)) := by unfold wide narrow; ring
  have e2 : narrow s + wide s = 2 * √((s + 2) / 2) := by
    unfold wide narrow; rw [show (s + 2) / 2 = 1 + s / 2 by ring]; ring
  rw [e1, e2, mul_neg, root_twice he, root_twice he]

theorem loss_one {epsilon gs : ℝ} (he : 0 < epsilon) (hg : 0 < gs) :
    loss epsilon (1 * gs / √(2 * epsilon)) gs = caseA epsilon 0 := by
  have h := loss_narrow he hg (le_refl (0 : ℝ))
  have : narrow 0 = 1 := by unfold narrow; simp
  rwa [this] at h

theorem caseA_lt_one {epsilon s : ℝ} : caseA epsilon s < 1 := by
  rw [caseA_eq]
  have h1 := phi_lt_one √(epsilon * s)
  have h2 := mul_pos (exp_pos epsilon) (phi_pos (-√(epsilon * (s + 2))))
  linarith

/-- Some of the change always shows. -/
theorem loss_pos {epsilon sigma d : ℝ} (he : 0 < epsilon) (hs : 0 < sigma) (hd : 0 < d) :
    0 < loss epsilon sigma d := by
  -- the loss vanishes with the shift and grows strictly
  have hstrict : StrictMonoOn (loss epsilon sigma) (Ioi 0) := by
    refine strictMonoOn_of_deriv_pos (convex_Ioi 0) ?_ ?_
    · exact fun x hx => (loss_hasDerivAt hs hx).continuousAt.continuousWithinAt
    · intro x hx
      rw [(loss_hasDerivAt hs (by simpa using hx)).deriv]
      exact div_pos (dens_pos _) hs
  have hlow : ∀ x, 0 < x → 0 ≤ loss epsilon sigma x := by
    intro x hx
    have hlim : Tendsto (loss epsilon sigma) (𝓝[>] 0) (𝓝 0) := by
      have hid : Tendsto (fun d : ℝ => d / (2 * sigma)) (𝓝[>] 0) (𝓝 0) := by
        have : Tendsto (fun d : ℝ => d / (2 * sigma)) (𝓝 0) (𝓝 (0 / (2 * sigma))) :=
          (continuous_id.div_const _).tendsto 0
        rw [zero_div] at this
        exact this.mono_left nhdsWithin_le_nhds
      have hinv : Tendsto (fun d : ℝ => -(epsilon * sigma / d)) (𝓝[>] 0) atBot := by
        have := tendsto_inv_nhdsGT_zero.const_mul_atTop (show 0 < epsilon * sigma by positivity)
        refine (tendsto_neg_atTop_atBot.comp this).congr fun d => ?_
        simp [div_eq_mul_inv]
      have h1 := phi_bot.comp (hid.add_atBot hinv)
      have h2 := (phi_bot.comp (hid.neg.add_atBot hinv)).const_mul (exp epsilon)
      have h3 := h1.sub h2
      simp only [mul_zero, sub_zero] at h3
      refine h3.congr fun d => ?_
      simp [loss, sub_eq_add_neg]
    refine le_of_tendsto hlim ?_
    filter_upwards [Ioo_mem_nhdsGT hx] with y hy
    exact hstrict.monotoneOn hy.1 hx hy.2.le
  exact lt_of_le_of_lt (hlow (d / 2) (by linarith)) (hstrict (show (0:ℝ) < d / 2 by linarith) hd (by linarith))

theorem caseB_pos {epsilon s : ℝ} (he : 0 < epsilon) (hs : 0 ≤ s) : 0 < caseB epsilon s := by
  rw [← loss_wide he one_pos hs]
  have h1 := wide_pos hs
  have h2 : 0 < √(2 * epsilon) := Real.sqrt_pos.mpr (by linarith)
  exact loss_pos he (by positivity) one_pos

/-- The tail of the normal distribution. -/
theorem phi_tail {t : ℝ} (ht : 0 < t) : phi (-t) ≤ dens t / t := by
  have hder : ∀ x ∈ Ioi (0 : ℝ), HasDerivAt (fun x => dens x / x - phi (-x)) (-(dens x / x ^ 2)) x := by
    intro x hx
    have hx' : x ≠ 0 := ne_of_gt hx
    have hd : HasDerivAt dens (dens x * -x) x := by
      have h1 : HasDerivAt (fun x : ℝ => -x ^ 2 / 2) (-x) x := by
        have := ((hasDerivAt_pow 2 x).neg).div_const 2
        refine this.congr_deriv ?_
        norm_num
        ring
      have := (h1.exp).const_mul (√(2 * π))⁻¹
      refine this.congr_deriv ?_
      unfold dens; ring
    have h2 := (hd.div (hasDerivAt_id x) hx').sub ((phi_hasDerivAt (-x)).comp x (hasDerivAt_neg x))
    refine h2.congr_deriv ?_
    have he : dens (-x) = dens x := by unfold dens; simp
    rw [he]
    simp only [id]
    field_simp
    ring
  have hanti : AntitoneOn (fun x => dens x / x - phi (-x)) (Ioi 0) := by
    refine antitoneOn_of_deriv_nonpos (convex_Ioi 0) ?_ ?_ ?_
    · exact fun x hx => (hder x hx).continuousAt.continuousWithinAt
    · exact fun x hx => (hder x (by simpa using hx)).differentiableAt.differentiableWithinAt
    · intro x hx
      rw [(hder x (by simpa using hx)).deriv]
      have := dens_pos x
      have : 0 ≤ dens x / x ^ 2 := by positivity
      linarith
  have hlim : Tendsto (fun x => dens x / x - phi (-x)) atTop (𝓝 0) := by
    have hb : Tendsto (fun x => dens x / x) atTop (𝓝 0) := by
      refine tendsto_of_tendsto_of_tendsto_of_le_of_le' (g := fun _ => (0:ℝ)) (h := fun x => (√(2 * π))⁻¹ / x)
        tendsto_const_nhds (tendsto_const_nhds.div_atTop tendsto_id) ?_ ?_
      · filter_upwards [eventually_gt_atTop 0] with x hx
        exact div_nonneg (dens_pos x).le (le_of_lt hx)
      · filter_upwards [eventually_gt_atTop 0] with x hx
        refine div_le_div_of_nonneg_right ?_ (le_of_lt hx)
        unfold dens
        have : exp (-x ^ 2 / 2) ≤ 1 := by
          rw [Real.exp_le_one_iff]; nlinarith [sq_nonneg x]
        have hp : (0 : ℝ) ≤ (√(2 * π))⁻¹ := inv_nonneg.mpr (Real.sqrt_nonneg _)
        nlinarith
    have := hb.sub (phi_bot.comp tendsto_neg_atTop_atBot)
    simpa using this
  have : 0 ≤ dens t / t - phi (-t) := by
    refine le_of_tendsto hlim ?_
    filter_upwards [eventually_ge_atTop t] with y hy
    exact hanti ht (lt_of_lt_of_le ht hy) hy
  linarith

/-- For a budget `epsilon` of at least one the threshold between the two cases is above a fifth. -/
theorem threshold {epsilon : ℝ} (he : 1 ≤ epsilon) : 0.217 ≤ caseA epsilon 0 := by
  rw [caseA_eq]
  have h0 : 0 < √(epsilon * (0 + 2)) := Real.sqrt_pos.mpr (by linarith)
  have h1 := phi_tail h0
  have hsq : √(epsilon * (0 + 2)) ^ 2 = epsilon * (0 + 2) := Real.sq_sqrt (by linarith)
  have h2 : exp epsilon * dens √(epsilon * (0 + 2)) = (√(2 * π))⁻¹ := by
    unfold dens
    rw [hsq, show -(epsilon * (0 + 2)) / 2 = -epsilon by ring]
    rw [mul_left_comm, ← exp_add]
    simp
  have h3 : exp epsilon * phi (-√(epsilon * (0 + 2))) ≤ (√(2 * π))⁻¹ / √(epsilon * (0 + 2)) := by
    have := mul_le_mul_of_nonneg_left h1 (exp_pos epsilon).le
    rw [← mul_div_assoc, h2] at this
    exact this
  have h4 : (√(2 * π))⁻¹ / √(epsilon * (0 + 2)) ≤ 0.283 := by
    rw [div_le_iff₀ h0, inv_le_iff_one_le_mul₀ (Real.sqrt_pos.mpr (by positivity))]
    have e : √(2 * π) * (0.283 * √(epsilon * (0 + 2))) = 0.283 * √(2 * π * (epsilon * (0 + 2))) := by
      rw [Real.sqrt_mul (x := 2 * π) (by positivity) (epsilon * (0 + 2))]; ring
    have hge : (3.54 : ℝ) ≤ √(2 * π * (epsilon * (0 + 2))) := by
      apply Real.le_sqrt_of_sq_le
      have := Real.pi_gt_d4
      nlinarith
    calc (1 : ℝ) ≤ 0.283 * 3.54 := by norm_num
      _ ≤ 0.283 * √(2 * π * (epsilon * (0 + 2))) := by linarith
      _ = √(2 * π) * (0.283 * √(epsilon * (0 + 2))) := e.symm
      _ ≤ _ := le_of_eq (by ring)
  have h5 : √(epsilon * 0) = 0 := by simp
  rw [h5, phi_zero]
  norm_num at h4 ⊢
  norm_num at h3
  linarith

end Psi.DpCalib
