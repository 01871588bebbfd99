import Verif.DpCalib.Search
import Mathlib.Analysis.Complex.ExponentialBounds

/-! # The split of the budget -/

namespace Psi.DpCalib

open Real Filter Topology Set

/-- The number `ComputeEpsilon1` computes when its root is of a positive number. -/
noncomputable def e1 (n : ℕ) (x : ℝ) : ℝ :=
  √(32 * log (4 / (1 / (10 * n : ℝ))) / sampled n x) * (1 - (n * pSubKeep x - sampled n x) / n)

theorem epsilon1_num {n : ℕ} {x : ℝ} (hn : n ≠ 0) (h : 0 < sampled n x) : epsilon1 n x = .num (e1 n x) := by
  unfold epsilon1 e1
  rw [if_neg hn, if_neg (not_lt.mpr h.le), if_neg h.ne']

theorem pSubKeep_pos (x : ℝ) : 0 < pSubKeep x := by unfold pSubKeep; positivity

theorem pSubKeep_lt_one (x : ℝ) : pSubKeep x < 1 := by
  unfold pSubKeep
  rw [div_lt_one (by positivity)]
  linarith

theorem pSubKeep_mono {x y : ℝ} (h : x ≤ y) : pSubKeep x ≤ pSubKeep y := by
  unfold pSubKeep
  have h1 := exp_le_exp.mpr h
  have h2 := exp_pos x
  rw [div_le_div_iff₀ (by positivity) (by positivity)]
  nlinarith

theorem pSubKeep_continuous : Continuous pSubKeep := by
  unfold pSubKeep
  exact Continuous.div (by fun_prop) (by fun_prop) fun x => by positivity

theorem two_div (n : ℕ) : (2 : ℝ) / (1 / (10 * n)) = 20 * n := by
  rw [div_div_eq_mul_div]; ring

theorem four_div (n : ℕ) : (4 : ℝ) / (1 / (10 * n)) = 40 * n := by
  rw [div_div_eq_mul_div]; ring

theorem log_pos' {n : ℕ} (hn : n ≠ 0) : 0 < log (20 * n : ℝ) := by
  apply log_pos
  have : (1 : ℝ) ≤ n := by exact_mod_cast Nat.one_le_iff_ne_zero.mpr hn
  linarith

theorem sampled_eq (n : ℕ) (x : ℝ) :
    sampled n x = n * pSubKeep x - √(2 * (n * pSubKeep x) * log (20 * n)) := by
  unfold sampled
  rw [two_div, mul_assoc 2 (n : ℝ)]

/-- The root in `ComputeEpsilon1` is of a positive number when enough items are expected in the sample. -/
theorem sampled_pos_iff {n : ℕ} (hn : n ≠ 0) (x : ℝ) :
    0 < sampled n x ↔ 2 * log (20 * n) < n * pSubKeep x := by
  have hN : (0 : ℝ) < n := by exact_mod_cast Nat.pos_of_ne_zero hn
  have hx : 0 < n * pSubKeep x := mul_pos hN (pSubKeep_pos x)
  rw [sampled_eq, sub_pos, Real.sqrt_lt' hx]
  constructor
  · intro h
    by_contra hc
    have := mul_le_mul_of_nonneg_left (not_lt.mp hc) hx.le
    nlinarith
  · intro h
    have := mul_lt_mul_of_pos_left h hx
    nlinarith

theorem sampled_pos_mono {n : ℕ} (hn : n ≠ 0) {x y : ℝ} (h : x ≤ y) (hx : 0 < sampled n x) : 0 < sampled n y := by
  rw [sampled_pos_iff hn] at hx ⊢
  have hN : (0 : ℝ) < n := by exact_mod_cast Nat.pos_of_ne_zero hn
  exact lt_of_lt_of_le hx (mul_le_mul_of_nonneg_left (pSubKeep_mono h) hN.le)

theorem sampled_continuous (n : ℕ) : Continuous (sampled n) := by
  have := pSubKeep_continuous
  unfold sampled
  fun_prop

theorem e1_continuousOn {n : ℕ} {lo hi : ℝ} (h : ∀ x ∈ Icc lo hi, 0 < sampled n x) :
    ContinuousOn (e1 n) (Icc lo hi) := by
  unfold e1
  have h1 := pSubKeep_continuous
  have h2 := sampled_continuous n
  refine ContinuousOn.mul (ContinuousOn.sqrt (ContinuousOn.div (by fun_prop) h2.continuousOn fun x hx => (h x hx).ne'))
    ?_
  fun_prop

theorem e1_nonneg {n : ℕ} {x : ℝ} (hn : n ≠ 0) (h : 0 < sampled n x) : 0 ≤ e1 n x := by
  have hN : (0 : ℝ) < n := by exact_mod_cast Nat.pos_of_ne_zero hn
  unfold e1
  refine mul_nonneg (Real.sqrt_nonneg _) ?_
  rw [sub_nonneg, div_le_one hN]
  have := mul_le_mul_of_nonneg_left (pSubKeep_lt_one x).le hN.le
  linarith

theorem e1_le {n : ℕ} {x : ℝ} (hn : n ≠ 0) : e1 n x ≤ √(32 * log (40 * n) / sampled n x) := by
  have hN : (0 : ℝ) < n := by exact_mod_cast Nat.pos_of_ne_zero hn
  unfold e1
  rw [four_div]
  have hs : n * pSubKeep x - sampled n x = √(2 * (n * pSubKeep x) * log (20 * n)) := by rw [sampled_eq]; ring
  have h1 : 1 - (n * pSubKeep x - sampled n x) / n ≤ 1 := by
    rw [hs]
    have : 0 ≤ √(2 * (n * pSubKeep x) * log (20 * n)) / n := div_nonneg (Real.sqrt_nonneg _) hN.le
    linarith
  calc _ ≤ √(32 * log (40 * n) / sampled n x) * 1 := mul_le_mul_of_nonneg_left h1 (Real.sqrt_nonneg _)
    _ = _ := mul_one _

theorem exp_ge : (9 : ℝ) ≤ exp 2.5 := by
  have h1 : exp 2.5 = exp 1 * exp 1 * exp 0.5 := by rw [← exp_add, ← exp_add]; norm_num
  have h2 := Real.exp_one_gt_d9
  have h3 : (1.5 : ℝ) ≤ exp 0.5 := by
    have := Real.add_one_le_exp (0.5 : ℝ)
    linarith
  rw [h1]
  nlinarith

theorem pSubKeep_ge {x : ℝ} (hx : 2.5 ≤ x) : 0.9 ≤ pSubKeep x := by
  refine le_trans ?_ (pSubKeep_mono hx)
  unfold pSubKeep
  have h := exp_ge
  rw [le_div_iff₀ (by linarith)]
  linarith

/-- With at least `2048` items the expected sample is large and `epsilon1` is at most `1.5`. -/
theorem many {n : ℕ} (hn : 2048 ≤ n) {x : ℝ} (hx : 2.5 ≤ x) : 0 < sampled n x ∧ e1 n x ≤ 1.5 := by
  have hn0 : n ≠ 0 := by omega
  have hN : (2048 : ℝ) ≤ n := by exact_mod_cast hn
  -- `u` is the fourth root of `40 n`
  obtain ⟨u, hu0, hu⟩ : ∃ u : ℝ, 0 < u ∧ u ^ 4 = 40 * n := by
    refine ⟨√(√(40 * n)), by positivity, ?_⟩
    rw [show (4 : ℕ) = 2 * 2 from rfl, pow_mul, Real.sq_sqrt (Real.sqrt_nonneg _), Real.sq_sqrt (by positivity)]
  have hu16 : 16.5 ≤ u := by
    by_contra hc
    have : u ^ 4 < 16.5 ^ 4 := pow_lt_pow_left₀ (not_le.mp hc) hu0.le (by norm_num)
    norm_num at this
    linarith
  have hlog : log (40 * n) ≤ 4 * u := by
    rw [← hu, Real.log_pow]
    have := Real.log_le_sub_one_of_pos hu0
    push_cast
    linarith
  have hlog2 : log (20 * n) ≤ 4 * u := by
    refine le_trans (Real.log_le_log (by positivity) (by linarith)) hlog
  have hlog0 := log_pos' hn0
  have hp := pSubKeep_ge hx
  have hp1 := pSubKeep_lt_one x
  have hnu : (n : ℝ) = u ^ 4 / 40 := by linarith
  -- the root is at most `0.1 u ^ 3`
  have hroot : √(2 * (n * pSubKeep x) * log (20 * n)) ≤ u ^ 3 * 0.12 := by
    rw [Real.sqrt_le_left (by positivity)]
    have h1 : 2 * (n * pSubKeep x) * log (20 * n) ≤ 2 * (n * 1) * (4 * u) := by
      refine mul_le_mul ?_ hlog2 hlog0.le (by positivity)
      nlinarith
    refine le_trans h1 ?_
    rw [hnu]
    have h5 : 0 < u ^ 5 := by positivity
    have : u ^ 6 = u ^ 5 * u := by ring
    nlinarith [mul_le_mul_of_nonneg_left hu16 h5.le]
  have h3 : 0 < u ^ 3 := by positivity
  have hm : u ^ 3 * 0.25 ≤ sampled n x := by
    rw [sampled_eq]
    have h1 : u ^ 4 / 40 * 0.9 ≤ n * pSubKeep x := by
      rw [hnu]; exact mul_le_mul_of_nonneg_left hp (by positivity)
    have h4 : u ^ 4 = u ^ 3 * u := by ring
    have := mul_le_mul_of_nonneg_left hu16 h3.le
    rw [h4] at h1
    nlinarith
  have hs : 0 < sampled n x := lt_of_lt_of_le (by positivity) hm
  refine ⟨hs, le_trans (e1_le hn0) ?_⟩
  rw [Real.sqrt_le_left (by norm_num), div_le_iff₀ hs]
  have h2 : 32 * log (40 * n) ≤ 128 * u := by linarith
  have h6 : 128 * u ≤ 1.5 ^ 2 * (u ^ 3 * 0.25) := by
    have : u ^ 3 = u * (u * u) := by ring
    have huu : 16.5 * 16.5 ≤ u * u := mul_le_mul hu16 hu16 (by norm_num) hu0.le
    rw [this]
    nlinarith [mul_le_mul_of_nonneg_left huu hu0.le]
  nlinarith

theorem loop_more {f : ℝ → Val} {epsilon r : ℝ} : ∀ (k j : ℕ) (a b : ℝ), k ≤ j →
    epsilon2Loop f epsilon k a b = some r → epsilon2Loop f epsilon j a b = some r
  | 0, _, _, _, _, h => by simp [epsilon2Loop] at h
  | k + 1, 0, _, _, hk, _ => by omega
  | k + 1, j + 1, a, b, hk, h => by
    rw [epsilon2Loop] at h ⊢
    split at h
    · exact h
    · exact loop_more k j _ _ (by omega) h
    · split at h
      · rename_i hc
        rw [if_pos hc]
        split at h
        · rename_i hd; rw [if_pos hd]; exact loop_more k j _ _ (by omega) h
        · rename_i hd; rw [if_neg hd]; exact loop_more k j _ _ (by omega) h
      · rename_i hc
        rw [if_neg hc]; exact h

/-- On numbers the loop is a bisection. -/
theorem loop_eq {f : ℝ → Val} {g : ℝ → ℝ} {epsilon lo hi : ℝ} (hf : ∀ x ∈ Icc lo hi, f x = .num (g x)) :
    ∀ (k : ℕ) (a b : ℝ), lo ≤ a → a ≤ b → b ≤ hi →
      epsilon2Loop f epsilon k a b
        = binarySearch (fun s => |epsilon - g s - s| ≤ errorRate) (fun s => epsilon - g s - s ≤ 0) k a b
  | 0, _, _, _, _, _ => rfl
  | k + 1, a, b, ha, hab, hb => by
    have hmid : a + (b - a) / 2.0 = a + (b - a) / 2 := by rw [two_dec]
    have hm : a + (b - a) / 2 ∈ Icc lo hi := ⟨by linarith, by linarith⟩
    rw [epsilon2Loop, binarySearch, hmid, hf _ hm]
    simp only
    by_cases hc : |epsilon - g (a + (b - a) / 2) - (a + (b - a) / 2)| > errorRate
    · rw [if_pos hc, if_neg (not_le.mpr hc)]
      by_cases hd : epsilon - g (a + (b - a) / 2) - (a + (b - a) / 2) > 0
      · rw [if_pos hd, if_neg (not_le.mpr hd)]
        exact loop_eq hf k _ b hm.1 (by linarith) hb
      · rw [if_neg hd, if_pos (not_lt.mp hd)]
        exact loop_eq hf k a _ ha (by linarith) hm.2
    · rw [if_neg hc, if_pos (not_lt.mp hc)]

theorem loop_sound {f : ℝ → Val} {epsilon : ℝ} {lo hi : ℝ} : ∀ (k : ℕ) (a b r : ℝ), lo ≤ a → a ≤ b → b ≤ hi →
    epsilon2Loop f epsilon k a b = some r →
      r ∈ Icc lo hi ∧ (f r = .nan ∨ ∃ x, f r = .num x ∧ |epsilon - x - r| ≤ errorRate)
  | 0, _, _, _, _, _, _, h => by simp [epsilon2Loop] at h
  | k + 1, a, b, r, ha, hab, hb, h => by
    rw [epsilon2Loop] at h
    split at h
    · rename_i hv
      injection h with h
      subst h
      exact ⟨⟨by linarith, by linarith⟩, .inl hv⟩
    · exact loop_sound k _ _ r ha (by linarith) (by linarith) h
    · rename_i x hv
      split at h
      · split at h
        · exact loop_sound k _ _ r (by linarith) (by linarith) hb h
        · exact loop_sound k _ _ r ha (by linarith) (by linarith) h
      · rename_i hc
        injection h with h
        subst h
        exact ⟨⟨by linarith, by linarith⟩, .inr ⟨x, hv, not_lt.mp hc⟩⟩

theorem loop_never {f : ℝ → Val} {epsilon : ℝ} {lo hi : ℝ}
    (hf : ∀ x ∈ Ioo lo hi, ∃ y, f x = .num y ∧ errorRate < |epsilon - y - x|) :
    ∀ (k : ℕ) (a b : ℝ), lo ≤ a → a < b → b ≤ hi → epsilon2Loop f epsilon k a b = none
  | 0, _, _, _, _, _ => rfl
  | k + 1, a, b, ha, hab, hb => by
    obtain ⟨y, hy, he⟩ := hf (a + (b - a) / 2) ⟨by linarith, by linarith⟩
    rw [epsilon2Loop, hy]
    simp only
    rw [if_pos he]
    split
    · exact loop_never hf k _ b (by linarith) (by linarith) hb
    · exact loop_never hf k a _ ha (by linarith) (by linarith)

end Psi.DpCalib
