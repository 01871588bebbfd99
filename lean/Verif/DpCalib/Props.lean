import Verif.DpCalib.Budget

/-!
# C113: the noise of the private mean, and the split of the privacy budget

`Private` (in `Verif.DpCalib.Privacy`) is differential privacy of one released number with normal noise, stated with
Mathlib's normal distribution; nothing of the code occurs in it.
-/

namespace Psi.DpCalib

open Real MeasureTheory ProbabilityTheory Filter Topology Set

/-- What the noise of every answer shows: within `tol` of the budget, or within the `0.00001` of the shortcut. -/
theorem calibrate_loss {epsilon delta gs tol sigma : ℝ} {fuel : ℕ} (he : 0 < epsilon) (hg : 0 < gs)
    (h : calibrate epsilon delta gs tol fuel = some sigma) :
    0 < sigma ∧ ((|delta - caseA epsilon 0| < 0.00001 ∧ loss epsilon sigma gs = caseA epsilon 0) ∨
      (0.00001 ≤ |delta - caseA epsilon 0| ∧ |loss epsilon sigma gs - delta| ≤ tol)) := by
  unfold calibrate alpha at h
  simp only [zero_dec, one_dec, two_dec] at h
  have hr : 0 < √(2 * epsilon) := Real.sqrt_pos.mpr (by linarith)
  split at h
  · rename_i hc
    injection h with h
    subst h
    exact ⟨by positivity, .inl ⟨hc, loss_one he hg⟩⟩
  · rename_i hc
    have hc' := not_lt.mp hc
    have main : ∀ (f : ℝ → ℝ) (st lf : ℝ → Prop) (w : ℝ → ℝ), (∀ s, 0 ≤ s → 0 < w s) →
        (∀ s, 0 ≤ s → loss epsilon (w s * gs / √(2 * epsilon)) gs = f s) →
        Option.map (fun a => a * gs / √(2 * epsilon)) (Option.map w (search fuel f st lf delta tol)) = some sigma →
        0 < sigma ∧ |loss epsilon sigma gs - delta| ≤ tol := by
      intro f st lf w hw hl hm
      unfold search at hm
      cases hd : doubling st fuel 0.0 1.0 with
      | none => rw [hd] at hm; simp at hm
      | some ab =>
        obtain ⟨a, b⟩ := ab
        rw [hd] at hm
        simp only at hm
        have hab : 0 ≤ a ∧ 0 ≤ b := doubling_nonneg fuel 0.0 1.0 (by norm_num) (by norm_num) hd
        cases hb : binarySearch (fun s => |f s - delta| ≤ tol) lf fuel a b with
        | none => rw [hb] at hm; simp at hm
        | some s =>
          rw [hb] at hm
          simp only [Option.map_some, Option.some.injEq] at hm
          obtain ⟨hs, hs0⟩ := binarySearch_sound fuel a b s hab.1 hab.2 hb
          subst hm
          have := hw s hs0
          exact ⟨by positivity, by rw [hl s hs0]; exact hs⟩
    split at h
    · have := main _ _ _ (fun s => √(1 + s / 2) - √(s / 2)) (fun s hs => narrow_pos hs)
        (fun s hs => loss_narrow he hg hs) h
      exact ⟨this.1, .inr ⟨hc', this.2⟩⟩
    · have := main _ _ _ (fun s => √(1 + s / 2) + √(s / 2)) (fun s hs => wide_pos hs)
        (fun s hs => loss_wide he hg hs) h
      exact ⟨this.1, .inr ⟨hc', this.2⟩⟩

/-- **C113 (the calibration ends).**  For every budget `epsilon > 0`, `0 < delta < 1` and every tolerance the two
searches come to an end, with one answer. -/
theorem C113_ends {epsilon delta tol : ℝ} (gs : ℝ) (he : 0 < epsilon) (hd0 : 0 < delta) (hd1 : delta < 1)
    (ht : 0 < tol) : ∃ sigma, Returns (calibrate epsilon delta gs tol) sigma := by
  by_cases hc : |delta - caseA epsilon 0| < 0.00001
  · exact ⟨1.0 * gs / √(2.0 * epsilon), 0, fun n _ => by
      unfold calibrate alpha; rw [zero_dec, if_pos hc]; rfl⟩
  by_cases hgt : delta > caseA epsilon 0
  · obtain ⟨S, hS⟩ := (eventually_atTop.mp ((caseA_top he).eventually (lt_mem_nhds hd1)))
    obtain ⟨N, s, _, _, hN⟩ := search_ends (toDelta := caseA epsilon) (stopDT := fun s => caseA epsilon s ≥ delta)
      (left := fun s => caseA epsilon s > delta) (S := S) (fun s => caseA epsilon s - delta)
      ((caseA_continuous epsilon).sub continuous_const) ht (fun _ => rfl) (fun s => by simp)
      (fun s => by simp) (by simpa using hgt) (fun s hs => by have := hS s hs; linarith)
    exact ⟨_, N, fun n hn => by
      unfold calibrate alpha; rw [zero_dec, if_neg hc, if_pos hgt, hN n hn]; rfl⟩
  · have hlt : delta < caseA epsilon 0 := by
      refine lt_of_le_of_ne (not_lt.mp hgt) fun h => hc ?_
      rw [h, sub_self, abs_zero]; norm_num
    obtain ⟨S, hS⟩ := (eventually_atTop.mp ((caseB_top he).eventually (gt_mem_nhds hd0)))
    obtain ⟨N, s, _, _, hN⟩ := search_ends (toDelta := caseB epsilon) (stopDT := fun s => caseB epsilon s ≤ delta)
      (left := fun s => caseB epsilon s < delta) (S := S) (fun s => delta - caseB epsilon s)
      (continuous_const.sub (caseB_continuous epsilon)) ht (fun _ => abs_sub_comm _ _) (fun s => by simp)
      (fun s => by simp) (by rw [← caseA_zero]; linarith) (fun s hs => by have := hS s hs; linarith)
    exact ⟨_, N, fun n hn => by
      unfold calibrate alpha; rw [zero_dec, if_neg hc, if_neg hgt, hN n hn]; rfl⟩

/-- **C113 (the noise hides a change).**  Noise with the standard deviation that the calibration answers makes the
released number differentially private for the budget asked for, up to `tol` — or up to `0.00001` where the code takes
its shortcut.  The claim is for every pair of values at most the sensitivity `gs` apart and every set of outcomes. -/
theorem C113_private_partial {epsilon delta gs tol sigma : ℝ} {fuel : ℕ} (he : 0 < epsilon) (hd : 0 ≤ delta) (hg : 0 < gs)
    (h : calibrate epsilon delta gs tol fuel = some sigma) :
    0 < sigma ∧ Private epsilon (delta + max tol 0.00001) gs sigma := by
  obtain ⟨hs, hcase⟩ := calibrate_loss he hg h
  refine ⟨hs, private_of_loss he.le hs (by positivity) ?_⟩
  have m1 := le_max_left tol 0.00001
  have m2 := le_max_right tol (0.00001 : ℝ)
  rcases hcase with ⟨h1, h2⟩ | ⟨_, h2⟩
  · rw [abs_lt] at h1; linarith
  · rw [abs_le] at h2; linarith

/-- **C113 (budgets in use).**  For `epsilon` of at least one and `delta` of at most a fifth the shortcut is not taken
and the excess is only the tolerance. -/
theorem C113_private_tight {epsilon delta gs tol sigma : ℝ} {fuel : ℕ} (he : 1 ≤ epsilon) (hd : 0 ≤ delta)
    (hd5 : delta ≤ 0.2) (hg : 0 < gs) (ht : 0 ≤ tol) (h : calibrate epsilon delta gs tol fuel = some sigma) :
    0 < sigma ∧ Private epsilon (delta + tol) gs sigma := by
  obtain ⟨hs, hcase⟩ := calibrate_loss (by linarith) hg h
  refine ⟨hs, private_of_loss (by linarith) hs (by positivity) ?_⟩
  rcases hcase with ⟨h1, _⟩ | ⟨_, h2⟩
  · have := threshold he
    rw [abs_lt] at h1
    norm_num at *
    linarith
  · rw [abs_le] at h2; linarith

/-- **C113 (no more noise than needed).**  The answered noise is no wider than the budget asks for: whatever budget
`(epsilon, delta')` it meets, `delta` is at most `delta'` and the same slack. -/
theorem C113_not_wasteful {epsilon delta gs tol sigma delta' : ℝ} {fuel : ℕ} (he : 0 < epsilon) (hg : 0 < gs)
    (h : calibrate epsilon delta gs tol fuel = some sigma) (hp : Private epsilon delta' gs sigma) :
    delta ≤ delta' + max tol 0.00001 := by
  obtain ⟨hs, hcase⟩ := calibrate_loss he hg h
  have hl := loss_of_private hs hg hp
  have m1 := le_max_left tol 0.00001
  have m2 := le_max_right tol (0.00001 : ℝ)
  rcases hcase with ⟨h1, h2⟩ | ⟨_, h2⟩
  · rw [abs_lt] at h1; linarith
  · rw [abs_le] at h2; linarith

/-- **C113 (the shortcut overspends).**  For every `epsilon` there is a `delta` for which the answered noise does not
meet the budget: next to the threshold the code answers with the noise of the threshold, which may be too narrow. -/
theorem C113_shortcut_overspends {epsilon gs : ℝ} (tol : ℝ) (he : 0 < epsilon) (hg : 0 < gs) :
    ∃ delta, 0 < delta ∧ delta < 1 ∧
      ∃ sigma, Returns (calibrate epsilon delta gs tol) sigma ∧ ¬ Private epsilon delta gs sigma := by
  have hpos : 0 < caseA epsilon 0 := by rw [caseA_zero]; exact caseB_pos he le_rfl
  have hlt := caseA_lt_one (epsilon := epsilon) (s := 0)
  have m1 := min_le_left (0.000005 : ℝ) (caseA epsilon 0 / 2)
  have m2 := min_le_right (0.000005 : ℝ) (caseA epsilon 0 / 2)
  have m3 : 0 < min (0.000005 : ℝ) (caseA epsilon 0 / 2) := lt_min (by norm_num) (by linarith)
  have hr : 0 < √(2 * epsilon) := Real.sqrt_pos.mpr (by linarith)
  refine ⟨caseA epsilon 0 - min 0.000005 (caseA epsilon 0 / 2), by linarith, by linarith,
    1 * gs / √(2 * epsilon), ⟨0, fun n _ => ?_⟩, fun hp => ?_⟩
  · unfold calibrate alpha
    rw [zero_dec, if_pos, one_dec, two_dec]
    · rfl
    · rw [sub_sub_cancel_left, abs_neg, abs_of_pos m3]
      norm_num at m1 ⊢
  · have := loss_of_private (by positivity) hg hp
    rw [loss_one he hg] at this
    linarith

/-- **C113 (a budget that cannot be met).**  With `delta` of one or more — which no noise at all would meet — the
doubling never ends. -/
theorem C113_delta_one_hangs {epsilon delta : ℝ} (gs tol : ℝ) (_he : 0 < epsilon) (hd : 1 ≤ delta) :
    Loops (calibrate epsilon delta gs tol) := by
  intro n
  have hhalf : caseA epsilon 0 < 1 / 2 := by
    rw [caseA_eq, mul_zero, Real.sqrt_zero, phi_zero]
    exact sub_lt_self _ (mul_pos (exp_pos epsilon) (phi_pos _))
  unfold calibrate alpha
  rw [zero_dec, if_neg, if_pos (by linarith), search_loops]
  · rfl
  · intro s _ hs
    have := caseA_lt_one (epsilon := epsilon) (s := s)
    linarith
  · rw [not_lt, abs_of_pos (by linarith)]
    norm_num
    linarith

/-- **C113 (no `delta`).**  With `delta` zero or less the doubling never ends: every noise shows something. -/
theorem C113_delta_zero_hangs {epsilon delta : ℝ} (gs tol : ℝ) (he : 1 ≤ epsilon) (hd : delta ≤ 0) :
    Loops (calibrate epsilon delta gs tol) := by
  intro n
  have hth := threshold he
  norm_num at hth
  unfold calibrate alpha
  rw [zero_dec, if_neg, if_neg (by linarith), search_loops]
  · rfl
  · intro s hs0 hs
    have := caseB_pos (epsilon := epsilon) (by linarith) hs0
    linarith
  · rw [not_lt, abs_of_neg (by linarith)]
    norm_num
    linarith

/-- **C113 (the split adds up).**  The part of a budget given to the randomised response is between `2.5` and `4`,
and — if the cost of sampling is a number there — the two parts add up to the budget within the error rate. -/
theorem C113_split_adds_up {n fuel : ℕ} {epsilon e2 : ℝ} (h : epsilon2 n epsilon fuel = some e2) :
    2.5 ≤ e2 ∧ e2 ≤ 4 ∧ (epsilon1 n e2 = .nan ∨ ∃ x, epsilon1 n e2 = .num x ∧ |epsilon - x - e2| ≤ 1e-12) := by
  have := loop_sound (lo := 2.5) (hi := epsilonPsi) fuel 2.5 epsilonPsi e2 le_rfl
    (by unfold epsilonPsi; norm_num) le_rfl h
  exact ⟨this.1.1, this.1.2, this.2⟩

/-- **C113 (the split of the default budget).**  With at least `2048` items — the smallest size of the benchmark — the
default budget of four is split, and the parts add up. -/
theorem C113_split_default {n : ℕ} (hn : 2048 ≤ n) :
    ∃ e2, Returns (epsilon2 n 4) e2 ∧ 2.5 ≤ e2 ∧ e2 ≤ 4 ∧
      ∃ x, epsilon1 n e2 = .num x ∧ |4 - x - e2| ≤ 1e-12 := by
  have hn0 : n ≠ 0 := by omega
  have hb : (2.5 : ℝ) ≤ epsilonPsi := by unfold epsilonPsi; norm_num
  have hnum : ∀ x ∈ Icc (2.5 : ℝ) epsilonPsi, epsilon1 n x = .num (e1 n x) :=
    fun x hx => epsilon1_num hn0 (many hn hx.1).1
  have hcont : ContinuousOn (fun s => s + e1 n s - 4) (Icc 2.5 epsilonPsi) :=
    (continuousOn_id.add (e1_continuousOn fun x hx => (many hn hx.1).1)).sub continuousOn_const
  have huc := (isCompact_Icc (a := (2.5 : ℝ)) (b := epsilonPsi)).uniformContinuousOn_of_continuous hcont
  rw [Metric.uniformContinuousOn_iff] at huc
  have hrate : 0 < errorRate := by unfold errorRate; norm_num
  obtain ⟨eta, heta, hu⟩ := huc errorRate hrate
  obtain ⟨j, hj⟩ := pow_unbounded_of_one_lt ((epsilonPsi - 2.5) / eta) (by norm_num : (1 : ℝ) < 2)
  have hj' : epsilonPsi - 2.5 < 2 ^ j * eta := by rwa [div_lt_iff₀ heta] at hj
  obtain ⟨s, hs, hmem, hfin⟩ := binarySearch_ends (g := fun s => s + e1 n s - 4)
    (stop := fun s => |4 - e1 n s - s| ≤ errorRate) (left := fun s => 4 - e1 n s - s ≤ 0) (tol := errorRate) heta
    (fun x hx y hy hxy => (hu x hx y hy (by rwa [Real.dist_eq])).le)
    (fun s _ => by
      show |4 - e1 n s - s| ≤ errorRate ↔ |s + e1 n s - 4| ≤ errorRate
      rw [← abs_neg (s + e1 n s - 4), show -(s + e1 n s - 4) = 4 - e1 n s - s by ring])
    (fun s _ => ⟨fun h => by linarith, fun h => by linarith [not_le.mp h]⟩)
    j 2.5 epsilonPsi le_rfl hb le_rfl
    (by have := (many hn (le_refl (2.5 : ℝ))).2; norm_num at this ⊢; linarith)
    (by
      have := e1_nonneg hn0 (many hn hb).1
      have h4 : epsilonPsi = 4 := rfl
      rw [h4] at this ⊢
      linarith) hj'
  have hrun : epsilon2 n 4 (j + 1) = some s := by
    unfold epsilon2
    rw [loop_eq hnum (j + 1) 2.5 epsilonPsi le_rfl hb le_rfl]
    exact hs
  have hadd := C113_split_adds_up hrun
  refine ⟨s, ⟨j + 1, fun m hm => loop_more (j + 1) m _ _ hm hrun⟩, hadd.1, hadd.2.1, e1 n s, hnum s hmem, ?_⟩
  have : |s + e1 n s - 4| ≤ 1e-12 := hfin
  rwa [← abs_neg, show -(s + e1 n s - 4) = 4 - e1 n s - s by ring] at this

/-- **C113 (small budgets hang).**  A budget below `2.5` (by at least the error rate) lies below the fixed lower end of the
search: the loop never ends. -/
theorem C113_small_budget_hangs {n : ℕ} (hn : 2048 ≤ n) {epsilon : ℝ} (he : epsilon ≤ 2.5 - 1e-12) :
    Loops (epsilon2 n epsilon) := by
  intro k
  have hn0 : n ≠ 0 := by omega
  refine loop_never (lo := 2.5) (hi := epsilonPsi) (fun x hx => ⟨e1 n x, epsilon1_num hn0 (many hn hx.1.le).1, ?_⟩)
    k 2.5 epsilonPsi le_rfl (by unfold epsilonPsi; norm_num) le_rfl
  have h1 := e1_nonneg hn0 (many hn hx.1.le).1
  have h2 := hx.1
  rw [abs_of_neg (by linarith), errorRate]
  linarith

/-- **C113 (large budgets hang).**  A budget of `6` or more lies above what the fixed upper end of the search can
spend: the loop never ends. -/
theorem C113_large_budget_hangs {n : ℕ} (hn : 2048 ≤ n) {epsilon : ℝ} (he : 6 ≤ epsilon) :
    Loops (epsilon2 n epsilon) := by
  intro k
  have hn0 : n ≠ 0 := by omega
  refine loop_never (lo := 2.5) (hi := epsilonPsi) (fun x hx => ⟨e1 n x, epsilon1_num hn0 (many hn hx.1.le).1, ?_⟩)
    k 2.5 epsilonPsi le_rfl (by unfold epsilonPsi; norm_num) le_rfl
  have h1 := (many hn hx.1.le).2
  have h2 : x < 4 := hx.2
  norm_num at h1
  rw [abs_of_pos (by linarith), errorRate]
  norm_num
  linarith

/-- **C113 (few items).**  With at most ten items the cost of sampling is no number, the loop breaks on the comparison,
and the answer is `3.25` whatever the budget. -/
theorem C113_few_items {n : ℕ} (hn : n ≤ 10) (epsilon : ℝ) : Returns (epsilon2 n epsilon) 3.25 := by
  have hmid : (2.5 : ℝ) + (epsilonPsi - 2.5) / 2 = 3.25 := by unfold epsilonPsi; norm_num
  have hnan : epsilon1 n 3.25 = .nan := by
    unfold epsilon1
    by_cases h0 : n = 0
    · rw [if_pos h0]
    rw [if_neg h0, if_pos]
    have hN : (0 : ℝ) < n := by exact_mod_cast Nat.pos_of_ne_zero h0
    have hx : 0 < n * pSubKeep 3.25 := mul_pos hN (pSubKeep_pos _)
    have hlt : n * pSubKeep 3.25 < n := by
      have := mul_lt_mul_of_pos_left (pSubKeep_lt_one 3.25) hN
      linarith
    have hlog : (n : ℝ) / 2 ≤ log (20 * n) := by
      rw [Real.le_log_iff_exp_le (by positivity)]
      have e1 := Real.exp_one_lt_d9
      have ep := exp_pos (1 : ℝ)
      have hpow : ∀ k : ℕ, exp (k : ℝ) ≤ 2.7183 ^ k := fun k => by
        rw [← Real.exp_one_pow]
        exact pow_le_pow_left₀ ep.le (by linarith) k
      have h5 : exp 5 ≤ 150 := le_trans (by simpa using hpow 5) (by norm_num)
      have h4 : exp 4 ≤ 60 := le_trans (by simpa using hpow 4) (by norm_num)
      have h1 : exp 1 ≤ 20 := by linarith
      have hnR : (n : ℝ) ≤ 10 := by exact_mod_cast hn
      rcases Nat.lt_or_ge n 3 with h | h
      · have : (n : ℝ) ≤ 2 := by exact_mod_cast (by omega : n ≤ 2)
        have h' : (1 : ℝ) ≤ n := by exact_mod_cast Nat.pos_of_ne_zero h0
        exact le_trans (exp_le_exp.mpr (by linarith)) (le_trans h1 (by linarith))
      · rcases Nat.lt_or_ge n 9 with h' | h'
        · have a : (n : ℝ) ≤ 8 := by exact_mod_cast (by omega : n ≤ 8)
          have b : (3 : ℝ) ≤ n := by exact_mod_cast h
          exact le_trans (exp_le_exp.mpr (by linarith)) (le_trans h4 (by linarith))
        · have b : (9 : ℝ) ≤ n := by exact_mod_cast h'
          exact le_trans (exp_le_exp.mpr (by linarith)) (le_trans h5 (by linarith))
    rw [sampled_eq, sub_neg, Real.lt_sqrt hx.le]
    have : n * pSubKeep 3.25 < 2 * log (20 * n) := by linarith
    nlinarith
  refine ⟨1, fun k hk => ?_⟩
  obtain ⟨j, rfl⟩ : ∃ j, k = j + 1 := ⟨k - 1, by omega⟩
  unfold epsilon2
  rw [epsilon2Loop, hmid, hnan]

end Psi.DpCalib
