import Verif.DpCalib.Props

/-! # Examples for C113 -/

namespace Psi.DpCalib

open Real

/-- The mean of payloads up to 100 over 1000 items of 2000, with the budget of the benchmark. -/
example : ∃ sigma, Returns (calibrate 3 (1 / 20000) (100 / 1000) errorRate) sigma :=
  C113_ends (100 / 1000) (by norm_num) (by norm_num) (by norm_num) (by norm_num [errorRate])

/-- And the noise of that answer meets the budget. -/
example : ∃ sigma, 0 < sigma ∧ Private 3 (1 / 20000 + errorRate) (100 / 1000) sigma := by
  obtain ⟨sigma, N, hN⟩ := C113_ends (epsilon := 3) (delta := 1 / 20000) (tol := errorRate) (100 / 1000)
    (by norm_num) (by norm_num) (by norm_num) (by norm_num [errorRate])
  exact ⟨sigma, C113_private_tight (by norm_num) (by norm_num) (by norm_num) (by norm_num)
    (by norm_num [errorRate]) (hN N le_rfl)⟩

/-- A budget above the threshold is met too. -/
example : ∃ sigma, 0 < sigma ∧ Private 3 (0.9 + max errorRate 0.00001) 2 sigma := by
  obtain ⟨sigma, N, hN⟩ := C113_ends (epsilon := 3) (delta := 0.9) (tol := errorRate) 2
    (by norm_num) (by norm_num) (by norm_num) (by norm_num [errorRate])
  exact ⟨sigma, C113_private_partial (by norm_num) (by norm_num) (by norm_num) (hN N le_rfl)⟩

/-- The noise for `delta = 1 / 10` does not meet `delta' = 1 / 20`. -/
example : ∃ sigma, Returns (calibrate 1 (1 / 10) 1 errorRate) sigma ∧ ¬ Private 1 (1 / 20) 1 sigma := by
  obtain ⟨sigma, N, hN⟩ := C113_ends (epsilon := 1) (delta := 1 / 10) (tol := errorRate) 1
    (by norm_num) (by norm_num) (by norm_num) (by norm_num [errorRate])
  refine ⟨sigma, ⟨N, hN⟩, fun hp => ?_⟩
  have h := C113_not_wasteful (by norm_num) (by norm_num) (hN N le_rfl) hp
  have hm : max errorRate 0.00001 ≤ 0.01 := max_le (by norm_num [errorRate]) (by norm_num)
  have h2 := le_trans h (add_le_add_right hm _)
  norm_num at h2

example : ∃ delta, 0 < delta ∧ delta < 1 ∧
    ∃ sigma, Returns (calibrate 3 delta 1 errorRate) sigma ∧ ¬ Private 3 delta 1 sigma :=
  C113_shortcut_overspends errorRate (by norm_num) one_pos

example : Loops (calibrate 3 1 1 errorRate) := C113_delta_one_hangs 1 errorRate (by norm_num) le_rfl

example : Loops (calibrate 3 0 1 errorRate) := C113_delta_zero_hangs 1 errorRate (by norm_num) le_rfl

example : ∃ e2, Returns (epsilon2 1000000 4) e2 ∧ 2.5 ≤ e2 ∧ e2 ≤ 4 ∧
    ∃ x, epsilon1 1000000 e2 = .num x ∧ |4 - x - e2| ≤ 1e-12 := C113_split_default (by norm_num)

example : Loops (epsilon2 1000000 1) := C113_small_budget_hangs (by norm_num) (by norm_num)

example : Loops (epsilon2 1000000 8) := C113_large_budget_hangs (by norm_num) (by norm_num)

example : Returns (epsilon2 10 0.1) 3.25 := C113_few_items le_rfl 0.1

end Psi.DpCalib
