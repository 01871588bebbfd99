import Verif.Baxos.BinSizeProps

/-!
# The security level and the sizes of the bins

`SimpleIndex::GetBinSize` has one table for each of four levels (`simple_index.cc:67-877, 891-902`).
-/

namespace Psi.Baxos

/-- Entry by entry, one table is at most the other plus `c`. -/
def tableLe (t t' : List (List Nat)) (c : Nat) : Bool :=
  (List.range 33).all fun i => (List.range 31).all fun j => (t.getD i []).getD j 0 ≤ (t'.getD i []).getD j 0 + c

theorem entry_le {t t' : List (List Nat)} {c : Nat} (h : tableLe t t' c = true) {i j : Nat} (hi : i < 33) (hj : j < 31) :
    entry t i j ≤ entry t' i j + c / 10 ^ 9 := by
  unfold tableLe at h
  rw [List.all_eq_true] at h
  have h1 := h i (List.mem_range.mpr hi)
  rw [List.all_eq_true] at h1
  have h2 := h1 j (List.mem_range.mpr hj)
  rw [decide_eq_true_eq] at h2
  unfold entry
  rw [← add_div]
  apply div_le_div_of_nonneg_right _ (by positivity)
  exact_mod_cast h2

theorem interp_le {t t' : List (List Nat)} {c : Nat} (h : tableLe t t' c = true) {bins balls : Nat} (hb : 1 ≤ bins) (hk : 1 ≤ balls)
    (h1 : Nat.clog 2 bins < 33) (h2 : Nat.clog 2 balls < 31) : interp t bins balls ≤ interp t' bins balls + c / 10 ^ 9 := by
  obtain ⟨d0, d1⟩ := logb_frac hb
  obtain ⟨b0, b1⟩ := logb_frac hk
  have l1 := Nat.log_le_clog 2 bins
  have l2 := Nat.log_le_clog 2 balls
  unfold interp
  simp only
  have t00 := entry_le h (i := Nat.log 2 bins) (j := Nat.log 2 balls) (by omega) (by omega)
  have t01 := entry_le h (i := Nat.log 2 bins) (j := Nat.clog 2 balls) (by omega) (by omega)
  have t10 := entry_le h (i := Nat.clog 2 bins) (j := Nat.log 2 balls) (by omega) (by omega)
  have t11 := entry_le h (i := Nat.clog 2 bins) (j := Nat.clog 2 balls) (by omega) (by omega)
  generalize entry t (Nat.log 2 bins) (Nat.log 2 balls) = v00 at *
  generalize entry t (Nat.log 2 bins) (Nat.clog 2 balls) = v01 at *
  generalize entry t (Nat.clog 2 bins) (Nat.log 2 balls) = v10 at *
  generalize entry t (Nat.clog 2 bins) (Nat.clog 2 balls) = v11 at *
  generalize entry t' (Nat.log 2 bins) (Nat.log 2 balls) = w00 at *
  generalize entry t' (Nat.log 2 bins) (Nat.clog 2 balls) = w01 at *
  generalize entry t' (Nat.clog 2 bins) (Nat.log 2 balls) = w10 at *
  generalize entry t' (Nat.clog 2 bins) (Nat.clog 2 balls) = w11 at *
  generalize (c : ℝ) / 10 ^ 9 = e at *
  generalize Real.logb 2 (bins : ℝ) = L at *
  generalize Real.logb 2 (balls : ℝ) = M at *
  generalize (Nat.log 2 bins : ℝ) = l at *
  generalize (Nat.log 2 balls : ℝ) = m at *
  have p00 := mul_nonneg (mul_nonneg (sub_nonneg.2 b0) (sub_nonneg.2 d0)) (sub_nonneg.2 t00)
  have p01 := mul_nonneg (mul_nonneg (sub_nonneg.2 b0) (sub_nonneg.2 d1)) (sub_nonneg.2 t01)
  have p10 := mul_nonneg (mul_nonneg (sub_nonneg.2 b1) (sub_nonneg.2 d0)) (sub_nonneg.2 t10)
  have p11 := mul_nonneg (mul_nonneg (sub_nonneg.2 b1) (sub_nonneg.2 d1)) (sub_nonneg.2 t11)
  linarith

/-- Inside the tables the size is the one of the table. -/
theorem getBinSize_table (prob : Nat → Nat → Nat → ℝ) (fuel : Nat) {bins balls : Nat} (stat : Nat) (hb : 2 ≤ bins) (hb2 : bins ≤ 2 ^ 32)
    (hk : 1 ≤ balls) (hk2 : balls ≤ 2 ^ 30) :
    getBinSize prob fuel bins balls stat true = .ok (tableSize (binTable stat) bins balls) := by
  have h1 : Nat.clog 2 bins < 33 := Nat.lt_succ_of_le (Nat.clog_le_of_le_pow hb2)
  have h2 : Nat.clog 2 balls < 31 := Nat.lt_succ_of_le (Nat.clog_le_of_le_pow hk2)
  unfold getBinSize
  rw [if_neg (by omega), if_neg (by omega), if_pos ⟨rfl, (inTable_iff stat hb).mpr ⟨h1, h2⟩⟩]

/-- The first two tables and the last two, in the order of their levels. -/
theorem tables_level : tableLe tab40 tab50 0 = true ∧ tableLe tab60 tab80 0 = true ∧ tableLe tab40 tab40 0 = true ∧
    tableLe tab50 tab50 0 = true ∧ tableLe tab60 tab60 0 = true ∧ tableLe tab80 tab80 0 = true := by decide +kernel

/-- The third table is the second, rounded. -/
theorem tables_rounded : tableLe tab60 tab50 50000 = true ∧ tableLe tab50 tab60 50000 = true := by decide +kernel

/-- C106: a greater security level does not give smaller bins, as long as it does not lead from the second table to the third. -/
theorem C106_more_security_partial (prob : Nat → Nat → Nat → ℝ) (fuel bins balls stat stat' : Nat) (hs : stat ≤ stat')
    (hx : stat' ≤ 50 ∨ 50 < stat) (hb : 2 ≤ bins) (hb2 : bins ≤ 2 ^ 32) (hk : 1 ≤ balls) (hk2 : balls ≤ 2 ^ 30) :
    ∃ B B', getBinSize prob fuel bins balls stat true = .ok B ∧ getBinSize prob fuel bins balls stat' true = .ok B' ∧ B ≤ B' := by
  refine ⟨_, _, getBinSize_table prob fuel stat hb hb2 hk hk2, getBinSize_table prob fuel stat' hb hb2 hk hk2, ?_⟩
  have h1 : Nat.clog 2 bins < 33 := Nat.lt_succ_of_le (Nat.clog_le_of_le_pow hb2)
  have h2 : Nat.clog 2 balls < 31 := Nat.lt_succ_of_le (Nat.clog_le_of_le_pow hk2)
  have hle : tableLe (binTable stat) (binTable stat') 0 = true := by
    obtain ⟨a, b, c, d, e, f⟩ := tables_level
    unfold binTable
    by_cases g1 : stat ≤ 40
    · rw [if_pos g1]
      by_cases g2 : stat' ≤ 40
      · rw [if_pos g2]; exact c
      · rw [if_neg g2, if_pos (show stat' ≤ 50 by omega)]; exact a
    · rw [if_neg g1, if_neg (show ¬ stat' ≤ 40 by omega)]
      by_cases g2 : stat ≤ 50
      · rw [if_pos g2, if_pos (show stat' ≤ 50 by omega)]; exact d
      · rw [if_neg g2, if_neg (show ¬ stat' ≤ 50 by omega)]
        by_cases g3 : stat ≤ 60
        · rw [if_pos g3]
          by_cases g4 : stat' ≤ 60
          · rw [if_pos g4]; exact e
          · rw [if_neg g4]; exact b
        · rw [if_neg g3, if_neg (show ¬ stat' ≤ 60 by omega)]; exact f
  have h := interp_le hle (by omega) hk h1 h2
  unfold tableSize
  apply Nat.ceil_mono
  apply Real.rpow_le_rpow_of_exponent_le (by norm_num)
  simpa using h

example (prob : Nat → Nat → Nat → ℝ) : ∃ B B', getBinSize prob 0 100 5000 40 true = .ok B ∧ getBinSize prob 0 100 5000 47 true = .ok B' ∧
    B ≤ B' :=
  C106_more_security_partial prob 0 100 5000 40 47 (by decide) (by decide) (by decide) (by decide) (by decide) (by decide)

/-- Bounds of a size that is read off the table, by powers of the `d`-th root of two. -/
theorem tableSize_le {t : List (List Nat)} {l k p d C : Nat} (hd : 0 < d) (h : (t.getD l []).getD k 0 * d ≤ p * 10 ^ 9) (hp : 2 ^ p ≤ C ^ d) :
    tableSize t (2 ^ l) (2 ^ k) ≤ C := by
  unfold tableSize
  rw [interp_pow_bins, Nat.clog_pow _ _ (by decide), Nat.ceil_le]
  unfold entry
  generalize (t.getD l []).getD k 0 = a at *
  have hd0 : (0 : ℝ) < d := by exact_mod_cast hd
  have h1 : (a : ℝ) / 10 ^ 9 ≤ p / d := by
    rw [div_le_div_iff₀ (by positivity) hd0]
    exact_mod_cast h
  refine (Real.rpow_le_rpow_of_exponent_le (by norm_num) h1).trans ?_
  have h3 : ((2 : ℝ) ^ ((p : ℝ) / d)) ^ d ≤ (C : ℝ) ^ d := by
    rw [← Real.rpow_natCast, ← Real.rpow_mul (by norm_num), div_mul_cancel₀ _ hd0.ne', Real.rpow_natCast]
    exact_mod_cast hp
  exact le_of_pow_le_pow_left₀ hd.ne' (Nat.cast_nonneg _) h3

theorem lt_tableSize {t : List (List Nat)} {l k p d C : Nat} (hd : 0 < d) (h : p * 10 ^ 9 ≤ (t.getD l []).getD k 0 * d) (hp : C ^ d < 2 ^ p) :
    C < tableSize t (2 ^ l) (2 ^ k) := by
  unfold tableSize
  rw [interp_pow_bins, Nat.clog_pow _ _ (by decide), Nat.lt_ceil]
  unfold entry
  generalize (t.getD l []).getD k 0 = a at *
  have hd0 : (0 : ℝ) < d := by exact_mod_cast hd
  have h1 : (p : ℝ) / d ≤ a / 10 ^ 9 := by
    rw [div_le_div_iff₀ hd0 (by positivity)]
    exact_mod_cast h
  refine lt_of_lt_of_le ?_ (Real.rpow_le_rpow_of_exponent_le (by norm_num) h1)
  have h3 : (C : ℝ) ^ d < ((2 : ℝ) ^ ((p : ℝ) / d)) ^ d := by
    rw [← Real.rpow_natCast, ← Real.rpow_natCast, ← Real.rpow_mul (by norm_num), div_mul_cancel₀ _ hd0.ne', Real.rpow_natCast,
      Real.rpow_natCast]
    exact_mod_cast hp
  exact lt_of_pow_lt_pow_left₀ d (by positivity) h3

/-- C106: each step from one level to the next makes a difference, except the step from 50 to 60 bits. -/
theorem C106_levels_differ (prob : Nat → Nat → Nat → ℝ) (fuel : Nat) :
    ∃ B B' B'', getBinSize prob fuel (2 ^ 4) (2 ^ 10) 40 true = .ok B ∧ getBinSize prob fuel (2 ^ 4) (2 ^ 10) 41 true = .ok B' ∧
      getBinSize prob fuel (2 ^ 4) (2 ^ 10) 61 true = .ok B'' ∧ B ≤ 133 ∧ 137 < B' ∧ B' ≤ 148 ∧ 152 < B'' := by
  refine ⟨_, _, _, getBinSize_table prob fuel 40 (by decide) (by decide) (by decide) (by decide),
    getBinSize_table prob fuel 41 (by decide) (by decide) (by decide) (by decide),
    getBinSize_table prob fuel 61 (by decide) (by decide) (by decide) (by decide), ?_, ?_, ?_, ?_⟩
  · exact tableSize_le (p := 141) (d := 20) (by decide) (by decide +kernel) (by decide +kernel)
  · exact lt_tableSize (p := 142) (d := 20) (by decide) (by decide +kernel) (by decide +kernel)
  · exact tableSize_le (p := 144) (d := 20) (by decide) (by decide +kernel) (by decide +kernel)
  · exact lt_tableSize (p := 146) (d := 20) (by decide) (by decide +kernel) (by decide +kernel)

/-- C106 fails for the code: the table for 60 bits is the one for 50 bits with fewer digits.  Up to one place and one part in
ten thousand the sizes are the same. -/
theorem C106_sixty_is_fifty (prob : Nat → Nat → Nat → ℝ) (fuel bins balls stat stat' : Nat) (hs : 40 < stat) (hs2 : stat ≤ 50)
    (hs' : 50 < stat') (hs2' : stat' ≤ 60) (hb : 2 ≤ bins) (hb2 : bins ≤ 2 ^ 32) (hk : 1 ≤ balls) (hk2 : balls ≤ 2 ^ 30) :
    ∃ B B', getBinSize prob fuel bins balls stat true = .ok B ∧ getBinSize prob fuel bins balls stat' true = .ok B' ∧
      (B' : ℝ) < B * 1.0001 + 1 ∧ (B : ℝ) < B' * 1.0001 + 1 := by
  refine ⟨_, _, getBinSize_table prob fuel stat hb hb2 hk hk2, getBinSize_table prob fuel stat' hb hb2 hk hk2, ?_⟩
  have h1 : Nat.clog 2 bins < 33 := Nat.lt_succ_of_le (Nat.clog_le_of_le_pow hb2)
  have h2 : Nat.clog 2 balls < 31 := Nat.lt_succ_of_le (Nat.clog_le_of_le_pow hk2)
  have e1 : binTable stat = tab50 := by
    unfold binTable
    rw [if_neg (by omega), if_pos (by omega)]
  have e2 : binTable stat' = tab60 := by
    unfold binTable
    rw [if_neg (by omega), if_neg (by omega), if_pos (by omega)]
  rw [e1, e2]
  have key : ∀ t t', tableLe t t' 50000 = true → (tableSize t bins balls : ℝ) < tableSize t' bins balls * 1.0001 + 1 := by
    intro t t' hle
    have h := interp_le hle (by omega) hk h1 h2
    have h3 : (2 : ℝ) ^ interp t bins balls ≤ 2 ^ interp t' bins balls * 1.0001 := by
      refine (Real.rpow_le_rpow_of_exponent_le (by norm_num) h).trans ?_
      rw [Real.rpow_add (by norm_num)]
      apply mul_le_mul_of_nonneg_left _ (by positivity)
      have h5 : (2 : ℝ) ≤ 1.0001 ^ 20000 := by
        have := one_add_mul_le_pow (a := (0.0001 : ℝ)) (by norm_num) 20000
        have e : (1 : ℝ) + 0.0001 = 1.0001 := by norm_num
        rw [e] at this
        refine le_trans ?_ this
        norm_num
      have h6 : ((2 : ℝ) ^ (((50000 : ℕ) : ℝ) / 10 ^ 9)) ^ 20000 ≤ 1.0001 ^ 20000 := by
        rw [← Real.rpow_natCast, ← Real.rpow_mul (by norm_num)]
        refine le_trans (le_of_eq ?_) h5
        norm_num
      exact le_of_pow_le_pow_left₀ (by norm_num) (by norm_num) h6
    have h4 : (2 : ℝ) ^ interp t' bins balls ≤ tableSize t' bins balls := Nat.le_ceil _
    have h7 : (tableSize t bins balls : ℝ) < 2 ^ interp t bins balls + 1 := Nat.ceil_lt_add_one (by positivity)
    linarith
  exact ⟨key _ _ tables_rounded.1, key _ _ tables_rounded.2⟩

example (prob : Nat → Nat → Nat → ℝ) : ∃ B B', getBinSize prob 0 3000 1000000 47 true = .ok B ∧
    getBinSize prob 0 3000 1000000 56 true = .ok B' ∧ (B' : ℝ) < B * 1.0001 + 1 ∧ (B : ℝ) < B' * 1.0001 + 1 :=
  C106_sixty_is_fifty prob 0 3000 1000000 47 56 (by decide) (by decide) (by decide) (by decide) (by decide) (by decide) (by decide) (by decide)

/-- C106 fails for the code: eight bins, `2^30` items.  With more security asked for, a bin has room for 3000 items less. -/
theorem C106_more_security_smaller (prob : Nat → Nat → Nat → ℝ) (fuel : Nat) :
    ∃ B B', getBinSize prob fuel (2 ^ 3) (2 ^ 30) 50 true = .ok B ∧ getBinSize prob fuel (2 ^ 3) (2 ^ 30) 60 true = .ok B' ∧
      B' + 3000 < B := by
  refine ⟨_, _, getBinSize_table prob fuel 50 (by decide) (by decide) (by decide) (by decide),
    getBinSize_table prob fuel 60 (by decide) (by decide) (by decide) (by decide), ?_⟩
  have h1 := lt_tableSize (t := binTable 50) (l := 3) (k := 30) (p := 2700104) (d := 100000) (C := 134314500) (by decide)
    (by decide +kernel) (by decide +kernel)
  have h2 := tableSize_le (t := binTable 60) (l := 3) (k := 30) (p := 27001) (d := 1000) (C := 134310800) (by decide)
    (by decide +kernel) (by decide +kernel)
  omega

/-- C106: the number of bins is the least with which no bin holds more than `binSize` items on the average. -/
theorem C106_number_of_bins (nItems binSize n : Nat) (hb : 0 < binSize) : numBins nItems binSize ≤ n ↔ nItems ≤ n * binSize := by
  unfold numBins
  rw [Nat.div_le_iff_le_mul_add_pred hb, Nat.mul_comm]
  omega

example : numBins 100000 (2 ^ 14) ≤ 7 ∧ ¬ numBins 100000 (2 ^ 14) ≤ 6 :=
  ⟨(C106_number_of_bins _ _ _ (by decide)).mpr (by decide), fun h => absurd ((C106_number_of_bins _ _ _ (by decide)).mp h) (by decide)⟩

end Psi.Baxos
