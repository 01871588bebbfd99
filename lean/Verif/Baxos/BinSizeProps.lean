import Verif.Baxos.BinSizeLemmas

/-!
# Sizes of bins: properties (C106)

Full property: whatever the numbers of bins and of items, the size that `GetBinSize` reports leaves room for all items, so
`balls ≤ bins * size`.  This is the least one can ask for: with less room some bin overflows for every hash function.
It fails when the number of items is a power of two and the number of bins is not (`C106_next_power`,
`C106_overflow_undefined`).
-/

namespace Psi.Baxos
open Psi.Okvs

/-- C106: room for all items, unless the number of items is a power of two and the number of bins is not.
Of the estimate of the probability is used that it refuses sizes without room. -/
theorem C106_room_partial (prob : Nat → Nat → Nat → ℝ) (fuel bins balls stat : Nat) (approx : Bool) (B : Nat) (hb : 1 ≤ bins)
    (hp : (∃ l, bins = 2 ^ l) ∨ (∀ k, balls ≠ 2 ^ k) ∨ approx = false)
    (hprob : ∀ B, bins * B < balls → prob bins balls B < stat)
    (h : getBinSize prob fuel bins balls stat approx = .ok B) : balls ≤ bins * B := by
  unfold getBinSize at h
  split at h
  · cases h
    exact Nat.le_mul_of_pos_left _ hb
  · rename_i hb2
    split at h
    · cases h
    · split at h
      · rename_i hin
        cases h
        rcases Nat.eq_zero_or_pos balls with rfl | hpos
        · exact Nat.zero_le _
        · refine tableSize_room stat (by omega) hpos hin.2 ?_
          rcases hp with hp | hp | hp
          · exact Or.inl hp
          · exact Or.inr hp
          · rw [hp] at hin
            cases hin.1
      · split at h
        · cases h
        · obtain ⟨f, r, e1, e2, _⟩ := search_ok (en := enough prob stat bins balls) (N := balls)
            (fun B hB => by unfold enough; rw [decide_eq_true_eq]; exact Or.inl hB) (max 1 (balls / bins))
          split at h
          · rename_i r' hr'
            cases h
            have : r = B := by
              have g1 := search_mono (Nat.le_max_left f fuel) e1
              have g2 := search_mono (Nat.le_max_right f fuel) hr'
              rw [g1] at g2
              exact Option.some.inj g2
            subst this
            unfold enough at e2
            rw [decide_eq_true_eq] at e2
            rcases e2 with e2 | e2
            · exact e2.trans (Nat.le_mul_of_pos_left _ hb)
            · by_contra hlt
              exact absurd (hprob r (by omega)) (not_lt.mpr e2)
          · cases h

/-- Not a power of two, either of them: 5 bins and 1000 items, from the table. -/
example (prob : Nat → Nat → Nat → ℝ) (hprob : ∀ B, 5 * B < 1000 → prob 5 1000 B < (40 : ℕ)) :
    ∃ B, getBinSize prob 0 5 1000 40 true = .ok B ∧ 1000 ≤ 5 * B := by
  have hin : inTable (binTable 40) 5 1000 = true := by
    rw [inTable_iff 40 (by decide)]
    refine ⟨lt_of_le_of_lt (Nat.clog_le_of_le_pow (y := 3) (by decide)) (by decide),
      lt_of_le_of_lt (Nat.clog_le_of_le_pow (y := 10) (by decide)) (by decide)⟩
  have h : getBinSize prob 0 5 1000 40 true = .ok (tableSize (binTable 40) 5 1000) := by
    unfold getBinSize
    rw [if_neg (by decide), if_neg (by simp), if_pos ⟨rfl, hin⟩]
  refine ⟨_, h, C106_room_partial prob 0 5 1000 40 true _ (by decide) (Or.inr (Or.inl ?_)) hprob h⟩
  intro k hk
  rcases Nat.lt_or_ge k 10 with h | h
  · interval_cases k <;> simp at hk
  · have := Nat.pow_le_pow_right (n := 2) (by decide) h
    omega

/-- C106: outside the tables, or without them, the least size that is enough (but not less than the average) is found after
finitely many rounds, when the estimate grows with the size. -/
theorem C106_search_least (prob : Nat → Nat → Nat → ℝ) (bins balls stat : Nat) (hb : 2 ≤ bins) (hk : balls < 2 ^ 31)
    (hmono : ∀ B B', B ≤ B' → prob bins balls B ≤ prob bins balls B') :
    ∃ B, (balls ≤ B ∨ (stat : ℝ) ≤ prob bins balls B) ∧ max 1 (balls / bins) ≤ B ∧
      (∀ B', max 1 (balls / bins) ≤ B' → B' < B → B' < balls ∧ prob bins balls B' < stat) ∧
      ∃ f0, ∀ fuel, f0 ≤ fuel → getBinSize prob fuel bins balls stat false = .ok B := by
  obtain ⟨f, r, e1, e2, e3⟩ := search_ok (en := enough prob stat bins balls) (N := balls)
    (fun B hB => by unfold enough; rw [decide_eq_true_eq]; exact Or.inl hB) (max 1 (balls / bins))
  have hen : ∀ B, enough prob stat bins balls B = true ↔ balls ≤ B ∨ (stat : ℝ) ≤ prob bins balls B := fun B => by
    unfold enough; rw [decide_eq_true_eq]
  have hup : ∀ B B', B ≤ B' → enough prob stat bins balls B = true → enough prob stat bins balls B' = true := by
    intro B B' hBB h
    rw [hen] at h ⊢
    rcases h with h | h
    · exact Or.inl (h.trans hBB)
    · exact Or.inr (h.trans (hmono B B' hBB))
  have hget : ∀ fuel, f ≤ fuel → getBinSize prob fuel bins balls stat false = .ok r := by
    intro fuel hf
    unfold getBinSize
    rw [if_neg (by omega), if_neg (by simp), if_neg (by simp), if_neg (by omega), search_mono hf e1]
  rcases e3 with rfl | ⟨h0, h1, h2⟩
  · exact ⟨_, (hen _).mp e2, Nat.le_refl _, fun B' h1 h2 => absurd h1 (by omega), f, hget⟩
  · refine ⟨r, (hen _).mp e2, ?_, ?_, f, hget⟩
    · by_contra hlt
      rw [hup _ _ (by omega) e2] at h0
      cases h0
    · intro B' _ hB'
      have : ¬ enough prob stat bins balls B' = true := fun h => by
        rw [hup B' (r - 1) (by omega) h] at h2
        cases h2
      rw [hen] at this
      push Not at this
      exact this

/-- 2 bins, 5 items, an estimate of ten bits for every item of room: for 40 bits there has to be room for four. -/
example : ∃ f0, ∀ fuel, f0 ≤ fuel → getBinSize (fun _ _ B => (B : ℝ) * 10) fuel 2 5 40 false = .ok 4 := by
  obtain ⟨B, h1, h2, h3, h4⟩ := C106_search_least (fun _ _ B => (B : ℝ) * 10) 2 5 40 (by decide) (by decide)
    (fun B B' h => by
      have : (B : ℝ) ≤ B' := by exact_mod_cast h
      linarith)
  have e : B = 4 := by
    rcases Nat.lt_trichotomy B 4 with h | h | h
    · rcases h1 with h1 | h1
      · omega
      · have : (B : ℝ) < 4 := by exact_mod_cast h
        norm_num at h1
        linarith
    · exact h
    · have := (h3 4 (by decide) h).2
      norm_num at this
  rw [← e]
  exact h4

/-- C106: `2^31` items or more are refused as soon as there are two bins. -/
theorem C106_too_many_refused (prob : Nat → Nat → Nat → ℝ) (fuel bins balls stat : Nat) (approx : Bool) (hb : 2 ≤ bins)
    (hk : 2 ^ 31 ≤ balls) : getBinSize prob fuel bins balls stat approx = .error .check := by
  have h1 : balls / bins < balls := Nat.div_lt_self (by omega) hb
  unfold getBinSize
  rw [if_neg (by omega), if_neg (by omega), if_neg, if_pos ⟨by omega, by omega⟩]
  rintro ⟨_, h⟩
  have h2 := ((inTable_iff stat hb).mp h).2
  have h3 : balls ≤ 2 ^ 30 := (Nat.clog_le_iff_le_pow (by decide)).mp (by omega)
  omega

example (prob : Nat → Nat → Nat → ℝ) : getBinSize prob 100 3 (2 ^ 31 + 5) 40 true = .error .check :=
  C106_too_many_refused _ _ _ _ _ _ (by decide) (by decide)

/-- C106 fails for the code: with `2^k` items the bins are as large as they would be if there were as many bins as the next
power of two (the logarithms of the two numbers are mixed up in the interpolation). -/
theorem C106_next_power (prob : Nat → Nat → Nat → ℝ) (fuel bins k stat : Nat) (hb : 2 ≤ bins) (hb2 : bins ≤ 2 ^ 32) (hk : k ≤ 30) :
    getBinSize prob fuel bins (2 ^ k) stat true = getBinSize prob fuel (2 ^ Nat.clog 2 bins) (2 ^ k) stat true := by
  have h1 : Nat.clog 2 bins < 33 := Nat.lt_succ_of_le (Nat.clog_le_of_le_pow hb2)
  have h2 : 2 ≤ 2 ^ Nat.clog 2 bins := hb.trans (Nat.le_pow_clog (by decide) _)
  have hpos : 0 < 2 ^ k := Nat.pow_pos (by decide)
  have e1 : Nat.clog 2 (2 ^ k) < 31 := by rw [Nat.clog_pow _ _ (by decide)]; omega
  unfold getBinSize
  rw [if_neg (by omega), if_neg (by omega), if_pos ⟨rfl, (inTable_iff stat hb).mpr ⟨h1, e1⟩⟩, if_neg (by omega), if_neg (by omega),
    if_pos ⟨rfl, (inTable_iff stat h2).mpr ⟨by rw [Nat.clog_pow _ _ (by decide)]; exact h1, e1⟩⟩]
  unfold tableSize
  rw [interp_pow_balls, interp_pow_balls, Nat.clog_pow _ _ (by decide)]

/-- Five bins get the size of eight. -/
example (prob : Nat → Nat → Nat → ℝ) : getBinSize prob 0 5 (2 ^ 20) 40 true = getBinSize prob 0 8 (2 ^ 20) 40 true := by
  have h := C106_next_power prob 0 5 20 40 (by decide) (by decide) (by decide)
  have e : Nat.clog 2 5 = 3 := by
    apply le_antisymm (Nat.clog_le_of_le_pow (by decide))
    exact (Nat.lt_clog_iff_pow_lt (by decide)).mpr (by decide)
  rwa [e] at h

/-- All the tables, for the numbers of bins that belong to some numbers of threads. -/
theorem short_all (stat T i : Nat) (hT : T ∈ [3, 5, 6, 9, 10, 11, 17, 18, 19, 20]) (hi : i ≤ 16) :
    shortBy (binTable stat) (T * 2 ^ i) (i + 14) = true := by
  have h : ∀ t ∈ [tab40, tab50, tab60, tab80], ∀ T ∈ [3, 5, 6, 9, 10, 11, 17, 18, 19, 20], ∀ i ≤ 16,
      shortBy t (T * 2 ^ i) (i + 14) = true := by decide +kernel
  refine h _ ?_ T hT i hi
  unfold binTable
  split
  · simp
  · split
    · simp
    · split <;> simp

/-- C106 fails for the code: as many threads as in the list (these are numbers of processors, `rr22/common.cc:23-24`), bins of
`2^14` (`rr22_psi.h:75`), and `2^k` items for every thread.  Whatever the security parameter, the hashes of the keys, and the
order of the threads: more items are written into a bin than it has room for. -/
theorem C106_overflow_undefined (prob : Nat → Nat → Nat → ℝ) (fuel ssp T k : Nat) (hT : T ∈ [3, 5, 6, 9, 10, 11, 17, 18, 19, 20])
    (hk : 14 ≤ k) (hk2 : k ≤ 30) (c : Cfg) (hn : c.nItems = T * 2 ^ k) (hb : c.nBins = numBins c.nItems (2 ^ 14))
    (hp : threadSize prob fuel c.nItems c.nBins ssp T = .ok (c.perThread T))
    (enc : List Row → (Nat → Gf128.Gf) → Except Okvs.Err (Nat → Gf128.Gf)) (s1 s2 hs : List Nat) (hlen : hs.length = c.nItems)
    (hs1 : ∀ i ∈ s1, i < T) (hfair : Fair c T hs.length s1) (X out0 : Nat → Gf128.Gf) :
    solve c enc T s1 s2 hs X out0 = .error .undefined := by
  obtain ⟨i, rfl⟩ : ∃ i, k = i + 14 := ⟨k - 14, by omega⟩
  have hT3 : 3 ≤ T ∧ T ≤ 20 := by
    simp only [List.mem_cons, List.not_mem_nil, or_false] at hT
    omega
  have hi : i ≤ 16 := by omega
  have hpow : 2 ^ (i + 14) = 2 ^ i * 16384 := by rw [Nat.pow_add]
  have hpos : 0 < 2 ^ i := Nat.pow_pos (by decide)
  have hle : 2 ^ i ≤ 65536 := Nat.pow_le_pow_right (n := 2) (by decide) hi
  have hbins : c.nBins = T * 2 ^ i := by
    rw [hb, hn, numBins, hpow, ← Nat.mul_assoc]
    generalize T * 2 ^ i = y
    omega
  have hbig : T ≤ T * 2 ^ i := Nat.le_mul_of_pos_right _ hpos
  have hsmall : T * 2 ^ i ≤ 20 * 65536 := Nat.mul_le_mul hT3.2 hle
  have hper : (c.nItems + T - 1) / T = 2 ^ (i + 14) := by
    rw [hn]
    have : T * 2 ^ (i + 14) + T - 1 = T * 2 ^ (i + 14) + (T - 1) := by omega
    rw [this, Nat.mul_add_div (by omega), Nat.div_eq_of_lt (by omega)]
    omega
  unfold threadSize at hp
  rw [hper, hbins] at hp
  have hin : inTable (binTable ssp) (T * 2 ^ i) (2 ^ (i + 14)) = true := by
    rw [inTable_iff ssp (by omega)]
    refine ⟨Nat.lt_succ_of_le (Nat.clog_le_of_le_pow (y := 32) (by omega)), ?_⟩
    rw [Nat.clog_pow _ _ (by decide)]
    omega
  unfold getBinSize at hp
  rw [if_neg (by omega), if_neg (by omega), if_pos ⟨rfl, hin⟩] at hp
  have hcap := tableSize_short (short_all ssp T i hT hi)
  have hpt : tableSize (binTable ssp) (T * 2 ^ i) (2 ^ (i + 14)) = c.perThread T := by injection hp
  rw [hpt] at hcap
  refine run_overflow (by omega) (by rw [hlen, hn]) (by omega) ?_ (by omega) (by rw [hbins]; exact hcap) hs1 hfair X out0
  rw [hpow]
  exact Dvd.dvd.mul_left (by decide) _

/-- Three threads and 49152 keys. -/
example (enc : List Row → (Nat → Gf128.Gf) → Except Okvs.Err (Nat → Gf128.Gf)) (s2 : List Nat) (X out0 : Nat → Gf128.Gf) :
    solve ⟨49152, 3, 20000, fun _ => tableSize (binTable 40) 3 (2 ^ 14), 3, 30000, 40, true⟩ enc 3
      (List.replicate 20000 0 ++ List.replicate 20000 2 ++ List.replicate 20000 1) s2 (List.range 49152) X out0 = .error .undefined := by
  refine C106_overflow_undefined (fun _ _ _ => 0) 0 40 3 14 (by decide) (by decide) (by decide) _ rfl rfl ?_ enc _ s2 _ (by simp) ?_ ?_ X out0
  · have hin : inTable (binTable 40) 3 (2 ^ 14) = true := by
      rw [inTable_iff 40 (by decide)]
      refine ⟨Nat.lt_succ_of_le (Nat.clog_le_of_le_pow (y := 32) (by decide)), ?_⟩
      rw [Nat.clog_pow _ _ (by decide)]
      decide
    unfold threadSize getBinSize
    rw [if_neg (by decide), if_neg (by simp), if_pos ⟨rfl, hin⟩]
    rfl
  · intro i hi
    simp only [List.mem_append, List.mem_replicate] at hi
    omega
  · intro i hi
    rw [List.length_range]
    simp only [List.count_append, List.count_replicate, first]
    interval_cases i <;> simp

end Psi.Baxos
