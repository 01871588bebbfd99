import Verif.Baxos.BinSize
import Verif.Baxos.RunLemmas
import Mathlib.Tactic.LinearCombination
import Mathlib.Data.Nat.Log

/-! # Lemmas about the sizes of the bins -/

namespace Psi.Baxos
open Psi.Okvs

/-! ## The tables -/

/-- Every table has at least the average: an entry for `2^i` bins and `2^j` balls is at least `j - i`. -/
def tableAvg (t : List (List Nat)) : Bool :=
  (List.range 33).all fun i => (List.range 31).all fun j => j * 10 ^ 9 ≤ (t.getD i []).getD j 0 + i * 10 ^ 9

def tableShape (t : List (List Nat)) : Bool :=
  t.length == 33 && (List.range 33).all fun i => i == 0 || (t.getD i []).length == 31

theorem tables_ok (stat : Nat) : tableAvg (binTable stat) = true ∧ tableShape (binTable stat) = true := by
  unfold binTable
  split
  · decide +kernel
  · split
    · decide +kernel
    · split <;> decide +kernel

theorem entry_ge (stat : Nat) {i j : Nat} (hi : i < 33) (hj : j < 31) : (j : ℝ) - i ≤ entry (binTable stat) i j := by
  have h := (tables_ok stat).1
  unfold tableAvg at h
  rw [List.all_eq_true] at h
  have h1 := h i (List.mem_range.mpr hi)
  rw [List.all_eq_true] at h1
  have h2 := h1 j (List.mem_range.mpr hj)
  rw [decide_eq_true_eq] at h2
  unfold entry
  rw [le_div_iff₀ (by positivity)]
  have h3 : ((j * 10 ^ 9 : ℕ) : ℝ) ≤ (((binTable stat).getD i []).getD j 0 + i * 10 ^ 9 : ℕ) := by exact_mod_cast h2
  push_cast at h3
  linarith

theorem inTable_iff (stat : Nat) {bins balls : Nat} (hb : 2 ≤ bins) :
    inTable (binTable stat) bins balls = true ↔ Nat.clog 2 bins < 33 ∧ Nat.clog 2 balls < 31 := by
  have h := (tables_ok stat).2
  unfold tableShape at h
  rw [Bool.and_eq_true, beq_iff_eq, List.all_eq_true] at h
  obtain ⟨h1, h2⟩ := h
  have hc : 0 < Nat.clog 2 bins := Nat.clog_pos (by decide) hb
  unfold inTable
  rw [Bool.and_eq_true, decide_eq_true_eq, decide_eq_true_eq, h1]
  constructor
  · rintro ⟨a, b⟩
    have := h2 _ (List.mem_range.mpr a)
    rw [Bool.or_eq_true, beq_iff_eq, beq_iff_eq] at this
    rcases this with h | h
    · omega
    · rw [h] at b
      exact ⟨a, b⟩
  · rintro ⟨a, b⟩
    have := h2 _ (List.mem_range.mpr a)
    rw [Bool.or_eq_true, beq_iff_eq, beq_iff_eq] at this
    rcases this with h | h
    · omega
    · rw [h]
      exact ⟨a, b⟩

/-! ## Logarithms -/

theorem logb_frac {n : Nat} (hn : 1 ≤ n) : (Nat.log 2 n : ℝ) ≤ Real.logb 2 n ∧ Real.logb 2 n ≤ Nat.log 2 n + 1 := by
  have h0 : (0 : ℝ) < n := by exact_mod_cast hn
  constructor
  · rw [Real.le_logb_iff_rpow_le (by norm_num) h0, Real.rpow_natCast]
    exact_mod_cast Nat.pow_log_le_self 2 (by omega)
  · rw [Real.logb_le_iff_le_rpow (by norm_num) h0]
    have := (Nat.lt_pow_succ_log_self (b := 2) (by decide) n).le
    have h2 : ((Nat.log 2 n : ℝ) + 1) = ((Nat.log 2 n + 1 : ℕ) : ℝ) := by push_cast; rfl
    rw [h2, Real.rpow_natCast]
    exact_mod_cast this

theorem logb_pow (k : Nat) : Real.logb 2 ((2 ^ k : ℕ) : ℝ) = k := by
  push_cast
  rw [← Real.rpow_natCast, Real.logb_rpow (by norm_num) (by norm_num)]

theorem clog_of_not_pow {n : Nat} (hn : 1 ≤ n) (h : ∀ k, n ≠ 2 ^ k) : Nat.clog 2 n = Nat.log 2 n + 1 := by
  apply le_antisymm
  · exact Nat.clog_le_of_le_pow (Nat.lt_pow_succ_log_self (by decide) n).le
  · rw [Nat.succ_le_iff, Nat.lt_clog_iff_pow_lt (by decide)]
    have := Nat.pow_log_le_self 2 (x := n) (by omega)
    have := h (Nat.log 2 n)
    omega

theorem le_clog {n : Nat} (hn : 1 ≤ n) : Real.logb 2 n ≤ Nat.clog 2 n := by
  have h0 : (0 : ℝ) < n := by exact_mod_cast hn
  rw [Real.logb_le_iff_le_rpow (by norm_num) h0, Real.rpow_natCast]
  exact_mod_cast Nat.le_pow_clog (by decide) n

/-! ## The value read off the table -/

theorem interp_pow_bins (t : List (List Nat)) (l balls : Nat) : interp t (2 ^ l) balls = entry t l (Nat.clog 2 balls) := by
  unfold interp
  simp only
  rw [logb_pow, Nat.log_pow (by decide), Nat.clog_pow _ _ (by decide)]
  ring

theorem interp_pow_balls (t : List (List Nat)) (bins k : Nat) : interp t bins (2 ^ k) = entry t (Nat.clog 2 bins) k := by
  unfold interp
  simp only
  rw [logb_pow, Nat.log_pow (by decide), Nat.clog_pow _ _ (by decide)]
  ring

theorem interp_ge (stat : Nat) {bins balls : Nat} (hb : 2 ≤ bins) (hk : 1 ≤ balls) (hin : inTable (binTable stat) bins balls = true)
    (hp : (∃ l, bins = 2 ^ l) ∨ ∀ k, balls ≠ 2 ^ k) :
    Real.logb 2 balls - Real.logb 2 bins ≤ interp (binTable stat) bins balls := by
  rw [inTable_iff stat hb] at hin
  obtain ⟨h1, h2⟩ := hin
  by_cases hpb : ∃ l, bins = 2 ^ l
  · obtain ⟨l, rfl⟩ := hpb
    rw [Nat.clog_pow _ _ (by decide)] at h1
    rw [interp_pow_bins, logb_pow]
    have := entry_ge stat h1 h2
    have := le_clog hk
    linarith
  · have hp := hp.resolve_left hpb
    push Not at hpb
    have e1 := clog_of_not_pow (by omega) hpb
    have e2 := clog_of_not_pow hk hp
    obtain ⟨d0, d1⟩ := logb_frac (n := bins) (by omega)
    obtain ⟨b0, b1⟩ := logb_frac hk
    unfold interp
    simp only
    rw [e1] at h1 ⊢
    rw [e2] at h2 ⊢
    have t00 := entry_ge stat (i := Nat.log 2 bins) (j := Nat.log 2 balls) (by omega) (by omega)
    have t01 := entry_ge stat (i := Nat.log 2 bins) (j := Nat.log 2 balls + 1) (by omega) (by omega)
    have t10 := entry_ge stat (i := Nat.log 2 bins + 1) (j := Nat.log 2 balls) (by omega) (by omega)
    have t11 := entry_ge stat (i := Nat.log 2 bins + 1) (j := Nat.log 2 balls + 1) (by omega) (by omega)
    generalize entry (binTable stat) (Nat.log 2 bins) (Nat.log 2 balls) = v00 at *
    generalize entry (binTable stat) (Nat.log 2 bins) (Nat.log 2 balls + 1) = v01 at *
    generalize entry (binTable stat) (Nat.log 2 bins + 1) (Nat.log 2 balls) = v10 at *
    generalize entry (binTable stat) (Nat.log 2 bins + 1) (Nat.log 2 balls + 1) = v11 at *
    push_cast at t01 t10 t11
    generalize Real.logb 2 (bins : ℝ) = L at *
    generalize Real.logb 2 (balls : ℝ) = M at *
    generalize (Nat.log 2 bins : ℝ) = l at *
    generalize (Nat.log 2 balls : ℝ) = m at *
    have p00 := mul_nonneg (mul_nonneg (sub_nonneg.2 b0) (sub_nonneg.2 d0)) (sub_nonneg.2 t00)
    have p01 := mul_nonneg (mul_nonneg (sub_nonneg.2 b0) (sub_nonneg.2 d1)) (sub_nonneg.2 t01)
    have p10 := mul_nonneg (mul_nonneg (sub_nonneg.2 b1) (sub_nonneg.2 d0)) (sub_nonneg.2 t10)
    have p11 := mul_nonneg (mul_nonneg (sub_nonneg.2 b1) (sub_nonneg.2 d1)) (sub_nonneg.2 t11)
    linarith

theorem tableSize_room (stat : Nat) {bins balls : Nat} (hb : 2 ≤ bins) (hk : 1 ≤ balls)
    (hin : inTable (binTable stat) bins balls = true) (hp : (∃ l, bins = 2 ^ l) ∨ ∀ k, balls ≠ 2 ^ k) :
    balls ≤ bins * tableSize (binTable stat) bins balls := by
  have h := interp_ge stat hb hk hin hp
  have hb0 : (0 : ℝ) < bins := by exact_mod_cast (by omega : 0 < bins)
  have hk0 : (0 : ℝ) < balls := by exact_mod_cast hk
  have h1 : (2 : ℝ) ^ (Real.logb 2 balls - Real.logb 2 bins) = balls / bins := by
    rw [Real.rpow_sub (by norm_num), Real.rpow_logb (by norm_num) (by norm_num) hk0,
      Real.rpow_logb (by norm_num) (by norm_num) hb0]
  have h2 : (balls : ℝ) / bins ≤ (2 : ℝ) ^ interp (binTable stat) bins balls := by
    rw [← h1]
    exact Real.rpow_le_rpow_of_exponent_le (by norm_num) h
  have h3 : (balls : ℝ) / bins ≤ tableSize (binTable stat) bins balls := h2.trans (Nat.le_ceil _)
  rw [div_le_iff₀ hb0] at h3
  have h4 : (balls : ℝ) ≤ ((bins * tableSize (binTable stat) bins balls : ℕ) : ℝ) := by
    push_cast
    linarith
  exact_mod_cast h4

/-! ## The search -/

/-- More fuel does not change the result. -/
theorem search_mono {en : Nat → Bool} {f : Nat} : ∀ {g B s : Nat} {d : Bool} {r : Nat}, f ≤ g →
    search en f B s d = some r → search en g B s d = some r := by
  induction f with
  | zero => intro g B s d r _ h; cases h
  | succ f ih =>
    intro g B s d r hg h
    obtain ⟨g, rfl⟩ : ∃ k, g = k + 1 := ⟨g - 1, by omega⟩
    unfold search at h ⊢
    split
    · rename_i hc
      rwa [if_pos hc] at h
    · rename_i hc
      rw [if_neg hc] at h
      split
      · rename_i hd
        rw [if_pos hd] at h
        exact ih (by omega) h
      · rename_i hd
        rw [if_neg hd] at h
        exact ih (by omega) h

/-- The second part of the search: halving. -/
theorem search_halving {en : Nat → Bool} (j : Nat) : ∀ {B : Nat}, (en B = true → 2 ^ j ≤ B ∧ en (B - 2 ^ j) = false) →
    (en B = false → en (B + 2 ^ j) = true) → ∃ f r, search en f B (2 ^ j) false = some r ∧ en r = true ∧ 1 ≤ r ∧ en (r - 1) = false := by
  induction j with
  | zero =>
    intro B h1 h2
    rw [Nat.pow_zero] at *
    cases hB : en B with
    | true =>
      refine ⟨1, B, ?_, hB, (h1 hB).1, (h1 hB).2⟩
      unfold search
      rw [if_pos ⟨hB, Nat.le_refl _⟩]
    | false =>
      refine ⟨2, B + 1, ?_, h2 hB, by omega, by simpa using hB⟩
      unfold search
      rw [if_neg (by simp [hB]), if_pos (by simp [hB])]
      simp only [Bool.false_eq_true, if_false]
      unfold search
      rw [show max 1 (1 / 2) = 1 from rfl, if_pos ⟨h2 hB, Nat.le_refl _⟩]
  | succ j ih =>
    intro B h1 h2
    have hp : 0 < 2 ^ j := Nat.pow_pos (by decide)
    have hs : max 1 (2 ^ (j + 1) / 2) = 2 ^ j := by
      rw [Nat.pow_succ, Nat.mul_div_cancel _ (by decide)]
      omega
    have h2j : 2 ^ (j + 1) = 2 ^ j + 2 ^ j := by rw [Nat.pow_succ]; omega
    cases hB : en B with
    | true =>
      obtain ⟨g1, g2⟩ := h1 hB
      obtain ⟨f, r, e1, e2⟩ := ih (B := B - 2 ^ j) (fun h => ⟨by omega, by rw [← g2]; congr 1; omega⟩)
        (fun h => by rw [← hB]; congr 1; omega)
      refine ⟨f + 1, r, ?_, e2⟩
      unfold search
      rw [if_neg (by omega), if_neg (by simp [hB])]
      simp only [hs]
      exact e1
    | false =>
      obtain ⟨f, r, e1, e2⟩ := ih (B := B + 2 ^ j) (fun h => ⟨by omega, by rw [← hB]; congr 1; omega⟩)
        (fun h => by rw [← h2 hB]; congr 1; omega)
      refine ⟨f + 1, r, ?_, e2⟩
      unfold search
      rw [if_neg (by omega), if_pos (by simp [hB])]
      simp only [Bool.false_eq_true, if_false, hs]
      exact e1

/-- The first part of the search: doubling, after the first failure. -/
theorem search_doubling {en : Nat → Bool} {N : Nat} (hN : ∀ B, N ≤ B → en B = true) (n : Nat) : ∀ {j B : Nat}, 1 ≤ j →
    N ≤ B + n → 2 ^ j ≤ B → en (B - 2 ^ j) = false →
    ∃ f r, search en f B (2 ^ j) true = some r ∧ en r = true ∧ 1 ≤ r ∧ en (r - 1) = false := by
  induction n with
  | zero =>
    intro j B hj hB hle hprev
    obtain ⟨i, rfl⟩ : ∃ i, j = i + 1 := ⟨j - 1, by omega⟩
    have hp : 0 < 2 ^ i := Nat.pow_pos (by decide)
    have h2j : 2 ^ (i + 1) = 2 ^ i + 2 ^ i := by rw [Nat.pow_succ]; omega
    have hen := hN B (by omega)
    obtain ⟨f, r, e1, e2⟩ := search_halving (en := en) i (B := B - 2 ^ i) (fun h => ⟨by omega, by rw [← hprev]; congr 1; omega⟩)
      (fun h => by rw [← hen]; congr 1; omega)
    refine ⟨f + 1, r, ?_, e2⟩
    unfold search
    rw [if_neg (by omega), if_neg (by simp [hen])]
    have hs : max 1 (2 ^ (i + 1) / 2) = 2 ^ i := by
      rw [Nat.pow_succ, Nat.mul_div_cancel _ (by decide)]
      omega
    simp only [hs]
    exact e1
  | succ n ih =>
    intro j B hj hB hle hprev
    obtain ⟨i, rfl⟩ : ∃ i, j = i + 1 := ⟨j - 1, by omega⟩
    have hp : 0 < 2 ^ i := Nat.pow_pos (by decide)
    have h2j : 2 ^ (i + 1) = 2 ^ i + 2 ^ i := by rw [Nat.pow_succ]; omega
    cases hen : en B with
    | true =>
      obtain ⟨f, r, e1, e2⟩ := search_halving (en := en) i (B := B - 2 ^ i) (fun h => ⟨by omega, by rw [← hprev]; congr 1; omega⟩)
        (fun h => by rw [← hen]; congr 1; omega)
      refine ⟨f + 1, r, ?_, e2⟩
      unfold search
      rw [if_neg (by omega), if_neg (by simp [hen])]
      have hs : max 1 (2 ^ (i + 1) / 2) = 2 ^ i := by
        rw [Nat.pow_succ, Nat.mul_div_cancel _ (by decide)]
        omega
      simp only [hs]
      exact e1
    | false =>
      have h2j' : 2 ^ (i + 1 + 1) = 2 ^ (i + 1) * 2 := by rw [Nat.pow_succ]
      obtain ⟨f, r, e1, e2⟩ := ih (j := i + 1 + 1) (B := B + 2 ^ (i + 1 + 1)) (by omega) (by omega) (by omega)
        (by rw [← hen]; congr 1; omega)
      refine ⟨f + 1, r, ?_, e2⟩
      unfold search
      rw [if_neg (by omega), if_pos (by simp [hen])]
      have hs : max 1 (2 ^ (i + 1) * 2) = 2 ^ (i + 1 + 1) := by omega
      simp only [if_true, hs]
      exact e1

theorem search_ok {en : Nat → Bool} {N : Nat} (hN : ∀ B, N ≤ B → en B = true) (B0 : Nat) :
    ∃ f r, search en f B0 1 true = some r ∧ en r = true ∧
      (r = B0 ∨ en B0 = false ∧ 1 ≤ r ∧ en (r - 1) = false) := by
  cases h : en B0 with
  | true =>
    refine ⟨1, B0, ?_, h, Or.inl rfl⟩
    unfold search
    rw [if_pos ⟨h, Nat.le_refl _⟩]
  | false =>
    obtain ⟨f, r, e1, e2, e3⟩ := search_doubling hN N (j := 1) (B := B0 + 2) (by omega) (by omega) (by omega) (by simpa using h)
    refine ⟨f + 1, r, ?_, e2, Or.inr ⟨rfl, e3⟩⟩
    unfold search
    rw [if_neg (by simp [h]), if_pos (by simp [h])]
    exact e1

/-! ## Too many items for the bins -/

variable {V : Type}

theorem length_by_bin (nBins : Nat) (l : List (Nat × V)) (hn : 0 < nBins) :
    l.length = ((List.range nBins).map (fun b => (inBin nBins b l).length)).sum := by
  have hsum : ∀ (n j : Nat) (f : Nat → Nat), ((List.range n).map (fun b => if j = b then f b + 1 else f b)).sum =
      ((List.range n).map f).sum + if j < n then 1 else 0 := by
    intro n j f
    induction n with
    | zero => simp
    | succ n ih =>
      rw [List.range_succ, List.map_append, List.map_append, List.sum_append, List.sum_append, ih]
      simp only [List.map_cons, List.map_nil, List.sum_cons, List.sum_nil]
      split_ifs <;> omega
  induction l with
  | nil => simp [inBin]
  | cons x l ih =>
    have h1 : (List.range nBins).map (fun b => (inBin nBins b (x :: l)).length) =
        (List.range nBins).map (fun b => if binIdx nBins x.1 = b then (inBin nBins b l).length + 1 else (inBin nBins b l).length) := by
      apply List.map_congr_left
      intro b _
      unfold inBin
      by_cases h : binIdx nBins x.1 = b
      · rw [List.filter_cons_of_pos (by simpa using h), if_pos h, List.length_cons]
      · rw [List.filter_cons_of_neg (by simpa using h), if_neg h]
    rw [h1, hsum, ← ih, if_pos (binIdx_lt hn), List.length_cons]

theorem sum_le {n cap : Nat} {f : Nat → Nat} (h : ∀ b, f b ≤ cap) : ((List.range n).map f).sum ≤ cap * n := by
  induction n with
  | zero => simp
  | succ n ih =>
    rw [List.range_succ, List.map_append, List.sum_append, Nat.mul_succ]
    have := h n
    simp only [List.map_cons, List.map_nil, List.sum_cons, List.sum_nil]
    omega

/-- A thread never gets further than the room in its bins. -/
theorem scan_pos_le {c : Cfg} {T : Nat} {hs : List Nat} {X : Nat → V} {i : Nat} {l : Scan} {a : Nat → Nat × V} (hn : 0 < c.nBins)
    (h : ScanInv c T hs X i l a) : l.pos ≤ c.perThread T * c.nBins := by
  have h1 : l.pos = (slice hs X T i l.pos).length := by unfold slice; simp
  rw [h1, length_by_bin c.nBins _ hn]
  apply sum_le
  intro b
  rw [← h.sizes b]
  exact h.cap b

theorem run_overflow {c : Cfg} {enc : List Row → (Nat → V) → Except Okvs.Err (Nat → V)} [Zero V] {T : Nat} (hT : 1 ≤ T) {s1 s2 hs : List Nat}
    {m : Nat} (hlen : hs.length = T * m) (hitems : hs.length ≤ c.nItems) (h32 : 32 ∣ m) (hb : 2 ≤ c.nBins)
    (hcap : c.perThread T * c.nBins < m) (hs1 : ∀ i ∈ s1, i < T) (hfair : Fair c T hs.length s1) (X out0 : Nat → V) :
    solve c enc T s1 s2 hs X out0 = .error .undefined := by
  have hT1 : max 1 T = T := by omega
  have hfirst : ∀ i, first hs.length T (i + 1) - first hs.length T i = m := by
    intro i
    unfold first
    rw [hlen, Nat.mul_assoc, Nat.mul_assoc, Nat.mul_div_cancel_left _ (by omega), Nat.mul_div_cancel_left _ (by omega), Nat.mul_succ]
    omega
  unfold solve
  simp only [bind, Except.bind]
  rw [if_neg (by omega), if_neg (by omega), hT1]
  cases hr : Threads.run (scanStep c T hs X) s1 (fun _ => ⟨0, fun _ => 0⟩, fun _ => (0, 0)) with
  | ok a =>
    exfalso
    have hinv := scan_run hs1 hr 0 (by omega)
    have h1 := scan_pos_le (by omega) hinv
    have h2 := Threads.run_measure (i := 0)
      (fun l : Scan => first hs.length T (0 + 1) - first hs.length T 0 - l.pos)
      (fun l l' ws h => Nat.le_of_eq (scan_measure l l' ws h)) hr
    have h3 := hfair 0 (by omega)
    simp only [hfirst 0] at h2 h3
    omega
  | error e =>
    have hne : ∀ e', e' ≠ Err.undefined → e ≠ e' := by
      rintro e' he' rfl
      refine Threads.run_ne_error (e := e) ?_ _ _ hr
      intro i l
      unfold scanStep
      simp only [hfirst]
      obtain ⟨q, rfl⟩ := h32
      rw [Nat.mul_div_cancel_left _ (by decide), Nat.mul_comm q 32]
      split
      · rename_i hp
        split
        · intro h; cases h
        · intro h
          cases h
          exact he' rfl
      · intro h; cases h
    cases e with
    | undefined => rfl
    | check => exact absurd rfl (hne .check (by simp))
    | unfinished => exact absurd rfl (hne .unfinished (by simp))
    | bin e => exact absurd rfl (hne (.bin e) (by simp))

/-! ## Sizes that are certainly too small -/

/-- Bounds `2^(entry)` by powers of the 20th root of two. -/
def shortBy (t : List (List Nat)) (bins k : Nat) : Bool :=
  2 ^ (((t.getD (Nat.clog 2 bins) []).getD k 0 * 20 + (10 ^ 9 - 1)) / 10 ^ 9) ≤ ((2 ^ k - 1) / bins) ^ 20

theorem tableSize_short {t : List (List Nat)} {bins k : Nat} (h : shortBy t bins k = true) :
    tableSize t bins (2 ^ k) * bins < 2 ^ k := by
  unfold shortBy at h
  rw [decide_eq_true_eq] at h
  unfold tableSize
  rw [interp_pow_balls]
  unfold entry
  generalize (t.getD (Nat.clog 2 bins) []).getD k 0 = a at *
  have hC : ⌈(2 : ℝ) ^ ((a : ℝ) / 10 ^ 9)⌉₊ ≤ (2 ^ k - 1) / bins := by
    rw [Nat.ceil_le]
    generalize (2 ^ k - 1) / bins = C at *
    have h1 : (a : ℝ) / 10 ^ 9 ≤ ((a * 20 + (10 ^ 9 - 1)) / 10 ^ 9 : ℕ) / 20 := by
      rw [div_le_div_iff₀ (by positivity) (by norm_num)]
      have : a * 20 ≤ (a * 20 + (10 ^ 9 - 1)) / 10 ^ 9 * 10 ^ 9 := by omega
      exact_mod_cast this
    generalize (a * 20 + (10 ^ 9 - 1)) / 10 ^ 9 = p at *
    have h2 : (2 : ℝ) ^ ((a : ℝ) / 10 ^ 9) ≤ (2 : ℝ) ^ ((p : ℝ) / 20) := Real.rpow_le_rpow_of_exponent_le (by norm_num) h1
    refine h2.trans ?_
    have h3 : ((2 : ℝ) ^ ((p : ℝ) / 20)) ^ 20 ≤ (C : ℝ) ^ 20 := by
      rw [← Real.rpow_natCast, ← Real.rpow_mul (by norm_num)]
      have : (p : ℝ) / 20 * ((20 : ℕ) : ℝ) = (p : ℝ) := by push_cast; ring
      rw [this, Real.rpow_natCast]
      exact_mod_cast h
    exact le_of_pow_le_pow_left₀ (by decide) (Nat.cast_nonneg _) h3
  have hpos : 0 < 2 ^ k := Nat.pow_pos (by decide)
  have := Nat.mul_le_mul_right bins hC
  have := Nat.div_mul_le_self (2 ^ k - 1) bins
  omega

end Psi.Baxos
