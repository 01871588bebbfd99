import Mathlib.Algebra.BigOperators.Intervals
import Mathlib.Data.ZMod.Basic
import Mathlib.Tactic.LinearCombination
import Verif.Spiral.ArithLemmas
import Verif.Spiral.NttModel

/-!
# Lemmas on the number theoretic transform
-/

namespace Psi.Spiral

open Finset

/-! ### Loops over words -/

theorem block_prefix (bf : Nat → Nat → Nat × Nat) (t base : Nat) (v : Words) (n : Nat) (hn : n ≤ t) (k : Nat) :
    (List.range n).foldl (blockStep bf t base) v k =
      if base ≤ k ∧ k < base + n then (bf (v k) (v (k + t))).1
      else if base + t ≤ k ∧ k < base + t + n then (bf (v (k - t)) (v k)).2 else v k := by
  induction n generalizing k with
  | zero =>
    rw [if_neg (by omega), if_neg (by omega)]
    rfl
  | succ n ih =>
    rw [List.range_succ, List.foldl_append]
    simp only [List.foldl_cons, List.foldl_nil]
    have ih := ih (by omega)
    have e1 := ih (base + n)
    rw [if_neg (by omega), if_neg (by omega)] at e1
    have e2 := ih (base + (t + n))
    rw [if_neg (by omega), if_neg (by omega)] at e2
    generalize (List.range n).foldl (blockStep bf t base) v = u at *
    unfold blockStep upd
    rw [e1, e2]
    by_cases h1 : k = base + (t + n)
    · rw [if_pos h1, if_neg (by omega), if_pos (by omega), h1]
      congr 3
      omega
    · rw [if_neg h1]
      by_cases h2 : k = base + n
      · rw [if_pos h2, if_pos (by omega), h2]
        congr 3
        omega
      · rw [if_neg h2, ih k]
        by_cases h3 : base ≤ k ∧ k < base + n
        · rw [if_pos h3, if_pos (by omega)]
        · rw [if_neg h3, if_neg (show ¬(base ≤ k ∧ k < base + (n + 1)) by omega)]
          by_cases h4 : base + t ≤ k ∧ k < base + t + n
          · rw [if_pos h4, if_pos (by omega)]
          · rw [if_neg h4, if_neg (by omega)]

theorem block_fst (bf : Nat → Nat → Nat × Nat) (t base : Nat) (v : Words) {j : Nat} (hj : j < t) :
    block bf t base v (base + j) = (bf (v (base + j)) (v (base + (t + j)))).1 := by
  unfold block
  rw [block_prefix _ _ _ _ _ (le_refl t), if_pos (by omega)]
  congr 3
  omega

theorem block_snd (bf : Nat → Nat → Nat × Nat) (t base : Nat) (v : Words) {j : Nat} (hj : j < t) :
    block bf t base v (base + (t + j)) = (bf (v (base + j)) (v (base + (t + j)))).2 := by
  unfold block
  rw [block_prefix _ _ _ _ _ (le_refl t), if_neg (by omega), if_pos (by omega)]
  congr 3
  omega

theorem block_other (bf : Nat → Nat → Nat × Nat) (t base : Nat) (v : Words) {k : Nat}
    (hk : k < base ∨ base + 2 * t ≤ k) : block bf t base v k = v k := by
  unfold block
  rw [block_prefix _ _ _ _ _ (le_refl t), if_neg (by omega), if_neg (by omega)]

/-- What one level does to the words. -/
theorem level_spec (bf : Nat → Nat → Nat → Nat × Nat) (t : Nat) (v : Words) (h : Nat) :
    (∀ i, i < h → ∀ j, j < t →
      level bf h t v (i * (2 * t) + j) = (bf i (v (i * (2 * t) + j)) (v (i * (2 * t) + (t + j)))).1 ∧
      level bf h t v (i * (2 * t) + (t + j)) =
        (bf i (v (i * (2 * t) + j)) (v (i * (2 * t) + (t + j)))).2) ∧
    ∀ k, h * (2 * t) ≤ k → level bf h t v k = v k := by
  induction h with
  | zero =>
    refine ⟨fun i hi => absurd hi (by omega), fun k _ => rfl⟩
  | succ h ih =>
    have e : level bf (h + 1) t v = block (bf h) t (h * (2 * t)) (level bf h t v) := by
      unfold level
      rw [List.range_succ, List.foldl_append]
      rfl
    rw [e]
    refine ⟨fun i hi j hj => ?_, fun k hk => ?_⟩
    · rcases Nat.lt_or_ge i h with hlt | hge
      · have hb : (i + 1) * (2 * t) ≤ h * (2 * t) := Nat.mul_le_mul_right _ (by omega)
        rw [Nat.succ_mul] at hb
        rw [block_other _ _ _ _ (by omega), block_other _ _ _ _ (by omega)]
        exact ih.1 i hlt j hj
      · have hi : i = h := by omega
        subst hi
        rw [block_fst _ _ _ _ hj, block_snd _ _ _ _ hj, ih.2 _ (by omega), ih.2 _ (by omega)]
        exact ⟨rfl, rfl⟩
    · rw [Nat.succ_mul] at hk
      rw [block_other _ _ _ _ (by omega)]
      exact ih.2 k (by omega)

theorem mapWords_apply (f : Nat → Nat) (n : Nat) (v : Words) (k : Nat) :
    mapWords f n v k = if k < n then f (v k) else v k := by
  induction n with
  | zero => rfl
  | succ n ih =>
    have e : mapWords f (n + 1) v = upd (mapWords f n v) n (f (mapWords f n v n)) := by
      unfold mapWords
      rw [List.range_succ, List.foldl_append]
      rfl
    have e2 : mapWords f n v n = v n := by
      clear ih e
      have : ∀ m, m ≤ n → mapWords f m v n = v n := by
        intro m hm
        induction m with
        | zero => rfl
        | succ m ih =>
          have e : mapWords f (m + 1) v = upd (mapWords f m v) m (f (mapWords f m v m)) := by
            unfold mapWords
            rw [List.range_succ, List.foldl_append]
            rfl
          rw [e]
          unfold upd
          rw [if_neg (by omega)]
          exact ih (by omega)
      exact this n (le_refl n)
    rw [e, e2]
    unfold upd
    by_cases h : k = n
    · rw [if_pos h, if_pos (by omega), h]
    · rw [if_neg h, ih]
      by_cases h2 : k < n
      · rw [if_pos h2, if_pos (by omega)]
      · rw [if_neg h2, if_neg (by omega)]

/-! ### Bit reversal -/

theorem brv_lt (L k : Nat) : brv L k < 2 ^ L := by
  induction L generalizing k with
  | zero => exact Nat.one_pos
  | succ L ih =>
    have h1 := ih (k / 2)
    have h2 : k % 2 * 2 ^ L ≤ 1 * 2 ^ L := Nat.mul_le_mul_right _ (by omega)
    rw [brv, pow_succ]
    omega

theorem brv_two_mul (L k : Nat) : brv (L + 1) (2 * k) = brv L k := by
  rw [brv, show 2 * k % 2 = 0 by omega, show 2 * k / 2 = k by omega, Nat.zero_mul, Nat.zero_add]

theorem brv_two_mul_add_one (L k : Nat) : brv (L + 1) (2 * k + 1) = 2 ^ L + brv L k := by
  rw [brv, show (2 * k + 1) % 2 = 1 by omega, show (2 * k + 1) / 2 = k by omega, Nat.one_mul]

/-- The top bit becomes the lowest one. -/
theorem brv_top (L b y : Nat) (hb : b < 2) (hy : y < 2 ^ L) : brv (L + 1) (b * 2 ^ L + y) = b + 2 * brv L y := by
  induction L generalizing y with
  | zero =>
    have hy' : y = 0 := by simpa using hy
    subst hy'
    simp only [brv, pow_zero, Nat.mul_one, Nat.add_zero, Nat.mul_zero]
    omega
  | succ L ih =>
    have e1 : (b * 2 ^ (L + 1) + y) % 2 = y % 2 := by
      rw [pow_succ, ← Nat.mul_assoc]; omega
    have e2 : (b * 2 ^ (L + 1) + y) / 2 = b * 2 ^ L + y / 2 := by
      rw [pow_succ, ← Nat.mul_assoc]; omega
    rw [brv, e1, e2, ih (y / 2) (by rw [pow_succ] at hy; omega), brv]
    rw [pow_succ]
    ring

theorem brv_low (L y : Nat) (hy : y < 2 ^ L) : brv (L + 1) y = 2 * brv L y := by
  simpa using brv_top L 0 y (by decide) hy

theorem brv_brv (L k : Nat) (hk : k < 2 ^ L) : brv L (brv L k) = k := by
  induction L generalizing k with
  | zero =>
    have : k = 0 := by simpa using hk
    subst this
    rfl
  | succ L ih =>
    have h2 : k / 2 < 2 ^ L := by rw [pow_succ] at hk; omega
    rw [show brv (L + 1) k = k % 2 * 2 ^ L + brv L (k / 2) from rfl,
      brv_top L (k % 2) _ (by omega) (brv_lt _ _), ih _ h2]
    omega

theorem brv_zero (L : Nat) : brv L 0 = 0 := by
  induction L with
  | zero => rfl
  | succ L ih => rw [brv, ih]; simp

theorem brv_one (L : Nat) : brv (L + 1) 1 = 2 ^ L := by
  have := brv_two_mul_add_one L 0
  rw [brv_zero] at this
  simpa using this

/-! ### Tables -/

theorem powers_prefix (root m L n : Nat) (hm : 1 < m) (hr : root < m) (hn : n + 1 ≤ 2 ^ L) :
    let s := (List.range' 1 n).foldl (powerStep root m L) (upd (fun _ => 0) 0 1, root)
    s.2 = root ^ (n + 1) % m ∧ ∀ i, i ≤ n → s.1 (brv L i) = root ^ i % m := by
  induction n with
  | zero =>
    refine ⟨?_, fun i hi => ?_⟩
    · show root = _
      rw [Nat.zero_add, pow_one, Nat.mod_eq_of_lt hr]
    · have : i = 0 := by omega
      subst this
      show upd (fun _ => 0) 0 1 (brv L 0) = _
      rw [brv_zero, pow_zero, Nat.mod_eq_of_lt hm]
      rfl
  | succ n ih =>
    obtain ⟨h1, h2⟩ := ih (by omega)
    intro s
    have hs : s = powerStep root m L
        ((List.range' 1 n).foldl (powerStep root m L) (upd (fun _ => 0) 0 1, root)) (n + 1) := by
      show (List.range' 1 (n + 1)).foldl _ _ = _
      rw [List.range'_concat, List.foldl_append]
      simp only [List.foldl_cons, List.foldl_nil]
      congr 1
      omega
    rw [hs]
    generalize (List.range' 1 n).foldl (powerStep root m L) (upd (fun _ => 0) 0 1, root) = s' at *
    unfold powerStep
    simp only
    rw [h1]
    refine ⟨?_, fun i hi => ?_⟩
    · rw [Nat.mod_mul_mod, ← pow_succ]
    · unfold upd
      by_cases hi2 : i = n + 1
      · rw [hi2, if_pos rfl]
      · rw [if_neg, h2 i (by omega)]
        intro hc
        apply hi2
        rw [← brv_brv L i (by omega), hc, brv_brv L (n + 1) (by omega)]

theorem powersOfRoot_apply {root m L k : Nat} (hm : 1 < m) (hr : root < m) (hk : k < 2 ^ L) :
    powersOfRoot root m L k = root ^ brv L k % m := by
  have h := (powers_prefix root m L (2 ^ L - 1) hm hr (by have := Nat.one_le_two_pow (n := L); omega)).2
    (brv L k) (by have := brv_lt L k; omega)
  rw [brv_brv L k hk] at h
  exact h

end Psi.Spiral
