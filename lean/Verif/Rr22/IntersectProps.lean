import Verif.Rr22.IntersectLemmas

/-!
# C24, C25: the RR22 intersection step is exact, and truncation keeps its margin
-/

namespace Psi.Rr22
open Psi.Spec

variable {α : Type}

/-- C24.  `xs` are the receiver's items, `ys` the sender's, in their order within the bucket.  For every
partition of the parallel loop and every merge order the check of the received size passes, the receiver
gets the exact intersection with the sender's counts, and the sender gets the exact intersection with the
receiver's counts if results are broadcast and nothing otherwise.

Missing from the full claim: a common item whose truncated value is zero, see `C24_zero_value_lost`. -/
theorem C24_intersection_exact_partial {m : Nat} (hm : 0 < m) (hm' : m ≤ 16) {vR vS : α → Nat}
    {xs ys : List (α × Nat)} (g : Good m vR vS xs ys) (hx : (xs.map Prod.fst).Nodup)
    (hy : (ys.map Prod.fst).Nodup) (hxl : xs.length ≤ 2 ^ 32) (hyl : ys.length ≤ 2 ^ 32)
    (chunks : List (List Nat)) (hc : chunks.flatten.Perm (List.range ys.length)) :
    ∃ w, receive m ys.length (xs.map (fun x => vR x.1)) (xs.map Prod.snd) chunks
        (sendBuf m (ys.map (fun y => vS y.1))) (cntMap (ys.map Prod.snd)) = some w ∧
      ExactIndex xs ys (receiverLines w) ∧
      ExactIndex ys xs (senderLines true w) ∧ senderLines false w = [] := by
  refine ⟨lookup m (xs.map (fun x => vR x.1)) (xs.map Prod.snd)
    (sendBuf m (ys.map (fun y => vS y.1))) (cntMap (ys.map Prod.snd)) chunks.flatten, ?_, ?_⟩
  · unfold receive
    rw [if_pos, flatMap_lookup]
    rw [sendBuf_eq m hm', low_length m hm', List.length_map, Nat.mul_div_cancel _ hm]
  · have h := exact_of_matches hx hy _ (nodup_lookup hyl hc) (mem_lookup hm' g hx hxl hyl hc)
    rw [senderLines_eq]
    exact ⟨h.1, h.2, rfl⟩

/-- Three items against three, two in common, values truncated to two bytes; two chunks merged in the
wrong order. -/
def exXs : List (Nat × Nat) := [(5, 0), (7, 2), (9, 1)]
def exYs : List (Nat × Nat) := [(9, 4), (1, 0), (5, 3)]
def exV (x : Nat) : Nat := 65536 * 77777 + 256 * x + 3
def exV' (x : Nat) : Nat := 65536 * 11 + 256 * x + 3

theorem exGood : Good 2 exV exV' exXs exYs where
  ltR := by decide
  ltS := by decide
  agree := by decide
  nonzero := by decide

example := C24_intersection_exact_partial (m := 2) (by decide) (by decide) exGood (by decide) (by decide)
  (by decide) (by decide) [[2], [0, 1]] (by decide)

example : (receive 2 3 (exXs.map (fun x => exV x.1)) [0, 2, 1] [[2], [0, 1]]
    (sendBuf 2 (exYs.map (fun y => exV' y.1))) (cntMap [4, 0, 3])).map
      (fun w => (receiverLines w, senderLines true w)) = some ([(0, 3), (2, 4)], [(2, 0), (0, 1)]) := by
  decide

/-- What is missing: the table of the receiver uses zero to mark empty slots, so a common item whose value
is zero after truncation is not found although the values of both sides agree. -/
theorem C24_zero_value_lost : ∃ (v : Nat → Nat) (xs ys : List (Nat × Nat)),
    (∀ x, v x < 2 ^ 128) ∧ (∀ x ∈ xs, ∀ y ∈ ys, v x.1 % 256 ^ 2 = v y.1 % 256 ^ 2 ↔ x.1 = y.1) ∧
    ∃ w, receive 2 ys.length (xs.map (fun x => v x.1)) (xs.map Prod.snd) [List.range ys.length]
        (sendBuf 2 (ys.map (fun y => v y.1))) (cntMap (ys.map Prod.snd)) = some w ∧
      ¬ ExactIndex xs ys (receiverLines w) := by
  refine ⟨fun x => x % 5 * 65535, [(1, 0), (5, 0)], [(5, 0)], fun x => by show x % 5 * 65535 < _; omega,
    by decide, [], by decide, ?_⟩
  intro h
  have := (h.mem 1 0).mpr ⟨5, 0, rfl, by simp⟩
  exact absurd this (by simp [receiverLines])

/-- C25.  Both parties compute the same length: whatever the rounding of the logarithm. -/
theorem C25_same_on_both_sides (ceilLog2 : Nat → Nat) (n m ssp : Nat) (malicious compress : Bool) :
    maskSize ceilLog2 n m ssp malicious compress = maskSize ceilLog2 m n ssp malicious compress := by
  unfold maskSize truncateSize
  rw [Nat.mul_comm]

/-- C25.  With both sets non-empty, at most `2 ^ 48` pairs and a logarithm that is exact up to there, the
length is the smallest number of bytes that leaves `ssp` bits beyond the number of pairs, or 16.

Missing from the full claim: empty buckets, see `C25_empty_bucket_undefined`, and more pairs, see
`C25_wraps`. -/
theorem C25_margin_partial (ceilLog2 : Nat → Nat) (hlog : ∀ p, 0 < p → p ≤ 2 ^ 48 → ceilLog2 p = Nat.clog 2 p)
    (n m ssp : Nat) (hn : 0 < n) (hm : 0 < m) (hnm : n * m ≤ 2 ^ 48) (malicious compress : Bool) :
    ∃ k, maskSize ceilLog2 n m ssp malicious compress = .bytes k ∧ k ≤ 16 ∧
      (k = 16 ∨ 2 ^ ssp * (n * m) ≤ 256 ^ k) ∧
      (compress = true → malicious = false → ∀ j < k, 256 ^ j < 2 ^ ssp * (n * m)) ∧
      (compress = false ∨ malicious = true → k = 16) := by
  have hpos : 0 < n * m := Nat.mul_pos hn hm
  have hmod : n * m % 2 ^ 64 = n * m := Nat.mod_eq_of_lt (by omega)
  unfold maskSize truncateSize
  cases compress with
  | false => exact ⟨16, by simp⟩
  | true =>
    cases malicious with
    | true => exact ⟨16, by simp⟩
    | false =>
      simp only [if_true, Bool.false_eq_true, if_false, hmod, hlog _ hpos hnm]
      rw [if_neg (by omega)]
      refine ⟨_, rfl, Nat.min_le_right _ _, ?_, ?_, by simp⟩
      · by_cases h : (ssp + Nat.clog 2 (n * m) + 7) / 8 ≤ 16
        · right
          rw [Nat.min_eq_left h]
          have h1 : n * m ≤ 2 ^ Nat.clog 2 (n * m) := Nat.le_pow_clog (by decide) _
          calc 2 ^ ssp * (n * m) ≤ 2 ^ ssp * 2 ^ Nat.clog 2 (n * m) := Nat.mul_le_mul_left _ h1
            _ = 2 ^ (ssp + Nat.clog 2 (n * m)) := (Nat.pow_add _ _ _).symm
            _ ≤ 2 ^ (8 * ((ssp + Nat.clog 2 (n * m) + 7) / 8)) :=
              Nat.pow_le_pow_right (by decide) (by omega)
            _ = 256 ^ ((ssp + Nat.clog 2 (n * m) + 7) / 8) := by rw [Nat.pow_mul]
        · left
          omega
      · intro _ _ j hj
        have hj' : 8 * j < ssp + Nat.clog 2 (n * m) := by omega
        by_cases hs : 8 * j < ssp
        · calc 256 ^ j = 2 ^ (8 * j) := by rw [Nat.pow_mul]
            _ < 2 ^ ssp := Nat.pow_lt_pow_right (by decide) hs
            _ ≤ 2 ^ ssp * (n * m) := Nat.le_mul_of_pos_right _ hpos
        · have h2 : 2 ^ (8 * j - ssp) < n * m := Nat.pow_lt_of_lt_clog (by omega)
          calc 256 ^ j = 2 ^ (8 * j) := by rw [Nat.pow_mul]
            _ = 2 ^ ssp * 2 ^ (8 * j - ssp) := by rw [← Nat.pow_add]; congr 1; omega
            _ < 2 ^ ssp * (n * m) := Nat.mul_lt_mul_of_pos_left h2 (Nat.pow_pos (by decide))

/-- A million against ten thousand items. -/
example := C25_margin_partial (Nat.clog 2) (fun _ _ _ => rfl) 1000000 10000 40 (by decide) (by decide)
  (by decide) false true

example : maskSize (fun _ => 34) 1000000 10000 40 false true = .bytes 10 := by decide

/-- What is missing: with compression on, a bucket that is empty on one side makes the code convert minus
infinity to an unsigned integer. -/
theorem C25_empty_bucket_undefined (ceilLog2 : Nat → Nat) (n ssp : Nat) :
    maskSize ceilLog2 n 0 ssp false true = .undefined ∧ maskSize ceilLog2 0 n ssp false true = .undefined := by
  simp [maskSize, truncateSize]

/-- What is missing: the product is taken modulo `2 ^ 64`.  Already without reaching zero it can be far
too small. -/
theorem C25_wraps : ∃ n m, 0 < n ∧ 0 < m ∧
    ∃ k, maskSize (Nat.clog 2) n m 40 false true = .bytes k ∧ k < 16 ∧ 256 ^ k < 2 ^ 40 * (n * m) := by
  refine ⟨2 ^ 32 + 1, 2 ^ 32, by decide, by decide, 9, ?_, by decide, by decide⟩
  have h : Nat.clog 2 ((2 ^ 32 + 1) * 2 ^ 32 % 2 ^ 64) = 32 := by
    rw [show (2 ^ 32 + 1) * 2 ^ 32 % 2 ^ 64 = 2 ^ 32 by decide]
    exact Nat.clog_pow 2 32 (by decide)
  unfold maskSize truncateSize
  simp only [if_true, Bool.false_eq_true, if_false, h]
  decide

end Psi.Rr22
