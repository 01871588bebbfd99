import Verif.Gf128.SpecLemmas

/-!
# C40, C41: the 128-bit field arithmetic of RR22
-/

namespace Psi.Gf128
open Polynomial Spec

/-- C40.  `Galois128::Mul` is the product in GF(2)[x] modulo `x^128 + x^7 + x^2 + x + 1`, with the
carry-less multiply instruction and with the portable loop. -/
theorem C40_mul_is_field_product (avx2 : Bool) (a b : Nat) (ha : a < 2 ^ 128) (hb : b < 2 ^ 128) :
    IsWordOf (mul avx2 a b) (word a * word b) := by
  obtain ⟨h1, h2⟩ := cong_mul avx2 a b ha hb
  refine ⟨h2, ?_⟩
  rw [modulus_eq, word_eq_pol h2, word_eq_pol ha, word_eq_pol hb]
  exact h1

/-- C40.  A machine with the instruction and one without compute the same product. -/
theorem C40_paths_agree (a b : Nat) (ha : a < 2 ^ 128) (hb : b < 2 ^ 128) : mul true a b = mul false a b :=
  isWordOf_unique (C40_mul_is_field_product true a b ha hb) (C40_mul_is_field_product false a b ha hb)

example : mul true 0xdeadbeef0123456789abcdef00112233 0xfedcba98765432100f1e2d3c4b5a6978 =
    mul false 0xdeadbeef0123456789abcdef00112233 0xfedcba98765432100f1e2d3c4b5a6978 :=
  C40_paths_agree _ _ (by decide) (by decide)

/-- The reduction is exercised. -/
example : mul true (2 ^ 127) 2 = 0x87 ∧ mul false (2 ^ 127) 2 = 0x87 := by decide +kernel

/-- C41.  `Galois128::Inv` never fails its check on a nonzero word, and yields the inverse. -/
theorem C41_inverse (avx2 avx2' : Bool) (a : Nat) (ha : a < 2 ^ 128) (h0 : a ≠ 0) :
    ∃ b, inv avx2 a = some b ∧ b < 2 ^ 128 ∧ mul avx2' a b = 1 := by
  refine ⟨invChain avx2 a, ?_, invChain_lt avx2 a ha, mul_invChain avx2' avx2 a ha h0⟩
  unfold inv
  rw [if_pos (mul_invChain avx2 avx2 a ha h0)]

/-- C41.  Zero has no inverse: the check stops the program. -/
theorem C41_zero_rejected (avx2 : Bool) : inv avx2 0 = none := by
  cases avx2 <;> decide +kernel

example : ∃ b, inv true 0x123456789 = some b ∧ b < 2 ^ 128 ∧ mul false 0x123456789 b = 1 :=
  C41_inverse true false _ (by decide) (by decide)

/-- C41.  `Galois128::Pow` is the power, for every 64-bit exponent, except that `0 ^ 0` is 0. -/
theorem C41_pow_partial (avx2 : Bool) (a i : Nat) (ha : a < 2 ^ 128) (hi : i < 2 ^ 64) (h : a ≠ 0 ∨ i ≠ 0) :
    IsWordOf (pow avx2 a i) (word a ^ i) := by
  unfold pow
  by_cases h0 : a = 0
  · rw [if_pos h0, h0]
    have hi0 : i ≠ 0 := by
      rcases h with h | h
      · exact absurd h0 h
      · exact h
    refine ⟨by decide, ?_⟩
    rw [word_eq_pol (by decide), pol_zero, zero_pow hi0, sub_zero]
    exact dvd_zero _
  · rw [if_neg h0]
    obtain ⟨h1, h2⟩ := phi_powLoop avx2 64 i a 1 hi ha (by decide)
    refine ⟨h2, ?_⟩
    rw [modulus_eq, word_eq_pol h2, word_eq_pol ha]
    rw [phi_one, one_mul] at h1
    unfold phi at h1
    rw [← map_pow] at h1
    exact AdjoinRoot.mk_eq_mk.mp h1

/-- C41.  The power with exponent zero of the zero word is 0, not 1. -/
theorem C41_zero_pow_zero (avx2 : Bool) : pow avx2 0 0 = 0 ∧ ¬ IsWordOf 0 (word 0 ^ 0) := by
  refine ⟨by cases avx2 <;> rfl, ?_⟩
  rintro ⟨_, h⟩
  rw [pow_zero, modulus_eq, word_eq_pol (by decide), pol_zero, ← pol_one, ← pol_zero] at h
  have := eq_of_cong (a := 0) (b := 1) (by decide) (by decide) h
  exact absurd this (by decide)

example : IsWordOf (pow true 3 5) (word 3 ^ 5) := C41_pow_partial true 3 5 (by decide) (by decide) (Or.inl (by decide))

example := C40_mul_is_field_product true (2 ^ 127 + 5) 0xfedcba98765432100f1e2d3c4b5a6978 (by decide) (by decide)

end Psi.Gf128
