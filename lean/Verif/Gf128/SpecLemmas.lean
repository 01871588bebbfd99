import Verif.Gf128.Spec
import Verif.Gf128.FieldLemmas

/-! # Relating the specification to the polynomials of the proofs -/

namespace Psi.Gf128
open Polynomial Spec

theorem word_eq_pol {a : Nat} (ha : a < 2 ^ 128) : word a = pol a := by
  ext i
  rw [coeff_pol]
  unfold word
  rw [finsetSum_coeff]
  by_cases h : a.testBit i
  · have hi : i < 128 := by
      have h1 := testBit_lt_size h
      have h2 : a.size ≤ 128 := Nat.size_le.mpr ha
      omega
    rw [Finset.sum_eq_single i]
    · simp [h]
    · intro j _ hj
      by_cases hb : a.testBit j
      · simp [hb, coeff_X_pow, Ne.symm hj]
      · simp [hb]
    · intro hn
      exact absurd (Finset.mem_range.mpr hi) hn
  · rw [Finset.sum_eq_zero]
    · simp [h]
    · intro j _
      by_cases hb : a.testBit j
      · have : i ≠ j := by rintro rfl; exact h hb
        simp [hb, coeff_X_pow, this]
      · simp [hb]

theorem modulus_eq : modulus = P := by
  unfold modulus
  exact P_eq.symm

/-- A word is determined by its polynomial. -/
theorem isWordOf_unique {z z' : Nat} {p : (ZMod 2)[X]} (h : IsWordOf z p) (h' : IsWordOf z' p) : z = z' := by
  obtain ⟨h1, h2⟩ := h
  obtain ⟨h3, h4⟩ := h'
  rw [modulus_eq, word_eq_pol h1] at h2
  rw [modulus_eq, word_eq_pol h3] at h4
  exact eq_of_cong h1 h3 (Cong.trans h2 (Cong.symm h4))

end Psi.Gf128
