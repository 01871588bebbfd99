import Verif.X25519.Ladder
import Mathlib.NumberTheory.LegendreSymbol.QuadraticChar.Basic
import Mathlib.GroupTheory.OrderOfElement
import Mathlib.GroupTheory.Perm.Cycle.Type
import Mathlib.Data.Fintype.BigOperators
import Mathlib.SetTheory.Cardinal.Finite

/-!
# The orders of Curve25519 and of its twist

The base point has order `ordL` (a run of the ladder), and there is a point of order 8.  A curve over a field of
`p` elements has at most `2 p + 1` points, so the order of Curve25519 is `8 * ordL`.  Each coordinate is on the
curve or on the twist, which gives the order of the twist.
-/

namespace Psi.X25519

open Psi.Elligator WeierstrassCurve

/-! ## Counting points -/

/-- The points other than the one at infinity. -/
def Aff (d : Fp) := Σ x : Fp, {y : Fp // y ^ 2 = rhsE d x}

/-- The points of `E d`. -/
def pointEquiv {d : Fp} (hd : d ≠ 0) : (E d).Point ≃ Option (Aff d) where
  toFun
    | .zero => none
    | .some x y h => some ⟨x, y, E_equation.mp h.1⟩
  invFun
    | none => .zero
    | some ⟨x, y, h⟩ => .some x y (E_nonsingular hd h)
  left_inv P := by cases P <;> rfl
  right_inv o := by rcases o with _ | ⟨x, y, h⟩ <;> rfl

noncomputable instance (d : Fp) : Fintype (Aff d) :=
  inferInstanceAs (Fintype (Σ x : Fp, {y : Fp // y ^ 2 = rhsE d x}))

theorem finite_point {d : Fp} (hd : d ≠ 0) : Finite (E d).Point := Finite.of_equiv _ (pointEquiv hd).symm

theorem ringChar_ne : ringChar Fp ≠ 2 := by
  rw [ZMod.ringChar_zmod_n]; decide +kernel

theorem card_roots (a : Fp) : (Fintype.card {y : Fp // y ^ 2 = a} : ℤ) = quadraticChar Fp a + 1 := by
  have h := quadraticChar_card_sqrts ringChar_ne a
  rw [← h, Set.toFinset_card]
  rfl

theorem card_point {d : Fp} (hd : d ≠ 0) :
    (Nat.card (E d).Point : ℤ) = 1 + ∑ x : Fp, (quadraticChar Fp (rhsE d x) + 1) := by
  rw [Nat.card_congr (pointEquiv hd), Nat.card_eq_fintype_card, Fintype.card_option]
  have : Fintype.card (Aff d) = ∑ x : Fp, Fintype.card {y : Fp // y ^ 2 = rhsE d x} := Fintype.card_sigma
  rw [this]
  push_cast
  rw [add_comm]
  congr 1
  exact Finset.sum_congr rfl fun x _ => card_roots _

theorem card_sum {d : Fp} (hd : d ≠ 0) : (Nat.card (E d).Point : ℤ) =
    1 + kP + quadraticChar Fp d * ∑ u : Fp, quadraticChar Fp (rhs u) := by
  rw [card_point hd, Finset.sum_add_distrib]
  have h1 : ∑ _x : Fp, (1 : ℤ) = kP := by
    rw [Finset.sum_const, Finset.card_univ, ZMod.card]; simp
  have h2 : ∑ x : Fp, quadraticChar Fp (rhsE d x) = ∑ u : Fp, quadraticChar Fp (rhsE d (d * u)) :=
    (Equiv.sum_comp (Equiv.mulLeft₀ d hd) fun x => quadraticChar Fp (rhsE d x)).symm
  rw [h1, h2, Finset.mul_sum]
  have h3 : ∀ u, quadraticChar Fp (rhsE d (d * u)) = quadraticChar Fp d * quadraticChar Fp (rhs u) := by
    intro u
    rw [rhsE_mul, map_mul, map_pow, pow_succ, quadraticChar_sq_one hd, one_mul]
  simp only [h3]
  ring

theorem two_nonsquare : ¬ IsSquare (2 : Fp) := by
  rw [ZMod.exists_sq_eq_two_iff (by decide +kernel)]
  decide +kernel

/-- The points of the curve and of the twist together. -/
theorem card_both : Nat.card (E 1).Point + Nat.card (E 2).Point = 2 * kP + 2 := by
  have h1 := card_sum (d := 1) one_ne_zero
  have h2 := card_sum (d := 2) two_ne
  have e : quadraticChar Fp 2 = -1 := quadraticChar_neg_one_iff_not_isSquare.mpr two_nonsquare
  rw [e] at h2
  rw [map_one] at h1
  have : (Nat.card (E 1).Point : ℤ) + Nat.card (E 2).Point = 2 * kP + 2 := by rw [h1, h2]; ring
  exact_mod_cast this

theorem card_le {d : Fp} (hd : d ≠ 0) : Nat.card (E d).Point ≤ 2 * kP + 1 := by
  have h := card_point hd
  have h1 : ∑ x : Fp, (quadraticChar Fp (rhsE d x) + 1) ≤ ∑ _x : Fp, (2 : ℤ) := by
    apply Finset.sum_le_sum
    intro x _
    rcases quadraticChar_isQuadratic Fp (rhsE d x) with e | e | e <;> rw [e] <;> norm_num
  have h2 : ∑ _x : Fp, (2 : ℤ) = 2 * kP := by
    rw [Finset.sum_const, Finset.card_univ, ZMod.card]; simp [mul_comm]
  rw [h2] at h1
  have : (Nat.card (E d).Point : ℤ) ≤ 2 * kP + 1 := by rw [h]; linarith
  exact_mod_cast this

/-! ## Points of known order -/

/-- A run of the ladder that ends in infinity. -/
theorem smul_zero_of {d : Fp} (hd : d ≠ 0) {u : Int} (hu : (u : Fp) ≠ 0) {P : (E d).Point} (hP : HasX d u P)
    {k : Nat} (hk : k < 2 ^ 255) : k • P = 0 ↔ ((ladder k u).z2 : Fp) = 0 :=
  rep_zero_iff (ladder_holds hd hu hP hk).1

theorem cast_ne {n : Int} (h : ¬ (kP : Int) ∣ n) : (n : Fp) ≠ 0 := fun e => h (cast_zero_iff.mp e)

theorem base_on : ∃ P, HasX 1 ((9 : Int) : Fp) P := by
  rw [hasX_iff one_ne_zero]
  refine ⟨((14781619447589544791020593568409986887264606134616475288964881837755586237401 : Int) : Fp), ?_⟩
  have h : ((9 ^ 3 + 486662 * 9 ^ 2 + 9 -
      14781619447589544791020593568409986887264606134616475288964881837755586237401 ^ 2 : Int) : Fp) = 0 :=
    cast_zero_iff.mpr (by decide +kernel)
  push_cast at h ⊢
  rw [rhs]
  linear_combination h

theorem base_order : ∃ P : (E 1).Point, HasX 1 ((9 : Int) : Fp) P ∧ addOrderOf P = ordL := by
  obtain ⟨P, hP⟩ := base_on
  refine ⟨P, hP, ?_⟩
  have : Fact (Nat.Prime ordL) := ⟨ordL_prime⟩
  apply addOrderOf_eq_prime _ (hasX_ne hP)
  rw [smul_zero_of one_ne_zero (cast_ne (by decide +kernel)) hP (by decide +kernel)]
  exact cast_zero_iff.mpr (by decide +kernel)

/-- The coordinate of a point of order 8. -/
def x8 : Int := 325606250916557431795983626356110631294008115727848805560023387167927233504

theorem eight_order : ∃ P : (E 1).Point, HasX 1 (x8 : Fp) P ∧ addOrderOf P = 8 := by
  obtain ⟨P, hP⟩ : ∃ P, HasX 1 (x8 : Fp) P := by
    rw [hasX_iff one_ne_zero]
    refine ⟨((32026303591712962751241307547882981359278212717910236697706316503764922500307 : Int) : Fp), ?_⟩
    have h : ((x8 ^ 3 + 486662 * x8 ^ 2 + x8 -
        32026303591712962751241307547882981359278212717910236697706316503764922500307 ^ 2 : Int) : Fp) = 0 :=
      cast_zero_iff.mpr (by decide +kernel)
    push_cast at h ⊢
    rw [rhs]
    linear_combination h
  refine ⟨P, hP, ?_⟩
  have hu : (x8 : Fp) ≠ 0 := cast_ne (by decide +kernel)
  have : Fact (Nat.Prime 2) := ⟨Nat.prime_two⟩
  apply addOrderOf_eq_prime_pow (p := 2) (n := 2)
  · rw [smul_zero_of one_ne_zero hu hP (by norm_num)]
    exact cast_ne (by decide +kernel)
  · rw [smul_zero_of one_ne_zero hu hP (by norm_num)]
    exact cast_zero_iff.mpr (by decide +kernel)

/-- The order of Curve25519. -/
theorem card_curve : Nat.card (E 1).Point = 8 * ordL := by
  have := finite_point (d := 1) one_ne_zero
  obtain ⟨P, -, hP⟩ := base_order
  obtain ⟨T, -, hT⟩ := eight_order
  have h1 : ordL ∣ Nat.card (E 1).Point := hP ▸ addOrderOf_dvd_natCard P
  have h2 : 8 ∣ Nat.card (E 1).Point := hT ▸ addOrderOf_dvd_natCard T
  have h3 : 8 * ordL ∣ Nat.card (E 1).Point :=
    Nat.Coprime.mul_dvd_of_dvd_of_dvd (by decide +kernel) h2 h1
  have h4 := card_le (d := 1) one_ne_zero
  have h5 : 2 * kP + 1 < 2 * (8 * ordL) := by decide +kernel
  obtain ⟨c, hc⟩ := h3
  have h6 : 0 < Nat.card (E 1).Point := Nat.card_pos
  have h7 : c < 2 := by
    by_contra hge
    have : 2 * (8 * ordL) ≤ 8 * ordL * c := by
      rw [mul_comm 2]; exact Nat.mul_le_mul_left _ (by omega)
    omega
  have h8 : c ≠ 0 := by rintro rfl; rw [mul_zero] at hc; omega
  have : c = 1 := by omega
  rw [hc, this, mul_one]

/-- The order of the twist. -/
theorem card_twist : Nat.card (E 2).Point = 4 * ordT := by
  have h := card_both
  rw [card_curve] at h
  have : 8 * ordL + 4 * ordT = 2 * kP + 2 := by decide +kernel
  omega

end Psi.X25519
