import Verif.Gf128.PolyLemmas
import Mathlib.RingTheory.AdjoinRoot
import Mathlib.FieldTheory.Finite.Extension
import Mathlib.Algebra.Ring.InjSurj

/-! # The field polynomial is irreducible, and inversion -/

namespace Psi.Gf128
open Polynomial

/-- Image of a word in the quotient ring. -/
noncomputable def phi (a : Nat) : AdjoinRoot P := AdjoinRoot.mk P (pol a)

theorem phi_eq_iff {a b : Nat} (ha : a < 2 ^ 128) (hb : b < 2 ^ 128) : phi a = phi b ↔ a = b := by
  constructor
  · intro h
    exact eq_of_cong ha hb (AdjoinRoot.mk_eq_mk.mp h)
  · rintro rfl; rfl

theorem phi_mul (avx2 : Bool) {a b : Nat} (ha : a < 2 ^ 128) (hb : b < 2 ^ 128) :
    phi (mul avx2 a b) = phi a * phi b := by
  unfold phi
  rw [← map_mul]
  exact AdjoinRoot.mk_eq_mk.mpr (cong_mul avx2 a b ha hb).1

theorem mul_lt (avx2 : Bool) {a b : Nat} (ha : a < 2 ^ 128) (hb : b < 2 ^ 128) : mul avx2 a b < 2 ^ 128 :=
  (cong_mul avx2 a b ha hb).2

theorem phi_xor (a b : Nat) : phi (a ^^^ b) = phi a + phi b := by
  unfold phi; rw [pol_xor, map_add]

theorem phi_zero : phi 0 = 0 := by unfold phi; rw [pol_zero, map_zero]

theorem phi_one : phi 1 = 1 := by unfold phi; rw [pol_one, map_one]

theorem squarings_lt (avx2 : Bool) (k b : Nat) (hb : b < 2 ^ 128) : squarings avx2 k b < 2 ^ 128 := by
  induction k generalizing b with
  | zero => exact hb
  | succ k ih => exact ih _ (mul_lt avx2 hb hb)

theorem phi_squarings (avx2 : Bool) (k b : Nat) (hb : b < 2 ^ 128) :
    phi (squarings avx2 k b) = phi b ^ 2 ^ k := by
  induction k generalizing b with
  | zero => simp [squarings]
  | succ k ih =>
    show phi (squarings avx2 k (mul avx2 b b)) = _
    rw [ih _ (mul_lt avx2 hb hb), phi_mul avx2 hb hb, ← pow_two, ← pow_mul, ← pow_succ' 2 k]

theorem two_lt : (2 : Nat) < 2 ^ 128 := by decide

theorem phi_two : phi 2 = AdjoinRoot.root P := by
  unfold phi
  have := pol_two_pow 1
  rw [pow_one, pow_one] at this
  rw [this, AdjoinRoot.mk_X]

theorem frob128 : squarings false 128 2 = 2 := by decide +kernel

theorem coprime64 : mul false (squarings false 64 2 ^^^ 2) 0x9e4af928ddbc838a41a8cafd2c95b018 = 1 := by
  decide +kernel

theorem dvd_frob_gen (n : Nat) (h : squarings false n 2 = 2) : P ∣ X ^ 2 ^ n - X := by
  rw [← AdjoinRoot.mk_eq_mk, map_pow, AdjoinRoot.mk_X, ← phi_two, ← phi_squarings false n 2 two_lt, h]

theorem coprime_gen (n u : Nat) (hu : u < 2 ^ 128) (h1 : mul false (squarings false n 2 ^^^ 2) u = 1) :
    ∃ u v : (ZMod 2)[X], (X ^ 2 ^ n - X) * u + P * v = 1 := by
  have hs := squarings_lt false n 2 two_lt
  have hw : squarings false n 2 ^^^ 2 < 2 ^ 128 := xor_lt hs two_lt
  have h := phi_mul false hw hu
  rw [h1, phi_one, phi_xor, phi_squarings false n 2 two_lt] at h
  have hx : phi 2 = AdjoinRoot.mk P X := by rw [phi_two, AdjoinRoot.mk_X]
  have hc : AdjoinRoot.mk P 1 = AdjoinRoot.mk P ((X ^ 2 ^ n - X) * pol u) := by
    rw [map_one, h, map_mul, sub_char_two, map_add, map_pow, ← hx]
    rfl
  obtain ⟨v, hv⟩ := AdjoinRoot.mk_eq_mk.mp hc
  exact ⟨pol u, v, by rw [← hv, add_sub_cancel]⟩

/-- `P` divides `X ^ 2 ^ 128 - X`. -/
theorem P_dvd_frob : P ∣ X ^ 2 ^ 128 - X := dvd_frob_gen 128 frob128

/-- `X ^ 2 ^ 64 - X` is invertible modulo `P`. -/
theorem P_coprime : ∃ u v : (ZMod 2)[X], (X ^ 2 ^ 64 - X) * u + P * v = 1 :=
  coprime_gen 64 _ (by decide) coprime64

theorem dvd_one_of {f q p u v : (ZMod 2)[X]} (h : q * u + p * v = 1) (h1 : f ∣ q) (h2 : f ∣ p) : f ∣ 1 := by
  rw [← h]
  exact dvd_add (Dvd.dvd.mul_right h1 u) (Dvd.dvd.mul_right h2 v)

theorem P_natDegree : P.natDegree = 128 := natDegree_eq_of_degree_eq_some P_degree

theorem P_irreducible : Irreducible P := by
  have hP0 : P ≠ 0 := P_monic.ne_zero
  have hPu : ¬ IsUnit P := by
    intro h
    have := natDegree_eq_zero_of_isUnit h
    rw [P_natDegree] at this
    exact absurd this (by decide)
  obtain ⟨f, hf, g, hg⟩ := WfDvdMonoid.exists_irreducible_factor hPu hP0
  have hcard : Nat.card (ZMod 2) = 2 := by simp
  have hdeg : f.natDegree ∣ 128 := by
    apply hf.natDegree_dvd_of_dvd_X_pow_card_pow_sub_X
    rw [hcard]
    exact dvd_trans ⟨g, hg⟩ P_dvd_frob
  have hall : ∀ n, f.natDegree ∣ n → f ∣ X ^ 2 ^ n - X := by
    intro n h
    have := hf.natDegree_dvd_iff_dvd_X_pow_card_pow_sub_X.mp h
    rwa [hcard] at this
  have hnot : ¬ f.natDegree ∣ 64 := by
    intro h
    obtain ⟨u, v, huv⟩ := P_coprime
    have : f ∣ 1 := dvd_one_of huv (hall 64 h) ⟨g, hg⟩
    exact hf.not_isUnit (isUnit_of_dvd_one this)
  have h128 : f.natDegree = 128 := by
    have h2 : (128 : Nat) = 2 ^ 7 := by decide
    rw [h2] at hdeg
    obtain ⟨k, hk, he⟩ := (Nat.dvd_prime_pow Nat.prime_two).mp hdeg
    rcases Nat.lt_or_ge k 7 with h | h
    · exfalso
      apply hnot
      rw [he]
      exact Nat.pow_dvd_pow 2 (show k ≤ 6 by omega)
    · have : k = 7 := by omega
      rw [he, this, ← h2]
  have hg0 : g ≠ 0 := by rintro rfl; exact hP0 (by rw [hg, mul_zero])
  have hgd : g.natDegree = 0 := by
    have := natDegree_mul hf.ne_zero hg0
    rw [← hg, P_natDegree, h128] at this
    omega
  have hgu : IsUnit g := by
    rw [eq_C_of_natDegree_eq_zero hgd] at hg0 ⊢
    exact isUnit_C.mpr (isUnit_iff_ne_zero.mpr (by rintro h; exact hg0 (by rw [h, C_0])))
  rw [hg]
  exact (irreducible_mul_isUnit hgu).mpr hf

instance : Fact (Irreducible P) := ⟨P_irreducible⟩

theorem card_field : Nat.card (AdjoinRoot P) = 2 ^ 128 := by
  have hfr : Module.finrank (ZMod 2) (AdjoinRoot P) = 128 := by
    rw [(AdjoinRoot.powerBasis P_monic.ne_zero).finrank, AdjoinRoot.powerBasis_dim, P_natDegree]
  have : Module.Finite (ZMod 2) (AdjoinRoot P) := Module.finite_of_finrank_pos (by rw [hfr]; decide)
  rw [Module.natCard_eq_pow_finrank (K := ZMod 2), hfr]
  simp

theorem finite_field : Finite (AdjoinRoot P) := by
  apply Nat.finite_of_card_ne_zero
  rw [card_field]
  exact Nat.pos_iff_ne_zero.mp (Nat.pow_pos (by decide))

theorem pow_order {x : AdjoinRoot P} (hx : x ≠ 0) : x ^ (2 ^ 128 - 1) = 1 := by
  have := finite_field
  have := Fintype.ofFinite (AdjoinRoot P)
  have h := FiniteField.pow_card_sub_one_eq_one x hx
  rwa [Fintype.card_eq_nat_card, card_field] at h

theorem chain_inv (avx2 : Bool) (a : Nat) (ha : a < 2 ^ 128) (n : Nat) :
    let s := (List.range n).foldl (fun (s : Nat × Nat) i =>
      let b := squarings avx2 (2 ^ i) s.1
      (mul avx2 s.1 b, if i = 0 then b else mul avx2 s.2 b)) (a, 0)
    s.1 < 2 ^ 128 ∧ s.2 < 2 ^ 128 ∧ phi s.1 = phi a ^ (2 ^ 2 ^ n - 1) ∧
      (0 < n → phi s.2 = phi a ^ (2 ^ 2 ^ n - 2)) := by
  induction n with
  | zero => exact ⟨ha, by simp, by simp, fun h => absurd h (by decide)⟩
  | succ n ih =>
    rw [List.range_succ, List.foldl_append]
    simp only [List.foldl_cons, List.foldl_nil] at ih ⊢
    generalize (List.range n).foldl (fun (s : Nat × Nat) i =>
      (mul avx2 s.1 (squarings avx2 (2 ^ i) s.1),
        if i = 0 then squarings avx2 (2 ^ i) s.1 else mul avx2 s.2 (squarings avx2 (2 ^ i) s.1))) (a, 0) = s at ih ⊢
    obtain ⟨h1, h2, h3, h4⟩ := ih
    have hb := squarings_lt avx2 (2 ^ n) s.1 h1
    have hpb : phi (squarings avx2 (2 ^ n) s.1) = phi a ^ ((2 ^ 2 ^ n - 1) * 2 ^ 2 ^ n) := by
      rw [phi_squarings avx2 _ _ h1, h3, ← pow_mul]
    have hq : 2 ^ 2 ^ (n + 1) = 2 ^ 2 ^ n * 2 ^ 2 ^ n := by
      rw [pow_succ, Nat.mul_two, pow_add]
    have hq2 : 2 ≤ 2 ^ 2 ^ n := by
      calc 2 = 2 ^ 1 := rfl
        _ ≤ 2 ^ 2 ^ n := Nat.pow_le_pow_right (by decide) Nat.one_le_two_pow
    have hn0 : n = 0 → 2 ^ 2 ^ n = 2 := by rintro rfl; rfl
    rw [hq]
    generalize 2 ^ 2 ^ n = q at *
    obtain ⟨r, rfl⟩ : ∃ r, q = r + 2 := ⟨q - 2, by omega⟩
    refine ⟨mul_lt avx2 h1 hb, ?_, ?_, ?_⟩
    · split
      · exact hb
      · exact mul_lt avx2 h2 hb
    · rw [phi_mul avx2 h1 hb, h3, hpb, ← pow_add]
      congr 1
      have : (r + 2) * (r + 2) = (r + 1) * (r + 2) + (r + 2) := by ring
      show r + 1 + (r + 1) * (r + 2) = (r + 2) * (r + 2) - 1
      omega
    · intro _
      have e : (r + 2) * (r + 2) - 2 = r + (r + 1) * (r + 2) := by
        have : (r + 2) * (r + 2) = (r + 1) * (r + 2) + (r + 2) := by ring
        omega
      rw [e]
      rcases Nat.eq_zero_or_pos n with h0 | h0
      · rw [if_pos h0, hpb]
        have : r = 0 := by have := hn0 h0; omega
        subst this
        rfl
      · rw [if_neg (by omega), phi_mul avx2 h2 hb, h4 h0, hpb, ← pow_add]
        rfl

theorem invChain_lt (avx2 : Bool) (a : Nat) (ha : a < 2 ^ 128) : invChain avx2 a < 2 ^ 128 :=
  (chain_inv avx2 a ha 7).2.1

theorem phi_invChain (avx2 : Bool) (a : Nat) (ha : a < 2 ^ 128) :
    phi (invChain avx2 a) = phi a ^ (2 ^ 2 ^ 7 - 2) :=
  (chain_inv avx2 a ha 7).2.2.2 (by decide)

theorem pow_pred_succ {x : AdjoinRoot P} {q : Nat} (hq : 2 ≤ q) : x * x ^ (q - 2) = x ^ (q - 1) := by
  rw [← pow_succ']
  congr 1
  omega

theorem phi_ne_zero {a : Nat} (ha : a < 2 ^ 128) (h0 : a ≠ 0) : phi a ≠ 0 := by
  intro h
  exact h0 ((phi_eq_iff ha (by decide)).mp (h.trans phi_zero.symm))

theorem mul_invChain (avx2 avx2' : Bool) (a : Nat) (ha : a < 2 ^ 128) (h0 : a ≠ 0) :
    mul avx2 a (invChain avx2' a) = 1 := by
  have hi := invChain_lt avx2' a ha
  rw [← phi_eq_iff (mul_lt avx2 ha hi) (by decide), phi_mul avx2 ha hi, phi_invChain avx2' a ha, phi_one]
  have e : (2 : Nat) ^ 7 = 128 := by decide
  rw [e, pow_pred_succ (Nat.le_self_pow (by decide) 2)]
  exact pow_order (phi_ne_zero ha h0)

theorem phi_powLoop (avx2 : Bool) (fuel i p s : Nat) (hi : i < 2 ^ fuel) (hp : p < 2 ^ 128) (hs : s < 2 ^ 128) :
    phi (powLoop avx2 fuel i p s) = phi s * phi p ^ i ∧ powLoop avx2 fuel i p s < 2 ^ 128 := by
  induction fuel generalizing i p s with
  | zero =>
    have : i = 0 := by simpa using hi
    subst this
    exact ⟨by simp [powLoop], hs⟩
  | succ fuel ih =>
    unfold powLoop
    by_cases h0 : i = 0
    · rw [if_pos h0, h0]
      exact ⟨by simp, hs⟩
    · rw [if_neg h0]
      have hlt : i >>> 1 < 2 ^ fuel := by
        rw [Nat.shiftRight_eq_div_pow, pow_one]
        rw [pow_succ] at hi
        omega
      have hsq := mul_lt avx2 hp hp
      have hi2 : i = 2 * (i >>> 1) + i % 2 := by
        rw [Nat.shiftRight_eq_div_pow, pow_one]; omega
      have hsp := mul_lt avx2 hs hp
      by_cases hb : i &&& 1 ≠ 0
      · rw [if_pos hb]
        have hb1 : i % 2 = 1 := by rw [Nat.and_one_is_mod] at hb; omega
        refine ⟨?_, (ih _ _ _ hlt hsq hsp).2⟩
        rw [(ih _ _ _ hlt hsq hsp).1, phi_mul avx2 hs hp, phi_mul avx2 hp hp]
        rw [hb1] at hi2
        conv_rhs => rw [hi2]
        rw [pow_succ, pow_mul, pow_two]
        ring
      · rw [if_neg hb]
        have hb1 : i % 2 = 0 := by
          rw [Nat.and_one_is_mod] at hb; omega
        refine ⟨?_, (ih _ _ _ hlt hsq hs).2⟩
        rw [(ih _ _ _ hlt hsq hs).1, phi_mul avx2 hp hp]
        rw [hb1, add_zero] at hi2
        conv_rhs => rw [hi2]
        rw [pow_mul, pow_two]

end Psi.Gf128
