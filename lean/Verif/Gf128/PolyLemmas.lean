import Verif.Gf128.Model
import Mathlib.Algebra.Polynomial.Div
import Mathlib.Algebra.Polynomial.RingDivision
import Mathlib.Algebra.Field.ZMod
import Mathlib.Data.Nat.Bitwise
import Mathlib.Data.Nat.Size

/-! # Words as polynomials over GF(2) -/

namespace Psi.Gf128
open Polynomial

/-- Word as polynomial. -/
@[irreducible] noncomputable def pol (n : Nat) : (ZMod 2)[X] :=
  ∑ i ∈ Finset.range n.size, if n.testBit i then X ^ i else 0

theorem testBit_lt_size {n i : Nat} (h : n.testBit i = true) : i < n.size := by
  rw [Nat.lt_size]
  exact Nat.ge_two_pow_of_testBit h

theorem coeff_pol (n i : Nat) : (pol n).coeff i = if n.testBit i then 1 else 0 := by
  unfold pol
  rw [finsetSum_coeff]
  by_cases h : n.testBit i
  · rw [Finset.sum_eq_single i]
    · simp [h]
    · intro j _ hj
      by_cases hb : n.testBit j
      · simp [hb, coeff_X_pow, Ne.symm hj]
      · simp [hb]
    · intro hi
      exact absurd (Finset.mem_range.mpr (testBit_lt_size h)) hi
  · rw [Finset.sum_eq_zero]
    · simp [h]
    · intro j _
      by_cases hb : n.testBit j
      · have : i ≠ j := by rintro rfl; exact h hb
        simp [hb, coeff_X_pow, this]
      · simp [hb]

theorem pol_injective : Function.Injective pol := by
  intro a b h
  apply Nat.eq_of_testBit_eq
  intro i
  have := congrArg (fun p => p.coeff i) h
  simp only [coeff_pol] at this
  cases ha : a.testBit i <;> cases hb : b.testBit i <;> simp_all

theorem pol_xor (a b : Nat) : pol (a ^^^ b) = pol a + pol b := by
  ext i
  simp only [coeff_pol, coeff_add, Nat.testBit_xor]
  cases a.testBit i <;> cases b.testBit i <;> simp
  decide

theorem pol_zero : pol 0 = 0 := by
  ext i; simp [coeff_pol]

theorem pol_one : pol 1 = 1 := by
  ext i
  simp only [coeff_pol, coeff_one, Nat.testBit_one_eq_true_iff_self_eq_zero]

theorem pol_shiftLeft (a k : Nat) : pol (a <<< k) = pol a * X ^ k := by
  ext i
  rw [coeff_mul_X_pow']
  simp only [coeff_pol, Nat.testBit_shiftLeft]
  by_cases h : k ≤ i <;> simp [h]

theorem pol_split (a k : Nat) : pol a = pol (a % 2 ^ k) + pol (a / 2 ^ k) * X ^ k := by
  ext i
  rw [coeff_add, coeff_mul_X_pow']
  simp only [coeff_pol, Nat.testBit_mod_two_pow, Nat.testBit_div_two_pow]
  by_cases h : k ≤ i
  · have h' : ¬ i < k := by omega
    simp [h, h', Nat.sub_add_cancel h]
  · have h' : i < k := by omega
    simp [h, h']

theorem pol_two_pow (k : Nat) : pol (2 ^ k) = X ^ k := by
  have := pol_shiftLeft 1 k
  rwa [Nat.shiftLeft_eq, Nat.one_mul, pol_one, one_mul] at this

theorem degree_pol_lt {a k : Nat} (h : a < 2 ^ k) : (pol a).degree < k := by
  rw [degree_lt_iff_coeff_zero]
  intro i hi
  rw [coeff_pol, Nat.testBit_lt_two_pow (lt_of_lt_of_le h (Nat.pow_le_pow_right (by decide) hi))]
  simp

/-- The field polynomial. -/
@[irreducible] noncomputable def P : (ZMod 2)[X] := X ^ 128 + pol 0x87

theorem P_def : P = X ^ 128 + pol 0x87 := by unfold P; rfl

theorem P_eq : P = X ^ 128 + X ^ 7 + X ^ 2 + X + 1 := by
  unfold P
  have : (0x87 : Nat) = 2 ^ 7 ^^^ (2 ^ 2 ^^^ (2 ^ 1 ^^^ 1)) := by decide
  rw [this, pol_xor, pol_xor, pol_xor, pol_two_pow, pol_two_pow, pol_two_pow, pol_one, pow_one]
  ring

theorem degree_pol87 : (pol 0x87).degree < 128 :=
  lt_trans (degree_pol_lt (k := 8) (by decide)) (by exact_mod_cast (by decide : (8 : Nat) < 128))

theorem P_monic : P.Monic := by
  unfold P
  exact monic_X_pow_add degree_pol87

theorem P_degree : P.degree = 128 := by
  unfold P
  rw [degree_add_eq_left_of_degree_lt]
  · simp
  · rw [degree_X_pow]; exact degree_pol87

/-- Two polynomials agree modulo the field polynomial. -/
def Cong (p q : (ZMod 2)[X]) : Prop := P ∣ p - q

theorem Cong.refl (p : (ZMod 2)[X]) : Cong p p := by simp [Cong]

theorem Cong.of_eq {p q : (ZMod 2)[X]} (h : p = q) : Cong p q := h ▸ Cong.refl p

theorem Cong.symm {p q : (ZMod 2)[X]} (h : Cong p q) : Cong q p := by
  unfold Cong at *
  rw [← neg_sub]
  exact (dvd_neg).mpr h

theorem Cong.trans {p q r : (ZMod 2)[X]} (h : Cong p q) (h' : Cong q r) : Cong p r := by
  unfold Cong at *
  have := dvd_add h h'
  rwa [sub_add_sub_cancel] at this

theorem Cong.add {p q r s : (ZMod 2)[X]} (h : Cong p q) (h' : Cong r s) : Cong (p + r) (q + s) := by
  unfold Cong at *
  rw [add_sub_add_comm]
  exact dvd_add h h'

theorem Cong.mul {p q r s : (ZMod 2)[X]} (h : Cong p q) (h' : Cong r s) : Cong (p * r) (q * s) := by
  unfold Cong at *
  have : p * r - q * s = (p - q) * r + q * (r - s) := by ring
  rw [this]
  exact dvd_add (Dvd.dvd.mul_right h r) (Dvd.dvd.mul_left h' q)

theorem char_two (p : (ZMod 2)[X]) : p + p = 0 := by
  ext i
  rw [coeff_add, coeff_zero]
  have : ∀ a : ZMod 2, a + a = 0 := by decide
  exact this _

theorem sub_char_two (p q : (ZMod 2)[X]) : p - q = p + q := by
  rw [sub_eq_iff_eq_add, add_assoc, char_two, add_zero]

theorem Cong.X128 : Cong (X ^ 128) (pol 0x87) := by
  unfold Cong
  rw [sub_char_two, ← P_def]

theorem eq_of_cong {a b : Nat} (ha : a < 2 ^ 128) (hb : b < 2 ^ 128) (h : Cong (pol a) (pol b)) : a = b := by
  apply pol_injective
  have hd : (pol a - pol b).degree < P.degree := by
    rw [P_degree]
    exact lt_of_le_of_lt (degree_sub_le _ _) (max_lt (by exact_mod_cast degree_pol_lt ha) (by exact_mod_cast degree_pol_lt hb))
  exact sub_eq_zero.mp (eq_zero_of_dvd_of_degree_lt h hd)

/-! ## The operations -/

theorem foldl_clmul (a b n : Nat) :
    pol ((List.range n).foldl (fun z i => if b.testBit i then z ^^^ (a <<< i) else z) 0) =
      pol a * pol (b % 2 ^ n) := by
  induction n with
  | zero => simp [pol_zero, Nat.mod_one]
  | succ n ih =>
    rw [List.range_succ, List.foldl_append, List.foldl_cons, List.foldl_nil]
    have hsplit : pol (b % 2 ^ (n + 1)) = pol (b % 2 ^ n) + if b.testBit n then X ^ n else 0 := by
      ext i
      rw [coeff_add]
      simp only [coeff_pol, Nat.testBit_mod_two_pow]
      by_cases hbn : b.testBit n
      · rw [if_pos hbn, coeff_X_pow]
        by_cases hin : i = n
        · subst hin; simp [hbn]
        · have : (i < n + 1) ↔ i < n := by omega
          simp [hin, this]
      · rw [if_neg hbn, coeff_zero]
        by_cases hin : i = n
        · subst hin; simp [hbn]
        · have : (i < n + 1) ↔ i < n := by omega
          simp [this]
    rw [hsplit, mul_add]
    split
    · rw [pol_xor, ih, pol_shiftLeft]
    · rw [ih, mul_zero, add_zero]

theorem pol_clmul (a b : Nat) (hb : b < 2 ^ 64) : pol (clmul a b) = pol a * pol b := by
  unfold clmul
  rw [foldl_clmul, Nat.mod_eq_of_lt hb]

theorem foldl_clmul_lt (a b n k : Nat) (ha : a < 2 ^ k) (hn : 0 < n):
    (List.range n).foldl (fun z i => if b.testBit i then z ^^^ (a <<< i) else z) 0 < 2 ^ (k + n - 1) := by
  induction n with
  | zero => omega
  | succ n ih =>
    rw [List.range_succ, List.foldl_append, List.foldl_cons, List.foldl_nil]
    have h1 : (List.range n).foldl (fun z i => if b.testBit i then z ^^^ (a <<< i) else z) 0 < 2 ^ (k + (n + 1) - 1) := by
      rcases Nat.eq_zero_or_pos n with h0 | h0
      · subst h0; simp; 
      · exact lt_of_lt_of_le (ih h0) (Nat.pow_le_pow_right (by decide) (by omega))
    split
    · apply Nat.xor_lt_two_pow h1
      rw [Nat.shiftLeft_eq, show k + (n + 1) - 1 = k + n by omega, Nat.pow_add]
      exact Nat.mul_lt_mul_of_pos_right ha (Nat.pow_pos (by decide))
    · exact h1

theorem clmul_lt {a k : Nat} (b : Nat) (ha : a < 2 ^ k) : clmul a b < 2 ^ (k + 63) := by
  have := foldl_clmul_lt a b 64 k ha (by decide)
  unfold clmul
  exact this

theorem lo_lt (x : Nat) : lo x < 2 ^ 64 := Nat.mod_lt _ (by decide)

theorem hi_lt {x : Nat} (h : x < 2 ^ 128) : hi x < 2 ^ 64 := by
  unfold hi; omega

theorem pol_lo_hi (x : Nat) : pol x = pol (lo x) + pol (hi x) * X ^ 64 := pol_split x 64

theorem pol_slli_srli (t : Nat) : pol (slli8 t) + pol (srli8 t) * X ^ 128 = pol t * X ^ 64 := by
  unfold slli8 srli8
  rw [Nat.shiftRight_eq_div_pow]
  have h := pol_split (t <<< 64) 128
  have h2 : t <<< 64 / 2 ^ 128 = t / 2 ^ 64 := by rw [Nat.shiftLeft_eq]; omega
  rw [h2, pol_shiftLeft] at h
  rw [h]

/-- The double-length product. -/
theorem pol_mmMul (x y : Nat) (hy : y < 2 ^ 128) :
    pol (mmMul x y).1 + pol (mmMul x y).2 * X ^ 128 = pol x * pol y := by
  unfold mmMul
  simp only [pol_xor]
  have h := pol_slli_srli (clmul (lo x) (hi y) ^^^ clmul (hi x) (lo y))
  rw [pol_xor, pol_clmul _ _ (hi_lt hy), pol_clmul _ _ (lo_lt y)] at h
  rw [pol_clmul _ _ (lo_lt y), pol_clmul _ _ (hi_lt hy)]
  rw [pol_lo_hi x, pol_lo_hi y]
  have e : (pol (lo x) + pol (hi x) * X ^ 64) * (pol (lo y) + pol (hi y) * X ^ 64) =
      pol (lo x) * pol (lo y) + (pol (lo x) * pol (hi y) + pol (hi x) * pol (lo y)) * X ^ 64 +
        pol (hi x) * pol (hi y) * X ^ 128 := by ring
  rw [e, ← h]
  ring

theorem xor_lt {a b k : Nat} (ha : a < 2 ^ k) (hb : b < 2 ^ k) : a ^^^ b < 2 ^ k := Nat.xor_lt_two_pow ha hb

theorem slli8_lt (t : Nat) : slli8 t < 2 ^ 128 := Nat.mod_lt _ (by decide)

theorem srli8_lt {t : Nat} (h : t < 2 ^ 128) : srli8 t < 2 ^ 64 := by
  unfold srli8; rw [Nat.shiftRight_eq_div_pow]; omega

theorem clmul64_lt {a : Nat} (b : Nat) (ha : a < 2 ^ 64) : clmul a b < 2 ^ 128 :=
  lt_trans (clmul_lt b ha) (by decide)

theorem mmMul_lt (x y : Nat) (hx : x < 2 ^ 128) : (mmMul x y).1 < 2 ^ 128 ∧ (mmMul x y).2 < 2 ^ 128 := by
  unfold mmMul
  simp only
  have h2 : clmul (lo x) (hi y) ^^^ clmul (hi x) (lo y) < 2 ^ 128 :=
    xor_lt (clmul64_lt _ (lo_lt x)) (clmul64_lt _ (hi_lt hx))
  refine ⟨xor_lt (clmul64_lt _ (lo_lt x)) (slli8_lt _), xor_lt (clmul64_lt _ (hi_lt hx)) ?_⟩
  exact lt_trans (srli8_lt h2) (by decide)

theorem cong_mmReduce (x x1 : Nat) (hx : x < 2 ^ 128) (hx1 : x1 < 2 ^ 128) :
    Cong (pol (mmReduce x x1)) (pol x + pol x1 * X ^ 128) ∧ mmReduce x x1 < 2 ^ 128 := by
  have hmod : lo 0b10000111 = 0x87 := by decide
  have h87 : (0x87 : Nat) < 2 ^ 64 := by decide
  constructor
  · unfold mmReduce
    simp only [hmod]
    set t := clmul (hi x1) 0x87 with ht
    have hts : pol t = pol (hi x1) * pol 0x87 := pol_clmul _ _ h87
    -- `t` has degree below 72, so its upper part fits into the low half of the high word
    have htl : t < 2 ^ 128 := clmul64_lt _ (hi_lt hx1)
    have hsr : srli8 t < 2 ^ 64 := srli8_lt htl
    have hh : hi (x1 ^^^ srli8 t) = hi x1 := by
      unfold hi
      rw [Nat.xor_div_two_pow, Nat.div_eq_of_lt hsr, Nat.xor_zero]
    have hhigh := pol_lo_hi (x1 ^^^ srli8 t)
    rw [hh, pol_xor] at hhigh
    rw [pol_xor, pol_xor, pol_clmul _ _ h87]
    have hlo : pol (lo (x1 ^^^ srli8 t)) = pol x1 + pol (srli8 t) + pol (hi x1) * X ^ 64 := by
      rw [hhigh, add_assoc, char_two, add_zero]
    have hsl := pol_slli_srli t
    -- replace pol 0x87 by X^128
    refine Cong.trans (Cong.add (Cong.refl _) (Cong.mul (Cong.refl _) (Cong.symm Cong.X128))) ?_
    rw [hlo]
    have h1 : pol x + pol (slli8 t) + (pol x1 + pol (srli8 t) + pol (hi x1) * X ^ 64) * X ^ 128 =
        pol x + pol x1 * X ^ 128 + (pol (slli8 t) + pol (srli8 t) * X ^ 128 + pol (hi x1) * X ^ 128 * X ^ 64) := by
      ring
    rw [h1, hsl, hts]
    have h2 : Cong (pol (hi x1) * pol 0x87 * X ^ 64 + pol (hi x1) * X ^ 128 * X ^ 64) 0 := by
      refine Cong.trans (Cong.add (Cong.refl _)
        (Cong.mul (Cong.mul (Cong.refl _) Cong.X128) (Cong.refl _))) ?_
      exact Cong.of_eq (char_two _)
    have h3 : ∀ A B : (ZMod 2)[X], Cong B 0 → Cong (A + B) A := fun A B h => by
      have := Cong.add (Cong.refl A) h
      rwa [add_zero] at this
    exact h3 _ _ h2
  · unfold mmReduce
    simp only
    exact xor_lt (xor_lt hx (slli8_lt _)) (clmul64_lt _ (lo_lt _))

theorem cong_mm (a b : Nat) (ha : a < 2 ^ 128) (hb : b < 2 ^ 128) :
    Cong (pol (mmReduce (mmMul a b).1 (mmMul a b).2)) (pol a * pol b) ∧
      mmReduce (mmMul a b).1 (mmMul a b).2 < 2 ^ 128 := by
  obtain ⟨h1, h2⟩ := mmMul_lt a b ha
  obtain ⟨h3, h4⟩ := cong_mmReduce _ _ h1 h2
  rw [pol_mmMul a b hb] at h3
  exact ⟨h3, h4⟩

theorem and_one_ne_zero (n : Nat) : (n &&& 1 ≠ 0) ↔ n.testBit 0 = true := by
  rw [Nat.and_one_is_mod, Nat.testBit_zero]
  have := Nat.mod_two_eq_zero_or_one n
  rcases this with h | h <;> simp [h]

theorem and_two_pow_ne_zero (n i : Nat) : (n &&& 2 ^ i ≠ 0) ↔ n.testBit i = true := by
  rw [Nat.and_two_pow]
  cases h : n.testBit i <;> simp

theorem double_step (v : Nat) (hv : v < 2 ^ 128) :
    let v' := if v &&& 2 ^ 127 ≠ 0 then ((v <<< 1) % 2 ^ 128) ^^^ 0x87 else (v <<< 1) % 2 ^ 128
    Cong (pol v') (pol v * X) ∧ v' < 2 ^ 128 := by
  have hs : pol v * X = pol ((v <<< 1) % 2 ^ 128) + pol (v / 2 ^ 127) * X ^ 128 := by
    have h := pol_split (v <<< 1) 128
    have h2 : v <<< 1 / 2 ^ 128 = v / 2 ^ 127 := by rw [Nat.shiftLeft_eq]; omega
    rw [h2, pol_shiftLeft, pow_one] at h
    exact h
  have hlt : (v <<< 1) % 2 ^ 128 < 2 ^ 128 := Nat.mod_lt _ (by decide)
  simp only
  split
  · rename_i h
    rw [and_two_pow_ne_zero] at h
    have hge := Nat.ge_two_pow_of_testBit h
    have h1 : v / 2 ^ 127 = 1 := by omega
    refine ⟨?_, xor_lt hlt (by decide)⟩
    rw [hs, h1, pol_one, one_mul, pol_xor]
    exact Cong.add (Cong.refl _) (Cong.symm Cong.X128)
  · rename_i h
    rw [and_two_pow_ne_zero] at h
    have h1 : v < 2 ^ 127 := by
      apply Classical.byContradiction
      intro hc
      apply h
      rw [Nat.testBit_eq_decide_div_mod_eq]
      have : v / 2 ^ 127 = 1 := by omega
      rw [this]; decide
    refine ⟨?_, hlt⟩
    rw [hs, Nat.div_eq_of_lt h1, pol_zero, zero_mul, add_zero]
    exact Cong.refl _

theorem ccMul_inv (a b : Nat) (ha : a < 2 ^ 128) (n : Nat) :
    let s := (List.range n).foldl (fun (s : Nat × Nat) i =>
      let z := if (b >>> i) &&& 1 ≠ 0 then s.1 ^^^ s.2 else s.1
      let v := if s.2 &&& 2 ^ 127 ≠ 0 then ((s.2 <<< 1) % 2 ^ 128) ^^^ 0x87 else (s.2 <<< 1) % 2 ^ 128
      (z, v)) (0, a)
    Cong (pol s.1) (pol a * pol (b % 2 ^ n)) ∧ s.1 < 2 ^ 128 ∧ Cong (pol s.2) (pol a * X ^ n) ∧ s.2 < 2 ^ 128 := by
  induction n with
  | zero => exact ⟨by simp [pol_zero, Nat.mod_one, Cong.refl], by simp, by simp [Cong.refl], ha⟩
  | succ n ih =>
    rw [List.range_succ, List.foldl_append]
    simp only [List.foldl_cons, List.foldl_nil] at ih ⊢
    obtain ⟨h1, h2, h3, h4⟩ := ih
    obtain ⟨d1, d2⟩ := double_step _ h4
    refine ⟨?_, ?_, ?_, d2⟩
    · have hsplit : pol (b % 2 ^ (n + 1)) = pol (b % 2 ^ n) + if b.testBit n then X ^ n else 0 := by
        ext i
        rw [coeff_add]
        simp only [coeff_pol, Nat.testBit_mod_two_pow]
        by_cases hbn : b.testBit n
        · rw [if_pos hbn, coeff_X_pow]
          by_cases hin : i = n
          · subst hin; simp [hbn]
          · have : (i < n + 1) ↔ i < n := by omega
            simp [hin, this]
        · rw [if_neg hbn, coeff_zero]
          by_cases hin : i = n
          · subst hin; simp [hbn]
          · have : (i < n + 1) ↔ i < n := by omega
            simp [this]
      rw [hsplit, mul_add]
      have hbit : (b >>> n &&& 1 ≠ 0) ↔ b.testBit n = true := by
        rw [and_one_ne_zero, Nat.testBit_shiftRight, Nat.add_zero]
      by_cases hb : b.testBit n = true
      · rw [if_pos (hbit.mpr hb), if_pos hb, pol_xor]
        exact Cong.add h1 h3
      · rw [if_neg (fun h => hb (hbit.mp h)), if_neg hb, mul_zero, add_zero]
        exact h1
    · split
      · exact xor_lt h2 h4
      · exact h2
    · refine Cong.trans d1 ?_
      rw [pow_succ X n, ← mul_assoc]
      exact Cong.mul h3 (Cong.refl _)

theorem cong_cc (a b : Nat) (ha : a < 2 ^ 128) (hb : b < 2 ^ 128) :
    Cong (pol (ccMul a b)) (pol a * pol b) ∧ ccMul a b < 2 ^ 128 := by
  have h := ccMul_inv a b ha 128
  simp only [Nat.mod_eq_of_lt hb] at h
  exact ⟨h.1, h.2.1⟩

theorem cong_mul (avx2 : Bool) (a b : Nat) (ha : a < 2 ^ 128) (hb : b < 2 ^ 128) :
    Cong (pol (mul avx2 a b)) (pol a * pol b) ∧ mul avx2 a b < 2 ^ 128 := by
  unfold mul
  cases avx2
  · exact cong_cc a b ha hb
  · exact cong_mm a b ha hb

end Psi.Gf128
