import Verif.Elligator.Model
import Mathlib.NumberTheory.LegendreSymbol.Basic
import Mathlib.NumberTheory.LegendreSymbol.QuadraticReciprocity
import Mathlib.FieldTheory.Finite.Basic
import Mathlib.Tactic.LinearCombination
import Mathlib.Tactic.FieldSimp

/-!
# Bytes and residues

The values of the constants, bytes against numbers, and the operations of `MPInt` against the field
`ZMod kP`.
-/

namespace Psi.Elligator

open Psi.Spiral (Res)

/-! ## Bytes -/

theorem beVal_append (a b : Bytes) : beVal (a ++ b) = beVal a * 256 ^ b.length + beVal b := by
  have gen : ∀ (b : Bytes) (n : Nat), b.foldl (fun a x => a * 256 + x.toNat) n =
      n * 256 ^ b.length + b.foldl (fun a x => a * 256 + x.toNat) 0 := by
    intro b
    induction b with
    | nil => intro n; simp
    | cons x t ih =>
      intro n
      rw [List.foldl_cons, List.foldl_cons, ih, ih (0 * 256 + x.toNat), List.length_cons,
        Nat.pow_succ]
      ring
  rw [beVal, List.foldl_append, gen]
  rfl

theorem beVal_nil : beVal [] = 0 := rfl

theorem beVal_single (x : UInt8) : beVal [x] = x.toNat := by simp [beVal]

theorem beVal_lt (b : Bytes) : beVal b < 256 ^ b.length := by
  induction b using List.reverseRecOn with
  | nil => simp [beVal]
  | append_singleton l x ih =>
    rw [beVal_append, beVal_single, List.length_append, List.length_singleton, Nat.pow_succ]
    have := x.toNat_lt
    omega

theorem be_length : ∀ (k n : Nat), (be k n).length = k
  | 0, _ => rfl
  | k + 1, n => by rw [be, List.length_append, be_length k, List.length_singleton]

theorem beVal_be : ∀ (k n : Nat), beVal (be k n) = n % 256 ^ k
  | 0, n => by simp [be, beVal, Nat.mod_one]
  | k + 1, n => by
    rw [be, beVal_append, beVal_be k, beVal_single, List.length_singleton, Nat.pow_one]
    have h : (UInt8.ofNat n).toNat = n % 256 := by simp
    rw [h, Nat.pow_succ, Nat.mul_comm (256 ^ k) 256, Nat.mod_mul]
    ring

theorem beVal_be_of_lt {k n : Nat} (h : n < 256 ^ k) : beVal (be k n) = n := by
  rw [beVal_be, Nat.mod_eq_of_lt h]

theorem be_beVal (b : Bytes) : be b.length (beVal b) = b := by
  induction b using List.reverseRecOn with
  | nil => rfl
  | append_singleton l x ih =>
    rw [List.length_append, List.length_singleton, be, beVal_append, beVal_single,
      List.length_singleton, Nat.pow_one]
    have hx := x.toNat_lt
    have h1 : (beVal l * 256 + x.toNat) / 256 = beVal l := by omega
    rw [h1, ih]
    congr 2
    apply UInt8.toNat_inj.mp
    simp

theorem beVal_inj {a b : Bytes} (hl : a.length = b.length) (h : beVal a = beVal b) : a = b := by
  rw [← be_beVal a, ← be_beVal b, hl, h]

/-! ## The constants -/

theorem kP_eq : kP = 2 ^ 255 - 19 := by decide +kernel

theorem kP_prime : Nat.Prime kP := by rw [kP_eq]; exact prime_p

instance : Fact (Nat.Prime kP) := ⟨kP_prime⟩

theorem kP_pos : 0 < kP := kP_prime.pos

theorem kP_lt : kP < 256 ^ keySize := by decide +kernel

/-- The field of Curve25519. -/
abbrev Fp := ZMod kP

theorem cast_zero_iff {n : Int} : (n : Fp) = 0 ↔ (kP : Int) ∣ n := ZMod.intCast_zmod_eq_zero_iff_dvd n kP

theorem sqrtm1_sq : ((kSqrtm1 : Int) : Fp) ^ 2 = -1 := by
  have h : ((kSqrtm1 ^ 2 + 1 : Int) : Fp) = 0 := cast_zero_iff.mpr (by decide +kernel)
  push_cast at h
  linear_combination h

theorem c2_four : ((kC2 : Int) : Fp) ^ 4 = -4 := by
  have h : ((kC2 ^ 4 + 4 : Int) : Fp) = 0 := cast_zero_iff.mpr (by decide +kernel)
  push_cast at h
  linear_combination h

theorem c4_eq : kC4.toNat = (kP - 5) / 8 := by decide +kernel

theorem two_ne : (2 : Fp) ≠ 0 := by
  have h : ((2 : Int) : Fp) ≠ 0 := fun h => by
    have := cast_zero_iff.mp h
    revert this; decide +kernel
  exact_mod_cast h

theorem four_ne : (4 : Fp) ≠ 0 := by
  have : (4 : Fp) = 2 * 2 := by norm_num
  rw [this]; exact mul_ne_zero two_ne two_ne

theorem J_ne : ((kJ : Int) : Fp) ≠ 0 := fun h => by
  have := cast_zero_iff.mp h
  revert this; decide +kernel

/-- `2` is not a square, nor is any `-1 / (2 u ^ 2)`. -/
theorem one_add_ne (u : Fp) : 1 + 2 * u ^ 2 ≠ 0 := by
  intro h
  have hi := sqrtm1_sq
  have hu : u ≠ 0 := by rintro rfl; norm_num at h
  have : IsSquare (2 : Fp) := by
    refine ⟨((kSqrtm1 : Int) : Fp) / u, ?_⟩
    field_simp
    linear_combination h - hi
  rw [ZMod.exists_sq_eq_two_iff (by decide +kernel)] at this
  revert this; decide +kernel

/-! ## Residues -/

theorem redMod_range (a : Int) : 0 ≤ redMod a ∧ redMod a < kP :=
  ⟨Int.emod_nonneg _ (by have := kP_pos; omega), Int.emod_lt_of_pos _ (by have := kP_pos; omega)⟩

theorem mulMod_range (a b : Int) : 0 ≤ mulMod a b ∧ mulMod a b < kP := redMod_range _
theorem addMod_range (a b : Int) : 0 ≤ addMod a b ∧ addMod a b < kP := redMod_range _
theorem subMod_range (a b : Int) : 0 ≤ subMod a b ∧ subMod a b < kP := redMod_range _

theorem cast_redMod (a : Int) : ((redMod a : Int) : Fp) = a := ZMod.intCast_mod a kP
theorem cast_mulMod (a b : Int) : ((mulMod a b : Int) : Fp) = a * b := by
  rw [mulMod, ZMod.intCast_mod, Int.cast_mul]
theorem cast_addMod (a b : Int) : ((addMod a b : Int) : Fp) = a + b := by
  rw [addMod, ZMod.intCast_mod, Int.cast_add]
theorem cast_subMod (a b : Int) : ((subMod a b : Int) : Fp) = a - b := by
  rw [subMod, ZMod.intCast_mod, Int.cast_sub]

theorem powMod_range (a e : Int) : 0 ≤ powMod a e ∧ powMod a e < kP := by
  rw [powMod, pw_eq kP_prime.one_lt]
  have := Nat.mod_lt ((redMod a).toNat ^ e.toNat) kP_pos
  omega

theorem cast_powMod (a e : Int) : ((powMod a e : Int) : Fp) = (a : Fp) ^ e.toNat := by
  rw [powMod, pw_eq kP_prime.one_lt, Int.cast_natCast, ZMod.natCast_mod, Nat.cast_pow]
  congr 1
  rw [← Int.cast_natCast, Int.toNat_of_nonneg (redMod_range a).1, cast_redMod]

theorem eq_of_cast {a b : Int} (ha : 0 ≤ a ∧ a < kP) (hb : 0 ≤ b ∧ b < kP) (h : (a : Fp) = b) :
    a = b := by
  have := (ZMod.intCast_eq_intCast_iff a b kP).mp h
  rw [Int.ModEq, Int.emod_eq_of_lt ha.1 ha.2, Int.emod_eq_of_lt hb.1 hb.2] at this
  exact this

theorem eq_iff_cast {a b : Int} (ha : 0 ≤ a ∧ a < kP) (hb : 0 ≤ b ∧ b < kP) :
    a = b ↔ (a : Fp) = b := ⟨fun h => by rw [h], eq_of_cast ha hb⟩

theorem redMod_eq_zero {a : Int} : redMod a = 0 ↔ (a : Fp) = 0 := by
  rw [cast_zero_iff]
  exact ⟨fun h => Int.dvd_of_emod_eq_zero h, fun h => Int.emod_eq_zero_of_dvd h⟩

/-- The power `p - 2` is the inverse. -/
theorem cast_inv (a : Int) (h : (a : Fp) ≠ 0) :
    ((powMod a (kP - 2) : Int) : Fp) = (a : Fp)⁻¹ := by
  rw [cast_powMod]
  have h1 := ZMod.pow_card_sub_one_eq_one h
  have h2 : ((kP : Int) - 2).toNat + 1 = kP - 1 := by
    have := kP_prime.two_le; omega
  apply eq_inv_of_mul_eq_one_left
  rw [← pow_succ, h2, h1]

/-- `InvertMod` gives the inverse. -/
theorem invMod_mul {a d : Int} (h : invMod a = .ok d) : mulMod a d = 1 ∧ 0 ≤ d ∧ d < kP := by
  unfold invMod at h
  split at h
  · cases h
  · rename_i h0
    have h0' : (a : Fp) ≠ 0 := fun e => h0 (redMod_eq_zero.mpr e)
    injection h with h
    subst h
    refine ⟨eq_of_cast (mulMod_range _ _) ⟨by norm_num, by exact_mod_cast kP_prime.one_lt⟩ ?_,
      powMod_range _ _⟩
    rw [cast_mulMod, cast_inv a h0', mul_inv_cancel₀ h0', Int.cast_one]

theorem invMod_ok {a : Int} (h : (a : Fp) ≠ 0) :
    ∃ d, invMod a = .ok d ∧ (d : Fp) = (a : Fp)⁻¹ ∧ 0 ≤ d ∧ d < kP := by
  refine ⟨powMod a (kP - 2), ?_, cast_inv a h, powMod_range _ _⟩
  rw [invMod, if_neg (fun e => h (redMod_eq_zero.mp e))]

theorem invMod_throws {a : Int} (h : (a : Fp) = 0) : invMod a = .throws := by
  rw [invMod, if_pos (redMod_eq_zero.mpr h)]

/-! ## A residue as 32 bytes -/

theorem toBytes_ok {a : Int} (h : 0 ≤ a ∧ a < kP) :
    toBytes a = .ok (be keySize a.toNat) ∧ (beVal (be keySize a.toNat) : Int) = a := by
  have hl : a.natAbs < 256 ^ keySize := lt_trans (by omega) kP_lt
  have he : a.natAbs = a.toNat := by omega
  rw [toBytes, if_pos hl, he]
  refine ⟨rfl, ?_⟩
  rw [beVal_be_of_lt (he ▸ hl)]
  omega

end Psi.Elligator
