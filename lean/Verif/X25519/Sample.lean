import Verif.X25519.Props
import Verif.Elligator.Examples

/-!
# Examples for C114
-/

namespace Psi.X25519

open Psi.Elligator

/-- A scalar, a string and the result: the first test vector of RFC 7748, section 5.2. -/
def rfcKey : Bytes := [0xa5, 0x46, 0xe3, 0x6b, 0xf0, 0x52, 0x7c, 0x9d, 0x3b, 0x16, 0x15, 0x4b, 0x82, 0x46, 0x5e, 0xdd,
  0x62, 0x14, 0x4c, 0x0a, 0xc1, 0xfc, 0x5a, 0x18, 0x50, 0x6a, 0x22, 0x44, 0xba, 0x44, 0x9a, 0xc4]
def rfcPoint : Bytes := [0xe6, 0xdb, 0x68, 0x67, 0x58, 0x30, 0x30, 0xdb, 0x35, 0x94, 0xc1, 0xa4, 0x24, 0xb1, 0x5f, 0x7c,
  0x72, 0x66, 0x24, 0xec, 0x26, 0xb3, 0x35, 0x3b, 0x10, 0xa9, 0x03, 0xa6, 0xd0, 0xab, 0x1c, 0x4c]
def rfcOut : Bytes := [0xc3, 0xda, 0x55, 0x37, 0x9d, 0xe9, 0xc6, 0x90, 0x8e, 0x94, 0xea, 0x4d, 0xf2, 0x8d, 0x08, 0x4f,
  0x32, 0xec, 0xcf, 0x03, 0x49, 0x1c, 0x71, 0xf7, 0x54, 0xb4, 0x07, 0x55, 0x77, 0xa2, 0x85, 0x52]

theorem rfc_vector : x25519 rfcKey rfcPoint = rfcOut := by decide +kernel

/-- Another key. -/
def otherKey : Bytes := (be 32 (2 ^ 200 + 12345)).reverse

/-- A number as a string. -/
def str (n : Nat) : Bytes := (be 32 n).reverse

/-- The inverse of 2. -/
def half : Nat := (2 ^ 255 - 19 + 1) / 2

example := C114_orders
example := C114_on_a_curve rfcPoint
example : ∃ P, coord (x25519 rfcKey basePoint) = xOf 1 (scalar rfcKey • P) := by
  obtain ⟨P, hP, -⟩ := base_order
  refine ⟨P, C114_multiple (Or.inl rfl) (by decide) ?_⟩
  have : x25519Coord basePoint = 9 := by decide +kernel
  rw [coord, this]; simpa using hP
example := C114_commute (a := rfcKey) (b := otherKey) (by decide) (by decide +kernel) rfcPoint

theorem two_three : ¬ Alike (coord (str 2)) (coord (str 3)) := by
  rw [← C114_meet (k := rfcKey) (by decide)]; decide +kernel

theorem two_half : Alike (coord (str 2)) (coord (str half)) := by
  rw [← C114_meet (k := rfcKey) (by decide)]; decide +kernel

example := C114_meet (k := rfcKey) (by decide) (str 2) (str 3)
example := C114_meet_both (a := rfcKey) (b := otherKey) (by decide) (by decide +kernel) (str 2) (str half)

/-- A hash for which the items `[2]` and `[3]` are not alike. -/
def plainHash (x : Bytes) : Bytes := str (leVal x)

example : found plainHash rfcKey otherKey [[2], [3]] [[3], [5]] = [[3]] := by
  rw [C114_exact plainHash (by decide) (by decide +kernel)]
  · decide
  · intro x hx y hy hne
    rw [← C114_meet (k := rfcKey) (by decide)]
    simp only [List.mem_cons, List.not_mem_nil, or_false] at hx hy
    rcases hx with rfl | rfl <;> rcases hy with rfl | rfl
    · decide +kernel
    · decide +kernel
    · exact absurd rfl hne
    · decide +kernel

/-- A hash for which the items `[2]` and `[3]` are alike: each is taken for the other. -/
def badHash (x : Bytes) : Bytes := if x = [2] then str 2 else str half

example : found badHash rfcKey otherKey [[2]] [[3]] = [[2]] := by decide +kernel

example : found badHash rfcKey otherKey [[2]] [[3]] = found badHash otherKey rfcKey [[2]] [[3]] := by
  rw [C114_found badHash (by decide) (by decide +kernel), C114_found badHash (by decide +kernel) (by decide)]

example := C114_few (k := rfcKey) (by decide) (str 2)

example : x25519 rfcKey (str 1) = List.replicate 32 0 := by
  rw [C114_vanish (by decide)]
  right; left
  have : x25519Coord (str 1) = 1 := by decide +kernel
  rw [coord, this, Nat.cast_one]

example : x25519 rfcKey (str 2) = x25519 rfcKey (str half) := by
  apply C114_reciprocal (by decide)
  have h1 : x25519Coord (str 2) = 2 := by decide +kernel
  have h2 : x25519Coord (str half) = half := by decide +kernel
  rw [coord, coord, h1, h2, ← Nat.cast_mul]
  have : 2 * half = kP + 1 := by decide +kernel
  rw [this]; simp

example : x25519 rfcKey (List.replicate 31 7 ++ [200]) = x25519 rfcKey (List.replicate 31 7 ++ [72]) :=
  C114_top_bit rfcKey (by decide) 72

example : ∃ P, HasX 1 (coord basePoint) P ∧ (x25519 rfcKey basePoint = x25519 otherKey basePoint ↔
    scalar rfcKey = scalar otherKey ∨ scalar rfcKey + scalar otherKey =
      8 * (if (1 : Fp) = 1 then 2 ^ 252 + 27742317777372353535851937790883648493
        else 2 ^ 253 - 55484635554744707071703875581767296995)) := by
  obtain ⟨P, hP, -⟩ := base_order
  have h9 : x25519Coord basePoint = 9 := by decide +kernel
  have hP' : HasX 1 (coord basePoint) P := by rw [coord, h9]; simpa using hP
  exact ⟨P, hP', C114_keys (by decide) (by decide +kernel) (by decide +kernel) (Or.inl rfl) hP'⟩

example := C114_raw_key (k := rfcKey) (by decide) rfcPoint
example : clampKey rfcKey ≠ rfcKey := by decide +kernel
example := C114_exchange (fun x => x) (a := rfcKey) (b := otherKey) (by decide) (by decide +kernel)

/-- The hash of the test vector of RFC 9380 has prime order. -/
example := hash_order vecHash_length (msg := []) (dst := vecDst) vec_result

end Psi.X25519
