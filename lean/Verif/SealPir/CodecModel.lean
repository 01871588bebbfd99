import Verif.Spiral.PackModel

/-!
# Bytes and coefficients of SealPIR

Models `BytesToCoeffs` and `CoeffsToBytes` of `psi/algorithm/sealpir/seal_pir.cc`.  Bytes and coefficients are natural
numbers with the wrap-around of their types written out.  Reading or writing outside an array is `undefined`, as is a
loop that does not end.  Simplified: `ceil` of a quotient of two integers is the exact quotient rounded up
(`uintNum`).

The types `PackState` and `UnpackState` (an index, the room left and an array) and the loop over the bits of one
coefficient are those of the model of Spiral PIR, whose code for that loop is the same.
-/

namespace Psi.SealPir

open Psi.Spiral

/-- `CoefficientsPerElement`: `seal_pir.cc:64-66`. -/
def coefficientsPerElement (logt eleSize : Nat) : Nat := uintNum (8 * eleSize) logt

/-- The loop over the bits of one byte: `seal_pir.cc:105-117`.  `fuel` bounds the number of rounds. -/
def packByte (n logt : Nat) : Nat → Nat → Nat → PackState → Res PackState
  | _, _, 0, s => .ok s
  | 0, _, _ + 1, _ => .undefined
  | fuel + 1, src, rest + 1, s =>
    let flag := if s.room = 0 then s.flag + 1 else s.flag
    let room := if s.room = 0 then logt else s.room
    if n ≤ flag then .undefined else
    let shift := min (rest + 1) room
    let temp := w64 (s.arr flag <<< shift)
    let arr := upd s.arr flag (temp ||| (src >>> (8 - shift)))
    packByte n logt fuel ((src <<< shift) % 256) (rest + 1 - shift) ⟨flag, room - shift, arr⟩

/-- The loop over the bytes: `seal_pir.cc:102-118`. -/
def packBytes (n logt : Nat) : List Nat → PackState → Res PackState
  | [], s => .ok s
  | b :: bs, s => (packByte n logt 8 b 8 s).bind (packBytes n logt bs)

/-- `BytesToCoeffs`: `seal_pir.cc:94-122`. -/
def bytesToCoeffs (logt : Nat) (bytes : List Nat) : Res (List Nat) :=
  let n := coefficientsPerElement logt bytes.length
  (packBytes n logt bytes ⟨0, logt, fun _ => 0⟩).bind fun s =>
    if n ≤ s.flag then .undefined
    else .ok ((List.range n).map (upd s.arr s.flag (w64 (s.arr s.flag <<< s.room))))

/-- The loop over the bits of one coefficient, with `bits_left`: `seal_pir.cc:137-153`. -/
def unpackCoeff (logt len : Nat) : Nat → Nat → Nat → UnpackState → Nat → Res (UnpackState × Nat)
  | _, _, 0, s, left => .ok (s, left)
  | 0, _, _ + 1, s, left => if s.j < len then .undefined else .ok (s, left)
  | fuel + 1, src, rest + 1, s, left =>
    if s.j < len then
      let shift := min (rest + 1) s.room
      let b := (s.arr s.j <<< shift) % 256
      let b := (b ||| (src >>> (logt - shift))) % 256
      let room := s.room - shift
      unpackCoeff logt len fuel (w64 (src <<< shift)) (rest + 1 - shift)
        ⟨if room = 0 then s.j + 1 else s.j, if room = 0 then 8 else room, upd s.arr s.j b⟩ (left - shift)
    else .ok (s, left)

/-- The loop over the coefficients: `seal_pir.cc:131-154`.  `bits` is the 32-bit product `ele_size * 8`. -/
def unpackCoeffs (logt len bits : Nat) : List Nat → UnpackState → Nat → Res UnpackState
  | [], s, _ => .ok s
  | c :: cs, s, left =>
    let left := if left = 0 then bits else left
    (unpackCoeff logt len logt c (min logt left) s left).bind fun r => unpackCoeffs logt len bits cs r.1 r.2

/-- `CoeffsToBytes` into a zeroed vector of `len` bytes: `seal_pir.cc:124-155`. -/
def coeffsToBytes (logt : Nat) (coeffs : List Nat) (len eleSize : Nat) : Res (List Nat) :=
  let bits := w32 (eleSize * 8)
  (unpackCoeffs logt len bits coeffs ⟨0, 8, fun _ => 0⟩ bits).bind fun s => .ok ((List.range len).map s.arr)

end Psi.SealPir
