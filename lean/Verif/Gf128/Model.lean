/-!
# Multiplication in GF(2^128)

Models `psi/algorithm/rr22/okvs/galois128.cc`.  A value is a number below `2 ^ 128`; bit `i` is the
coefficient of `x ^ i`.
-/

namespace Psi.Gf128

/-- Carry-less product of two 64-bit words, `_mm_clmulepi64_si128`. -/
def clmul (a b : Nat) : Nat :=
  (List.range 64).foldl (fun z i => if b.testBit i then z ^^^ (a <<< i) else z) 0

/-- The halves selected by the immediate of `_mm_clmulepi64_si128`. -/
def lo (x : Nat) : Nat := x % 2 ^ 64
def hi (x : Nat) : Nat := x / 2 ^ 64

/-- `_mm_slli_si128(x, 8)` and `_mm_srli_si128(x, 8)`. -/
def slli8 (x : Nat) : Nat := (x <<< 64) % 2 ^ 128
def srli8 (x : Nat) : Nat := x >>> 64

/-- `mm_gf128Mul`: `galois128.cc:41-55`.  Low and high half of the product. -/
def mmMul (x y : Nat) : Nat × Nat :=
  let t1 := clmul (lo x) (lo y)
  let t2 := clmul (lo x) (hi y)
  let t3 := clmul (hi x) (lo y)
  let t4 := clmul (hi x) (hi y)
  let t2 := t2 ^^^ t3
  let t3 := slli8 t2
  let t2 := srli8 t2
  (t1 ^^^ t3, t4 ^^^ t2)

/-- `mm_gf128Reduce`: `galois128.cc:57-76`. -/
def mmReduce (x x1 : Nat) : Nat :=
  let modulus := 0b10000111
  let tmp := clmul (hi x1) (lo modulus)
  let low := x ^^^ slli8 tmp
  let high := x1 ^^^ srli8 tmp
  let tmp := clmul (lo high) (lo modulus)
  low ^^^ tmp

/-- `cc_gf128Mul`: `galois128.cc:83-105`. -/
def ccMul (a b : Nat) : Nat :=
  ((List.range 128).foldl (fun (s : Nat × Nat) i =>
    let z := if (b >>> i) &&& 1 ≠ 0 then s.1 ^^^ s.2 else s.1
    let v := if s.2 &&& 2 ^ 127 ≠ 0 then ((s.2 <<< 1) % 2 ^ 128) ^^^ 0x87 else (s.2 <<< 1) % 2 ^ 128
    (z, v)) (0, a)).1

/-- `Galois128::Mul`: `galois128.cc:134-152`.  `avx2` is the CPU feature test. -/
def mul (avx2 : Bool) (a b : Nat) : Nat :=
  if avx2 then mmReduce (mmMul a b).1 (mmMul a b).2 else ccMul a b

/-- The loop of `Galois128::Pow`: `galois128.cc:161-173`; `fuel` bounds the bits of `i`. -/
def powLoop (avx2 : Bool) : Nat → Nat → Nat → Nat → Nat
  | 0, _, _, s => s
  | fuel + 1, i, p, s =>
    if i = 0 then s
    else powLoop avx2 fuel (i >>> 1) (mul avx2 p p) (if i &&& 1 ≠ 0 then mul avx2 s p else s)

/-- `Galois128::Pow`: `galois128.cc:154-174`. -/
def pow (avx2 : Bool) (a i : Nat) : Nat := if a = 0 then 0 else powLoop avx2 64 i a 1

/-- `b = b * b`, `k` times: `galois128.cc:185-187`. -/
def squarings (avx2 : Bool) : Nat → Nat → Nat
  | 0, b => b
  | k + 1, b => squarings avx2 k (mul avx2 b b)

/-- The chain of `Galois128::Inv`: `galois128.cc:179-198`. -/
def invChain (avx2 : Bool) (a : Nat) : Nat :=
  ((List.range 7).foldl (fun (s : Nat × Nat) i =>
    let b := squarings avx2 (2 ^ i) s.1
    (mul avx2 s.1 b, if i = 0 then b else mul avx2 s.2 b)) (a, 0)).2

/-- `Galois128::Inv`: `galois128.cc:176-204`.  `none`: the final check fails. -/
def inv (avx2 : Bool) (a : Nat) : Option Nat :=
  if mul avx2 a (invChain avx2 a) = 1 then some (invChain avx2 a) else none

end Psi.Gf128
