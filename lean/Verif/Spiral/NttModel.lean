import Verif.Spiral.ArithModel

/-!
# Number theoretic transform of Spiral PIR

Models `psi/algorithm/spiral/arith/ntt.cc` (both builds) and `ntt_table.cc`.  A span of words is a function
from indices; all indices used are below `poly_len` (`subspan` and `operator[]` do not check).
One modulus is treated at a time, the loop over the moduli is `nttForwardAll` / `nttInverseAll`.

Simplified: log messages and the size enforce of the AVX2 build are left out.  Of SEAL,
`reverse_bits`, `multiply_uint_mod`, `div2_uint_mod`, `try_minimal_primitive_root` and `try_invert_uint_mod`
are taken to be exact.
-/

namespace Psi.Spiral

abbrev Words := Nat → Nat

/-- `v[i] = x`. -/
def upd (v : Words) (i x : Nat) : Words := fun k => if k = i then x else v k

/-- Cast to 32 bits, or the operand `_mm256_mul_epu32` looks at. -/
def w32 (x : Nat) : Nat := x % 2 ^ 32

/-! ### Tables: `ntt_table.cc` -/

/-- `seal::util::reverse_bits` on `L` bits. -/
def brv : Nat → Nat → Nat
  | 0, _ => 0
  | L + 1, k => k % 2 * 2 ^ L + brv L (k / 2)

/-- One step of `PowersOfPrimitiveRoot`: `ntt_table.cc:68-72`. -/
def powerStep (root m L : Nat) (s : Words × Nat) (i : Nat) : Words × Nat :=
  (upd s.1 (brv L i) s.2, s.2 * root % m)

/-- `PowersOfPrimitiveRoot`: `ntt_table.cc:43-74`. -/
def powersOfRoot (root m L : Nat) : Words :=
  ((List.range' 1 (2 ^ L - 1)).foldl (powerStep root m L) (upd (fun _ => 0) 0 1, root)).1

/-- An element of `ScalePowersU32`: `ntt_table.cc:28-41`. -/
def scalePower (m w : Nat) : Nat := w32 (w64 (w * 2 ^ 32) / w32 m)

/-- `seal::util::div2_uint_mod`. -/
def div2Mod (m x : Nat) : Nat := if x % 2 = 1 then (x + m) / 2 else x / 2

/-- The tables of one modulus: `BuildNttTables`, `ntt_table.cc:76-159`. -/
structure Tables where
  modulus : Nat
  fwd : Words
  fwdPrime : Words
  inv : Words
  invPrime : Words

def buildTables (m L root invRoot : Nat) : Tables :=
  let fwd := powersOfRoot root m L
  let inv := fun k => div2Mod m (powersOfRoot invRoot m L k)
  { modulus := m
    fwd := fwd
    fwdPrime := fun k => scalePower m (fwd k)
    inv := inv
    invPrime := fun k => scalePower m (inv k) }

/-! ### Forward transform: `ntt.cc` -/

/-- The butterfly of the plain build and of short blocks: `ntt.cc:61-79`, `ntt.cc:125-143`. -/
def fwdScalar (m w w' x y : Nat) : Nat × Nat :=
  let x := w32 x
  let y := w32 y
  let two := w32 (2 * w32 m)
  let curr := w32 (x + 2 ^ 32 - w32 (two * if x ≥ two then 1 else 0))
  let qTmp := w64 (y * w') / 2 ^ 32
  let q := sub64 (w64 (w * y)) (w64 (qTmp * w32 m))
  (w64 (curr + q), w64 (curr + sub64 two q))

/-- Signed comparison `_mm256_cmpgt_epi64`. -/
def cmpgt (x y : Nat) : Bool := decide (toI64 x > toI64 y)

/-- The butterfly of the AVX2 build, per lane: `ntt.cc:145-190`. -/
def fwdAvx (m w w' x y : Nat) : Nat × Nat :=
  let two := w32 (2 * w32 m)
  let curr := sub64 x (if cmpgt x two then two else 0)
  let qVal := w32 y * w32 w' / 2 ^ 32
  let q := sub64 (w32 y * w32 w) (w32 qVal * w32 (w32 m))
  (w64 (curr + q), w64 (curr + sub64 two q))

/-- One round of the inner loop: `ntt.cc:62-78`. -/
def blockStep (bf : Nat → Nat → Nat × Nat) (t base : Nat) (v : Words) (j : Nat) : Words :=
  let r := bf (v (base + j)) (v (base + (t + j)))
  upd (upd v (base + j) r.1) (base + (t + j)) r.2

/-- The loop over one block: `ntt.cc:61-79`.  The AVX2 loop treats four lanes at once; as `t` is a power of
two of at least 4 and the lanes are disjoint, it is the same loop. -/
def block (bf : Nat → Nat → Nat × Nat) (t base : Nat) (v : Words) : Words :=
  (List.range t).foldl (blockStep bf t base) v

/-- The loop over the blocks of one level: `ntt.cc:55-80`. -/
def level (bf : Nat → Nat → Nat → Nat × Nat) (h t : Nat) (v : Words) : Words :=
  (List.range h).foldl (fun v i => block (bf i) t (i * (2 * t)) v) v

/-- A loop that changes each of the first `n` words: `ntt.cc:82-88`. -/
def mapWords (f : Nat → Nat) (n : Nat) (v : Words) : Words :=
  (List.range n).foldl (fun v i => upd v i (f (v i))) v

/-- Reduction after each level of the plain build: `ntt.cc:82-88`. -/
def reduceScalar (m x : Nat) : Nat :=
  let m := w32 m
  let two := w32 (2 * m)
  let x := sub64 x (w64 ((if x ≥ two then 1 else 0) * two))
  sub64 x (w64 ((if x ≥ m then 1 else 0) * m))

/-- Reduction at the end of the AVX2 build: `ntt.cc:195-212`. -/
def reduceAvx (m x : Nat) : Nat :=
  let m := w32 m
  let two := w32 (2 * m)
  let x := sub64 x (if cmpgt x two then two else 0)
  sub64 x (if cmpgt x m then m else 0)

/-- Level `mm` of the forward transform. -/
def fwdLevel (avx : Bool) (tb : Tables) (L : Nat) (v : Words) (mm : Nat) : Words :=
  let h := 2 ^ mm
  let t := 2 ^ L / 2 ^ (mm + 1)
  let bf := fun i => if avx && decide (4 ≤ t) then fwdAvx tb.modulus (tb.fwd (h + i)) (tb.fwdPrime (h + i))
    else fwdScalar tb.modulus (tb.fwd (h + i)) (tb.fwdPrime (h + i))
  let v := level bf h t v
  if avx then v else mapWords (reduceScalar tb.modulus) (2 ^ L) v

/-- `NttForward` for one modulus: `ntt.cc:38-91` and `ntt.cc:96-214`.  The last loop of the AVX2 build works on
groups of four words. -/
def nttForward (avx : Bool) (tb : Tables) (L : Nat) (v : Words) : Words :=
  let v := (List.range L).foldl (fwdLevel avx tb L) v
  if avx then mapWords (reduceAvx tb.modulus) (2 ^ L / 4 * 4) v else v

/-! ### Inverse transform -/

/-- The butterfly of the plain build and of short blocks: `ntt.cc:238-253`, `ntt.cc:293-306`. -/
def invScalar (m w w' x y : Nat) : Nat × Nat :=
  let two := w64 (2 * m)
  let t := w64 (sub64 two y + x)
  let curr := sub64 (w64 (x + y)) (w64 (two * if w64 (x * 2) ≥ t then 1 else 0))
  let h := w64 (t * w') / 2 ^ 32
  (w64 (curr + w64 (m * (t % 2))) / 2, sub64 (w64 (w * t)) (w64 (h * m)))

/-- The butterfly of the AVX2 build, per lane: `ntt.cc:308-357`. -/
def invAvx (m w w' x y : Nat) : Nat × Nat :=
  let two := w64 (2 * m)
  let t := w64 (sub64 two y + x)
  let curr := sub64 (w64 (x + y)) (if cmpgt (w64 (x * 2)) t then two else 0)
  let h := w32 t * w32 w' / 2 ^ 32
  (w64 (curr + if t % 2 = 1 then m else 0) / 2, sub64 (w32 t * w32 w) (w32 h * w32 m))

/-- The last loop: `ntt.cc:257-261`, `ntt.cc:362-366`. -/
def reduceInv (m x : Nat) : Nat :=
  let two := w64 (2 * m)
  let x := sub64 x (w64 ((if x ≥ two then 1 else 0) * two))
  sub64 x (w64 ((if x ≥ m then 1 else 0) * m))

/-- Level `mm` of the inverse transform. -/
def invLevel (avx : Bool) (tb : Tables) (L : Nat) (v : Words) (mm : Nat) : Words :=
  let h := 2 ^ mm
  let t := 2 ^ L / 2 ^ (mm + 1)
  let bf := fun i => if avx && decide (4 ≤ t) then invAvx tb.modulus (tb.inv (h + i)) (tb.invPrime (h + i))
    else invScalar tb.modulus (tb.inv (h + i)) (tb.invPrime (h + i))
  level bf h t v

/-- `NttInverse` for one modulus: `ntt.cc:218-263` and `ntt.cc:267-368`. -/
def nttInverse (avx : Bool) (tb : Tables) (L : Nat) (v : Words) : Words :=
  let v := (List.range L).reverse.foldl (invLevel avx tb L) v
  mapWords (reduceInv tb.modulus) (2 ^ L) v

/-! ### All moduli -/

/-- A function on the subspan that starts at `off` and has `n` words. -/
def onSpan (f : Words → Words) (off n : Nat) (v : Words) : Words :=
  fun k => if off ≤ k ∧ k < off + n then f (fun j => v (off + j)) (k - off) else v k

/-- The outer loop of `NttForward`: `ntt.cc:42-43`. -/
def nttForwardAll (avx : Bool) (tbs : List Tables) (L : Nat) (v : Words) : Words :=
  tbs.zipIdx.foldl (fun v t => onSpan (nttForward avx t.1 L) (t.2 * 2 ^ L) (2 ^ L) v) v

/-- The outer loop of `NttInverse`: `ntt.cc:219-221`. -/
def nttInverseAll (avx : Bool) (tbs : List Tables) (L : Nat) (v : Words) : Words :=
  tbs.zipIdx.foldl (fun v t => onSpan (nttInverse avx t.1 L) (t.2 * 2 ^ L) (2 ^ L) v) v

end Psi.Spiral
