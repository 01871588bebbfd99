import Verif.Okvs.Hash
import Verif.Gf128.Ring
import Mathlib.Data.ZMod.Basic

/-!
# Decoding one key and 32 keys at a time

Models `Decode1`, `Decode32` and `Decode` of `psi/algorithm/rr22/okvs/paxos.cc` (the 64-bit variants are the
same code on shorter words).  `p` is the table: the sparse part in the cells below `S`, the dense part behind.
`add_to_decode_` is never set and not modelled.
-/

namespace Psi.Okvs
open Psi.Gf128

/-- Powers of the dense word by repeated multiplication: `paxos.cc:2270-2276`. -/
def powCoef (d : Nat) : Nat → Gf
  | 0 => Gf.ofNat d
  | k + 1 => powCoef d k * Gf.ofNat d

section
variable {V : Type} [AddCommGroup V]

/-- The sparse part of `Decode1`: `paxos.cc:2261-2264`. -/
def decodeSparse (w : Nat) (p : Nat → V) (row : Nat → Nat) : V :=
  (List.range' 1 (w - 1)).foldl (fun v j => v + p (row j)) (p (row 0))

/-- Lane `8 * k + m` of an array of 32 is replaced for all `k < 4`, `m < 8`, one after the other:
the loops of `Decode32`. -/
def lanes {A : Type} (f : Nat → Nat → A → A) (v : Nat → A) : Nat → A :=
  (List.range 4).foldl (fun v k => (List.range 8).foldl (fun v m =>
    Function.update v (k * 8 + m) (f k m (v (k * 8 + m)))) v) v

/-- The sparse part of `Decode32`: `paxos.cc:2042-2126`.  `rows` holds the columns of the 32 keys. -/
def decodeSparse32 (w : Nat) (p : Nat → V) (rows : Nat → Nat) (v : Nat → V) : Nat → V :=
  (List.range' 1 (w - 1)).foldl (fun v j => lanes (fun k m x => x + p (rows (k * 8 * w + (w * m + j)))) v)
    (lanes (fun k m _ => p (rows (k * 8 * w + (w * m + 0)))) v)

end

section
variable {V : Type} [AddCommGroup V] [Module Gf V]

/-- `Decode1` with `DenseType::GF128`: `paxos.cc:2258-2276`.  With an empty dense part the cell behind the
table is read. -/
noncomputable def decode1Gf (w S D : Nat) (p : Nat → V) (row : Nat → Nat) (dense : Nat) : Except Err V :=
  if D = 0 then .error .undefined
  else
    let x := Gf.ofNat dense
    let v := decodeSparse w p row + x • p S
    .ok ((List.range' 1 (D - 1)).foldl (fun (s : Gf × V) i =>
      let x := s.1 * Gf.ofNat dense
      (x, s.2 + x • p (i + S))) (x, v)).2

/-- `Decode32` with `DenseType::GF128`: `paxos.cc:2038-2174`. -/
noncomputable def decode32Gf (w S D : Nat) (p : Nat → V) (rows : Nat → Nat) (dense : Nat → Nat) (v : Nat → V) :
    Except Err (Nat → V) :=
  if D = 0 then .error .undefined
  else
    let v := decodeSparse32 w p rows v
    let xx := fun l => Gf.ofNat (dense l)
    let v := lanes (fun k m y => y + xx (k * 8 + m) • p S) v
    .ok ((List.range' 1 (D - 1)).foldl (fun (s : (Nat → Gf) × (Nat → V)) i =>
      let xx := lanes (fun k m x => x * Gf.ofNat (dense (k * 8 + m))) s.1
      (xx, lanes (fun k m y => y + xx (k * 8 + m) • p (S + i)) s.2)) (xx, v)).2

end

section
variable {V : Type} [AddCommGroup V] [Module (ZMod 2) V]

/-- `Decode1` with `DenseType::Binary`: `paxos.cc:2277-2283`. -/
def decode1Bin (w S D : Nat) (p : Nat → V) (row : Nat → Nat) (dense : Nat) : Except Err V :=
  .ok ((List.range D).foldl (fun v i => if dense.testBit i then v + p (i + S) else v) (decodeSparse w p row))

/-- `Decode32` with `DenseType::Binary`: `paxos.cc:2175-2220`; `Decode32U64`, `paxos.cc:1851-2035`, is the same text with
words of 64 bits. -/
def decode32Bin (w S D : Nat) (p : Nat → V) (rows : Nat → Nat) (dense : Nat → Nat) (v : Nat → V) :
    Except Err (Nat → V) :=
  if 64 < D then .error .denseSize
  else .ok ((List.range 4).foldl (fun v k =>
    ((List.range D).foldl (fun (s : (Nat → Nat) × (Nat → V)) i =>
      (fun m => s.1 m / 2, (List.range 8).foldl (fun v m =>
        Function.update v (k * 8 + m) (v (k * 8 + m) + (s.1 m % 2) • p (S + i))) s.2))
      (fun m => dense (k * 8 + m) % 2 ^ 64, v)).2) (decodeSparse32 w p rows v))

end

/-- `Decode`: 32 keys at a time, then one by one.  `paxos.cc:1784-1849`; `DecodeU64`: `paxos.cc:1706-1782`.  `hs` are the hashes of the keys
(`HashBuildRow32`, `HashBuildRow1`: `paxos_hash.cc`), `dec1` and `dec32` one of the pairs above. -/
def decodeList {V : Type} (dec1 : (Nat → Nat) → Nat → Except Err V)
    (dec32 : (Nat → Nat) → (Nat → Nat) → (Nat → V) → Except Err (Nat → V)) (avx2 : Bool) (w S : Nat) (hs : List Nat)
    (v0 : Nat → V) : Except Err (List V) := do
  let main ← (List.range (hs.length / 32)).mapM (fun c => do
    let h := fun k => hs.getD (32 * c + k) 0
    let v ← dec32 (fun j => (buildRow32 avx2 w S h).getD j 0) h (fun k => v0 (32 * c + k))
    .ok ((List.range 32).map v))
  let rest ← (hs.drop (hs.length / 32 * 32)).mapM (fun h => dec1 (fun j => (buildRow w S h).getD j 0) h)
  .ok (main.flatten ++ rest)

end Psi.Okvs
