import Verif.Gf128.Model
import Verif.Okvs.Model

/-!
# From the hash of a key to its row (`PaxosHash`)

Models `psi/algorithm/rr22/okvs/paxos_hash.cc`.  The 128-bit hash of a key (`AesCrHash`) is a parameter.
`IdxType` is wide enough for the columns (`Paxos::Init`, `paxos.cc:220-224`), so it is not modelled.
-/

namespace Psi.Okvs

/-- 64 bits of the hash from byte `4 * i` on: `paxos_hash.cc:43-44, 234-237`. -/
def hash64 (h i : Nat) : Nat := h / 2 ^ (32 * i) % 2 ^ 64

/-- `BuildRow` with weight 3: `paxos_hash.cc:233-262`. -/
def buildRow3 (S h : Nat) : List Nat :=
  let a := hash64 h 0 % S
  let b := hash64 h 1 % (S - 1)
  let c := hash64 h 2 % (S - 2)
  let mn := min a b
  let mx := a + b - mn
  let bm := if mx = b then (b + 1, mx + 1) else (b, mx)
  let c := if c ≥ mn then c + 1 else c
  let c := if c ≥ bm.2 then c + 1 else c
  [a, bm.1, c]

/-- Insertion of a column index into the columns found so far: `paxos_hash.cc:276-293`. -/
def insertCol : List Nat → Nat → List Nat
  | [], c => [c]
  | x :: xs, c => if x ≤ c then x :: insertCol xs (c + 1) else c :: x :: xs

/-- `BuildRow`: `paxos_hash.cc:226-295`. -/
def buildRow (w S h : Nat) : List Nat :=
  if w = 3 then buildRow3 S h
  else ((List.range w).foldl (fun (s : Nat × List Nat) j =>
    let hh := Gf128.mul true s.1 s.1
    (hh, insertCol s.2 (hh % 2 ^ 64 % (S - j)))) (h, [])).2

/-- `_mm_cmpgt_epi64` on one lane. -/
def cmpgt (a b : BitVec 64) : BitVec 64 := if b.slt a then BitVec.allOnes 64 else 0

/-- `_mm_cmpeq_epi64` on one lane. -/
def cmpeq (a b : BitVec 64) : BitVec 64 := if a = b then BitVec.allOnes 64 else 0

/-- One lane of the vector code: `paxos_hash.cc:39-196`. -/
def buildLane (S h : Nat) : List Nat :=
  let a := BitVec.ofNat 64 (hash64 h 0 % S)
  let b := BitVec.ofNat 64 (hash64 h 1 % (S - 1))
  let c := BitVec.ofNat 64 (hash64 h 2 % (S - 2))
  let mask := cmpgt a b
  let mn := a ^^^ b
  let mx := (mn &&& mask) ^^^ b
  let mn := mn ^^^ mx
  let mask := cmpeq mx b
  let b := b - mask
  let mx := mx - mask
  let mask := cmpgt mn c ^^^ BitVec.allOnes 64
  let c := c - mask
  let mask := cmpgt mx c ^^^ BitVec.allOnes 64
  let c := c - mask
  [a.toNat, b.toNat, c.toNat]

/-- `BuildRow32` with AVX2 and weight 3: two halves of 16 lanes, written 8 lanes at a time.
`paxos_hash.cc:33-215`. -/
def buildRow32Vec (S : Nat) (hash : Nat → Nat) : List Nat :=
  (List.range 2).flatMap fun i => (List.range 2).flatMap fun m => (List.range 8).flatMap fun k =>
    (List.range 3).map fun j => (buildLane S (hash (16 * i + 8 * m + k))).getD j 0

/-- `BuildRow32`: `paxos_hash.cc:32-224`. -/
def buildRow32 (avx2 : Bool) (w S : Nat) (hash : Nat → Nat) : List Nat :=
  if w = 3 ∧ avx2 then buildRow32Vec S hash else (List.range 32).flatMap fun k => buildRow w S (hash k)

/-- The rows of a list of hashes. -/
def rowsOf (w S : Nat) (hs : List Nat) : List Row := hs.map (fun h => ⟨buildRow w S h, h⟩)

end Psi.Okvs
