import Verif.Ecdh.Wire

/-!
# RR22: from OPRF values to the intersection of a bucket

Models `GetIntersectionSender`, `GetIntersectionReceiver` (the variants with duplicate counts,
`psi/algorithm/rr22/rr22_utils.cc:51-150, 229-273`) and `ComputeTruncateSize`
(`psi/algorithm/rr22/rr22_psi.cc:41-52`).

OPRF values are numbers below `2 ^ 128`; memory is little endian.  `SerializeItemsCnt` and
`DeserializeItemsCnt` (`psi/utils/serialize.h:103-123`) transport the counts unchanged.
-/

namespace Psi.Rr22
open Psi.Ecdh (Bytes)

/-- A `uint128_t` in memory. -/
def le16 (v : Nat) : Bytes := (List.range 16).map (fun k => UInt8.ofNat (v / 256 ^ k))

/-- A number from its low bytes; the bytes above are zero. -/
def ofLe (bs : Bytes) : Nat := bs.foldr (fun b n => b.toNat + 256 * n) 0

/-- `memcpy` of `bs` to offset `off`. -/
def put (buf : Bytes) (off : Nat) (bs : Bytes) : Bytes :=
  buf.take off ++ bs ++ buf.drop (off + bs.length)

/-- The loop that moves the low `m` bytes of every value together, in place: `rr22_utils.cc:245-247`.
Source and target of a copy may overlap, which `memcpy` does not allow; modelled as if read first. -/
def compact (m n : Nat) (buf : Bytes) : Bytes :=
  (List.range n).foldl (fun b i => put b (i * m) ((b.drop (16 * i)).take m)) buf

/-- What the sender sends: `rr22_utils.cc:235-251`. -/
def sendBuf (m : Nat) (oprfs : List Nat) : Bytes :=
  let buf := oprfs.flatMap le16
  (if m ≠ 16 then compact m oprfs.length buf else buf).take (oprfs.length * m)

/-- The counts sent: `rr22_utils.cc:252-257` (sender), `139-144` (receiver). -/
def cntMap (dups : List Nat) : List (Nat × Nat) :=
  dups.zipIdx.filterMap (fun x => if 0 < x.1 then some (x.2, x.1) else none)

/-- `map[j]`, 0 if absent. -/
def cntAt (m : List (Nat × Nat)) (j : Nat) : Nat := ((m.find? (fun x => x.1 = j)).map Prod.snd).getD 0

/-- `truncate_mask`: `rr22_utils.cc:61-69`. -/
def truncMask : Nat → Nat
  | 0 => 0
  | k + 1 => 0xff ||| (truncMask k <<< 8)

/-- Key of a receiver value in the table: `rr22_utils.cc:70-76`. -/
def key (m v : Nat) : Nat := if m ≠ 16 then v &&& truncMask m else v

/-- `dense_map.find`: `rr22_utils.cc:57-59, 70-76, 108`.  The first entry of a key counts.  0 is declared
to mean "empty": an entry stored under it is not found. -/
def find (m : Nat) (oprfs : List Nat) (k : Nat) : Option Nat :=
  if k = 0 then none
  else ((oprfs.zipIdx.find? (fun x => key m x.1 = k)).map Prod.snd)

structure Match where
  self : Nat
  peerCnt : Nat
  peer : Nat
  selfCnt : Nat
deriving DecidableEq, Repr

/-- Items `js` of the peer, looked up one after the other: `rr22_utils.cc:105-120`.  Positions are stored
in 32 bits.  (The check of line 114 cannot fail: there is one OPRF value per item.) -/
def lookup (m : Nat) (oprfs dups : List Nat) (buf : Bytes) (cnts : List (Nat × Nat)) (js : List Nat) :
    List Match :=
  js.filterMap (fun j =>
    (find m oprfs (ofLe ((buf.drop (j * m)).take m))).map
      (fun i => ⟨i % 2 ^ 32, cntAt cnts j, j % 2 ^ 32, dups.getD i 0⟩))

/-- `GetIntersectionReceiver`: `rr22_utils.cc:51-150`.  `chunks` are the index ranges of the parallel loop
in the order in which their results are merged.  `none`: the check of line 80 fails. -/
def receive (m peerNum : Nat) (oprfs dups : List Nat) (chunks : List (List Nat)) (buf : Bytes)
    (cnts : List (Nat × Nat)) : Option (List Match) :=
  if peerNum = buf.length / m then some (chunks.flatMap (lookup m oprfs dups buf cnts)) else none

/-- Positions in the bucket with counts, as handed to `post_f` by the receiver: `rr22_utils.cc:149`. -/
def receiverLines (w : List Match) : List (Nat × Nat) := w.map (fun x => (x.self, x.peerCnt))

/-- The same for the sender, from what the receiver broadcasts: `rr22_utils.cc:135-147, 260-272`. -/
def senderLines (broadcast : Bool) (w : List Match) : List (Nat × Nat) :=
  if broadcast then
    let cnts := cntMap (w.map (·.selfCnt))
    (w.map (·.peer)).zipIdx.map (fun x => (x.1, cntAt cnts x.2))
  else []

/-- Result of `ComputeTruncateSize`. -/
inductive Size
  | bytes (n : Nat)
  /-- `log2(0)` is minus infinity and is converted to an unsigned integer: undefined behaviour. -/
  | undefined
deriving DecidableEq, Repr

/-- `ComputeTruncateSize`: `rr22_psi.cc:41-52`.  The product is computed in 64 bits.  `ceilLog2` is
`std::ceil(std::log2(·))` in floating point. -/
def truncateSize (ceilLog2 : Nat → Nat) (self peer ssp : Nat) (malicious : Bool) : Size :=
  if malicious then .bytes 16
  else
    let prod := self * peer % 2 ^ 64
    if prod = 0 then .undefined else .bytes (min ((ssp + ceilLog2 prod + 7) / 8) 16)

/-- `ExchangeTruncateSize`: `rr22_psi.cc:56-70`. -/
def maskSize (ceilLog2 : Nat → Nat) (self peer ssp : Nat) (malicious compress : Bool) : Size :=
  if compress then truncateSize ceilLog2 self peer ssp malicious else .bytes 16

end Psi.Rr22
