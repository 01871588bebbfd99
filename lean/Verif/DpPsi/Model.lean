import Verif.Ecdh3.Model

/-!
# Differentially private PSI

Models `psi/legacy/dp_psi/dp_psi.cc`: the sampling of both parties, the split of Bob's items, the messages with the
reported indexes and what Bob makes of them.

Simplified.
* The exchange of masked items (`MaskSelf`, `MaskPeer`, `SendItems`, `RecvItems`) is that of C10 and C51; here it
  delivers the values `dualA` and `dualB` in order.
* Elliptic-curve operations are parameters.
* The coins of `std::bernoulli_distribution` and the shuffle are parameters, one coin per draw.
* `SizeProto` and `PsiDataBatch` are the records themselves.
-/

namespace Psi.DpPsi

open Psi.Std (Bytes)

/-- The curve and the keys of both parties. -/
structure Cfg (α P : Type) where
  hash : α → P
  maskA : P → P
  maskB : P → P
  ser : P → Bytes
  deser : Bytes → P
  /-- `options.dual_mask_size`. -/
  dualSize : Nat

variable {α P : Type}

/-- What Alice computes for an item of Bob: `ecdh_psi.cc:93-143` at Bob, `ecdh_psi.cc:161-180` at Alice. -/
def Cfg.dualA (c : Cfg α P) (x : α) : Bytes :=
  Ecdh3.tail c.dualSize (c.ser (c.maskA (c.deser (c.ser (c.maskB (c.hash x))))))

/-- What Bob computes for an item of Alice. -/
def Cfg.dualB (c : Cfg α P) (x : α) : Bytes :=
  Ecdh3.tail c.dualSize (c.ser (c.maskB (c.deser (c.ser (c.maskA (c.hash x))))))

/-- `BernoulliSamples` on indexes: `dp_psi.cc:43-65`; the second one (`dp_psi.cc:66-90`) keeps the same positions of the
shuffled indexes. -/
def bernoulli (idx : List Nat) (coins : List Bool) : List Nat := ((idx.zip coins).filter (·.2)).map (·.1)

/-- `std::sort` of indexes: `dp_psi.cc:189, 307`. -/
def sortIdx (l : List Nat) : List Nat := l.mergeSort (fun a b => decide (a ≤ b))

/-! ### Alice -/

/-- The messages of Alice behind the exchange. -/
inductive Msg
  /-- The number of indexes. -/
  | size (n : Nat)
  /-- `is_last_batch` and `flatten_bytes`. -/
  | batch (last : Bool) (bytes : Bytes)
deriving DecidableEq, Repr

/-- `memcpy` of a `size_t`. -/
def le8 (v : Nat) : Bytes := (List.range 8).map fun k => UInt8.ofNat (v / 256 ^ k)

/-- `kSendBatchSize`: `dp_psi.cc:41`. -/
def kSendBatchSize : Nat := 8192

/-- The loop over the batches: `dp_psi.cc:199-220`. -/
def sendBatches (B : Nat) : Nat → List Nat → List Msg
  | 0, _ => []
  | f + 1, l =>
    if l = [] then []
    else if B < l.length then .batch false ((l.take B).flatMap le8) :: sendBatches B f (l.drop B)
    else [.batch true (l.flatMap le8)]

/-- What a call of Alice leaves behind.  `none`: the variable was not written. -/
structure AliceOut where
  msgs : List Msg
  subSample : Option Nat
  upSample : Option Nat
  ret : Nat
deriving DecidableEq, Repr

/-- `intersection_idx`: `dp_psi.cc:152-163`. -/
def interIdx (peer selfDual : List Bytes) : List Nat :=
  (List.range peer.length).filter fun i => Std.binarySearch (Std.sort selfDual) (peer.getD i [])

/-- `non_intersection_idx`: `dp_psi.cc:152-163`. -/
def nonInterIdx (peer selfDual : List Bytes) : List Nat :=
  (List.range peer.length).filter fun i => !Std.binarySearch (Std.sort selfDual) (peer.getD i [])

/-- `RunDpEcdhPsiAlice` behind the exchange: `dp_psi.cc:140-225`.  `peer` are Bob's items masked by both, `selfDual`
her own as received; `c1` and `c2` are the coins of the two draws. -/
def alice (peer selfDual : List Bytes) (c1 c2 : List Bool) : AliceOut :=
  let inter := interIdx peer selfDual
  let non := nonInterIdx peer selfDual
  if non = [] then { msgs := [.size 0], subSample := none, upSample := none, ret := 0 }
  else
    let sub := bernoulli inter c1
    let up := bernoulli non c2
    let all := sortIdx (sub ++ up)
    { msgs := .size all.length :: sendBatches kSendBatchSize all.length all
      subSample := some (inter.length - sub.length)
      upSample := some up.length
      ret := all.length }

/-! ### Bob -/

/-- How a call of Bob ends. -/
inductive Outcome (β : Type)
  | ok (v : β)
  | throws
  | undefined
  /-- It waits for a message that never comes. -/
  | waits
deriving DecidableEq, Repr

/-- `memcpy` into a `size_t`. -/
def ofLe : Bytes → Nat
  | [] => 0
  | b :: r => b.toNat + 256 * ofLe r

def words (bytes : Bytes) : List Nat := (List.range (bytes.length / 8)).map fun i => ofLe ((bytes.drop (8 * i)).take 8)

/-- The receiving loop: `dp_psi.cc:280-297`.  `n` is the size of the vector, `acc` what was written to its beginning. -/
def recvLoop (n : Nat) : List Msg → List Nat → Outcome (List Nat)
  | [], _ => .waits
  | .size _ :: _, _ => .undefined
  | .batch last bytes :: ms, acc =>
    if bytes.length % 8 ≠ 0 then .throws
    else if n * 8 < acc.length * 8 + bytes.length then .undefined
    else
      let acc := acc ++ words bytes
      if last then .ok (acc ++ List.replicate (n - acc.length) 0) else recvLoop n ms acc

/-- The indexes Bob keeps: `dp_psi.cc:232-238`. -/
def bobSample (shuf : List Nat) (coins : List Bool) : List Nat := bernoulli shuf coins

/-- `*sub_sample_size` of Bob: `dp_psi.cc:240`. -/
def bobSubSample (n : Nat) (kept : List Nat) : Nat := n - kept.length

/-- `RunDpEcdhPsiBob` behind the exchange: `dp_psi.cc:270-312`. -/
def bob (kept : List Nat) : List Msg → Outcome (List Nat)
  | [] => .waits
  | .batch _ _ :: _ => .undefined
  | .size n :: ms =>
    if n = 0 then .ok []
    else
      match recvLoop n ms [] with
      | .ok l => if l.all (fun i => decide (i < kept.length)) then .ok (sortIdx (l.map fun i => kept.getD i 0)) else .undefined
      | .throws => .throws
      | .undefined => .undefined
      | .waits => .waits

/-- Both parties.  `A`, `B`: their items. -/
def run (c : Cfg α P) (A B : List α) (shuf : List Nat) (cb c1 c2 : List Bool) : AliceOut × Outcome (List Nat) :=
  let kept := bobSample shuf cb
  let a := alice ((kept.filterMap fun i => B[i]?).map c.dualA) (Std.sort (A.map c.dualB)) c1 c2
  (a, bob kept a.msgs)

end Psi.DpPsi
