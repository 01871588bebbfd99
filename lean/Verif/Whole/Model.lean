import Verif.Bucket.Model
import Verif.Bucketed.Model
import Verif.Kkrt.Model
import Verif.Rr22.Oprf

/-!
# RR22 and KKRT over buckets

Models what a party does with one bucket and with all of them, from the stored items to the index lines:
`BucketRr22Sender`, `BucketRr22Receiver` (`psi/algorithm/rr22/rr22_psi.cc:72-167`), `pre_f` and `post_f`
(`rr22/receiver.cc:113-134`, `rr22/sender.cc:103-124`), the bucket loops of KKRT
(`kkrt/receiver.cc:109-150`, `kkrt/sender.cc:113-151`), `PrepareBucketData`, `HandleBucketResultBySender`,
`HandleBucketResultByReceiver` and `NegotiateBucketNum` (`psi/utils/bucket.cc:35-168`).

`BroadcastResult` (`psi/utils/communication.h`) is taken to deliver the receiver's lists unchanged.
-/

namespace Psi.Whole
open Psi.Bucket Psi.Gf128
open Psi.Rr22 (receive sendBuf cntMap receiverLines senderLines maskSize)

/-- `NegotiateBucketNum`: `bucket.cc:140-167`, on 64-bit words.  `none`: division by a bucket size of zero. -/
def bucketNum (selfCount peerCount selfBucketSize : Nat) : Option Nat :=
  if selfBucketSize = 0 then none
  else
    let f := fun c => (c + selfBucketSize - 1) % 2 ^ 64 / selfBucketSize
    some (if min selfCount peerCount = 0 then 0 else max (f selfCount) (f peerCount))

/-- The bucket size in use: `interface.cc:128-137`; `kDefaultBucketSize` is `1 << 20` (`psi/utils/bucket.h`). -/
def bucketSizeOf (configured : Nat) : Nat := if configured = 0 then 2 ^ 20 else configured

/-- `WriteCache(bucket_items[indices[i]].index, peer_cnt[i])` for all `i`: `rr22/receiver.cc:127-130`. -/
def post (items : List Item) (lines : List (Nat × Nat)) : List (Nat × Nat) :=
  lines.map (fun x => ((items.getD x.1 ⟨0, 0, []⟩).index, x.2))

/-! ## RR22 -/

inductive Err where
  /-- the conversion of `log2(0)` -/
  | undefined
  | oprf (e : Rr22.Oprf.Err)
  | check
deriving DecidableEq

/-- What is the same for all buckets: `Rr22PsiOptions`, and `Blake3_128`. -/
structure Rr22Env where
  blake : List Char → Gf
  ceilLog2 : Nat → Nat
  ssp : Nat
  malicious : Bool
  compress : Bool
  broadcast : Bool
  /-- `ExchangeTruncateSize` is called before the sizes are looked at, and with an empty bucket it converts `log2(0) = -inf` to an
  integer, which C++ leaves undefined; with `true` the conversion gives some value, as on the usual processors, and the
  value is not used -/
  logZero : Bool

/-- One bucket: `Prepare`, `RunOprf` and `GetIntersection` of both parties, then `post_f`
(`rr22_psi.cc:72-167`).  `S` are the sender's items as shuffled, `R` the receiver's; `oprf` runs the two OPRF parties; `chunks` are the
ranges of the receiver's parallel loop.  The result are the lines of the sender and of the receiver. -/
def rr22Bucket (e : Rr22Env) (oprf : List Gf → List Gf → Except Rr22.Oprf.Err (List Gf × List Gf)) (chunks : List (List Nat))
    (S R : List Item) : Except Err (List (Nat × Nat) × List (Nat × Nat)) :=
  -- each party computes the size from its point of view
  match maskSize e.ceilLog2 S.length R.length e.ssp e.malicious e.compress,
      maskSize e.ceilLog2 R.length S.length e.ssp e.malicious e.compress with
  | .bytes mS, .bytes mR =>
    if S.length = 0 ∨ R.length = 0 then .ok (post S [], post R [])
    else match oprf (S.map (fun x => e.blake x.data64)) (R.map (fun x => e.blake x.data64)) with
      | .error er => .error (.oprf er)
      | .ok (oS, oR) =>
        match receive mR S.length (oR.map Gf.val) (R.map (·.dup)) chunks (sendBuf mS (oS.map Gf.val)) (cntMap (S.map (·.dup))) with
        | none => .error .check
        | some w => .ok (post S (senderLines e.broadcast w), post R (receiverLines w))
  | _, _ => if e.logZero ∧ (S.length = 0 ∨ R.length = 0) then .ok (post S [], post R []) else .error .undefined

/-! ## KKRT -/

/-- `peer_result`: the last entry of an item counts; `bucket.cc:80-83`. -/
def peerResult (res : List Item) (k : List Char) : Option Nat :=
  (res.reverse.find? (fun x => x.data64 == k)).map (·.dup)

/-- `HandleBucketResultBySender`: `bucket.cc:68-103`.  `res` are the receiver's items in the result.  (Lines that were
not committed because the list is empty: there are none.) -/
def kkrtSenderLines (broadcast : Bool) (S res : List Item) : List (Nat × Nat) :=
  if broadcast then
    if res.isEmpty then []
    else if res.length = S.length then S.map (fun x => (x.index, (peerResult res x.data64).getD 0))
    else S.filterMap (fun x => (peerResult res x.data64).map (fun d => (x.index, d)))
  else []

/-- What KKRT draws at random or leaves to timing in a bucket: the step of the OT extension, the permutation and the filling of the
sender, and the numbers of corrections seen. -/
structure KkrtEnv where
  p : Kkrt.Params
  blake : List Char → Nat
  broadcast : Bool

structure KkrtRun where
  step : Nat
  perm : Nat → Nat
  fill : Nat → Nat → Psi.Ecdh.Bytes
  rs : List Nat

/-- One bucket: `kkrt/receiver.cc:109-150`, `kkrt/sender.cc:113-151`.  `none`: an exception. -/
def kkrtBucket (e : KkrtEnv) (r : KkrtRun) (S R : List Item) : Option (List (Nat × Nat) × List (Nat × Nat)) :=
  if min S.length R.length = 0 then some ([], [])
  else
    (Kkrt.recv e.p (R.map (fun x => e.blake x.data64))
      (Kkrt.send e.p (S.map (fun x => (e.blake x.data64, x.dup))) R.length r.step r.perm r.fill r.rs)).map (fun w =>
        (kkrtSenderLines e.broadcast S (w.map (fun x => R.getD x.1 ⟨0, 0, []⟩)), post R w))

/-! ## All buckets -/

/-- The task of all buckets, from the results of the buckets; `true` is the receiver.  `counted b`: `UpdateParsedBucketCount` is called
after bucket `b` (RR22: always; KKRT: not if it is empty, `kkrt/receiver.cc:114-116`). -/
def task (n : Nat) (out : Nat → List (Nat × Nat) × List (Nat × Nat)) (counted : Nat → Bool) : Bucketed.Task :=
  ⟨n, fun r b => if r then (out b).2 else (out b).1, counted⟩

/-- KKRT: the buckets after which the count is updated (of those below `n`). -/
def kkrtCounted (n : Nat) (S R : Nat → List Item) (b : Nat) : Bool := decide (n ≤ b ∨ min (S b).length (R b).length ≠ 0)

end Psi.Whole
