import Verif.Ecdh.Model
import Verif.Bucket.Model
import Verif.Kkrt.Model
import Verif.Rr22.Intersect
import Verif.Legacy.Model

/-!
# The operators: input stores, result stores and the three protocols behind one interface

Models `PsiOperator` (`psi/algorithm/psi_operator.{h,cc}`), `EcdhOperator`, `KkrtOperator` and `Rr22Operator`
(`psi/algorithm/{ecdh/ecdh,kkrt/kkrt,rr22/rr22}_operator.{h,cc}`), and `Rr22Runner::ParallelRun`
(`psi/algorithm/rr22/rr22_psi.h:250-281`).  The protocols themselves are those of `Verif.Ecdh`, `Verif.Kkrt` and `Verif.Rr22`.

An item (`PsiItemData`, `psi/algorithm/psi_io.h:32-35`) is a pair of its bytes and its count, a result (`PsiResultIndex`,
`psi_io.h:27-30`) a pair of a position in the bucket and the count of the peer.  Ranks are `false` and `true`.

Simplifications.  `SyncWait` is left out.  Both parties have the same number of buckets.  The lists that are broadcast arrive
as they are (`psi/utils/serialize.h`).  No more than `2 ^ 32 - 1` points are in a store in memory (the loops of
`ecdh_operator.cc:158-165` count in 32 bits).
-/

namespace Psi.Operator
open Psi.Ecdh (Bytes)

/-- Items of a bucket with their counts. -/
abbrev Items (α : Type) := List (α × Nat)

/-- Lines of a result: position and count of the peer. -/
abbrev Lines := List (Nat × Nat)

variable {α P : Type}

/-! ## ECDH -/

/-- `ProviderWrapper::ReadNextBatchWithDupCnt`: `ecdh_operator.cc:44-56`.  An item that is not in the map has no further
row. -/
def wrap (batch : Items α) : Items α := batch.map fun x => (x.1, if 1 < x.2 then x.2 - 1 else 0)

/-- What `RunEcdhPsi` is called with: `ecdh_operator.cc:105-111`.  `inputs` are the batches that the provider of a party
delivers. -/
def ecdhCfg (c : Ecdh.Cfg α P) (inputs : Bool → List (Items α)) : Ecdh.Cfg α P :=
  { c with input := fun r => (inputs r).map wrap }

/-- The two kinds of point stores. -/
inductive Store
  | memory
  | buckets
deriving DecidableEq, Repr

/-- The stores that `EcdhOperator::OnInit` makes: `ecdh_operator.cc:80-103`. -/
def initStore (recovery : Bool) (binSize : Nat) : Store :=
  if recovery then .buckets else if binSize > 1 then .buckets else .memory

/-- `OnEnd`, one bucket: `ecdh_operator.cc:130-144`. -/
def endBucket (self peer : List Bucket.Item) : Lines :=
  self.filterMap fun x => ((Bucket.mkSet peer).find? fun y => y.data64 == x.data64).map fun y => (x.index, y.dup + 1)

/-- `OnEnd`, the loop over the buckets: `ecdh_operator.cc:128-144`. -/
def endBuckets (self peer : Bucket.Cache) : Nat → Nat → Option Lines
  | _, 0 => some []
  | b, n + 1 =>
    match self.load b, peer.load b, endBuckets self peer (b + 1) n with
    | some s, some p, some w => some (endBucket s p ++ w)
    | _, _, _ => none

/-- `OnEnd`, stores in memory: `ecdh_operator.cc:154-175`, `MemoryEcPointStore::Save`, `psi/utils/ec_point_store.cc:41-48`.
`emplace` keeps the first position of a value; only positive counts are in the map. -/
def endMemory (self peer : List (Bytes × Nat)) : Lines :=
  self.zipIdx.filterMap fun x => (peer.findIdx? fun y => y.1 = x.1.1).map fun i =>
    (x.2, 1 + (let d := (peer.getD i ([], 0)).2; if 0 < d then d else 0))

/-- `EcdhOperator::OnEnd` on the points of `RunEcdhPsi`: `ecdh_operator.cc:113-178`; `nbins` is `kDefaultBinNum`, `bh` the hash
of the buckets.  `none`: an exception. -/
def ecdhEnd (recovery : Bool) (binSize nbins : Nat) (bh : List Char → Nat) (self peer : List (Bytes × Nat)) : Option Lines :=
  match initStore recovery binSize, decide (binSize > 1) with
  | .buckets, true =>
    let s := (Bucket.Cache.fresh nbins).writeAll bh self
    let p := (Bucket.Cache.fresh nbins).writeAll bh peer
    if s.files.length = p.files.length then endBuckets s p 0 s.files.length else none
  | .memory, false => some (endMemory self peer)
  | _, _ => none

/-! ## The sequence of buckets, and the broadcast -/

/-- What a party with a result sends: `psi_operator.cc:29-38`.  `none`: a position outside of the input. -/
def announce [DecidableEq α] (input : Items α) (inter : Lines) : Option (List α × List (Nat × Nat)) :=
  (inter.mapM fun l => input[l.1]?).map fun xs =>
    (xs.map Prod.fst, xs.zipIdx.filterMap fun x => if 1 < x.1.2 then some (x.2, x.1.2) else none)

/-- The entry of a map by its key. -/
def at? (m : List (Nat × Nat)) (k : Nat) : Option Nat := (m.find? fun x => x.1 = k).map Prod.snd

/-- What a party without a result makes of it: `psi_operator.cc:43-63`; the last position of an item counts. -/
def adopt [DecidableEq α] (input : Items α) (names : List α) (dup : List (Nat × Nat)) : Lines :=
  input.zipIdx.filterMap fun x =>
    ((names.zipIdx.reverse.find? fun y => y.1 = x.1.1).map Prod.snd).map fun j => (x.2, (at? dup j).getD 1)

/-- `BroadcastIntersection` of both parties: `psi_operator.cc:24-66`, `BroadcastResult`, `psi/utils/sync.cc:55-84`. -/
def broadcast [DecidableEq α] (input : Bool → Items α) (inter : Bool → Lines) : Option (Bool → Lines) :=
  match announce (input false) (inter false), announce (input true) (inter true) with
  | some a, some b =>
    match Legacy.bcastRank [a.1.length, b.1.length] 0 0 with
    | none => none
    | some root =>
      if max a.1.length b.1.length = 0 then some inter
      else
        let sent := if root = 0 then a else b
        some fun r => if inter r = [] then adopt (input r) sent.1 sent.2 else inter r
  | _, _ => none

/-- One round of `OnSequenceRun`: `psi_operator.cc:111-129`.  `inter` is what `OnRun` gives to the parties. -/
def seqBucket [DecidableEq α] (bcast : Bool) (entitled : Bool → Bool) (input : Bool → Items α) (inter : Bool → Lines) :
    Option (Bool → Lines) :=
  (if bcast then broadcast input inter else some inter).map fun w r => if entitled r then w r else []

/-! ## KKRT -/

/-- What a run of KKRT-PSI is made of besides the inputs. -/
structure KkrtRun where
  step : Nat
  perm : Nat → Nat
  fill : Nat → Nat → Bytes
  rs : List Nat

/-- `KkrtOperator::OnRun` of both parties: `kkrt_operator.cc:45-75`; the receiver is `rank`.  Both refuse an empty input
(`kkrt_psi.cc:122-125, 325-328`).  `KkrtPsiSend` takes the counts themselves, here the numbers of further rows; it
only looks at counts above one. -/
def kkrtOnRun (p : Kkrt.Params) (blake : α → Nat) (rank : Bool) (k : KkrtRun) (input : Bool → Items α) : Option (Bool → Lines) :=
  if input rank = [] ∨ input (!rank) = [] then none
  else
    let xs := (input rank).map fun x => blake x.1
    (Kkrt.recvIndices p xs (Kkrt.send p ((input (!rank)).map fun y => (blake y.1, y.2 - 1)) xs.length k.step k.perm k.fill k.rs)).map
      fun w r => if r = rank then w else []

/-- `KkrtOperator::Run` on one bucket; `ReceiveResult`: `kkrt_operator.cc:32-34`. -/
def kkrtBucket [DecidableEq α] (p : Kkrt.Params) (blake : α → Nat) (rank bcast : Bool) (k : KkrtRun) (input : Bool → Items α) :
    Option (Bool → Lines) :=
  (kkrtOnRun p blake rank k input).bind (seqBucket bcast (fun r => r == rank || bcast) input)

/-- `KkrtOperator::Run`: `psi_operator.cc:88-134`, without recovery, on all buckets one after the other. -/
def kkrtRun [DecidableEq α] (p : Kkrt.Params) (blake : α → Nat) (rank bcast : Bool) :
    List (KkrtRun × (Bool → Items α)) → Option (List (Bool → Lines))
  | [] => some []
  | b :: bs => (kkrtBucket p blake rank bcast b.1 b.2).bind fun w => (kkrtRun p blake rank bcast bs).map (w :: ·)

/-! ## RR22 -/

/-- `pre_process_func`: `rr22_operator.cc:36-49`: position, further rows, bytes. -/
def preProcess (input : Items α) : List (Nat × Nat × α) := input.zipIdx.map fun x => (x.2, x.1.2 - 1, x.1.1)

/-- `post_process_func`: `rr22_operator.cc:50-66`.  `none`: a position outside of the bucket. -/
def postProcess (items : List (Nat × Nat × α)) (lines : Lines) : Option Lines :=
  lines.mapM fun l => (items[l.1]?).map fun x => (x.1, l.2 + 1)

/-- One bucket: `rr22_psi.cc:76-165` with the functions of the operator.  `vR` and `vS` are the values of the OPRF,
`m` the length of the comparison values, `chunks` the division of the lookup. -/
def rr22Bucket (vR vS : α → Nat) (m : Nat) (chunks : List (List Nat)) (rank bcast : Bool) (input : Bool → Items α) :
    Option (Bool → Lines) :=
  let R := preProcess (input rank)
  let S := preProcess (input (!rank))
  if R = [] ∨ S = [] then some fun _ => []
  else
    (Rr22.receive m S.length (R.map fun x => vR x.2.2) (R.map fun x => x.2.1) chunks
      (Rr22.sendBuf m (S.map fun y => vS y.2.2)) (Rr22.cntMap (S.map fun y => y.2.1))).bind fun w =>
    (postProcess R (Rr22.receiverLines w)).bind fun a =>
    (postProcess S (Rr22.senderLines bcast w)).map fun b => fun r => if r = rank then a else b

/-- The buckets of one thread of `ParallelRun`: `rr22_psi.h:267-274`. -/
def threadBuckets (n par t : Nat) : List Nat := (List.range n).filter fun j => j % par = t

/-- The buckets of each thread, in order: `rr22_psi.h:250-281`, `Run`: `rr22_psi.h:180-187`. -/
def parallelRun (start n par : Nat) : List (List Nat) :=
  if n ≤ par then [List.range' start (n - start)] else (List.range par).map (threadBuckets n par)

end Psi.Operator
