import Verif.Ecdh.Model
import Verif.Bucket.Model
import Verif.Net.Model
import Verif.Digest.Model

/-!
# Two-party ECDH-PSI with an intersection threshold

Models `ThresholdEcdhPsiCtx`, `RunSender` and `RunReceiver`
(`experiment/psi/threshold_ecdh_psi/threshold_ecdh_psi.cc`), the cache of the sender
(`threshold_ecdh_psi_cache.cc`) and the post-processing of both parties (`sender.cc`, `receiver.cc` in the
same folder).  Every `std::async` and the main thread of each party is a task of `Verif.Net`.

Simplifications.
* Party `false` is the sender, `true` the receiver.  Elliptic-curve operations are those of `Ecdh.Cfg`.
* `std::shuffle` of a batch is an arbitrary permutation, given as a parameter.
* The point stores and the cache file are handed over through the futures the main thread waits for; the
  cache file is the list of its records (it is written and read as fixed-size records of three `uint32_t`
  and its record count is checked, `threshold_ecdh_psi_cache.cc:38-76, 93-119`).
* `SerializeIndexes` and `DeserializeIndexes` are lossless for `uint32_t` (protobuf).
* `SyncWait`, `CheckConfig`, the statistics and the logs are left out.
-/

namespace Psi.Threshold
open Psi.Net (Prog Sys)
open Psi.Ecdh (Bytes Msg encode decode selfMsg cipher dupAt)
open Psi.Bucket (Cache Item mkSet)

/-- Parameters of a run. -/
structure Run (α P : Type) where
  /-- Curve, items and link; its `target` is not used. -/
  base : Ecdh.Cfg α P
  /-- `broadcast_result`. -/
  broadcast : Bool
  /-- `intersection_threshold` (a `uint32`). -/
  threshold : Nat
  /-- `shuffled_indices` by batch number and batch size. -/
  perm : Nat → Nat → List Nat
  /-- `std::hash` of the bucket stores. -/
  bucketHash : List Char → Nat
  /-- The bucket files of the receiver's stores when they are opened (all empty without recovery). -/
  oldSelf : List (List Char)
  oldPeer : List (List Char)

variable {α P : Type}

/-- `psi_options_.target_rank`: `psi/algorithm/ecdh/receiver.cc:69-73`, `psi/algorithm/ecdh/sender.cc:70-74`. -/
def Run.cfg (r : Run α P) : Ecdh.Cfg α P :=
  { r.base with target := if r.broadcast then .all else .rank true }

/-- `ThresholdEcdhPsiCacheItem`: `threshold_ecdh_psi_cache.h:30-34`. -/
structure Entry where
  pos : Nat
  orig : Nat
  dup : Nat
deriving DecidableEq, Repr

inductive Task
  /-- `MaskSelf`, `MaskAndShufflePeer` and the main thread of the sender. -/
  | sMask | sShuffle | sMain
  /-- `MaskSelf`, `RecvAndMaskPeer`, `RecvDualMaskedSelf` and the main thread of the receiver. -/
  | rMask | rPeer | rDual | rMain
deriving DecidableEq, Repr

/-- `x^a`, `y^b`, `x^a^b`, the two directions of `index_link_ctx_`, and the futures. -/
inductive Queue
  | xa | yb | xab | idx | back | fsMask | fsShuffle | frMask | frPeer | frDual
deriving DecidableEq, Repr

inductive Packet
  | wire (m : Msg)
  | nums (l : List Nat)
  | count (n : Nat)
  | store (l : List (Bytes × Nat))
  | cache (l : List Entry)
deriving DecidableEq, Repr

/-- What a main thread leaves behind: lines given to the index writer (`none`: nothing is written), and
the two numbers given to `SaveIntersectCount`. -/
structure Outcome where
  lines : Option (List (Nat × Nat))
  real : Nat
  final : Nat
deriving DecidableEq, Repr

inductive St (α : Type)
  | mask (idx : Nat) (rest : List (List (α × Nat)))
  | shuffle (idx count : Nat) (cache : List Entry)
  | recv (idx : Nat) (store : List (Bytes × Nat))
  | join
  | done
  /-- Undefined behaviour (write outside a vector). -/
  | undef
  | out (o : Outcome)
deriving DecidableEq, Repr

abbrev Code (α : Type) := Prog Queue Packet (St α)

/-- `EcdhPsiContext::MaskSelf` without recovery: `psi/algorithm/ecdh/ecdh_psi.cc:93-143`. -/
def maskSelf (r : Run α P) (me : Bool) (q fut : Queue) (idx : Nat) (rest : List (List (α × Nat))) : Code α :=
  let b := rest.headD []
  .send q (.wire (selfMsg r.cfg me b idx))
    (if b.isEmpty then .send fut (.nums []) (.halt .done) else .next (.mask (idx + 1) rest.tail))

/-- The vector `dup_cnts`: `threshold_ecdh_psi.cc:94-100`; `none`: a write outside it. -/
def dupVec (n : Nat) (dup : List (Nat × Nat)) : Option (List Nat) :=
  if dup.all (fun d => d.1 < n) then some ((List.range n).map (dupAt dup)) else none

/-- Mask, shuffle and note one batch: `threshold_ecdh_psi.cc:72-108`, `threshold_ecdh_psi_cache.cc:100-108`. -/
def shuffleBatch (r : Run α P) (idx count : Nat) (items : List Bytes) (dup : List (Nat × Nat)) :
    Option (List Bytes × List Entry) :=
  if items.isEmpty then some ([], []) else
  let ciphers := items.map (fun x => cipher r.cfg (r.cfg.mask false (r.cfg.deser x)))
  let ix := r.perm idx ciphers.length
  match dupVec ciphers.length dup with
  | none => none
  | some d =>
    some (ix.map (fun j => ciphers.getD j []),
      ix.zipIdx.map (fun x => ⟨(count + x.2) % 2 ^ 32, (count + x.1) % 2 ^ 32, d.getD x.2 0⟩))

/-- `MaskAndShufflePeer`: `threshold_ecdh_psi.cc:52-151`. -/
def maskShuffle (r : Run α P) (idx count : Nat) (cache : List Entry) : Code α :=
  .recv .xa fun
    | .wire m =>
      match decode idx m with
      | none => .fail
      | some (items, dup) =>
        match shuffleBatch r idx count items dup with
        | none => .halt .undef
        | some (out, es) =>
          .send .xab (.wire (encode out [] idx))
            (if items.isEmpty then .send .fsShuffle (.cache (cache ++ es)) (.halt .done)
             else .next (.shuffle (idx + 1) (count + items.length) (cache ++ es)))
    | _ => .fail

/-- `RecvAndMaskPeer`: `threshold_ecdh_psi.cc:153-214`. -/
def recvPeer (r : Run α P) (idx : Nat) (store : List (Bytes × Nat)) : Code α :=
  .recv .yb fun
    | .wire m =>
      match decode idx m with
      | none => .fail
      | some (items, dup) =>
        let store' := store ++ (items.map (fun x => cipher r.cfg (r.cfg.mask true (r.cfg.deser x)))).zipIdx.map
          (fun x => (x.1, dupAt dup x.2))
        if items.isEmpty then .send .frPeer (.store store') (.halt .done) else .next (.recv (idx + 1) store')
    | _ => .fail

/-- `EcdhPsiContext::RecvDualMaskedSelf`: `psi/algorithm/ecdh/ecdh_psi.cc:238-281`. -/
def recvDual (idx : Nat) (store : List (Bytes × Nat)) : Code α :=
  .recv .xab fun
    | .wire m =>
      match decode idx m with
      | none => .fail
      | some (items, _) =>
        let store' := store ++ items.map (fun x => (x, 0))
        if items.isEmpty then .send .frDual (.store store') (.halt .done) else .next (.recv (idx + 1) store')
    | _ => .fail

/-- `real_intersection_count`, and the three vectors as one list: own (shuffled) index, peer's index, peer's
count. -/
structure Found where
  real : Nat
  lines : List (Nat × Nat × Nat)
deriving DecidableEq, Repr

/-- One item of the receiver that the sender has too: `receiver.cc:107-116`. -/
def addMatch (t : Nat) (f : Found) (x : Nat × Nat × Nat) : Found :=
  { real := (f.real + 1) % 2 ^ 32
    lines := if f.lines.length < t then f.lines ++ [(x.1 % 2 ^ 32, x.2.1 % 2 ^ 32, x.2.2)] else f.lines }

/-- Loop over the own items of a bin: `receiver.cc:101-118`. -/
def scanBin (t : Nat) (peerSet self : List Item) (f : Found) : Found :=
  self.foldl (fun f x =>
    match peerSet.find? (fun y => y.data64 == x.data64) with
    | some p => addMatch t f (x.index, p.index, p.dup)
    | none => f) f

/-- Loop over bins `b, …, b + n - 1`: `receiver.cc:95-119`; `none`: exception. -/
def scanBins (t : Nat) (self peer : Cache) : Nat → Nat → Found → Option Found
  | _, 0, f => some f
  | b, n + 1, f =>
    match self.load b, peer.load b with
    | some s, some p => scanBins t self peer (b + 1) n (scanBin t (mkSet p) s f)
    | _, _ => none

/-- The limited intersection: `receiver.cc:80-119`. -/
def found (r : Run α P) (self peer : List (Bytes × Nat)) : Option Found :=
  let s := (Cache.openDir r.oldSelf).writeAll r.bucketHash self
  let p := (Cache.openDir r.oldPeer).writeAll r.bucketHash peer
  if s.files.length = p.files.length then scanBins r.threshold s p 0 s.files.length ⟨0, []⟩ else none

/-- `RunReceiver` waits for its tasks, then `ComputeAndStoreIndex`: `threshold_ecdh_psi.cc:275-336`,
`receiver.cc:76-147`. -/
def receiverMain (r : Run α P) : Code α :=
  .recv .frMask fun _ => .recv .frPeer fun p => .recv .frDual fun s =>
    match p, s with
    | .store peer, .store self =>
      match found r self peer with
      | none => .fail
      | some f =>
        let tail : Code α := .recv .back fun
          | .nums l =>
            if f.lines.length ≠ l.length then .fail
            else .halt (.out ⟨some (l.zip (f.lines.map (·.2.2))), f.real, f.lines.length⟩)
          | _ => .fail
        .send .idx (.nums (f.lines.map (·.1))) <|
        .send .idx (.count f.real) <|
        (if r.broadcast then .send .idx (.nums (f.lines.map (·.2.1))) tail else tail)
    | _, _ => .fail

/-- `shuffled_index_map` as a list of pairs, the last one written first: `sender.cc:113-117`. -/
def indexMap (l : List Nat) : List (Nat × Nat) := l.zipIdx.reverse

/-- One record of the cache: `sender.cc:122-137`. -/
def restoreOne (l : List Nat) (acc : List (Nat × Nat)) (e : Entry) : List (Nat × Nat) :=
  match (indexMap l).lookup e.pos with
  | none => acc
  | some i => acc.set i (e.orig, e.dup)

/-- The loop over the cache that fills `peer_restored_index` and `peer_dup_cnt`: `sender.cc:110-139`. -/
def restore (cache : List Entry) (l : List Nat) : List (Nat × Nat) :=
  cache.foldl (restoreOne l) (List.replicate l.length (0, 0))

/-- `RunSender` waits for its tasks, then `RestoreAndSendIndex`: `threshold_ecdh_psi.cc:216-273`,
`sender.cc:81-157`. -/
def senderMain (r : Run α P) : Code α :=
  .recv .fsMask fun _ => .recv .fsShuffle fun
    | .cache cache =>
      .recv .idx fun
        | .nums l =>
          .recv .idx fun
            | .count real =>
              if l.length % 2 ^ 32 ≠ min real r.threshold then .fail else
              let res := restore cache l
              if r.broadcast then
                .recv .idx fun
                  | .nums own =>
                    .send .back (.nums (res.map Prod.fst))
                      (if own.length < l.length then .halt .undef
                       else .halt (.out ⟨some (own.zip (res.map Prod.snd)), real, l.length⟩))
                  | _ => .fail
              else .send .back (.nums (res.map Prod.fst)) (.halt (.out ⟨none, real, l.length⟩))
            | _ => .fail
        | _ => .fail
    | _ => .fail

def body (r : Run α P) : Task → St α → Code α
  | .sMask, .mask i l => maskSelf r false .yb .fsMask i l
  | .sShuffle, .shuffle i n c => maskShuffle r i n c
  | .sMain, .join => senderMain r
  | .rMask, .mask i l => maskSelf r true .xa .frMask i l
  | .rPeer, .recv i l => recvPeer r i l
  | .rDual, .recv i l => recvDual i l
  | .rMain, .join => receiverMain r
  | _, _ => .fail

def start (r : Run α P) : Task → St α
  | .sMask => .mask 0 (r.base.input false)
  | .rMask => .mask 0 (r.base.input true)
  | .sShuffle => .shuffle 0 0 []
  | .rPeer | .rDual => .recv 0 []
  | .sMain | .rMain => .join

def writer : Queue → Task
  | .xa => .rMask | .yb => .sMask | .xab => .sShuffle | .idx => .rMain | .back => .sMain
  | .fsMask => .sMask | .fsShuffle => .sShuffle | .frMask => .rMask | .frPeer => .rPeer | .frDual => .rDual

def reader : Queue → Task
  | .xa => .sShuffle | .yb => .rPeer | .xab => .rDual | .idx => .sMain | .back => .rMain
  | .fsMask | .fsShuffle => .sMain
  | .frMask | .frPeer | .frDual => .rMain

/-- `x^a^b` is sent with `SendAsync` (`threshold_ecdh_psi.cc:123-126`, `ecdh_psi.cc:333-349`); the futures do
not block the writer. -/
def window (r : Run α P) : Queue → Option Nat
  | .xa | .yb | .idx | .back => r.base.window
  | _ => none

def net (r : Run α P) : Sys Task Queue Packet (St α) :=
  { body := body r, start := start r, writer := writer, reader := reader, window := window r }

/-- What a party has written when its main thread has returned. -/
def result (c : Net.Conf Task Queue Packet (St α)) (party : Bool) : Option Outcome :=
  match c.task (if party then .rMain else .sMain) with
  | .halt (.out o) => some o
  | _ => none

/-- Lines a party has in its index writer after `Run` (`psi/interface.h:46-60`, `psi/interface.cc:95-126`): all
its keys when the digests are found equal, else what the protocol wrote. -/
def runLines {D : Type} [DecidableEq D] (H : List Char → D) (check : Bool) (own peer : List (Digest.Key × Nat))
    (protocol : List (Nat × Nat)) : List (Nat × Nat) :=
  if Digest.shortcut H check own peer then Digest.shortcutIndex own else protocol

end Psi.Threshold
