import Verif.Ecdh.Wire
import Verif.Net.Model
import Verif.Std.Model

/-!
# Three-party ECDH-PSI

Models `EcdhP2PExtendCtx` and `ShuffleEcdh3PcPsi` (`psi/algorithm/ecdh/ecdh_3pc_psi.cc`) and
`Ecdh3PartyPsiOperator::OnRun` (`psi/legacy/ecdh_3party_psi.cc:61-80`).  Every `std::async` is a task of
`Verif.Net`; every point-to-point link made by `CreateP2PCtx` has one queue per direction and tag space.

Simplifications.
* Elliptic-curve operations are parameters.  One key per role.
* `CheckConfig` (`ecdh_3pc_psi.cc:257, 301`) is left out: all three parties use the same curve.
* The target ranks given to `CreateP2PCtx` (`ecdh_3pc_psi.cc:205-236, 253-296`) are constant, so
  `SelfCanTouchResults` is true for the calculator and false for the partner, and `MaskSelf` sends no
  duplicate counts that matter: `MemoryBatchProvider` has none (`psi/utils/batch_provider.h:53-56`).
* `std::shuffle` of the partner's items is an arbitrary permutation, given as a parameter.
-/

namespace Psi.Ecdh3
open Psi.Net (Prog Sys)
open Psi.Ecdh (Bytes Msg encode decode)

/-- Roles by rank; `master` is `options_.master_rank`. -/
inductive Role
  | master | calculator | partner
deriving DecidableEq, Repr

/-- `IsMaster`, `IsCalculator`, `IsPartner` tried in the order of `MaskMaster` and `PartnersPsiImpl`:
`psi/algorithm/ecdh/ecdh_3pc_psi.h:142-150`; in a world of three, `NextRank` is `(rank + 1) % 3` and
`PrevRank` is `(rank + 2) % 3`. -/
def role (master rank : Nat) : Role :=
  if rank = master then .master
  else if (rank + 2) % 3 = master then .calculator
  else .partner

/-- Parameters of a run. -/
structure Cfg (α P : Type) where
  /-- `IEccCryptor::HashInputs` on one item. -/
  hash : α → P
  /-- `IEccCryptor::EccMask` with the key of a role. -/
  mask : Role → P → P
  /-- `IEccCryptor::SerializeEcPoint`, `DeserializeEcPoint`. -/
  ser : P → Bytes
  deser : Bytes → P
  /-- `GetMaskLength()`. -/
  maskLen : Nat
  /-- `options_.dual_mask_size`. -/
  dualSize : Nat
  /-- `kEcdhPsiBatchSize`. -/
  batch : Nat
  /-- Throttle window of the link; `none`: no limit. -/
  window : Option Nat
  /-- The items each party passes to `OnRun`. -/
  items : Role → List α
  /-- The partner's items after `std::shuffle`. -/
  shuffled : List α

/-- The tasks. -/
inductive Task
  /-- Master: `c_a_ctx->MaskSendSelf`, `c_b_ctx->RecvItems` of `MaskMaster`; `RecvItems` of `PartnersPsi`. -/
  | masterMask | masterRecv | masterPartners
  /-- `MaskPeerForward` of `MaskMaster` at calculator and partner. -/
  | calcForward | partForward
  /-- Calculator: `MaskSendSelf`, `MaskRecvPeer`, `RecvDupMasked`, and the thread that waits for them. -/
  | calcSelf | calcPeer | calcDup | calcMain
  /-- Partner: `MaskSendSelf`, `MaskShufflePeer`. -/
  | partSelf | partShuffle
deriving DecidableEq, Repr

/-- The queues: `z^c`, `z^c^a`, `z^c^a^b` of `MaskMaster`; `x^a`, `y^b`, `x^a^b` (dual-mask link) and the
intersection of `PartnersPsi`; and the futures of the calculator's three tasks. -/
inductive Queue
  | zc | zca | zcab | xa | yb | xab | inter | futSelf | futPeer | futDup
deriving DecidableEq, Repr

/-- A message on a link, or the result behind a future. -/
inductive Packet
  | wire (m : Msg)
  | val (l : List Bytes)
deriving DecidableEq, Repr

/-- Loop-head states. -/
inductive St (α : Type)
  /-- `MaskSelf`: batches sent, items left. -/
  | mask (idx : Nat) (rest : List α)
  /-- `SendImpl`: batches sent, items left. -/
  | send (idx : Nat) (rest : List Bytes)
  /-- `RecvItems`, `MaskPeer`, `RecvDualMaskedSelf`: batches received, items so far. -/
  | recv (idx : Nat) (acc : List Bytes)
  /-- `MaskPeerForward`: batches forwarded. -/
  | fwd (idx : Nat)
  /-- The calculator waits for its futures. -/
  | join
  /-- Result of a task. -/
  | out (l : List Bytes)
deriving DecidableEq, Repr

variable {α P : Type}

abbrev Code (α : Type) := Prog Queue Packet (St α)

/-- The last `n` bytes of a serialized point: `ecdh_3pc_psi.cc:66-68, 96-98, 328-330`, `ecdh_psi.cc:172-174`. -/
def tail (n : Nat) (b : Bytes) : Bytes := b.drop (b.length - n)

/-- `EcdhPsiContext::MaskSelf` over a `MemoryBatchProvider` (`ecdh_3pc_psi.cc:38-44`,
`ecdh_psi.cc:93-143`): mask and send batch after batch, the last one empty. -/
def maskSelf (c : Cfg α P) (r : Role) (q : Queue) (done : Code α) (idx : Nat) (rest : List α) : Code α :=
  let b := rest.take c.batch
  .send q (.wire (encode (b.map (fun x => c.ser (c.mask r (c.hash x)))) [] idx))
    (if b.isEmpty then done else .next (.mask (idx + 1) (rest.drop c.batch)))

/-- `EcdhP2PExtendCtx::SendImpl`: `psi/algorithm/ecdh/ecdh_3pc_psi.cc:148-174`. -/
def sendImpl (c : Cfg α P) (q : Queue) (idx : Nat) (rest : List Bytes) : Code α :=
  let b := rest.take c.batch
  .send q (.wire (encode b [] idx))
    (if b.isEmpty then .halt (.out []) else .next (.send (idx + 1) (rest.drop c.batch)))

/-- The loop of `RecvItems` (`ecdh_3pc_psi.cc:127-142`), `MaskPeer` (`ecdh_psi.cc:150-229`, with
`SelfCanTouchResults` and not `PeerCanTouchResults`) and `RecvDualMaskedSelf` (`ecdh_psi.cc:243-272`):
receive until an empty batch; `f` is applied to every item. -/
def recvLoop (q : Queue) (f : Bytes → Bytes) (done : List Bytes → Code α) (idx : Nat) (acc : List Bytes) : Code α :=
  .recv q fun
    | .val _ => .fail
    | .wire m =>
      match decode idx m with
      | none => .fail
      | some (items, _) => if items.isEmpty then done acc else .next (.recv (idx + 1) (acc ++ items.map f))

/-- `EcdhP2PExtendCtx::MaskPeerForward`: `psi/algorithm/ecdh/ecdh_3pc_psi.cc:76-106`. -/
def maskForward (c : Cfg α P) (r : Role) (q q' : Queue) (f : Bytes → Bytes) (idx : Nat) : Code α :=
  .recv q fun
    | .val _ => .fail
    | .wire m =>
      match decode idx m with
      | none => .fail
      | some (items, _) =>
        .send q' (.wire (encode (items.map (fun x => f (c.ser (c.mask r (c.deser x))))) [] idx))
          (if items.isEmpty then .halt (.out []) else .next (.fwd (idx + 1)))

/-- Take the value behind a future. -/
def await (q : Queue) (k : List Bytes → Code α) : Code α :=
  .recv q fun
    | .val l => k l
    | .wire _ => .fail

/-- The partner's answer: mask the calculator's items, keep `dual_mask_size` bytes, sort:
`psi/algorithm/ecdh/ecdh_3pc_psi.cc:58-72`; this context has `dual_mask_size = GetMaskLength()`. -/
def shuffleAnswer (c : Cfg α P) (items : List Bytes) : List Bytes :=
  Std.sort (items.map (fun x => tail c.maskLen (c.ser (c.mask .partner (c.deser x)))))

/-- The intersection of the partners: `psi/algorithm/ecdh/ecdh_3pc_psi.cc:273-280`. -/
def partnersInter (self peer : List Bytes) : List Bytes :=
  Std.setIntersection (Std.sort self) (Std.sort peer)

/-- Code of every task from its loop head.  `MaskMaster`: `ecdh_3pc_psi.cc:191-237`; `PartnersPsiImpl`:
`ecdh_3pc_psi.cc:246-319`. -/
def body (c : Cfg α P) : Task → St α → Code α
  | .masterMask, .mask i l => maskSelf c .master .zc (.halt (.out [])) i l
  | .masterRecv, .recv i l => recvLoop .zcab id (fun l => .halt (.out l)) i l
  | .masterPartners, .recv i l => recvLoop .inter id (fun l => .halt (.out l)) i l
  | .calcForward, .fwd i => maskForward c .calculator .zc .zca id i
  | .partForward, .fwd i => maskForward c .partner .zca .zcab (tail c.dualSize) i
  | .calcSelf, .mask i l => maskSelf c .calculator .xa (.send .futSelf (.val []) (.halt (.out []))) i l
  | .calcPeer, .recv i l =>
    recvLoop .yb (fun x => tail c.maskLen (c.ser (c.mask .calculator (c.deser x))))
      (fun l => .send .futPeer (.val l) (.halt (.out []))) i l
  | .calcDup, .recv i l => recvLoop .xab id (fun l => .send .futDup (.val l) (.halt (.out []))) i l
  | .calcMain, .join =>
    await .futSelf fun _ => await .futPeer fun peer => await .futDup fun self =>
      .next (.send 0 (partnersInter self peer))
  | .calcMain, .send i l => sendImpl c .inter i l
  | .partSelf, .mask i l => maskSelf c .partner .yb (.halt (.out [])) i l
  | .partShuffle, .recv i l => recvLoop .xa id (fun l => .next (.send 0 (shuffleAnswer c l))) i l
  | .partShuffle, .send i l => sendImpl c .xab i l
  | _, _ => .fail

def start (c : Cfg α P) : Task → St α
  | .masterMask => .mask 0 (c.items .master)
  | .calcSelf => .mask 0 (c.items .calculator)
  | .partSelf => .mask 0 c.shuffled
  | .calcForward | .partForward => .fwd 0
  | .calcMain => .join
  | _ => .recv 0 []

def writer : Queue → Task
  | .zc => .masterMask | .zca => .calcForward | .zcab => .partForward
  | .xa => .calcSelf | .yb => .partSelf | .xab => .partShuffle | .inter => .calcMain
  | .futSelf => .calcSelf | .futPeer => .calcPeer | .futDup => .calcDup

def reader : Queue → Task
  | .zc => .calcForward | .zca => .partForward | .zcab => .masterRecv
  | .xa => .partShuffle | .yb => .calcPeer | .xab => .calcDup | .inter => .masterPartners
  | .futSelf | .futPeer | .futDup => .calcMain

/-- The futures are not throttled; all batches are sent with `SendAsyncThrottled`. -/
def window (c : Cfg α P) : Queue → Option Nat
  | .futSelf | .futPeer | .futDup => none
  | _ => c.window

def net (c : Cfg α P) : Sys Task Queue Packet (St α) :=
  { body := body c, start := start c, writer := writer, reader := reader, window := window c }

/-- `FinalPsi` at the master: `psi/algorithm/ecdh/ecdh_3pc_psi.cc:323-349`; `none`: the bound check on
`index` fails. -/
def finalPsi (c : Cfg α P) (self : List α) (masterItems partners : List Bytes) : Option (List α) :=
  let masked := Std.sort (partners.map (fun x => tail c.dualSize (c.ser (c.mask .master (c.deser x)))))
  (masterItems.zipIdx.filter (fun x => Std.binarySearch masked x.1)).mapM (fun x => self[x.2]?)

/-- The value of a task that has returned. -/
def returned : Code α → Option (List Bytes)
  | .halt (.out l) => some l
  | _ => none

/-- `Ecdh3PartyPsiOperator::OnRun` at a role once its tasks have returned
(`psi/legacy/ecdh_3party_psi.cc:61-80`); `none`: some task has not returned, or an exception. -/
def onRun (c : Cfg α P) (s : Net.Conf Task Queue Packet (St α)) : Role → Option (List α)
  | .master => do
    let _ ← returned (s.task .masterMask)
    let z ← returned (s.task .masterRecv)
    let p ← returned (s.task .masterPartners)
    finalPsi c (c.items .master) z p
  | .calculator => do
    let _ ← returned (s.task .calcForward)
    let _ ← returned (s.task .calcMain)
    pure []
  | .partner => do
    let _ ← returned (s.task .partForward)
    let _ ← returned (s.task .partSelf)
    let _ ← returned (s.task .partShuffle)
    pure []

end Psi.Ecdh3
