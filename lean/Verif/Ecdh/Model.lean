import Verif.Ecdh.Wire

/-!
# Two-party ECDH-PSI as a transition system

Models `MaskSelf`, `MaskPeer`, `RecvDualMaskedSelf` and `RunEcdhPsi` of
`psi/algorithm/ecdh/ecdh_psi.cc`: two parties, three concurrent tasks each, four FIFO channels (a main
channel and a dual-mask channel per direction, `ecdh_psi.cc:42-43`).

Simplifications.
* One loop iteration of a task is one atomic step.  The tasks of one party share no mutable state: the
  self store is written by `RecvDualMaskedSelf` only, the peer store by `MaskPeer` only.
* Elliptic-curve operations are parameters (`Cfg`), with their laws in `Cfg.Lawful`.
* A point store is the list of `Save` calls made on it.
* Link: reliable, in order per channel.  `SendAsyncThrottled` blocks while `window` messages are
  unread by the receiver; `SendAsync` never blocks.
* Recovery (`processed_item_cnt > 0`) is in `Verif.Ecdh.Resume`.
-/

namespace Psi.Ecdh

/-- `EcdhPsiOptions::target_rank`: `psi/algorithm/ecdh/ecdh_psi.h:60-65`; ranks are `false`, `true`. -/
inductive Target
  | all
  | rank (r : Bool)
deriving DecidableEq, Repr

/-- `SelfCanTouchResults`: `psi/algorithm/ecdh/ecdh_psi.h:107-110`. `PeerCanTouchResults`
(`ecdh_psi.h:112-115`) is the same test for the other rank. -/
def Target.canTouch (t : Target) (r : Bool) : Bool :=
  match t with
  | .all => true
  | .rank r' => r' == r

/-- Configuration of a run: items `α`, curve points `P`. -/
structure Cfg (α P : Type) where
  /-- `IEccCryptor::HashInputs` on one item. -/
  hash : α → P
  /-- `IEccCryptor::EccMask` on one point with the key of a party. -/
  mask : Bool → P → P
  /-- `IEccCryptor::SerializeEcPoint`. -/
  ser : P → Bytes
  /-- `IEccCryptor::DeserializeEcPoint`. -/
  deser : Bytes → P
  /-- `dual_mask_size`. -/
  dualSize : Nat
  target : Target
  /-- Throttle window of the link; `none`: no limit. -/
  window : Option Nat
  /-- Batches the batch provider of a party delivers, each item with its duplicate count. -/
  input : Bool → List (List (α × Nat))

/-- State of one party's three tasks. -/
structure Party (α : Type) where
  /-- Batches the provider still has to deliver. -/
  toSend : List (List (α × Nat))
  /-- `batch_count` of `MaskSelf` (the final empty batch is counted too). -/
  sent : Nat
  sendDone : Bool
  /-- `batch_count` of `MaskPeer`. -/
  peerCount : Nat
  peerDone : Bool
  /-- `batch_count` of `RecvDualMaskedSelf`. -/
  recvCount : Nat
  recvDone : Bool
  /-- Items saved in `self_ec_point_store` / `peer_ec_point_store`, with duplicate counts. -/
  selfStore : List (Bytes × Nat)
  peerStore : List (Bytes × Nat)
deriving DecidableEq

/-- The two parties and the channels; `main r`, `dual r` are the queues of messages addressed to `r`. -/
structure State (α : Type) where
  party : Bool → Party α
  main : Bool → List Msg
  dual : Bool → List Msg

/-- Start of `RunEcdhPsi` (without recovery): `psi/algorithm/ecdh/ecdh_psi.cc:451-462`. -/
def init {α P : Type} (c : Cfg α P) : State α :=
  { party := fun r => ⟨c.input r, 0, false, 0, false, 0, false, [], []⟩
    main := fun _ => []
    dual := fun _ => [] }

/-- The map `duplicate_item_cnt` of a batch holds only the positive counts, by position in the batch:
`psi/utils/table_utils.cc:70-82`. -/
def dupMap {α : Type} (b : List (α × Nat)) : List (Nat × Nat) :=
  b.zipIdx.filterMap (fun x => if 0 < x.1.2 then some (x.2, x.1.2) else none)

/-- `duplicate_item_cnt[i]`. -/
def dupAt (d : List (Nat × Nat)) (i : Nat) : Nat := (d.lookup i).getD 0

/-- Replace the value at one rank. -/
def upd {β : Type} (f : Bool → β) (r : Bool) (v : β) : Bool → β := fun x => if x = r then v else f x

inductive Outcome (σ : Type)
  | ok (s : σ)
  | blocked
  | failed

variable {α P : Type}

/-- The message `MaskSelf` of `r` sends for one batch: `psi/algorithm/ecdh/ecdh_psi.cc:103-118`. -/
def selfMsg (c : Cfg α P) (r : Bool) (b : List (α × Nat)) (idx : Nat) : Msg :=
  encode (b.map (fun x => c.ser (c.mask r (c.hash x.1))))
    (if c.target.canTouch (!r) then dupMap b else []) idx

/-- One iteration of the loop of `MaskSelf`: `psi/algorithm/ecdh/ecdh_psi.cc:93-143`. -/
def stepSelf (c : Cfg α P) (r : Bool) (s : State α) : Outcome (State α) :=
  let p := s.party r
  if p.sendDone || c.window.any (fun w => w ≤ (s.main (!r)).length) then .blocked else
  let b := p.toSend.headD []
  .ok { s with
    party := upd s.party r
      { p with toSend := p.toSend.tail, sent := p.sent + 1, sendDone := b.isEmpty }
    main := upd s.main (!r) (s.main (!r) ++ [selfMsg c r b p.sent]) }

/-- The comparison bytes of a point: `psi/algorithm/ecdh/ecdh_psi.cc:168-174`. -/
def cipher (c : Cfg α P) (p : P) : Bytes := (c.ser p).drop ((c.ser p).length - c.dualSize)

/-- One iteration of the loop of `MaskPeer`: `psi/algorithm/ecdh/ecdh_psi.cc:150-235`. -/
def stepPeer (c : Cfg α P) (r : Bool) (s : State α) : Outcome (State α) :=
  let p := s.party r
  if p.peerDone then .blocked else
  match s.main r with
  | [] => .blocked
  | m :: ms =>
    match decode p.peerCount m with
    | none => .failed
    | some (items, dup) =>
      let ciphers := items.map (fun x => cipher c (c.mask r (c.deser x)))
      .ok
        { party := upd s.party r
            { p with
              peerCount := p.peerCount + 1
              peerDone := items.isEmpty
              peerStore := if c.target.canTouch r then
                  p.peerStore ++ ciphers.zipIdx.map (fun x => (x.1, dupAt dup x.2))
                else p.peerStore }
          main := upd s.main r ms
          dual := if c.target.canTouch (!r) then
              upd s.dual (!r) (s.dual (!r) ++ [encode ciphers [] p.peerCount])
            else s.dual }

/-- One iteration of the loop of `RecvDualMaskedSelf`, or its immediate return:
`psi/algorithm/ecdh/ecdh_psi.cc:238-281`. -/
def stepRecv (c : Cfg α P) (r : Bool) (s : State α) : Outcome (State α) :=
  let p := s.party r
  if p.recvDone then .blocked else
  if !c.target.canTouch r then .ok { s with party := upd s.party r { p with recvDone := true } } else
  match s.dual r with
  | [] => .blocked
  | m :: ms =>
    match decode p.recvCount m with
    | none => .failed
    | some (items, _) =>
      .ok { s with
        party := upd s.party r
          { p with
            recvCount := p.recvCount + 1
            recvDone := items.isEmpty
            selfStore := p.selfStore ++ items.map (fun x => (x, 0)) }
        dual := upd s.dual r ms }

/-- The three `std::async` tasks: `psi/algorithm/ecdh/ecdh_psi.cc:481-495`. -/
inductive Task
  | maskSelf
  | maskPeer
  | recvDual
deriving DecidableEq, Repr

def step (c : Cfg α P) (t : Task) (r : Bool) (s : State α) : Outcome (State α) :=
  match t with
  | .maskSelf => stepSelf c r s
  | .maskPeer => stepPeer c r s
  | .recvDual => stepRecv c r s

/-- Execute a schedule: which task of which party moves next.  `none` if a scheduled task cannot move
or fails. -/
def exec (c : Cfg α P) : List (Task × Bool) → State α → Option (State α)
  | [], s => some s
  | (t, r) :: sched, s =>
    match step c t r s with
    | .ok s' => exec c sched s'
    | _ => none

/-- `RunEcdhPsi` of party `r` has returned: `psi/algorithm/ecdh/ecdh_psi.cc:504-535`. -/
def Party.finished (p : Party α) : Bool := p.sendDone && p.peerDone && p.recvDone

/-- The result of the in-memory `RunEcdhPsi`: `psi/algorithm/ecdh/ecdh_psi.cc:559-570`.  `none`: the
bound check on `index` fails.  The binary search in the sorted copy of the peer store is a membership
test here. -/
def memResult (items : List α) (p : Party α) : Option (List α) :=
  (p.selfStore.zipIdx.filter (fun x => (p.peerStore.map Prod.fst).contains x.1.1)).mapM
    (fun x => items[x.2]?)

end Psi.Ecdh
