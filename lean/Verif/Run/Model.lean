import Mathlib.Data.List.Dedup
import Verif.Digest.Model

/-!
# A whole run: configuration checks, phases and the synchronisation of the two parties

Models `psi/interface.cc`, `psi/interface.h`, `psi/utils/sync.h`, the factory
(`psi/apps/psi_launcher/factory.cc`), the constructor checks of the join processor and the configuration
part of the launcher (`psi/apps/psi_launcher/launch.cc`).

A party is a program (`Prog`) whose only contact with the other party are the collective operations
`AllGather`, `Barrier` and `ConnectToMesh`; `run2` runs two programs against each other.  A party that
waits for a message that never comes ends with a timeout.

Simplifications.  What the virtual functions of the protocols do between two collective operations of this
file is an outcome that may be chosen freely for each party (`Local`); the same holds for reading the input,
the files and the checkpoint.  Protobuf serialisation is a parameter.  Unset optional messages are `none`;
`MessageDifferencer::Equals` treats an unset message and a set empty one as different.  The tracing and
logging of the launcher are left out.
-/

namespace Psi.Run

open Psi.Digest (Key digest)

abbrev Bytes := List UInt8

/-! ## Configuration messages -/

/-- `psi/proto/psi_v2.proto:23-43`. -/
inductive Role
  | unspecified | receiver | sender | server | client
deriving DecidableEq, Repr

/-- `psi/proto/psi_v2.proto:46-63`. -/
inductive Protocol
  | unspecified | ecdh | kkrt | rr22
deriving DecidableEq, Repr

/-- `psi/proto/psi.proto`, `CurveType`. -/
inductive CurveType
  | invalid | c25519 | fourq | sm2 | secp256k1 | elligator2
deriving DecidableEq, Repr

/-- `psi/proto/psi_v2.proto:115-120`. -/
inductive IoType
  | unspecified | csv
deriving DecidableEq, Repr

/-- `psi/proto/psi_v2.proto:357-369`. -/
inductive JoinType
  | unspecified | inner | left | right | full | difference
deriving DecidableEq, Repr

/-- `psi/proto/psi_v2.proto:66-71`. -/
structure EcdhConfig where
  curve : CurveType := .invalid
  batchSize : Nat := 0
deriving DecidableEq, Repr

/-- `psi/proto/psi_v2.proto:74-81`. -/
structure KkrtConfig where
  bucketSize : Nat := 0
deriving DecidableEq, Repr

/-- `psi/proto/psi_v2.proto:84-93`. -/
structure Rr22Config where
  bucketSize : Nat := 0
  lowComm : Bool := false
deriving DecidableEq, Repr

/-- `psi/proto/psi_v2.proto:96-112`. -/
structure ProtocolConfig where
  protocol : Protocol := .unspecified
  role : Role := .unspecified
  broadcast : Bool := false
  ecdh : Option EcdhConfig := none
  kkrt : Option KkrtConfig := none
  rr22 : Option Rr22Config := none
deriving DecidableEq, Repr

/-- `psi/proto/psi_v2.proto:123-128`. -/
structure IoConfig where
  type : IoType := .unspecified
  path : String := ""
deriving DecidableEq, Repr

/-- `psi/proto/psi_v2.proto:147-152`. -/
structure RecoveryConfig where
  enabled : Bool := false
  folder : String := ""
deriving DecidableEq, Repr

/-- `psi/proto/psi_v2.proto:166-172`. -/
structure DebugOptions where
  level : String := ""
  tracePath : String := ""
deriving DecidableEq, Repr

/-- `psi/proto/psi_v2.proto:320-397`; `InputAttr` and `OutputAttr` have one field each. -/
structure PsiConfig where
  protocolConfig : Option ProtocolConfig := none
  inputConfig : Option IoConfig := none
  outputConfig : Option IoConfig := none
  keys : List String := []
  debugOptions : Option DebugOptions := none
  disableAlignment : Bool := false
  recovery : Option RecoveryConfig := none
  joinType : JoinType := .unspecified
  leftSide : Role := .unspecified
  checkDigest : Bool := false
  inputAttr : Option Bool := none
  outputAttr : Option String := none
  threshold : Nat := 0
  countPath : String := ""
deriving DecidableEq, Repr

/-- Reading an unset message gives one with default values. -/
def PsiConfig.protocol (c : PsiConfig) : ProtocolConfig := c.protocolConfig.getD {}

def PsiConfig.recoveryOn (c : PsiConfig) : Bool := (c.recovery.getD {}).enabled

/-! ## Programs of one party and how two of them run together -/

inductive Err
  | config (what : String)
  | peerConfig
  | «local» (what : String)
  | timeout
  | malformed
deriving DecidableEq, Repr

/-- What can be seen of a run: the phases entered, the phases of unbalanced PSI, and the writing of the output
file with the number of rows to fill up for the peer. -/
inductive Event
  | init | preProcess | online | postProcess | finalize
  | write (peerExcept : Nat)
  | genCache | transferCache
deriving DecidableEq, Repr

/-- A collective operation. -/
inductive Kind
  | connect | allGather | barrier
deriving DecidableEq, Repr

inductive Msg
  | empty
  | config (b : Bytes)
  | flag (b : Bool)
  | digest (b : Bytes)
  | size (n : Nat)
deriving DecidableEq, Repr

inductive Prog (α : Type) where
  | ret (a : α)
  | throw (e : Err)
  | note (e : Event) (k : Prog α)
  /-- Send `m`, wait for the other party's message, go on with the messages of rank 0 and rank 1. -/
  | gather (kind : Kind) (m : Msg) (k : Msg → Msg → Prog α)

def Prog.bind {α β : Type} : Prog α → (α → Prog β) → Prog β
  | .ret a, f => f a
  | .throw e, _ => .throw e
  | .note e k, f => .note e (k.bind f)
  | .gather kind m k, f => .gather kind m (fun x y => (k x y).bind f)

instance : Monad Prog where
  pure := .ret
  bind := Prog.bind

/-- A step that only concerns this party. -/
def step {α : Type} : Except Err α → Prog α
  | .ok a => .ret a
  | .error e => .throw e

def note (e : Event) : Prog Unit := .note e (.ret ())

/-- Both messages, in the order of the ranks. -/
def gather (kind : Kind) (m : Msg) : Prog (Msg × Msg) := .gather kind m (fun x y => .ret (x, y))

/-- What became of one party. -/
structure Outcome (α : Type) where
  trace : List Event
  result : Except Err α
deriving Repr

def Outcome.add {α : Type} (e : Event) (o : Outcome α) : Outcome α := { o with trace := e :: o.trace }

/-- A party whose peer has stopped: it goes on until it waits for the peer. -/
def alone {α : Type} : Prog α → Outcome α
  | .ret a => ⟨[], .ok a⟩
  | .throw e => ⟨[], .error e⟩
  | .note e k => (alone k).add e
  | .gather _ _ _ => ⟨[], .error .timeout⟩

/-- Rank 0 against rank 1.  `AllGather` and its like match the n-th call of one party with the n-th call of the
other; if the operations differ, both wait in vain. -/
def run2 {α β : Type} : Prog α → Prog β → Outcome α × Outcome β
  | .note e k, q => let r := run2 k q; (r.1.add e, r.2)
  | .ret a, q => (alone (.ret a), alone q)
  | .throw e, q => (alone (.throw e), alone q)
  | .gather kind m k, q => against kind m (fun x y => run2 (k x y)) q
where
  /-- Rank 0 waits in a collective operation. -/
  against {α β : Type} (kind : Kind) (m : Msg) (k : Msg → Msg → Prog β → Outcome α × Outcome β) :
      Prog β → Outcome α × Outcome β
    | .note e k' => let r := against kind m k k'; (r.1, r.2.add e)
    | .ret b => (⟨[], .error .timeout⟩, ⟨[], .ok b⟩)
    | .throw e => (⟨[], .error .timeout⟩, ⟨[], .error e⟩)
    | .gather kind' m' k' =>
      if kind = kind' then k m m' (k' m m') else (⟨[], .error .timeout⟩, ⟨[], .error .timeout⟩)

/-- `SyncWait`: run the function, then wait until the other party has finished too.
`psi/utils/sync.h:41-91`; the rounds in between are modelled in `syncRounds`. -/
def syncWait {α : Type} (f : Prog α) : Prog α := do
  let a ← f
  let _ ← gather .allGather (.flag true)
  pure a

/-- A function run by `SyncWait`: it is found to be ready after `rounds` further rounds of five seconds, and then
it returns or throws. -/
structure Job (α : Type) where
  rounds : Nat
  result : Except Err α

/-- The loop of `SyncWait` of both parties: `psi/utils/sync.h:56-86`.  In each round both say whether they are
finished; a party whose function threw says nothing more.  The third component counts the rounds. -/
def syncRounds {α β : Type} (fuel : Nat) (a : Job α) (b : Job β) : Except Err α × Except Err β × Nat :=
  match fuel with
  | 0 => (.error .timeout, .error .timeout, 0)
  | fuel + 1 =>
    match a.rounds, a.result, b.rounds, b.result with
    | 0, .error e, 0, .error e' => (.error e, .error e', 0)
    | 0, .error e, _, _ => (.error e, .error .timeout, 0)
    | _, _, 0, .error e' => (.error .timeout, .error e', 0)
    | 0, .ok x, 0, .ok y => (.ok x, .ok y, 1)
    | _, _, _, _ =>
      let r := syncRounds fuel { a with rounds := a.rounds - 1 } { b with rounds := b.rounds - 1 }
      (r.1, r.2.1, r.2.2 + 1)

/-! ## Checks -/

/-- Protobuf's `SerializeToString` and `ParseFromString`. -/
structure Wire where
  ser : PsiConfig → Bytes
  par : Bytes → Option PsiConfig

/-- The implementation `createPsiParty` chooses: protocol, whether with threshold, and the role it has.
`psi/apps/psi_launcher/factory.cc:36-81`. -/
structure Class where
  protocol : Protocol
  threshold : Bool
  role : Role
deriving DecidableEq, Repr

/-- `psi/apps/psi_launcher/factory.cc:36-81`. -/
def createParty (c : PsiConfig) : Except Err Class :=
  match c.protocol.protocol with
  | .ecdh =>
    match c.protocol.role with
    | .receiver => if c.threshold = 0 then .ok ⟨.ecdh, false, .receiver⟩ else .ok ⟨.ecdh, true, .receiver⟩
    | .sender => if c.threshold = 0 then .ok ⟨.ecdh, false, .sender⟩ else .ok ⟨.ecdh, true, .sender⟩
    | _ => .error (.config "Role is invalid.")
  | .kkrt =>
    match c.protocol.role with
    | .receiver => .ok ⟨.kkrt, false, .receiver⟩
    | .sender => .ok ⟨.kkrt, false, .sender⟩
    | _ => .error (.config "Role is invalid.")
  | .rr22 =>
    match c.protocol.role with
    | .receiver => .ok ⟨.rr22, false, .receiver⟩
    | .sender => .ok ⟨.rr22, false, .sender⟩
    | _ => .error (.config "Role is invalid.")
  | .unspecified => .error (.config "Protocol is unspecified.")

/-- `CheckSelfConfig`, with the configuration it leaves: `psi/interface.cc:195-228`. -/
def checkSelf (role : Role) (c : PsiConfig) : Except Err PsiConfig :=
  if c.protocol.protocol = .ecdh ∧ (c.protocol.ecdh.getD {}).curve = .invalid then
    .error (.config "Curve type is not specified.")
  else if c.protocol.role ≠ role then .error (.config "Role doesn't match.")
  else if (c.inputConfig.getD {}).type ≠ .csv then .error (.config "Input type")
  else if (c.outputConfig.getD {}).type ≠ .csv then .error (.config "Output type")
  else if c.keys = [] then .error (.config "keys are not specified.")
  else if c.keys.dedup.length ≠ c.keys.length then .error (.config "Duplicated key is not allowed.")
  else if c.checkDigest = false ∧ c.recoveryOn = true then .ok { c with checkDigest := true }
  else .ok c

/-- The fields that need not agree are cleared: `psi/interface.cc:231-243`. -/
def normalize (c : PsiConfig) : PsiConfig :=
  { c with
    inputConfig := some {}
    outputConfig := some {}
    keys := []
    debugOptions := some {}
    disableAlignment := false
    inputAttr := some false
    countPath := ""
    recovery := some { c.recovery.getD {} with folder := "" } }

/-- `mutable_protocol_config()->set_role(ROLE_UNSPECIFIED)`: `psi/interface.cc:271-272`. -/
def clearRole (c : PsiConfig) : PsiConfig :=
  { c with protocolConfig := some { c.protocol with role := .unspecified } }

/-- `CheckPeerConfig` after the exchange: `psi/interface.cc:251-280`. -/
def checkPeer (w : Wire) (m0 m1 : Bytes) : Except Err Unit :=
  match w.par m0, w.par m1 with
  | some c0, some c1 =>
    if c0.protocol.role = c1.protocol.role then .error .peerConfig
    else if clearRole c0 = clearRole c1 then .ok () else .error .peerConfig
  | _, _ => .error .malformed

/-- The checks of the constructor of the join processor: `psi/utils/join_processor.cc:178-208`. -/
def joinMake (c : PsiConfig) : Except Err Unit :=
  if (c.inputConfig.getD {}).type ≠ .csv then .error (.config "unsupport input format")
  else if (c.outputConfig.getD {}).type ≠ .csv then .error (.config "unsupport output format")
  else if ¬ (c.protocol.role = .sender ∨ c.protocol.role = .receiver) then .error (.config "role")
  else if c.joinType ≠ .unspecified ∧ c.joinType ≠ .inner ∧ c.leftSide = .unspecified then
    .error (.config "a valid left side must be provided.")
  else .ok ()

/-- `kDefaultBucketSize`: `psi/utils/bucket.h:27`. -/
def defaultBucketSize : Nat := 2 ^ 20

/-- The default bucket sizes: `psi/interface.cc:128-137`. -/
def setDefaults (c : PsiConfig) : PsiConfig :=
  if c.protocol.protocol = .kkrt ∧ (c.protocol.kkrt.getD {}).bucketSize = 0 then
    { c with protocolConfig := some { c.protocol with
        kkrt := some { c.protocol.kkrt.getD {} with bucketSize := defaultBucketSize } } }
  else if c.protocol.protocol = .rr22 ∧ (c.protocol.rr22.getD {}).bucketSize = 0 then
    { c with protocolConfig := some { c.protocol with
        rr22 := some { c.protocol.rr22.getD {} with bucketSize := defaultBucketSize } } }
  else c

/-! ## The run -/

/-- Everything about one party that happens outside this file: the keys of its input with the number of further
rows (or why they cannot be read), and how its local steps and its phases end. -/
structure Local where
  keys : Except Err (List (Key × Nat)) := .ok []
  writer : Except Err Unit := .ok ()
  recovery : Except Err Unit := .ok ()
  preProcess : Except Err Unit := .ok ()
  online : Except Err Unit := .ok ()
  postProcess : Except Err Unit := .ok ()
  close : Except Err Unit := .ok ()
  sort : Except Err Unit := .ok ()
  /-- `DealResultIndex`: the rows of the own table, and the rows the peer has in the intersection. -/
  join : Except Err (Nat × Nat) := .ok (0, 0)
  generate : Nat → Except Err Unit := fun _ => .ok ()

/-- State after initialisation. -/
structure Ready where
  config : PsiConfig
  digestEqual : Bool
deriving DecidableEq, Repr

/-- `Init` up to and including the check of the configurations: `psi/interface.cc:71-78`. -/
def initConfig (w : Wire) (role : Role) (c : PsiConfig) : Prog PsiConfig := do
  let c ← step (checkSelf role c)
  let _ ← gather .connect .empty
  let m ← gather .allGather (.config (w.ser (normalize c)))
  match m with
  | (.config m0, .config m1) => do
    step (checkPeer w m0 m1)
    pure c
  | _ => .throw .malformed

/-- Whether the inputs are found to be equal: `psi/interface.cc:97-108`, `psi/utils/bucket.cc:129-139`. -/
def digestCheck (H : List Char → Bytes) (check : Bool) (keys : List (Key × Nat)) : Prog Bool :=
  if check then do
    let f ← gather .allGather (.flag (keys.all (fun x => x.2 == 0)))
    match f with
    | (.flag f0, .flag f1) =>
      if f0 && f1 then do
        let d ← gather .allGather (.digest (digest H (keys.map Prod.fst)))
        match d with
        | (.digest d0, .digest d1) => pure (decide (d0 = d1))
        | _ => .throw .malformed
      else pure false
    | _ => .throw .malformed
  else pure false

/-- `Init` with the choice of the implementation before it: `psi/interface.cc:67-143`,
`psi/apps/psi_launcher/launch.cc:118-120`. -/
def init (w : Wire) (H : List Char → Bytes) (c : PsiConfig) (l : Local) : Prog Ready := do
  let cls ← step (createParty c)
  note .init
  let c ← initConfig w cls.role c
  step (joinMake c)
  let keys ← syncWait (step l.keys)
  let eq ← digestCheck H c.checkDigest keys
  step l.writer
  let c := setDefaults c
  (if c.recoveryOn then step l.recovery else pure ())
  pure ⟨c, eq⟩

/-- `GenerateResult`, given the sizes of both tables: `psi/interface.cc:165-169`.  The difference is taken modulo
`2 ^ 64`; `rank0` tells the own rank. -/
def writeSized (rank0 : Bool) (l : Local) (inter : Nat) : Msg × Msg → Prog Unit
  | (.size s0, .size s1) => do
    let n := ((if rank0 then s1 else s0) + 2 ^ 64 - inter) % 2 ^ 64
    note (.write n)
    step (l.generate n)
  | _ => .throw .malformed

/-- What a party that gets a result does in `Finalize`: `psi/interface.cc:159-177`. -/
def finBody (rank0 : Bool) (c : PsiConfig) (l : Local) : Prog Unit :=
  if c.protocol.role = .receiver ∨ c.protocol.broadcast then do
    let stat ← step l.join
    if c.protocol.broadcast then
      gather .allGather (.size stat.1) >>= writeSized rank0 l stat.2
    else do
      note (.write 0)
      step (l.generate 0)
  else pure ()

/-- `Finalize`; the result tells whether the intersection count is reported: `psi/interface.cc:145-194`. -/
def finalize (rank0 : Bool) (c : PsiConfig) (l : Local) : Prog Bool := do
  step l.close
  syncWait (do step l.sort; finBody rank0 c l)
  pure (decide (c.protocol.role = .receiver ∨ c.protocol.broadcast))

/-- The phases of the protocol: `psi/interface.h:50-56`. -/
def protocolPhases (l : Local) : Prog Unit := do
  note .preProcess
  step l.preProcess
  let _ ← gather .barrier .empty
  note .online
  step l.online
  note .postProcess
  step l.postProcess

/-- `Run` after `Init`: `psi/interface.h:49-60`. -/
def afterInit (rank0 : Bool) (l : Local) (r : Ready) : Prog Bool := do
  (if r.digestEqual = false then protocolPhases l else pure ())
  note .finalize
  finalize rank0 r.config l

/-- `AbstractPsiParty::Run`; the result tells whether the intersection count is reported:
`psi/interface.h:46-61`. -/
def run (w : Wire) (H : List Char → Bytes) (rank0 : Bool) (c : PsiConfig) (l : Local) : Prog Bool := do
  let r ← init w H c l
  afterInit rank0 l r

/-- Both parties of a run, rank 0 first. -/
def session (w : Wire) (H : List Char → Bytes) (c0 c1 : PsiConfig) (l0 l1 : Local) :
    Outcome Bool × Outcome Bool :=
  run2 (run w H true c0 l0) (run w H false c1 l1)

/-! ## Unbalanced PSI -/

/-- `psi/proto/psi_v2.proto:401-419`. -/
inductive Mode
  | unspecified | genCache | transferCache | offline | online | full
deriving DecidableEq, Repr

/-- How the phases of a party of unbalanced PSI end. -/
structure UbLocal where
  make : Except Err Unit := .ok ()
  genCache : Except Err Unit := .ok ()
  transferCache : Except Err Unit := .ok ()
  online : Except Err Unit := .ok ()

/-- `Init`: `psi/algorithm/ecdh/ub_psi/server.cc:38-51`, `psi/algorithm/ecdh/ub_psi/client.cc:35-50`; `link` says
whether there is a peer at all. -/
def ubInit (server link : Bool) (m : Mode) (l : UbLocal) : Prog Unit := do
  if m = .unspecified ∨ (server = false ∧ m = .genCache) then Prog.throw (.config "mode")
  if link then do
    let _ ← gather .connect .empty
    pure ()
  step l.make

/-- `OfflineGenCache`: `psi/algorithm/ecdh/ub_psi/server.cc:63-87`; the client has none
(`psi/algorithm/ecdh/ub_psi/client.cc:52`). -/
def ubGenCache (server : Bool) (l : UbLocal) : Prog Unit :=
  if server then do note .genCache; step l.genCache else .throw (.config "unsupported.")

/-- `OfflineTransferCache`: `psi/algorithm/ecdh/ub_psi/server.cc:95-107`,
`psi/algorithm/ecdh/ub_psi/client.cc:58-79`. -/
def ubTransfer (l : UbLocal) : Prog Unit := do
  note .transferCache
  step l.transferCache
  let _ ← gather .barrier .empty
  pure ()

/-- `Offline`: `psi/algorithm/ecdh/ub_psi/server.cc:109-114`, `psi/algorithm/ecdh/ub_psi/client.cc:81-83`. -/
def ubOffline (server : Bool) (l : UbLocal) : Prog Unit :=
  syncWait (do
    if server then ubGenCache server l
    ubTransfer l)

/-- `Online`: `psi/algorithm/ecdh/ub_psi/server.cc:151-203`, `psi/algorithm/ecdh/ub_psi/client.cc:90-142`. -/
def ubOnline (l : UbLocal) : Prog Unit :=
  syncWait (do note .online; step l.online)

/-- `AbstractUbPsiParty::Run`: `psi/interface.cc:281-312`. -/
def ubRun (server link : Bool) (m : Mode) (l : UbLocal) : Prog Unit := do
  note .init
  ubInit server link m l
  match m with
  | .genCache => ubGenCache server l
  | .transferCache => ubTransfer l
  | .offline => ubOffline server l
  | .online => ubOnline l
  | .full => do ubOffline server l; ubOnline l
  | .unspecified => .throw (.config "unsupported mode.")

end Psi.Run
