/-!
# Recovery checkpoint

Models `RecoveryManager` (`psi/checkpoint/recovery.{h,cc}`) over the files of one recovery folder and
any history of processes that open the folder, call the manager and die.

Simplifications: a checkpoint file is its parsed contents, or `torn` when it was truncated but not (or
not completely) written, in which case parsing it fails; the same for the private key file.  The
unsynchronised access of two tasks to `checkpoint_` is not modelled: calls are atomic apart from crashes.
The cache directories of the folder are in `Verif.Ecdh.Resume`.
-/

namespace Psi.Recovery

/-- A file of the folder. -/
inductive File (β : Type)
  | absent
  | torn
  | ok (b : β)
deriving DecidableEq, Repr

/-- Stages: `psi/checkpoint/checkpoint.proto:11-20`. -/
def unspecified := 0
def initEnd := 1
def preProcessEnd := 2
def onlineStart := 3
def onlineEnd := 4
def postProcessEnd := 5

/-- `RecoveryCheckpoint`: `psi/checkpoint/checkpoint.proto:10-44`. -/
structure Checkpoint (Cfg Dig : Type) where
  stage : Nat
  config : Cfg
  digest : Dig
  selfCount : Nat
  peerCount : Nat
  buckets : Nat
deriving DecidableEq, Repr

/-- The recovery folder. -/
structure Disk (Cfg Dig Key : Type) where
  cp : File (Checkpoint Cfg Dig)
  key : File Key

/-- A live process: `checkpoint_` and the private key of its cryptor (`none`: not yet agreed with the
folder). -/
structure Proc (Cfg Dig Key : Type) where
  cp : Checkpoint Cfg Dig
  key : Option Key

/-- One effect on the folder. -/
inductive Action (Cfg Dig Key : Type)
  | truncCp
  | writeCp (c : Checkpoint Cfg Dig)
  | truncKey
  | writeKey (k : Key)

/-- The calls a process makes on the manager. -/
inductive Op (Cfg Dig Key : Type)
  | init (c : Cfg) (d : Dig)
  /-- `fresh` is the key the new cryptor generated. -/
  | pre (fresh : Key)
  | online
  | self (n : Nat)
  | peer (n : Nat)
  | bucket (n : Nat)
  | endOnline
  | post

variable {Cfg Dig Key : Type}

def Disk.apply (d : Disk Cfg Dig Key) : Action Cfg Dig Key → Disk Cfg Dig Key
  | .truncCp => { d with cp := .torn }
  | .writeCp c => { d with cp := .ok c }
  | .truncKey => { d with key := .torn }
  | .writeKey k => { d with key := .ok k }

/-- `SaveCheckpointFile`: `psi/checkpoint/recovery.cc:83-97`; `open` truncates, the text follows. -/
def save (c : Checkpoint Cfg Dig) : List (Action Cfg Dig Key) := [.truncCp, .writeCp c]

/-- Set the stage if it is lower, and save: `MarkOnlineStart` (`psi/checkpoint/recovery.cc:203-208`),
`MarkOnlineEnd` (`240-247`), `MarkPostProcessEnd` (`249-256`). -/
def raise (s : Nat) (p : Proc Cfg Dig Key) : Proc Cfg Dig Key × List (Action Cfg Dig Key) :=
  if p.cp.stage < s then
    let c := { p.cp with stage := s }
    ({ p with cp := c }, save c)
  else (p, [])

/-- A call: the new state of the process and the effects on the folder, in order; `none` is an
exception.  -/
def Op.run [DecidableEq Cfg] [DecidableEq Dig] (d : Disk Cfg Dig Key) (p : Proc Cfg Dig Key) :
    Op Cfg Dig Key → Option (Proc Cfg Dig Key × List (Action Cfg Dig Key))
  -- `MarkInitEnd`: `psi/checkpoint/recovery.cc:99-120`
  | .init c g =>
    if p.cp.stage ≠ unspecified then
      if c = p.cp.config ∧ g = p.cp.digest then some (p, []) else none
    else
      let cp := { p.cp with stage := initEnd, config := c, digest := g }
      some ({ p with cp := cp }, save cp)
  -- `MarkPreProcessEnd` with a cryptor: `psi/checkpoint/recovery.cc:122-146`;
  -- `SetPrivateKey` checks the size of the key: `psi/cryptor/ecc_cryptor.h:47-50`
  | .pre fresh =>
    if p.cp.stage < preProcessEnd then
      let cp := { p.cp with stage := preProcessEnd }
      some ({ cp := cp, key := some fresh }, [.truncKey, .writeKey fresh] ++ save cp)
    else
      match d.key with
      | .ok k => some ({ p with key := some k }, [])
      | _ => none
  -- `MarkOnlineStart`: `psi/checkpoint/recovery.cc:148-211`
  | .online => some (raise onlineStart p)
  -- `UpdateEcdhDualMaskedItemSelfCount`: `psi/checkpoint/recovery.cc:213-219`
  | .self n =>
    let cp := { p.cp with stage := onlineStart, selfCount := n }
    some ({ p with cp := cp }, save cp)
  -- `UpdateEcdhDualMaskedItemPeerCount`: `psi/checkpoint/recovery.cc:221-229`
  | .peer n =>
    let cp := { p.cp with stage := onlineStart, peerCount := n }
    some ({ p with cp := cp }, save cp)
  -- `UpdateParsedBucketCount`: `psi/checkpoint/recovery.cc:231-238`
  | .bucket n =>
    let cp := { p.cp with stage := onlineStart, buckets := n }
    some ({ p with cp := cp }, save cp)
  | .endOnline => some (raise onlineEnd p)
  | .post => some (raise postProcessEnd p)

/-- The folder and the process that uses it, if one is alive. -/
structure State (Cfg Dig Key : Type) where
  disk : Disk Cfg Dig Key
  proc : Option (Proc Cfg Dig Key)

/-- What can happen next. -/
inductive Event (Cfg Dig Key : Type)
  /-- A process constructs the manager. -/
  | start
  /-- The live process makes a call that returns. -/
  | call (o : Op Cfg Dig Key)
  /-- The live process dies during a call, after `k` effects on the folder. -/
  | crashIn (o : Op Cfg Dig Key) (k : Nat)
  /-- The live process dies between calls. -/
  | crash

/-- Constructor: `psi/checkpoint/recovery.cc:50-81`, `31-48`; `none`: the file cannot be parsed. -/
def Disk.load (d : Disk Cfg Dig Key) (empty : Checkpoint Cfg Dig) : Option (Checkpoint Cfg Dig) :=
  match d.cp with
  | .absent => some empty
  | .torn => none
  | .ok c => some c

/-- One event; `none`: it is impossible or ends in an exception.  `empty` is the default message. -/
def Event.step [DecidableEq Cfg] [DecidableEq Dig] (empty : Checkpoint Cfg Dig)
    (s : State Cfg Dig Key) : Event Cfg Dig Key → Option (State Cfg Dig Key)
  | .start =>
    match s.proc with
    | some _ => none
    | none => (s.disk.load empty).map (fun c => { s with proc := some ⟨c, none⟩ })
  | .call o =>
    s.proc.bind (fun p => (o.run s.disk p).map (fun r =>
      { disk := r.2.foldl Disk.apply s.disk, proc := some r.1 }))
  | .crashIn o k =>
    s.proc.bind (fun p => (o.run s.disk p).map (fun r =>
      { disk := (r.2.take k).foldl Disk.apply s.disk, proc := none }))
  | .crash => s.proc.map (fun _ => { s with proc := none })

/-- A history of events. -/
def run [DecidableEq Cfg] [DecidableEq Dig] (empty : Checkpoint Cfg Dig) :
    List (Event Cfg Dig Key) → State Cfg Dig Key → Option (State Cfg Dig Key)
  | [], s => some s
  | e :: es, s => (e.step empty s).bind (run empty es)

/-- A folder that does not exist yet. -/
def State.new : State Cfg Dig Key := { disk := { cp := .absent, key := .absent }, proc := none }

end Psi.Recovery
