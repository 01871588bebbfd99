import Verif.Run.Model
import Mathlib.Data.String.Basic

/-!
# The programming interface and the launcher

`psi/apps/psi_launcher/launch.cc` turns the plain structures of `psi/config/*.h` into the messages of `Psi.Run`;
`psi/apps/psi_launcher/kuscia_adapter.cc` and `psi/utils/resource_manager.cc` give the parties their ranks.

Not modelled: tracing, logging, the conversion of the private information retrieval options, JSON.
-/

namespace Psi.Launch

open Psi.Run

/-- `psi/config/protocol.h:24-57`. -/
inductive ApiProtocol
  | unspecified | ecdh | kkrt | rr22 | ecdh3pc | ecdhNpc | kkrtNpc | dp
deriving DecidableEq, Repr

/-- `PsiExecuteConfig` with the structures inside it: `psi/config/psi.h:52-118`, `psi/config/protocol.h:59-104`.
The curves, sources and join types have the same members as their counterparts in the messages.  The two floating
point numbers of DP-PSI are kept as they are, in their bits. -/
structure Exec where
  protocol : ApiProtocol := .unspecified
  receiverRank : Nat := 0
  bucketSize : Nat := 2 ^ 20
  broadcast : Bool := false
  curve : CurveType := .invalid
  batchSize : Nat := 4096
  lowComm : Bool := false
  subSampling : Nat := 0
  epsilon : Nat := 0
  inputType : IoType := .csv
  inputPath : String := ""
  keys : List String := []
  keysUnique : Bool := false
  outputType : IoType := .csv
  outputPath : String := ""
  disableAlignment : Bool := false
  nullRep : String := "NULL"
  joinType : JoinType := .inner
  leftRank : Nat := 0
  checkpoint : Bool := false
  checkpointPath : String := ""
deriving DecidableEq, Repr

/-- `kV2ProtoclMap.at`: `psi/apps/psi_launcher/launch.cc:325-328`; `none` is the exception. -/
def v2Protocol : ApiProtocol → Option Protocol
  | .ecdh => some .ecdh
  | .kkrt => some .kkrt
  | .rr22 => some .rr22
  | _ => none

/-- `ExecConfToV2Conf`: `psi/apps/psi_launcher/launch.cc:366-423`.  The maps of curves, sources and join types are
total and keep the names (lines 337-364). -/
def toV2 (e : Exec) (rank : Nat) : Option PsiConfig :=
  (v2Protocol e.protocol).map fun p =>
    { protocolConfig := some
        { protocol := p
          role := if e.receiverRank = rank then .receiver else .sender
          broadcast := e.broadcast
          ecdh := some { curve := e.curve, batchSize := e.batchSize }
          kkrt := some { bucketSize := e.bucketSize }
          rr22 := some { bucketSize := e.bucketSize, lowComm := e.lowComm } }
      inputConfig := some { type := e.inputType, path := e.inputPath }
      inputAttr := some e.keysUnique
      outputAttr := some e.nullRep
      outputConfig := some { type := e.outputType, path := e.outputPath }
      keys := e.keys
      disableAlignment := e.disableAlignment
      recovery := some { enabled := e.checkpoint, folder := e.checkpointPath }
      joinType := e.joinType
      leftSide := if e.leftRank = e.receiverRank then .receiver else .sender
      checkDigest := true }

/-- `psi/proto/psi.proto:28-71`: the types the interface can ask for. -/
inductive LegacyType
  | ecdh3pc | ecdhNpc | kkrtNpc | dp
deriving DecidableEq, Repr

/-- The fields of `BucketPsiConfig` that are set: `psi/proto/psi.proto:193-250`. -/
structure Legacy where
  type : LegacyType
  receiverRank : Nat
  broadcast : Bool
  inputPath : String
  fields : List String
  precheck : Bool
  outputPath : String
  needSort : Bool
  curve : CurveType
  bucketSize : Nat
  subSampling : Nat
  epsilon : Nat
deriving DecidableEq, Repr

/-- `kPsiTypeMap.at`: `psi/apps/psi_launcher/launch.cc:330-335`. -/
def legacyType : ApiProtocol → Option LegacyType
  | .ecdh3pc => some .ecdh3pc
  | .ecdhNpc => some .ecdhNpc
  | .kkrtNpc => some .kkrtNpc
  | .dp => some .dp
  | _ => none

/-- `ExecConfToBucketConf`: `psi/apps/psi_launcher/launch.cc:425-449`. -/
def toLegacy (e : Exec) : Option Legacy :=
  (legacyType e.protocol).map fun t =>
    { type := t
      receiverRank := e.receiverRank
      broadcast := e.broadcast
      inputPath := e.inputPath
      fields := e.keys
      precheck := !e.keysUnique
      outputPath := e.outputPath
      needSort := !e.disableAlignment
      curve := e.curve
      bucketSize := e.bucketSize
      subSampling := e.subSampling
      epsilon := e.epsilon }

/-- What `PsiExecute` starts. -/
inductive Started
  | v2 (c : PsiConfig)
  | legacy (c : Legacy)
  | exception
deriving DecidableEq, Repr

/-- `PsiExecute`: `psi/apps/psi_launcher/launch.cc:451-478`. -/
def execute (e : Exec) (rank : Nat) : Started :=
  if e.protocol = .unspecified then .exception
  else if e.protocol = .ecdh3pc ∨ e.protocol = .ecdhNpc ∨ e.protocol = .kkrtNpc ∨ e.protocol = .dp then
    match toLegacy e with
    | some c => .legacy c
    | none => .exception
  else
    match toV2 e rank with
    | some c => .v2 c
    | none => .exception

/-! ## Unbalanced PSI -/

/-- `UbPsiRole`: `psi/config/ub_psi.h:23-33`. -/
inductive UbRole
  | unspecified | server | client
deriving DecidableEq, Repr

/-- `UbPsiExecuteConfig`: `psi/config/ub_psi.h:41-79`. -/
structure UbExec where
  mode : Mode := .unspecified
  role : UbRole := .unspecified
  serverGets : Bool := false
  clientGets : Bool := false
  cachePath : String := ""
  secretKeyPath : String := ""
  inputType : IoType := .csv
  inputPath : String := ""
  keys : List String := []
  keysUnique : Bool := false
  outputType : IoType := .csv
  outputPath : String := ""
  disableAlignment : Bool := false
  nullRep : String := "NULL"
  joinType : JoinType := .inner
  leftRank : Nat := 0
deriving DecidableEq, Repr

/-- The fields of `UbPsiConfig` that are set: `psi/proto/psi_v2.proto:400-485`. -/
structure UbConfig where
  mode : Mode
  role : Role
  secretKeyPath : String
  cachePath : String
  serverGets : Bool
  clientGets : Bool
  input : IoConfig
  keysUnique : Bool
  nullRep : String
  output : IoConfig
  keys : List String
  disableAlignment : Bool
  joinType : JoinType
  leftSide : Role
deriving DecidableEq, Repr

/-- `UbExecConfToUbconf`: `psi/apps/psi_launcher/launch.cc:493-540`. -/
def toUb (e : UbExec) (rank : Nat) : Option UbConfig :=
  if e.role = .unspecified then none
  else some
    { mode := e.mode
      role := if e.role = .server then .server else .client
      secretKeyPath := e.secretKeyPath
      cachePath := e.cachePath
      serverGets := e.serverGets
      clientGets := e.clientGets
      input := { type := e.inputType, path := e.inputPath }
      keysUnique := e.keysUnique
      nullRep := e.nullRep
      output := { type := e.outputType, path := e.outputPath }
      keys := e.keys
      disableAlignment := e.disableAlignment
      joinType := e.joinType
      leftSide :=
        if e.role = .server then (if e.leftRank = rank then .server else .client)
        else (if e.leftRank ≠ rank then .server else .client) }

/-! ## Ranks -/

/-- A party of the cluster definition: its name and its first endpoint. -/
structure Party where
  name : String
  endpoint : String
deriving DecidableEq, Repr

/-- `std::map::operator[]` followed by an assignment, with the entries in the order of the keys. -/
def mapSet {V : Type} (k : String) (v : V) : List (String × V) → List (String × V)
  | [] => [(k, v)]
  | x :: l => if k < x.1 then (k, v) :: x :: l else if k = x.1 then (k, v) :: l else x :: mapSet k v l

/-- The host of the party with index `i`: `psi/apps/psi_launcher/kuscia_adapter.cc:78-81`. -/
def hostOf (self i port : Nat) (p : Party) : String :=
  if i = self then "0.0.0.0:" ++ toString port else "http://" ++ p.endpoint

/-- The loop over the parties: `psi/apps/psi_launcher/kuscia_adapter.cc:73-82`. -/
def hostMap (self port : Nat) : Nat → List Party → List (String × String) → List (String × String)
  | _, [], m => m
  | i, p :: ps, m => hostMap self port (i + 1) ps (mapSet p.name (hostOf self i port p) m)

/-- A link: its parties, by id and host, and the own id. -/
structure Link where
  parties : List (String × String)
  self : String
deriving DecidableEq, Repr

/-- `FromKusciaConfig`; `given` are the parties already in the launch configuration, `none` an index out of range:
`psi/apps/psi_launcher/kuscia_adapter.cc:48-49, 70-96`. -/
def fromKuscia (parties : List Party) (self port : Nat) (given : List (String × String)) : Option Link :=
  (parties[self]?).map fun p => ⟨given ++ hostMap self port 0 parties [], p.name⟩

/-- `LinkResource::Acquire`: the last party with the own name: `psi/utils/resource_manager.cc:36-45`. -/
def rankLoop (name : String) : Nat → List (String × String) → Option Nat → Option Nat
  | _, [], r => r
  | i, p :: ps, r => rankLoop name (i + 1) ps (if p.1 = name then some i else r)

def rankOf (l : Link) : Option Nat := rankLoop l.self 0 l.parties none

end Psi.Launch
