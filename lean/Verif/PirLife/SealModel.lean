import Verif.SealPir.Props

/-!
# The life of a SealPIR server

Models the members of `SealPirServer` (`seal_pir.h:221-288`) over several calls: the constructor, the three ways to give it a
database, the answers, storing and loading, with the stores of plaintexts (`seal_pir_utils.cc`).  A call gives the server
behind it also when it throws.

Simplified: as in `Verif.SealPir.Model`; the Galois keys that a server may keep are left out.
-/

namespace Psi.PirLife

open Psi.Spiral (Res uintNum mapRes partitionRows)
open Psi.SealPir (Seal Params Options Plain setParams partPlains)

/-- A `MemoryDbPlaintextStore`: `seal_pir_utils.h:74-91`.  `none` before the first `SetSubDbNumber(1)`. -/
abbrev Store := Option (List Plain)

/-- `SetSubDbNumber(1)`: `seal_pir_utils.cc:36-38`.  `resize` keeps what is there. -/
def Store.setSubDb (s : Store) : Store := some (s.getD [])

/-- `SavePlaintexts`: `seal_pir_utils.cc:45-50`. -/
def Store.save (s : Store) (ps : List Plain) : Store := s.map (· ++ ps)

/-- `ReadPlaintexts(0)`: `seal_pir_utils.cc:52-56`. -/
def Store.read (s : Store) : Res (List Plain) :=
  match s with
  | none => .throws
  | some ps => .ok ps

/-- `SealPirServer`. -/
structure SealServer where
  P : Params
  stores : List Store
  seted : Bool

/-- The constructor: `seal_pir.cc:612-622`. -/
def SealServer.make (root : Nat → Nat → Nat) (o : Options) : Res SealServer :=
  (setParams root o).bind fun P => .ok ⟨P, List.replicate P.partNum none, false⟩

/-- The loop over the partitions, the part of one partition: `seal_pir.cc:666-735`, `763-832`. -/
def fillStore (S : Seal) (P : Params) (rows : List (List Nat)) (s : Store) : Store × Res Unit :=
  match partPlains S P rows with
  | .ok ps => (s.setSubDb.save ps, .ok ())
  | .throws => (s.setSubDb, .throws)
  | .undefined => (s.setSubDb, .undefined)

/-- The loop over the partitions: `seal_pir.cc:664-736`, `761-833`. -/
def fillStores (S : Seal) (P : Params) : List (List (List Nat)) → List Store → List Store × Res Unit
  | [], ss => (ss, .ok ())
  | _ :: _, [] => ([], .undefined)
  | rows :: parts, s :: ss =>
    match fillStore S P rows s with
    | (s', .ok _) =>
      let x := fillStores S P parts ss
      (s' :: x.1, x.2)
    | (s', .throws) => (s' :: ss, .throws)
    | (s', .undefined) => (s' :: ss, .undefined)

/-- The loop, and `db_seted_ = true` behind it: `seal_pir.cc:645-739`, `753-836`. -/
def SealServer.fill (S : Seal) (V : SealServer) (parts : List (List (List Nat))) : SealServer × Res Unit :=
  if V.P.dims.prod ≤ V.P.numPts then (V, .throws)
  else if parts.length < V.P.partNum then (V, .undefined)
  else
    match fillStores S V.P (parts.take V.P.partNum) V.stores with
    | (ss, .ok _) => (⟨V.P, ss, true⟩, .ok ())
    | (ss, .throws) => ({ V with stores := ss }, .throws)
    | (ss, .undefined) => ({ V with stores := ss }, .undefined)

/-- `GenerateFromRawData(const RawDatabase&)`: `seal_pir.cc:741-836`. -/
def SealServer.generate (S : Seal) (V : SealServer) (raw : List (List Nat)) (rowLen : Nat) : SealServer × Res Unit :=
  let parts := partitionRows raw rowLen V.P.partSize
  if parts.length ≠ V.P.partNum then (V, .throws) else V.fill S parts

/-- `GenerateFromRawData(const vector<ByteContainerView>&)`: `seal_pir.cc:838-851`.  `RawDatabase` reads the first row
(`pir_db.h:86-89`). -/
def SealServer.generateViews (S : Seal) (V : SealServer) (raw : List (List Nat)) : SealServer × Res Unit :=
  if ∃ r ∈ raw, r.length ≠ V.P.eleSize then (V, .throws)
  else if raw = [] then (V, .undefined)
  else ({ V with seted := true } : SealServer).generate S raw V.P.eleSize

/-- `GenerateFromSimpleHashTable`: `seal_pir.cc:624-739`.  `SetPirParams` (`seal_pir.cc:289-321`) sets its members at its
end only. -/
def SealServer.generateTable (S : Seal) (root : Nat → Nat → Nat) (V : SealServer) (raw : List (List Nat)) (rowLen : Nat) :
    SealServer × Res Unit :=
  let parts := partitionRows raw rowLen V.P.partSize
  if parts.length ≠ V.P.partNum then (V, .throws)
  else
    match setParams root ⟨V.P.n, raw.length, rowLen, 2, V.P.logt⟩ with
    | .ok P => ({ V with P := P } : SealServer).fill S parts
    | .throws => (V, .throws)
    | .undefined => (V, .undefined)

/-- The answer for a partition: `seal_pir.cc:1002-1108`. -/
def SealServer.respondPart (S : Seal) (V : SealServer) (keys : List Nat) (query : List (List S.Ct)) (i : Nat) : Res (List S.Ct) :=
  match V.stores[i]? with
  | none => .undefined
  | some s => s.read.bind fun db => SealPir.respond S V.P.logt keys V.P.dims query V.P.dims.prod db

/-- `GenerateResponse`: `seal_pir.cc:989-1111`. -/
def SealServer.respond (S : Seal) (V : SealServer) (keys : List Nat) (query : List (List S.Ct)) : Res (List (List S.Ct)) :=
  if V.seted = false then .throws
  else mapRes (V.respondPart S keys query) (List.range V.P.partNum)

/-- A client made with parameters `P` asks the server for a row (`SealPir.ask` with this server). -/
def SealServer.ask (S : Seal) (V : SealServer) (P : Params) (coin : Nat → Nat → S.Coin) (rawIdx : Nat) : Res (List Nat) :=
  (SealPir.generateQuery S coin P.dims (rawIdx / P.perPt)).bind fun q =>
  (V.respond S (SealPir.galoisElts S) q).bind fun r =>
  SealPir.decodeResponse S P r rawIdx

/-- `Dump`: `seal_pir.cc:853-888`, `929-938`. -/
def SealServer.dump (V : SealServer) : Res SealPir.ServerProto :=
  if V.seted = false then .throws
  else (mapRes Store.read V.stores).bind fun dbs => .ok (SealPir.dump V.P dbs)

/-- `Load`: `seal_pir.cc:890-927`, `940-953`. -/
def SealServer.load (root : Nat → Nat → Nat) (p : SealPir.ServerProto) : Res SealServer :=
  (SealPir.load root p).bind fun x => .ok ⟨x.1, x.2.map some, true⟩

end Psi.PirLife
