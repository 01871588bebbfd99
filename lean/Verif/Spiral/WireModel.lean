import Verif.Spiral.SchemeModel

/-!
# The messages and the stored form of Spiral PIR

Models `psi/algorithm/spiral/serialize.cc`, `PolyMatrixRaw::ToProto` and its companions (`poly_matrix.cc:36-96`), the
serialization of queries (`spiral_client.cc:31-104`), `SpiralServer::Response` (`spiral_server.h:88-112`) and the dump of
a server (`spiral_server.cc:208-335`).

External: a message is the protobuf object, that is, `ParseFromArray` of what `SerializePartialToArray` wrote gives the
same fields; yacl's `Prg<uint64_t>` is the pair of functions `fill` (the words `Fill` writes) and `draw` (the words
successive calls of `operator()` return).  Simplified: a vector of words that is too short is read as zeros behind its
end, `reoriented_dbs_` is the list of its partitions, and `database_info_` of a server agrees with the row length of the
database it is built from.
-/

namespace Psi.Spiral

/-- `PolyMatrixProto`: `serializable.proto:19-23`. -/
structure MatProto where
  rows : Nat
  cols : Nat
  data : List Nat

/-- `ToProto`: `poly_matrix.cc:36-44`. -/
def toProto (P : Par) (M : Mat) : MatProto := ⟨M.rows, M.cols, matWords P M⟩

/-- `ToProtoRng`: `poly_matrix.cc:46-57`. -/
def toProtoRng (P : Par) (M : Mat) : Res MatProto :=
  if 1 < M.rows then .ok ⟨M.rows - 1, M.cols, (matWords P M).drop (M.cols * P.n)⟩ else .throws

/-- The matrix of a vector of words: `poly_matrix.h:34-39`. -/
def matOf (P : Par) (rows cols : Nat) (data : List Nat) : Mat := ⟨rows, cols, fun k z => data.getD (k * P.n + z) 0⟩

/-- `FromProto`: `poly_matrix.cc:59-73`.  The product is that of `size_t`. -/
def fromProto (P : Par) (m : MatProto) : Res Mat :=
  if w64 (m.rows * m.cols * P.n) = m.data.length then .ok (matOf P m.rows m.cols m.data) else .throws

/-- `FromProtoRng`: `poly_matrix.cc:75-98`, with the constructor's enforce. -/
def fromProtoRng (P : Par) (draw : Nat → Nat) (m : MatProto) : Res Mat :=
  if w64 (m.rows * m.cols * P.n) = m.data.length then
    let first := (List.range (w64 (m.cols * P.n))).map fun i => P.modulus - draw i % P.modulus
    if w64 (P.n * (m.rows + 1) * m.cols) ≤ (first ++ m.data).length then
      .ok (matOf P (w64 (m.rows + 1)) m.cols (first ++ m.data))
    else .throws
  else .throws

/-! ### Public keys -/

/-- `PublicKeysProto`: `serializable.proto:30-38`. -/
structure KeysProto where
  packing : List MatProto
  left : List MatProto
  right : List MatProto
  conversion : List MatProto

/-- `SerializePublicKeys`: `serialize.cc:160-187`; `v_conversion_` has one entry. -/
def serializeKeys (P : Par) (K : PublicKeys) : KeysProto where
  packing := K.packing.map fun k => toProto P (fromNtt P k)
  left := K.left.map fun k => toProto P (fromNtt P k)
  right := K.right.map fun k => toProto P (fromNtt P k)
  conversion := [toProto P (fromNtt P K.conversion)]

/-- One loop of `DeserializePublicKeys`. -/
def readKeys (P : Par) (l : List MatProto) : Res (List Mat) :=
  mapRes (fun m => (fromProto P m).bind fun M => .ok (toNtt P M)) l

/-- `DeserializePublicKeys`: `serialize.cc:254-293`.  The server reads `v_conversion_[0]` (`spiral_server.cc:828`).
Simplified: that this entry is missing shows here, and so before the server looks whether it is ready. -/
def deserializeKeys (P : Par) (m : KeysProto) : Res PublicKeys :=
  (readKeys P m.packing).bind fun packing => (readKeys P m.left).bind fun left => (readKeys P m.right).bind fun right =>
    (readKeys P m.conversion).bind fun conversion =>
      match conversion with
      | [] => .undefined
      | c :: _ => .ok ⟨packing, left, right, c⟩

/-! ### Query -/

/-- `SpiralQueryProto`: `serializable.proto:25-28`. -/
structure QueryProto where
  ct : MatProto
  seed : List Nat

/-- The bytes of a `uint128_t`. -/
def seedBytes (seed : Nat) : List Nat := (List.range 16).map fun i => seed / 256 ^ i % 256

/-- `memcpy` of 16 bytes into a `uint128_t`. -/
def readSeed (bytes : List Nat) : Res Nat := if bytes.length < 16 then .undefined else 
    .ok ((bytes.take 16).foldr (fun b x => b + 256 * x) 0)

/-- `SerializeRng`: `spiral_client.cc:66-76`. -/
def serializeQuery (P : Par) (query : Mat) (seed : Nat) : Res QueryProto :=
  (toProtoRng P query).bind fun ct => .ok ⟨ct, seedBytes seed⟩

/-- `DeserializeRng`: `spiral_client.cc:86-103`. -/
def deserializeQuery (P : Par) (draw : Nat → Nat → Nat) (m : QueryProto) : Res Mat :=
  (readSeed m.seed).bind fun seed => fromProtoRng P (draw seed) m.ct

/-- The draw of the query, its public polynomial from the seed: `spiral_client.cc:142`, `poly_matrix.cc:232-239`. -/
def seededSample (P : Par) (fill : Nat → Nat → Nat) (seed : Nat) (e : Nat → Nat → Nat → ℤ) : Nat → Sample :=
  fun _ => ⟨.build 1 1 fun _ _ z => fill seed z % P.modulus, e⟩

/-- `GenerateIndexQuery`: `spiral_client.h:118-122`. -/
def sendQuery (P : Par) (D : Scheme) (fill : Nat → Nat → Nat) (skReg : Mat) (idx invFirst invRest seed : Nat)
    (e : Nat → Nat → Nat → ℤ) : Res QueryProto :=
  (genQuery P D skReg idx invFirst invRest (seededSample P fill seed e)).bind fun query => serializeQuery P query seed

/-! ### Response -/

/-- `DeserializeResponse`: `serialize.cc:240-252`. -/
def deserializeResponse (P : Par) (l : List MatProto) : Res (List Mat) := mapRes (fromProto P) l

/-- `DecodeIndexResponse`: `spiral_client.h:129-135`. -/
def receiveAnswer (P Q : Par) (D : Scheme) (q2 : Nat) (pk : PackPar) (skGsw : Mat) (rowLen idx : Nat) (resp : List MatProto) :
    Res (List Nat) :=
  (deserializeResponse P resp).bind fun r => decodeAnswer P Q D q2 pk skGsw rowLen idx r

/-! ### The server -/

/-- The members of `SpiralServer`: `spiral_server.h:180-205`.  `dbs` are the partitions of `reoriented_dbs_`. -/
structure Server where
  rows : Nat
  rowLen : Nat
  dims : Dims
  ptNums : Nat := 0
  singlePt : Nat := 0
  singleDb : Nat := 0
  partNum : Nat := 1
  ptDbs : List Nat := []
  dbs : List Words := []
  seted : Bool := false

/-- `1 << (DbDim1() + DbDim2())`. -/
def Server.prod (S : Server) : Nat := 2 ^ S.dims.v1 * 2 ^ S.dims.v2

/-- What a member keeps when the server is given a database: one partition is assigned, several are inserted behind what
is there (`spiral_server.cc:348-354`, `360-370`, `436-442`, `448-459`). -/
def Server.kept {α : Type} (pk : PackPar) (S : Server) (member : List α) : List α :=
  if S.rowLen ≤ pk.maxBytes then [] else member

/-- `GenerateFromRawData`: `spiral_server.cc:337-373`. -/
def Server.generate (pk : PackPar) (S : Server) (raw : List (List Nat)) : Res Server :=
  if pk.logt ≠ 8 then .throws
  else if raw.length ≠ S.rows then .throws
  else (databasePts 8 pk S.rowLen S.prod raw).bind fun parts =>
    .ok { S with
      ptNums := uintNum raw.length (pk.elementSize (pk.elementLen S.rowLen))
      singlePt := (parts.headD []).flatten.length
      partNum := parts.length
      ptDbs := S.kept pk S.ptDbs ++ (parts.map List.flatten).flatten
      seted := true }

/-- `GenerateFromRawDataAndReorient`: `spiral_server.cc:430-462`. -/
def Server.generateReoriented (P : Par) (D : Scheme) (pk : PackPar) (S : Server) (raw : List (List Nat)) : Res Server :=
  if raw.length ≠ S.rows then .throws
  else (databasePts 64 pk S.rowLen S.prod raw).bind fun parts =>
    (mapRes (reorientDatabase P D.p (D.n * D.n) (2 ^ S.dims.v2) (2 ^ S.dims.v1)) parts).bind fun dbs =>
      .ok { S with
        ptNums := uintNum raw.length (pk.elementSize (pk.elementLen S.rowLen))
        singleDb := D.n * D.n * S.prod * P.n
        partNum := parts.length
        dbs := S.kept pk S.dbs ++ dbs
        seted := true }

/-- `Response`: `spiral_server.h:88-112` with the enforce of `ProcessQuery` (`spiral_server.cc:684-685`).  A server without
reoriented data reads behind the end of `reoriented_dbs_` (`spiral_server.cc:882-957`). -/
def Server.respond (P : Par) (D : Scheme) (q2 : Nat) (draw : Nat → Nat → Nat) (S : Server) (qm : QueryProto) (km : KeysProto) :
    Res (List MatProto) :=
  (deserializeQuery P draw qm).bind fun query => (deserializeKeys P km).bind fun K =>
    if S.seted = false then .throws
    else if expandOk { D with dims := S.dims } = true ∧ S.dbs.length < S.partNum then .undefined
    else (processQuery P { D with dims := S.dims } q2 K (concatDbs S.singleDb S.dbs) S.singleDb S.partNum query).bind fun resp =>
      .ok (resp.map (toProto P))

/-- `SpiralServerProto`: `serializable.proto:44-56`. -/
structure ServerProto where
  rows : Nat
  rowLen : Nat
  ptNums : Nat
  dim1 : Nat
  dim2 : Nat
  singlePt : Nat
  partNum : Nat
  ptDbs : List Nat

/-- `SerializeToProto`, as `Dump` writes it: `spiral_server.cc:208-231`, `spiral_server.cc:311-321`. -/
def Server.dump (S : Server) : Res ServerProto :=
  if S.seted = false then .throws
  else .ok ⟨S.rows, S.rowLen, S.ptNums, S.dims.v1, S.dims.v2, S.singlePt, S.partNum, S.ptDbs⟩

/-- `sub_pt_db` of partition `i`: `spiral_server.cc:280-296`. -/
def subPtDb (pk : PackPar) (prod single : Nat) (ptDbs : List Nat) (i : Nat) : List (List Nat) :=
  (List.range prod).map fun j => (List.range pk.coeffs).map fun k => ptDbs.getD (i * single + j * pk.coeffs + k) 0

/-- `DeserializeFromProto` with `PtDbsToReorientedDbs`: `spiral_server.cc:233-309`.  `P`, `D`, `pk`, `polyLog` and `tgsw`
are those of `GetDefaultParam`, the dimensions of `D` being set by `UpdateByDatabaseInfo`. -/
def Server.load (P : Par) (n p : Nat) (pk : PackPar) (polyLog tgsw : Nat) (m : ServerProto) : Res Server :=
  (updateByDatabaseInfo pk polyLog tgsw m.rows m.rowLen).bind fun x =>
    let d := x.1
    let prod := 2 ^ d.v1 * 2 ^ d.v2
    if x.2 ≠ m.ptNums then .throws
    else if d.v1 ≠ m.dim1 then .throws
    else if d.v2 ≠ m.dim2 then .throws
    else if w64 (m.singlePt * m.partNum) ≠ m.ptDbs.length then .throws
    else if m.ptDbs.length ≠ w64 (m.partNum * prod * pk.coeffs) then .throws
    else if m.singlePt ≠ pk.coeffs * prod then .throws
    else (mapRes (reorientDatabase P p (n * n) (2 ^ d.v2) (2 ^ d.v1))
        ((List.range m.partNum).map (subPtDb pk prod m.singlePt m.ptDbs))).bind fun dbs =>
      .ok { rows := m.rows, rowLen := m.rowLen, dims := d, ptNums := x.2, singlePt := m.singlePt,
            singleDb := n * n * prod * P.n, partNum := m.partNum, ptDbs := [], dbs := dbs, seted := true }

end Psi.Spiral
