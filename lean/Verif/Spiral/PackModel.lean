import Verif.Spiral.NttModel

/-!
# Rows, partitions and plaintext coefficients of Spiral PIR

Models the packing of bytes into coefficients and back (`psi/algorithm/spiral/util.cc`), the partition of long rows
(`psi/algorithm/pir_interface/pir_db.cc`), the conversion of a raw database into plaintexts
(`spiral_server.cc: ConvertRawDbToPtDb, ReorientRawDb, GenerateFromRawData`) and the extraction of a row from decoded
plaintexts (`spiral_client.cc: DecodeResponse`).

Bytes and coefficients are natural numbers.  Reading or writing outside an array is `undefined`, as is a loop that
does not end.  Simplified: sizes and offsets (`size_t`) are not wrapped; a zero divisor in a size is excluded by the
theorems.
-/

namespace Psi.Spiral

/-! ### Bytes to coefficients -/

/-- `flag`, `room` and `coeff_array`. -/
structure PackState where
  flag : Nat
  room : Nat
  arr : Words

/-- The loop over the bits of one byte: `util.cc:161-174` and, with 8-bit cells (`wd = 8`), `util.cc:192-205`.
`fuel` bounds the number of rounds. -/
def packByte (wd n logt : Nat) : Nat → Nat → Nat → PackState → Res PackState
  | _, _, 0, s => .ok s
  | 0, _, _ + 1, _ => .undefined
  | fuel + 1, src, rest + 1, s =>
    let flag := if s.room = 0 then s.flag + 1 else s.flag
    let room := if s.room = 0 then logt else s.room
    if n ≤ flag then .undefined else
    let shift := min room (rest + 1)
    let temp := w64 (s.arr flag <<< shift)
    let arr := upd s.arr flag ((temp ||| (src >>> (8 - shift))) % 2 ^ wd)
    packByte wd n logt fuel (w32 ((src &&& (2 ^ (8 - shift) - 1)) <<< shift)) (rest + 1 - shift)
      ⟨flag, room - shift, arr⟩

/-- The loop over the bytes: `util.cc:157-175`. -/
def packBytes (wd n logt : Nat) (bytes : List Nat) (offset : Nat) : Nat → Nat → PackState → Res PackState
  | 0, _, s => .ok s
  | k + 1, i, s =>
    match bytes[i + offset]? with
    | none => .undefined
    | some b => (packByte wd n logt 8 b 8 s).bind (packBytes wd n logt bytes offset k (i + 1))

/-- `ConvertBytesToCoeffs` (`wd = 64`): `util.cc:149-178`; `ConvertBytesToU8Coeffs` (`wd = 8`): `util.cc:180-211`. -/
def bytesToCoeffs (wd logt offset size : Nat) (bytes : List Nat) : Res (List Nat) :=
  let n := uintNum (8 * size) logt
  (packBytes wd n logt bytes offset size 0 ⟨0, logt, fun _ => 0⟩).bind fun s =>
    if n ≤ s.flag then .undefined
    else .ok ((List.range n).map (upd s.arr s.flag ((s.arr s.flag <<< s.room) % 2 ^ wd)))

/-! ### Coefficients to bytes -/

/-- `j`, `room` and `bytes`. -/
structure UnpackState where
  j : Nat
  room : Nat
  arr : Words

/-- The loop over the bits of one coefficient: `util.cc:107-118`. -/
def unpackCoeff (logt len : Nat) : Nat → Nat → Nat → UnpackState → Res UnpackState
  | _, _, 0, s => .ok s
  | 0, _, _ + 1, s => if s.j < len then .undefined else .ok s
  | fuel + 1, src, rest + 1, s =>
    if s.j < len then
      let shift := min s.room (rest + 1)
      let b := (s.arr s.j <<< shift) % 256
      let b := (b ||| (src >>> (logt - shift))) % 256
      let room := s.room - shift
      unpackCoeff logt len fuel (w64 (src <<< shift)) (rest + 1 - shift)
        ⟨if room = 0 then s.j + 1 else s.j, if room = 0 then 8 else room, upd s.arr s.j b⟩
    else .ok s

/-- The loop over the coefficients: `util.cc:104-119`. -/
def unpackCoeffs (logt len : Nat) : List Nat → UnpackState → Res UnpackState
  | [], s => .ok s
  | c :: cs, s => (unpackCoeff logt len logt c logt s).bind (unpackCoeffs logt len cs)

/-- `ConvertCoeffsToBytes`, both overloads: `util.cc:97-147`. -/
def coeffsToBytes (coeffs : List Nat) (logt : Nat) : Res (List Nat) :=
  let len := uintNum (coeffs.length * logt) 8
  (unpackCoeffs logt len coeffs ⟨0, 8, fun _ => 0⟩).bind fun s => .ok ((List.range len).map s.arr)

/-! ### Partition -/

/-- `RawDatabase::Partition`: `pir_db.cc:81-127`. -/
def partitionRows (rows : List (List Nat)) (rowLen partLen : Nat) : List (List (List Nat)) :=
  if rowLen ≤ partLen then [rows]
  else
    let num := (rowLen + partLen - 1) / partLen
    let start := (num - 1) * partLen
    let stop := min (start + partLen) rowLen
    ((List.range (num - 1)).map fun i => rows.map fun r => (r.drop (i * partLen)).take partLen) ++
      [rows.map fun r =>
        (r.drop start).take (stop - start) ++ List.replicate (partLen - (stop - start)) 0]

/-- `RawDatabase::Combine`: `pir_db.cc:51-79`. -/
def combineRow (data : List (List Nat)) (rowLen : Nat) : Res (List Nat) :=
  match data with
  | [] => .undefined
  | [d] => if d.length = rowLen then .ok d else .throws
  | d :: ds =>
    let m := d.length
    if ¬ ∀ x ∈ d :: ds, x.length = m then .throws
    else if (ds.length + 1) * m < rowLen then .throws
    else if rowLen < ds.length * m then .undefined
    else .ok (((d :: ds).take ds.length).flatten ++ ((d :: ds).getLastD []).take (rowLen - ds.length * m))

/-! ### Plaintexts -/

/-- The sizes of a plaintext: `PtModulusBitLen()` and `PtCoeffs()` (`params.h:258-260`, `params.h:318-320`). -/
structure PackPar where
  logt : Nat
  coeffs : Nat

namespace PackPar

/-- `MaxByteLenOfPt`: `params.h:343-347`. -/
def maxBytes (P : PackPar) : Nat := P.coeffs * P.logt / 8

/-- `ElementSizeOfPt`: `params.cc:88-100`. -/
def elementSize (P : PackPar) (len : Nat) : Nat := max (P.coeffs / uintNum (8 * len) P.logt) 1

/-- `element_byte_len`: `spiral_server.cc:51-52`, `spiral_client.cc:374-375`. -/
def elementLen (P : PackPar) (rowLen : Nat) : Nat := min rowLen P.maxBytes

end PackPar

/-- The loop over the plaintexts: `spiral_server.cc:80-102`, `spiral_server.cc:162-184`. -/
def ptLoop (wd : Nat) (P : PackPar) (combined : List Nat) (len perPt total used : Nat) : Nat → Nat → Res (List (List Nat))
  | 0, _ => .ok []
  | k + 1, offset =>
    if total ≤ offset then .ok []
    else
      let size := if total < offset + perPt then total - offset else perPt
      if len = 0 then .undefined
      else if size % len ≠ 0 then .throws
      else (bytesToCoeffs wd P.logt offset size combined).bind fun cs =>
        if used < cs.length then .throws
        else (ptLoop wd P combined len perPt total used k (offset + size)).bind fun rest =>
          .ok ((cs ++ List.replicate (P.coeffs - cs.length) 1) :: rest)

/-- `ConvertRawDbToPtDb` (`wd = 8`), before flattening, and `ReorientRawDb` (`wd = 64`), before reorienting:
`spiral_server.cc:120-205`, `spiral_server.cc:38-118`.  `rows` and `rowLen` are `database_info_`, `prod` is
`1 << (v1 + v2)`. -/
def rawToPts (wd : Nat) (P : PackPar) (rows rowLen prod : Nat) (raw : List (List Nat)) : Res (List (List Nat)) :=
  if raw.length ≠ rows then .throws
  else match raw with
    | [] => .undefined
    | r0 :: _ =>
      if P.maxBytes < r0.length then .throws
      else
        let len := P.elementLen rowLen
        let es := P.elementSize len
        let ptSize := uintNum raw.length es
        let used := es * uintNum (8 * len) P.logt
        if P.coeffs < used then .throws
        else (ptLoop wd P raw.flatten len (es * len) (rows * len) used ptSize 0).bind fun pts =>
          if ptSize < pts.length then .throws
          else .ok (pts ++ List.replicate (prod - pts.length) (List.replicate P.coeffs 1))

def mapRes {α β : Type} (f : α → Res β) : List α → Res (List β)
  | [] => .ok []
  | a :: as => (f a).bind fun b => (mapRes f as).bind fun bs => .ok (b :: bs)

/-- The plaintexts of all partitions: `GenerateFromRawData` (`spiral_server.cc:337-373`),
`GenerateFromRawDataAndReorient` (`spiral_server.cc:430-462`). -/
def databasePts (wd : Nat) (P : PackPar) (rowLen prod : Nat) (raw : List (List Nat)) :
    Res (List (List (List Nat))) :=
  if rowLen ≤ P.maxBytes then (rawToPts wd P raw.length rowLen prod raw).bind fun p => .ok [p]
  else mapRes (rawToPts wd P raw.length rowLen prod) (partitionRows raw rowLen P.maxBytes)

/-- `flatten` of `ConvertRawDbToPtDb` followed by the split of `PtDbsToReorientedDbs`: plaintext `j`, coefficient `k`
of partition `i` (`spiral_server.cc:194-205`, `spiral_server.cc:271-296`). -/
def storedCoeff (P : PackPar) (prod : Nat) (parts : List (List (List Nat))) (i j k : Nat) : Option Nat :=
  (parts.map List.flatten).flatten[i * (prod * P.coeffs) + j * P.coeffs + k]?

/-- One round of `DecodeResponse`, from decoded coefficients: `spiral_client.cc:364-382`. -/
def extractRow (P : PackPar) (rowLen idx : Nat) (coeffs : List Nat) : Res (List Nat) :=
  if coeffs.length ≠ P.coeffs then .throws
  else (coeffsToBytes coeffs P.logt).bind fun bytes =>
    let len := P.elementLen rowLen
    let offset := idx % P.elementSize len
    if offset * len + len ≤ bytes.length then .ok ((bytes.drop (offset * len)).take len) else .undefined

/-- `DecodeResponse`, from the decoded coefficients of every partition: `spiral_client.cc:355-387`. -/
def decodeRow (P : PackPar) (rowLen idx : Nat) (parts : List (List Nat)) : Res (List Nat) :=
  if parts.length ≠ (rowLen + P.maxBytes - 1) / P.maxBytes then .throws
  else (mapRes (extractRow P rowLen idx) parts).bind fun rs => combineRow rs rowLen

/-- The plaintext the client asks for: `spiral_client.h:88-94`. -/
def ptIndex (P : PackPar) (rowLen idx : Nat) : Nat := idx / P.elementSize (P.elementLen rowLen)

end Psi.Spiral
