import Verif.DkPir.KeyFileModel

/-!
# The messages that carry sizes, indexes and results

Models `psi/utils/serialize.h:31-123` with the messages of `psi/utils/serializable.proto:21-45`, and the two uses that
hand a result to the other party: `BroadcastResult` (`psi/utils/sync.cc:55-81`) and `BroadcastIntersection`
(`psi/algorithm/psi_operator.cc:24-64`).

The bytes are those of the protobuf wire format (see `Verif/DkPir/KeyFileModel.lean`).  None of the functions looks at
what `ParseFromArray` returns, so what counts is the message as parsing left it.  The field `items` has the type
`string` of proto3 (`serializable.proto:35`): the generated code appends a string and then checks that it is UTF-8; if
not, parsing ends there.  Writing such a string only logs an error.  Both are protobuf's documented and generated
behaviour, taken as given here.

Simplified: messages of more than `2 ^ 31 - 17` bytes are not covered (`SerializeToArray` refuses above `2 ^ 31 - 1`); a
message with fields the sender never writes ends the parsing; the table of counts is a list of its entries in the order
in which protobuf writes them.
-/

namespace Psi.Wire

open Psi.DkPir (varint readVarint readBlock readPacked packed)

/-- A byte that continues a character. -/
def isCont (x : Nat) : Bool := 0x80 ≤ x && x < 0xC0

/-- Is this UTF-8 (RFC 3629)?  Protobuf's check of a `string`. -/
def utf8 : List Nat → Bool
  | [] => true
  | a :: r =>
    if a < 0x80 then utf8 r
    else match r with
      | [] => false
      | b :: r =>
        if 0xC2 ≤ a && a < 0xE0 then isCont b && utf8 r
        else match r with
          | [] => false
          | c :: r =>
            if 0xE0 ≤ a && a < 0xF0 then
              isCont b && isCont c && (a != 0xE0 || 0xA0 ≤ b) && (a != 0xED || b < 0xA0) && utf8 r
            else match r with
              | [] => false
              | d :: r =>
                0xF0 ≤ a && a < 0xF5 && isCont b && isCont c && isCont d && (a != 0xF0 || 0x90 ≤ b) &&
                  (a != 0xF4 || b < 0x90) && utf8 r

/-- `StrItemsProto`: `serializable.proto:34-37`. -/
structure Items where
  items : List (List Nat) := []
  counts : List (Nat × Nat) := []
deriving DecidableEq, Repr

/-- One item: `serialize.h:72-74`. -/
def itemField (d : List Nat) : List Nat := 10 :: (varint d.length ++ d)

/-- An entry of the table of counts; both parts are always written. -/
def entry (e : Nat × Nat) : List Nat := 8 :: (varint e.1 ++ 16 :: varint e.2)

/-- One entry as a field: `serialize.h:75-77`. -/
def countField (e : Nat × Nat) : List Nat := 18 :: (varint (entry e).length ++ entry e)

/-- `SerializeStrItems`: `serialize.h:67-82`. -/
def serItems (m : Items) : List Nat := m.items.flatMap itemField ++ m.counts.flatMap countField

/-- The parts of an entry, one after the other; a part that is missing is 0, the last one counts.  `k` bounds the
number of parts. -/
def readEntry : Nat → Nat × Nat → List Nat → Option (Nat × Nat)
  | _, e, [] => some e
  | 0, _, _ => none
  | k + 1, e, t :: b =>
    if t = 8 then (readVarint 10 b).bind fun r => readEntry k (r.1 % 2 ^ 64, e.2) r.2
    else if t = 16 then (readVarint 10 b).bind fun r => readEntry k (e.1, r.1 % 2 ^ 32) r.2
    else none

/-- An entry is put into the table; an older one with its key goes. -/
def put (l : List (Nat × Nat)) (e : Nat × Nat) : List (Nat × Nat) := l.filter (fun f => f.1 ≠ e.1) ++ [e]

/-- One field: the message after it, and what follows unless parsing ends. -/
def readField (m : Items) : List Nat → Items × Option (List Nat)
  | [] => (m, none)
  | t :: b =>
    match readBlock b with
    | none => (m, none)
    | some (d, rest) =>
      if t = 10 then ({ m with items := m.items ++ [d] }, if utf8 d then some rest else none)
      else if t = 18 then
        match readEntry d.length (0, 0) d with
        | none => (m, none)
        | some e => ({ m with counts := put m.counts e }, some rest)
      else (m, none)

/-- `ParseFromArray`: fields up to the end or up to an error.  `k` bounds their number. -/
def readItems : Nat → Items → List Nat → Items
  | _, m, [] => m
  | 0, m, _ => m
  | k + 1, m, b =>
    match readField m b with
    | (m, none) => m
    | (m, some rest) => readItems k m rest

/-- `DeserializeStrItems` into an empty vector and an empty table: `serialize.h:84-101`. -/
def desItems (b : List Nat) : Items := readItems b.length {} b

/-- `SerializeItemsCnt`: `serialize.h:103-112`; `ItemsCntProto` has the second field of `StrItemsProto` alone. -/
def serCounts (l : List (Nat × Nat)) : List Nat := l.flatMap countField

/-- `DeserializeItemsCnt`: `serialize.h:114-123`. -/
def desCounts (b : List Nat) : List (Nat × Nat) := (desItems b).counts

/-- `SerializeSize`: `serialize.h:31-37`; a zero is not written. -/
def serSize (n : Nat) : List Nat := if n = 0 then [] else 8 :: varint n

/-- `DeserializeSize`: `serialize.h:39-43`, of a message of one field. -/
def desSize : List Nat → Nat
  | [] => 0
  | t :: b => if t = 8 then ((readVarint 10 b).map fun r => r.1 % 2 ^ 64).getD 0 else 0

/-- `SerializeIndexes`: `serialize.h:48-54`; an empty list is not written. -/
def serIndexes (l : List Nat) : List Nat := if l = [] then [] else 10 :: (varint (packed l).length ++ packed l)

/-- `DeserializeIndexes`: `serialize.h:59-65`, of a message of one field.  `w` is the width of `T`, 32 or 64. -/
def desIndexes (w : Nat) : List Nat → List Nat
  | [] => []
  | t :: b =>
    if t = 10 then
      (((readBlock b).bind fun r => readPacked r.1.length r.1).getD []).map (· % 2 ^ w)
    else []

/-- `BroadcastResult` at the end of a party whose own result is `own`, when the message is that of the party with the
result: `sync.cc:74-80`. -/
def received (own : Items) (message : List Nat) : Items := if own.items = [] then desItems message else own

/-- What `BroadcastIntersection` sends: the keys at the positions of the intersection, and how often those appear that
appear more than once: `psi_operator.cc:29-39`.  An input is a key with its number of appearances. -/
def sent (inputs : List (List Nat × Nat)) (inter : List Nat) : Items :=
  let rows := inter.filterMap fun i => inputs[i]?
  { items := rows.map Prod.fst
    counts := (rows.zipIdx.filter fun r => 1 < r.1.2).map fun r => (r.2, r.1.2) }

/-- The positions the receiving party takes for the intersection: `psi_operator.cc:43-61`. -/
def taken (inputs : List (List Nat × Nat)) (m : Items) : List Nat :=
  (inputs.zipIdx.filter fun r => r.1.1 ∈ m.items).map Prod.snd

/-- The count the receiving party notes for a row with this key: the last item with the key counts, and one without an
entry leaves the initial 1 (`psi_io.h:29`): `psi_operator.cc:46-58`.  A key that was not sent has no row. -/
def peerCount (m : Items) (key : List Nat) : Nat :=
  match m.items.zipIdx.reverse.find? fun r => r.1 = key with
  | none => 0
  | some r => ((m.counts.find? fun e => e.1 = r.2).map Prod.snd).getD 1

end Psi.Wire
