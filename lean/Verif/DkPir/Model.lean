import Verif.Spiral.PackModel
import Verif.Text.Model
import Mathlib.Algebra.Group.Defs
import Mathlib.Data.List.Dedup

/-!
# DK-PIR: billable retrieval of all rows of a key

Models `psi/algorithm/dkpir/{common,sender,sender_cnt_db,receiver,oprf_receiver,entry}.cc`, `psi/utils/csv_converter.cc` and
the reading of tables by `psi/wrapper/apsi/utils/{csv_reader,sender_db}.cc`.

Parameters: the elliptic curve groups for billing and for the OPRF (any commutative groups, written additively), the map of items to points, all random
numbers, the permutation `std::shuffle` computes from seed, counter and length, the order of iteration over an `unordered_map`.

Simplified: retrieval with APSI returns the label that the sender stored under the queried OPRF value, and nothing when there
is none; labels come back without padding; the hash taken of an OPRF point (item hash and label key) is
the point itself; text is a list of characters; the user's own files are given as tables, the files written in between as
text, read with Arrow's default options; a quoted field does not run over the end of a line and `\r` does not occur; points
and ciphertexts travel unchanged; the threads of `ProcessQueries` run one after the other (they write different places).
-/

namespace Psi.DkPir

open Psi.Spiral (Res mapRes)

abbrev Str := List Char

/-- `kColumnDelimiter`: `csv_converter.h:26`. -/
def colDelim : Char := Char.ofNat 0x1E

/-- `kRowDelimiter`: `csv_converter.h:27`. -/
def rowDelim : Char := Char.ofNat 0x1F

/-- `absl::StrJoin` with a separator of one character. -/
def join (c : Char) : List Str → Str
  | [] => []
  | [a] => a
  | a :: b :: r => a ++ c :: join c (b :: r)

/-! ### Tables -/

/-- A row of the sender's table: the key and the labels. -/
abbrev Row := Str × List Str

/-- An entry of `key_value_map`: `csv_converter.cc:113-116`. -/
structure Entry where
  key : Str
  value : Str
  count : Nat
  deriving DecidableEq

/-- One row enters the map: `csv_converter.cc:150-155`. -/
def upsert (k v : Str) : List Entry → List Entry
  | [] => [⟨k, v, 1⟩]
  | e :: r =>
    if e.key = k then ⟨e.key, e.value ++ rowDelim :: v, e.count + 1⟩ :: r else e :: upsert k v r

/-- The map after all rows: `ApsiCsvConverter::MergeColumnAndRow`, `csv_converter.cc:108-166`. -/
def mergeRows (rows : List Row) : List Entry :=
  rows.foldl (fun m r => upsert r.1 (join colDelim r.2) m) []

/-- `WriteCsvFile` with `is_count` false: `csv_converter.cc:34-55`. -/
def keyValueText (m : List Entry) : Str :=
  "key,value\n".toList ++ m.flatMap fun e => e.key ++ ',' :: e.value ++ ['\n']

/-- `WriteCsvFile` with `is_count` true: `csv_converter.cc:34-55`. -/
def keyCountText (m : List Entry) : Str :=
  "key,value\n".toList ++ m.flatMap fun e => e.key ++ ',' :: Text.dec e.count ++ ['\n']

/-! ### Arrow's reading of a comma separated file -/

/-- Where the reader is: at the start of a field, inside a plain field, inside quotes, behind a quote inside quotes. -/
inductive Mode where
  | start
  | plain
  | quoted
  | seen
  deriving DecidableEq

/-- Put a character in front of the first field. -/
def consHead (c : Char) : List Str → List Str
  | [] => [[c]]
  | f :: r => (c :: f) :: r

/-- The fields of a line (Arrow's parser with quotes and doubled quotes on, escapes off). -/
def fieldsFrom : Mode → Str → Option (List Str)
  | m, [] => if m = .quoted then none else some [[]]
  | m, c :: r =>
    match m with
    | .start =>
      if c = '"' then fieldsFrom .quoted r
      else if c = ',' then (fieldsFrom .start r).map ([] :: ·)
      else (fieldsFrom .plain r).map (consHead c)
    | .plain =>
      if c = ',' then (fieldsFrom .start r).map ([] :: ·) else (fieldsFrom .plain r).map (consHead c)
    | .quoted => if c = '"' then fieldsFrom .seen r else (fieldsFrom .quoted r).map (consHead c)
    | .seen =>
      if c = '"' then (fieldsFrom .quoted r).map (consHead '"')
      else if c = ',' then (fieldsFrom .start r).map ([] :: ·)
      else (fieldsFrom .plain r).map (consHead c)

/-- A line that must have `n` columns. -/
def readLine (n : Nat) (l : Str) : Res (List Str) :=
  match fieldsFrom .start l with
  | some fs => if fs.length = n then .ok fs else .throws
  | none => .throws

/-- The rows of a file of `n` columns behind its header; empty lines are skipped. -/
def readRows (n : Nat) (text : Str) : Res (List (List Str)) :=
  mapRes (readLine n) (((Text.lines text).drop 1).filter fun l => !l.isEmpty)

/-- `ApsiCsvReader::read` for a table with labels: `csv_reader.cc:94-165`. -/
def readLabeled (text : Str) : Res (List (Str × Str)) :=
  (readRows 2 text).bind fun rows =>
    let items := rows.map fun r => (r.getD 0 [], r.getD 1 [])
    if items = [] then .throws
    else if (items.map Prod.fst).dedup.length = items.length then .ok items else .throws

/-- `ApsiCsvReader::read` for a table of keys: `csv_reader.cc:94-165`. -/
def readKeys (text : Str) : Res (List Str) :=
  (readRows 1 text).bind fun rows =>
    let items := rows.map fun r => r.getD 0 []
    if items = [] then .throws
    else if items.dedup.length = items.length then .ok items else .throws

/-! ### The sender, offline -/

/-- `ApsiCsvConverter::ApsiCsvConverter` wants a row (`csv_converter.cc:95-99`), `MergeColumnAndRow` a label
(`csv_converter.cc:111`), `GenerateSenderDB` reads the file back (`sender.cc:141-145`).  `order` is the order in which the map
is gone through. -/
def valueTable (order : List Entry → List Entry) (nlabels : Nat) (rows : List Row) : Res (List (Str × Str)) :=
  if rows = [] ∨ nlabels = 0 then .throws else readLabeled (keyValueText (order (mergeRows rows)))

/-- `std::stoi`, on text of digits. -/
def stoi (s : Str) : Res Nat :=
  if s = [] then .throws
  else match Text.digitsVal 0 s with
    | some v => if v < 2 ^ 31 then .ok v else .throws
    | none => .throws

/-- `GetCount`: `sender_cnt_db.cc:29-40`. -/
def getCount (label : Str) : Res Nat := stoi label

/-- `ComputePoly` of one argument: `common.cc:28-36`. -/
def poly1 (a b x : Nat) : Nat := a * x + b

/-- `ComputePoly` of two arguments: `common.cc:38-47`. -/
def poly2 (a b x y : Nat) : Nat := a * x + b * y

/-- The count table: the key-count file read back with every count parsed: `sender.cc:153-160`, `sender_cnt_db.cc:64-67`. -/
def countTable (order : List Entry → List Entry) (rows : List Row) : Res (List (Str × Nat)) :=
  (readLabeled (keyCountText (order (mergeRows rows)))).bind fun t =>
    mapRes (fun e => (getCount e.2).bind fun c => .ok (e.1, c)) t

section Group

variable {G P : Type} [AddCommGroup G] [DecidableEq G] [AddCommGroup P] [DecidableEq P]

/-- What the sender holds: the generator of the billing curve, the secret key and the linear function, the OPRF key. -/
structure Secrets (G : Type) where
  g : G
  x : Nat
  a : Nat
  b : Nat
  oprf : Nat

/-- `ElgamalEncryptor::Encrypt`: `encryptor.h:34-40`; the public key is `x • g`. -/
def encrypt (S : Secrets G) (m r : Nat) : G × G := (r • S.g, m • S.g + r • (S.x • S.g))

/-- `EncryptCount`: `sender_cnt_db.cc:47-85`.  `rnd` is the random number used at a position. -/
def encryptCounts (S : Secrets G) (rnd : Nat → Nat) (t : List (Str × Nat)) : List (Str × (G × G)) :=
  (List.range t.length).map fun i =>
    ((t.getD i ([], 0)).1, encrypt S (poly1 S.a S.b (t.getD i ([], 0)).2) (rnd i))

/-- A database for retrieval: every item under its OPRF value. -/
def database {L : Type} (key : Nat) (H : Str → P) (t : List (Str × L)) : List (P × L) :=
  t.map fun e => (key • H e.1, e.2)

/-- A retrieval: what is stored under each of the queried values (APSI). -/
def retrieve {L : Type} (db : List (P × L)) (items : List P) : List (Option L) :=
  items.map fun p => (db.find? fun e => e.1 = p).map Prod.snd

/-! ### The sender, online -/

/-- `ProcessQueries`: `sender.cc:32-91`.  `perm` is `shuffle_indexes`. -/
def processQueries (key : Nat) (perm : List Nat) (queries : List P) : List P :=
  (List.range queries.length).foldl
    (fun out i => out.set (perm.getD i 0) (key • queries.getD i 0)) (List.replicate queries.length 0)

/-- `CheckRowCount`: `sender.cc:480-493`. -/
def checkRowCount (S : Secrets G) (queryCount : Nat) (ct : G × G) (rowCount : Nat) : Bool :=
  decide (poly2 S.a S.b rowCount queryCount • S.g + S.x • ct.1 = ct.2)

/-- `SaveRowCount`: `sender.cc:495-500`. -/
def rowCountText (rowCount : Nat) : Str := "count\n".toList ++ Text.dec rowCount ++ ['\n']

/-! ### The receiver -/

/-- `process_items`: `oprf_receiver.cc:40-68`: one scalar for all items. -/
def blind (H : Str → P) (r : Nat) (keys : List Str) : List P := keys.map fun k => r • H k

/-- `process_responses`: `oprf_receiver.cc:70-111`. -/
def unblind (rinv : Nat) (responses : List P) : List P := responses.map fun p => rinv • p

/-- One answer enters the sum: `receiver.cc:232-247`. -/
def addCt (acc : Option (G × G)) : Option (G × G) → Option (G × G)
  | none => acc
  | some c => match acc with
    | some s => some (s.1 + c.1, s.2 + c.2)
    | none => some c

/-- `ComputeRowCountCt`: `receiver.cc:214-250`; nothing when no item was found. -/
def computeRowCountCt (answers : List (Option (G × G))) : Option (G × G) := answers.foldl addCt none

/-- One answer enters the count: `receiver.cc:257-264`. -/
def addRows (acc : Nat) : Option Str → Nat
  | none => acc
  | some label => (acc + (Text.split rowDelim label).length) % 2 ^ 64

/-- `ComputeRowCount`: `receiver.cc:252-266`. -/
def computeRowCount (answers : List (Option Str)) : Nat := answers.foldl addRows 0

/-- `ExtractQueryTo`, read back by `load_db_with_orig_items`: `csv_converter.cc:168-208`, `receiver.cc:28-52`. -/
def extractItems (keys : List Str) : Res (List Str) :=
  if keys = [] then .throws else readKeys ("key\n".toList ++ keys.flatMap fun k => k ++ ['\n'])

/-- The label behind a key, which is missing when labels have no bytes: `common.cc:119-122`. -/
def labelText (label : Str) : Str := if label = [] then [] else ',' :: label

/-- One line of the temporary file, or none: `common.cc:117-124`. -/
def resultLine (item : Str) : Option Str → Str
  | some label => item ++ labelText label ++ ['\n']
  | none => []

/-- `WriteIntersectionResults`: `common.cc:84-140`.  `perm` is the identity when the count check is skipped. -/
def resultsText (perm : List Nat) (items : List Str) (answers : List (Option Str)) : Str :=
  "key,value\n".toList ++ (List.range items.length).flatMap fun i =>
    resultLine (items.getD i []) (answers.getD (perm.getD i 0) none)

/-- One line of the result: `csv_converter.cc:258-270`. -/
def extractLine (nlabels : Nat) (key row : Str) : Res Str :=
  let labels := Text.split colDelim row
  if labels.length = nlabels then .ok (key ++ labels.flatMap (fun l => ',' :: l) ++ ['\n']) else .throws

/-- The lines of one key in the result: `csv_converter.cc:252-271`. -/
def extractRow (nlabels : Nat) (key value : Str) : Res Str :=
  (mapRes (extractLine nlabels key) (Text.split rowDelim value)).bind fun ls => .ok ls.flatten

/-- `ExtractResult` on the text of the temporary file, which must have a line behind the header:
`csv_converter.cc:95-99`, `csv_converter.cc:210-281`. -/
def extractResult (keyName : Str) (labelNames : List Str) (text : Str) : Res Str :=
  if (Text.lines text).length < 2 ∨ labelNames = [] then .throws
  else (readRows 2 text).bind fun rows =>
    (mapRes (fun r => extractRow labelNames.length (r.getD 0 []) (r.getD 1 [])) rows).bind fun ls =>
      .ok (keyName ++ labelNames.flatMap (fun l => ',' :: l) ++ '\n' :: ls.flatten)

/-! ### Sessions -/

/-- The randomness of a run and what is left open by the language. -/
structure Coins where
  /-- Order of iteration over the map. -/
  order : List Entry → List Entry
  /-- Randomness of the encryptions. -/
  rnd : Nat → Nat
  /-- The receiver's scalar and its inverse. -/
  r : Nat
  rinv : Nat
  /-- `std::shuffle` of that many indexes with the sender's seed and counter. -/
  perm : Nat → List Nat

/-- A run with the count check: `SenderOffline`, `SenderOnline`, `ReceiverOnline`, `entry.cc:25-340`.  What the sender
records, and the result file of the receiver.  Without the sender's consent the receiver waits in vain for the seed. -/
def runChecked (S : Secrets G) (H : Str → P) (C : Coins) (rows : List Row) (keys : List Str) (keyName : Str)
    (labelNames : List Str) : Res (Str × Str) :=
  (valueTable C.order labelNames.length rows).bind fun values =>
  (countTable C.order rows).bind fun counts =>
  (extractItems keys).bind fun items =>
    let request := blind H C.r items
    let queryCount := request.length
    let hashed := unblind C.rinv (processQueries S.oprf (C.perm queryCount) request)
    let countAnswers := retrieve (database S.oprf H (encryptCounts S C.rnd counts)) hashed
    match computeRowCountCt countAnswers with
    | none => .undefined
    | some ct =>
      let answers := retrieve (database S.oprf H values) hashed
      let rowCount := computeRowCount answers
      if checkRowCount S queryCount ct rowCount then
        (extractResult keyName labelNames (resultsText (C.perm items.length) items answers)).bind fun out =>
          .ok (rowCountText rowCount, out)
      else .throws

/-- A run without the count check: `entry.cc:91-109`, `entry.cc:227-262`. -/
def runUnchecked (S : Secrets G) (H : Str → P) (C : Coins) (rows : List Row) (keys : List Str) (keyName : Str)
    (labelNames : List Str) : Res Str :=
  (valueTable C.order labelNames.length rows).bind fun values =>
  (extractItems keys).bind fun items =>
    let hashed := unblind C.rinv ((blind H C.r items).map fun p => S.oprf • p)
    let answers := retrieve (database S.oprf H values) hashed
    extractResult keyName labelNames (resultsText (List.range items.length) items answers)

/-! ### A receiver that does not keep to the protocol -/

/-- The sum of `n` copies of a ciphertext. -/
def copies (n : Nat) (c : G × G) : G × G := (n • c.1, n • c.2)

/-- It asks for a key with few rows twice and for another key once, finds the place of the first by the value that
occurs twice, and sends that count in place of every other: the ciphertext and the number of rows it declares. -/
def cheat (hashed : List P) (countAnswers : List (Option (G × G))) (answers : List (Option Str)) :
    Option ((G × G) × Nat) :=
  match (List.range hashed.length).find? fun i => 1 < hashed.count (hashed.getD i 0) with
  | none => none
  | some i =>
    match countAnswers.getD i none, answers.getD i none with
    | some c, some label => some (copies hashed.length c, hashed.length * (Text.split rowDelim label).length)
    | _, _ => none

end Group

end Psi.DkPir
