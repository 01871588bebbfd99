import Verif.DkPir.Model
import Verif.Join.Model

/-!
# The files of a join, as text

`Verif.Join` takes a file for the list of its lines and a key for an abstract value.  Here the files are texts: the table is
read with Arrow's CSV reader to get the keys (`psi/utils/arrow_csv_batch_provider.cc`), the keys are written to the key file
(`KeyInfo::Make`, `psi/utils/table_utils.cc:299-361`) and read back (`SortedTableKeysInfoProvider`), but the rows are copied to
the output line by line with `std::getline` (`ApplyPeerDupCnt`, `GenerateResult`).

Arrow is not part of the repository.  Modelled are its default options: a line ends with `\n`, `\r\n` or `\r`; empty lines are
ignored; the first line is the header; a field may be quoted, a doubled quote stands for a quote; every line must have as many
fields as the header.

Simplified: text is a list of characters; a byte order mark, text that is not UTF-8 and a field that runs over the end of a
line are left out (`none`); numbers are not bounded; the table is the file the rows are taken from, sorted already unless its
keys are declared unique; `MultiKeySort` is in `Verif.ShellSort`.  Reading is in one batch (`C07_batching_irrelevant`).
-/

namespace Psi.JoinText

open Psi.DkPir (Str fieldsFrom join)
open Psi.Join

/-! ### Arrow's reader -/

/-- The lines of a text as Arrow finds them.  That `\r\n` is one line end and not two makes no difference as empty lines
are ignored. -/
def arrowLines (t : Str) : List Str :=
  (Text.lines (t.map fun c => if c = '\r' then '\n' else c)).filter fun l => !l.isEmpty

/-- A line with `n` fields. -/
def cellsOf (n : Nat) (l : Str) : Option (List Str) :=
  (fieldsFrom .start l).bind fun fs => if fs.length = n then some fs else none

/-- A file: the names of the columns and the rows.  `MakeCsvReader`: `psi/utils/arrow_helper.cc:28-74`. -/
def csvTable (t : Str) : Option (List Str × List (List Str)) :=
  match arrowLines t with
  | [] => none
  | h :: ls => (fieldsFrom .start h).bind fun cols => (ls.mapM (cellsOf cols.length)).map fun rows => (cols, rows)

/-- The key of a row: the fields of the key columns with commas between them.  `arrow_csv_batch_provider.cc:116-124`,
`KeysJoin`, `psi/utils/key.cc:185-187`. -/
def rowKey (cols keys : List Str) (r : List Str) : Str := join ',' (keys.map fun k => r.getD (cols.idxOf k) [])

/-- All keys of a table: `ArrowCsvBatchProvider`, `arrow_csv_batch_provider.cc:85-140` and `142-173` (a column that is missing is an
error). -/
def tableKeys (keys : List Str) (t : Str) : Option (List Str) :=
  (csvTable t).bind fun (cols, rows) =>
    if keys.all (cols.contains ·) then some (rows.map (rowKey cols keys)) else none

/-! ### The key file -/

/-- A line of the key file: `table_utils.cc:311-312`. -/
def keyLine (r : KeyRec Str) : Str :=
  '"' :: r.key ++ '"' :: ',' :: Text.dec r.start ++ ',' :: Text.dec r.dup

/-- The header of the key file: `table_utils.cc:305`, `table_utils.h:260-262`. -/
def keyHeader : Str := "psi_joined_key,psi_start_index,psi_dup_cnt".toList

/-- The key file: `table_utils.cc:305-320`. -/
def keyFile (rs : List (KeyRec Str)) : Str :=
  keyHeader ++ '\n' :: rs.flatMap fun r => keyLine r ++ ['\n']

/-- One record read back: `SortedTableKeysInfoProvider::ReadBatchWithInfo`, `table_utils.cc:106-115`.  What is not a number in a
column of integers is an error. -/
def keyRec : List Str → Option (KeyRec Str)
  | [k, s, d] =>
    if s = [] ∨ d = [] then none
    else match Text.digitsVal 0 s, Text.digitsVal 0 d with
    | some s, some d => some ⟨k, s, d⟩
    | _, _ => none
  | _ => none

/-- The key file read back: `table_utils.cc:60`, `84-121`. -/
def readKeyFile (t : Str) : Option (List (KeyRec Str)) := (csvTable t).bind fun x => x.2.mapM keyRec

/-- The records of a party: from its key file, or for keys that are declared unique from the table itself.
`JoinProcessor::GetUniqueKeysInfo`, `psi/utils/join_processor.cc:258-268`; `KeyInfo::GetBatchProvider`,
`table_utils.cc:436-447`. -/
def partyRecs (unique : Bool) (keys : List Str) (t : Str) : Option (List (KeyRec Str)) :=
  (tableKeys keys t).bind fun ks =>
    if unique then some (keyInfoUnique 0 ks)
    else readKeyFile (keyFile (keyInfoMake [] (if ks = [] then [] else [ks])))

/-! ### The output -/

/-- `GetCsvColumnsNames`: the first two lines are read again by Arrow.  `psi/utils/arrow_helper.cc:76-105`. -/
def columnNames (t : Str) : Option (List Str) :=
  match Text.lines t with
  | a :: b :: _ => (csvTable (a ++ '\n' :: b ++ ['\n'])).map (·.1)
  | _ => none

/-- `MakeQuotedCsvLine`: `table_utils.cc:212-219`. -/
def quotedLine (cols : List Str) : Str := join ',' (cols.map fun c => '"' :: c ++ ['"'])

/-- A line of null values: `join_processor.cc:309-316`. -/
def naLine (n : Nat) (nullRep : Str) : Str := join ',' (List.replicate n nullRep)

/-- The text of a line of the output. -/
def outText (n : Nat) (nullRep : Str) : OutLine Str → Str
  | .own l => l
  | .na => naLine n nullRep

/-- What a party is told to do. -/
structure Job where
  unique : Bool
  keys : List Str
  type : JoinType
  isLeft : Bool
  nullRep : Str
  broadcast : Bool

/-- The output file of a party (without the sorting of aligned outputs for unique keys): `AbstractPsiParty::Finalize`, `psi/interface.cc:157-181`;
`JoinProcessor::GenerateResult`, `join_processor.cc:283-341`.  `t` is the table, `idx` the index file the protocol wrote,
`peerOriginal` the peer's number of rows. -/
def partyOut (j : Job) (t : Str) (idx : List (Nat × Nat)) (peerOriginal : Nat) : Option Str :=
  (partyRecs j.unique j.keys t).bind fun recs =>
  (columnNames t).bind fun cols =>
  match Text.lines t with
  | [] => none
  | h :: body =>
    match finalizeStat j.type j.isLeft h body (if recs = [] then [] else [recs]) idx with
    | .error _ => none
    | .ok res =>
      some (quotedLine cols ++ '\n' ::
        (finalizeOut j.broadcast j.type j.isLeft res peerOriginal).flatMap fun o => outText cols.length j.nullRep o ++ ['\n'])

end Psi.JoinText
