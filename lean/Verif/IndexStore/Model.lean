import Verif.Text.Model

/-!
# Index files

Models `IndexWriter`, `FileIndexReader` and `MemoryIndexReader` (`psi/utils/index_store.cc`).

Simplifications.
* The file system is one file: its text, or nothing.  A crash loses the writer object and with it the
  rows not yet committed; rows committed are in the file, because `Commit` flushes the stream.
* Arrow's CSV writer puts out unsigned integers in decimal, separated by a comma, one row per line.
* Arrow's CSV reader is modelled from its documented behaviour: column names in the first line; the
  remaining lines cut into blocks (where is a parameter); the type of a column is inferred from its
  first block, and is `int64` only if all values of the block fit; a later block with a value that does not
  fit is an error.
* Row counters (`write_cnt_`, `read_cnt_`) are unbounded.
-/

namespace Psi.IndexStore
open Psi.Text

inductive Err
  /-- `YACL_ENFORCE`, `YACL_THROW` or an Arrow status turned into an exception. -/
  | throw
  /-- Undefined behaviour: use after the object is gone, reads outside a vector, a column used as an
  array of another type. -/
  | undefined
deriving DecidableEq, Repr

/-- A row: index and duplicate count of the peer. -/
abbrev Row := Nat × Nat

/-- `kIdx,kPeerCnt`: `psi/utils/index_store.h:35-36`, `psi/utils/index_store.cc:36, 44`. -/
def header : List Char := "psi_index,psi_peer_cnt".toList

/-- A row as Arrow's CSV writer puts it out (`psi/utils/index_store.cc:50-55, 108`). -/
def rowText (r : Row) : List Char := dec r.1 ++ ',' :: dec r.2

/-- The live writer: rows in the builders, number of rows written, stream closed. -/
structure Writer where
  cache : List Row
  written : Nat
  closed : Bool
deriving DecidableEq, Repr

/-- The file and the writer object, if there is one. -/
structure State where
  file : Option (List Char)
  writer : Option Writer
deriving DecidableEq, Repr

/-- Lines, each with its end. -/
def linesText (ls : List (List Char)) : List Char := ls.flatMap (fun l => l ++ ['\n'])

/-- What a program does with an index file. -/
inductive Op
  /-- Construct a writer. -/
  | make (trunc : Bool)
  /-- `WriteCache(index, cnt)`. -/
  | write (r : Row)
  /-- `WriteCache(indexes, duplicate_cnt)`. -/
  | writeAll (indexes counts : List Nat)
  /-- `WriteCache(indexes)`: all counts 0. -/
  | writeIdx (indexes : List Nat)
  | commit
  | close
  /-- The destructor. -/
  | destroy
  /-- The process ends without running destructors. -/
  | crash
deriving DecidableEq, Repr

/-- Constructor: `psi/utils/index_store.cc:33-61`. -/
def make (trunc : Bool) (s : State) : State :=
  { file := some (if trunc then linesText [header] else s.file.getD (linesText [header]))
    writer := some ⟨[], 0, false⟩ }

/-- `WriteCache(index, cnt)`: `psi/utils/index_store.cc:84-93`. -/
def write (r : Row) (w : Writer) : Except Err Writer :=
  if w.closed then .error .throw
  else .ok { w with cache := w.cache ++ [r], written := w.written + 1 }

/-- Loop of `WriteCache(indexes, duplicate_cnt)`: `psi/utils/index_store.cc:63-72`; a missing count is a
read outside the vector. -/
def writeAll : List Nat → List Nat → Writer → Except Err Writer
  | [], _, w => .ok w
  | _ :: _, [], _ => .error .undefined
  | i :: is, c :: cs, w =>
    match write (i, c) w with
    | .error e => .error e
    | .ok w' => writeAll is cs w'

/-- `WriteCache(indexes)`: `psi/utils/index_store.cc:74-82`, with the default count of
`psi/utils/index_store.h:50`. -/
def writeIdx : List Nat → Writer → Except Err Writer
  | [], w => .ok w
  | i :: is, w =>
    match write (i, 0) w with
    | .error e => .error e
    | .ok w' => writeIdx is w'

/-- `Commit`: `psi/utils/index_store.cc:95-115`. -/
def commit (file : List Char) (w : Writer) : Except Err (List Char × Writer) :=
  if w.closed then .error .throw
  else if w.cache.isEmpty then .ok (file, w)
  else .ok (file ++ linesText (w.cache.map rowText), { w with cache := [] })

/-- `Close`: `psi/utils/index_store.cc:117-127`. -/
def close (file : List Char) (w : Writer) : Except Err (List Char × Writer) :=
  if w.closed then .ok (file, w) else
  match commit file w with
  | .error e => .error e
  | .ok (f, w') => .ok (f, { w' with closed := true })

/-- One action. -/
def step (s : State) : Op → Except Err State
  | .make t =>
    match s.writer with
    | some _ => .error .undefined
    | none => .ok (make t s)
  | .write r =>
    match s.writer with
    | none => .error .undefined
    | some w => (write r w).map (fun w' => { s with writer := some w' })
  | .writeAll is cs =>
    match s.writer with
    | none => .error .undefined
    | some w =>
      if w.closed then .error .throw else (writeAll is cs w).map (fun w' => { s with writer := some w' })
  | .writeIdx is =>
    match s.writer with
    | none => .error .undefined
    | some w =>
      if w.closed then .error .throw else (writeIdx is w).map (fun w' => { s with writer := some w' })
  | .commit =>
    match s.writer with
    | none => .error .undefined
    | some w => (commit (s.file.getD []) w).map (fun r => ⟨some r.1, some r.2⟩)
  | .close =>
    match s.writer with
    | none => .error .undefined
    | some w => (close (s.file.getD []) w).map (fun r => ⟨some r.1, some r.2⟩)
  | .destroy =>
    match s.writer with
    | none => .error .undefined
    | some w => (close (s.file.getD []) w).map (fun r => ⟨some r.1, none⟩)
  | .crash => .ok { s with writer := none }

/-- A history. -/
def run (s : State) : List Op → Except Err State
  | [] => .ok s
  | o :: os =>
    match step s o with
    | .error e => .error e
    | .ok s' => run s' os

/-! ### Reading -/

/-- A line of the file as a row; `none` when a field is missing or no number. -/
def parseRow (l : List Char) : Option Row :=
  match split ',' l with
  | [a, b] =>
    match digitsVal 0 a, digitsVal 0 b with
    | some x, some y => if a.isEmpty || b.isEmpty then none else some (x, y)
    | _, _ => none
  | _ => none

/-- Value representable as `int64`. -/
def fits (r : Row) : Bool := decide (r.1 < 2 ^ 63) && decide (r.2 < 2 ^ 63)

/-- Record batches the CSV reader delivers for the blocks of lines: `psi/utils/index_store.cc:131-145, 150,
163-167`.  A first block with a value outside `int64` makes the column one of floating point numbers, which
is then used as an array of integers; a later block with such a value is an error. -/
def batches (blocks : List (List (List Char))) : Except Err (List (List Row)) :=
  match blocks.mapM (fun b => b.mapM parseRow) with
  | none => .error .throw
  | some bs =>
    if bs.all (fun b => b.all fits) then .ok bs
    else if (bs.headD []).all fits then .error .throw
    else .error .undefined

/-- `FileIndexReader`: record batch held (`batch_`, from `idx_in_batch_` on; `none`: no batch), record batches
to come. -/
structure Reader where
  cur : Option (List Row)
  more : List (List Row)
deriving DecidableEq, Repr

/-- `HasNext`: `psi/utils/index_store.cc:147-172`. -/
def Reader.hasNext (r : Reader) : Bool × Reader :=
  match r.cur with
  | some (x :: xs) => (true, ⟨some (x :: xs), r.more⟩)
  | _ =>
    match r.more with
    | [] => (false, ⟨none, []⟩)
    | b :: bs => (!b.isEmpty, ⟨some b, bs⟩)

/-- `GetNextWithPeerCnt`: `psi/utils/index_store.cc:185-197`. -/
def Reader.next (r : Reader) : Option Row × Reader :=
  let h := r.hasNext
  if h.1 then
    match h.2.cur with
    | some (x :: xs) => (some x, ⟨some xs, h.2.more⟩)
    | _ => (none, h.2)
  else (none, h.2)

/-- Rows a caller sees that reads until `HasNext` says no, as `InterIndexProcessor` does
(`psi/utils/table_utils.cc:544-598`).  `fuel` bounds the rows. -/
def Reader.drain : Nat → Reader → List Row
  | 0, _ => []
  | fuel + 1, r =>
    match r.next with
    | (none, _) => []
    | (some x, r') => x :: Reader.drain fuel r'

/-- Open the file and read it: `psi/utils/index_store.cc:131-145`.  `cut` is the reader's way to cut the lines
into blocks. -/
def readFile (cut : List (List Char) → List (List (List Char))) (s : State) : Except Err (List Row) :=
  match s.file with
  | none => .error .throw
  | some text =>
    match lines text with
    | [] => .error .throw
    | h :: rows =>
      if h ≠ header then .error .throw else
      (batches (cut rows)).map (fun bs => Reader.drain (bs.flatten.length + 1) ⟨none, bs⟩)

/-! ### Reader in memory -/

/-- `MemoryIndexReader`: `psi/utils/index_store.cc:199-210`; `sort` is what `std::sort` with the comparison
by index does.  Then all items in order: lines 212-232. -/
def memory (sort : List Row → List Row) (index counts : List Nat) : Except Err (List Row) :=
  if index.length ≠ counts.length then .error .throw else .ok (sort (index.zip counts))

end Psi.IndexStore
