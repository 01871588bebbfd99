/-!
# Join pipeline: key grouping, index merge, duplicate expansion and result generation

Models `psi/utils/table_utils.cc`, `psi/utils/join_processor.cc` and the part of
`psi/interface.cc` (`Finalize`) that turns an intersection index file into an output file.

Simplifications (global for this file):
* `uint32_t`/`int64_t` counters are unbounded `Nat` (no overflow).
* A CSV file is the list of its lines; the arrow CSV codec and the quoting of the key file are not
  modelled, so key/start/dup records are read back as written.
* A key is an abstract value of type `K` (the joined key columns); a line is an abstract value of
  type `L`.
-/

namespace Psi.Join

/-- One line of the key-info file: joined key, first row of the key in the key-sorted table, number
of further rows with the same key.  `psi/utils/table_utils.h:155-159` (`BatchInfo`),
`psi/utils/table_utils.cc:306-312` (line written). -/
structure KeyRec (K : Type) where
  key : K
  start : Nat
  dup : Nat
deriving DecidableEq, Repr

/-- Loop-carried variables of `KeyInfo::Make(SortedTable)`:
`psi/utils/table_utils.cc:323-327`. -/
structure Rle (K : Type) where
  tableIndex : Nat
  curKey : K
  curStart : Nat
  curDup : Nat

section Rle
variable {K : Type} [DecidableEq K]

/-- Body of the inner loop, one key of the sorted table: `psi/utils/table_utils.cc:332-349`.
Returns the new loop state and the records pushed. -/
def rleItem (s : Rle K) (item : K) : Rle K × List (KeyRec K) :=
  if s.tableIndex = 0 then
    ({ s with curKey := item, tableIndex := s.tableIndex + 1 }, [])
  else if s.curKey ≠ item then
    ({ tableIndex := s.tableIndex + 1, curKey := item, curStart := s.tableIndex, curDup := 0 },
     [⟨s.curKey, s.curStart, s.curDup⟩])
  else
    ({ s with curDup := s.curDup + 1, tableIndex := s.tableIndex + 1 }, [])

/-- The inner `for` over one batch: `psi/utils/table_utils.cc:329-349`. -/
def rleBatch (s : Rle K) : List K → Rle K × List (KeyRec K)
  | [] => (s, [])
  | k :: ks =>
    let (s', r) := rleItem s k
    let (s'', rs) := rleBatch s' ks
    (s'', r ++ rs)

/-- The outer `while (!batch.empty())`: `psi/utils/table_utils.cc:326-359`.  The argument is the
sequence of results of `provider->ReadNextBatch()`; after the listed ones the provider returns
empty batches.  The asynchronous writer of line 353 is joined before the next one starts
(lines 350-352), so records reach the file in this order. -/
def rleRun (s : Rle K) : List (List K) → Rle K × List (KeyRec K)
  | [] => (s, [])
  | [] :: _ => (s, [])
  | (k :: ks) :: bs =>
    let (s', r) := rleBatch s (k :: ks)
    let (s'', rs) := rleRun s' bs
    (s'', r ++ rs)

/-- Records of the key-info file made from a key-sorted table:
`psi/utils/table_utils.cc:321-361` (the last record is written unconditionally at line 361).
`empty` is the value of the default-constructed `cur_key` (line 327).  The reuse of an existing file
(lines 283-297) is not part of this definition, see `Verif.KeyMeta`. -/
def keyInfoMake (empty : K) (batches : List (List K)) : List (KeyRec K) :=
  let (s, rs) := rleRun ⟨0, empty, 0, 0⟩ batches
  rs ++ [⟨s.curKey, s.curStart, s.curDup⟩]

/-- Records a `UniqueKeyTable` provider yields: key number `i` of the file is record `i` with no
further rows.  `psi/utils/table_utils.cc:175-184`. -/
def keyInfoUnique (k : Nat) : List K → List (KeyRec K)
  | [] => []
  | key :: ks => ⟨key, k, 0⟩ :: keyInfoUnique (k + 1) ks

/-- Counters accumulated by `write_to_csv`: `psi/utils/table_utils.cc:306-319`. -/
structure KeyMeta where
  duplicateKeyCnt : Nat
  uniqueKeyCnt : Nat
  originCnt : Nat
deriving DecidableEq, Repr

/-- One iteration of `write_to_csv`: `psi/utils/table_utils.cc:313-317`. -/
def metaStep (m : KeyMeta) (r : KeyRec K) : KeyMeta :=
  { duplicateKeyCnt := if r.dup ≠ 0 then m.duplicateKeyCnt + 1 else m.duplicateKeyCnt
    uniqueKeyCnt := m.uniqueKeyCnt + 1
    originCnt := m.originCnt + (1 + r.dup) }

/-- The counters stored in the meta file: `psi/utils/table_utils.cc:301-303, 367-369`. -/
def keyMeta (rs : List (KeyRec K)) : KeyMeta := rs.foldl metaStep ⟨0, 0, 0⟩

end Rle

/-- Errors raised by the index merge.  `dupIndex` is `psi/utils/table_utils.cc:591-594`, `leftover`
is `psi/utils/table_utils.cc:566-569`; `diverge` is not a C++ outcome: it marks exhaustion of the
fuel of a modelled loop and is proved unreachable. -/
inductive JErr where
  | dupIndex (i : Nat)
  | leftover (i c : Nat)
  | diverge
deriving DecidableEq, Repr

/-- `InterIndexProcessor::InterInfo`: `psi/utils/table_utils.h:309-317`. -/
structure Inter where
  start : Nat
  selfDup : Nat
  peerDup : Nat
deriving DecidableEq, Repr

/-- Fields of `InterIndexProcessor` (`psi/utils/table_utils.h:327-331`).  `head` is
`index_with_peer_cnt_`, `rest` what the index reader has not returned yet, `batches` what
successive `ReadBatchWithInfo` calls will return (then empty batches). -/
structure Proc (K : Type) where
  head : Option (Nat × Nat)
  rest : List (Nat × Nat)
  batches : List (List (KeyRec K))
  selfIdx : Nat
  finish : Bool

section Proc
variable {K : Type}

/-- Constructor: reads the first index.  `psi/utils/table_utils.cc:544-548`. -/
def Proc.init (idx : List (Nat × Nat)) (batches : List (List (KeyRec K))) : Proc K :=
  { head := idx.head?, rest := idx.tail, batches := batches, selfIdx := 0, finish := false }

/-- The `for` over one batch of key records: `psi/utils/table_utils.cc:576-595`. -/
def scan : List (KeyRec K) → Proc K → Except JErr (List Inter × Proc K)
  | [], p => .ok ([], p)
  | r :: rs, p =>
    match p.head with
    | none => .ok ([], { p with finish := true })
    | some (i, c) =>
      if p.selfIdx = i then
        match scan rs { p with head := p.rest.head?, rest := p.rest.tail,
                               selfIdx := p.selfIdx + 1 } with
        | .error e => .error e
        | .ok (infos, p') => .ok (⟨r.start, r.dup, c⟩ :: infos, p')
      else if i < p.selfIdx then .error (.dupIndex i)
      else scan rs { p with selfIdx := p.selfIdx + 1 }

/-- What happens when `ReadBatchWithInfo` returns nothing: `psi/utils/table_utils.cc:565-572`. -/
def endOfKeys (p : Proc K) : Except JErr (List Inter × Proc K) :=
  match p.head with
  | some (i, c) => .error (.leftover i c)
  | none => .ok ([], p)

/-- The `while (inter.empty())` loop: `psi/utils/table_utils.cc:561-597`. -/
def batchLoop : List (List (KeyRec K)) → Proc K → Except JErr (List Inter × Proc K)
  | [], p => endOfKeys { p with batches := [] }
  | [] :: bs, p => endOfKeys { p with batches := bs }
  | (r :: rs) :: bs, p =>
    match scan (r :: rs) p with
    | .error e => .error e
    | .ok ([], p') => batchLoop bs p'
    | .ok (i :: is, p') => .ok (i :: is, { p' with batches := bs })

/-- `InterIndexProcessor::GetBatchInfo`: `psi/utils/table_utils.cc:550-598`. -/
def getBatchInfo (p : Proc K) : Except JErr (List Inter × Proc K) :=
  if p.finish then .ok ([], p)
  else match p.head with
    | none => .ok ([], { p with finish := true })
    | some _ => batchLoop p.batches p

end Proc

/-- `ResultDumper` (`psi/utils/table_utils.h:129-151`).  A file is `none` when its path is empty. -/
structure Dumper (L : Type) where
  interFile : Option (List L)
  exceptFile : Option (List L)
  interCnt : Nat
  exceptCnt : Nat
deriving Repr

section Dump
variable {L : Type}

/-- `ResultDumper` constructor: `psi/utils/table_utils.cc:452-463`. -/
def Dumper.make (interOn exceptOn : Bool) : Dumper L :=
  { interFile := if interOn then some [] else none
    exceptFile := if exceptOn then some [] else none
    interCnt := 0, exceptCnt := 0 }

/-- `ToIntersect`/`Dump`: `psi/utils/table_utils.cc:465-467, 473-482`. -/
def Dumper.toInter (d : Dumper L) (line : L) (dup : Nat) : Dumper L :=
  { d with interCnt := d.interCnt + (1 + dup)
           interFile := d.interFile.map (· ++ List.replicate (dup + 1) line) }

/-- `ToExcept`/`Dump` with the default duplicate count 0: `psi/utils/table_utils.cc:469-482`. -/
def Dumper.toExcept (d : Dumper L) (line : L) : Dumper L :=
  { d with exceptCnt := d.exceptCnt + 1
           exceptFile := d.exceptFile.map (· ++ List.replicate (0 + 1) line) }

/-- Local state of `KeyInfo::ApplyPeerDupCnt`: `psi/utils/table_utils.cc:499-511`.  `line` is the
buffer of `std::getline`, `file` the lines not read yet. -/
structure AState (L : Type) where
  line : L
  file : List L
  sortedIdx : Nat
  dumper : Dumper L
  selfInter : Nat
  peerInter : Nat
  uniq : Nat

/-- `std::getline`; at end of file the buffer keeps its old content. -/
def AState.getline (s : AState L) : AState L :=
  match s.file with
  | [] => s
  | x :: xs => { s with line := x, file := xs }

/-- Lines 517-521, `n` iterations of the loop that moves rows to the except file. -/
def skipRows : Nat → AState L → AState L
  | 0, s => s
  | n + 1, s =>
    let s := s.getline
    skipRows n { s with dumper := s.dumper.toExcept s.line, sortedIdx := s.sortedIdx + 1 }

/-- Lines 522-525, `n` iterations of the loop that writes intersection rows. -/
def takeRows (peerDup : Nat) : Nat → AState L → AState L
  | 0, s => s
  | n + 1, s =>
    let s := s.getline
    takeRows peerDup n { s with dumper := s.dumper.toInter s.line peerDup }

/-- Body of the `for` over one `InterInfo`: `psi/utils/table_utils.cc:516-529`. -/
def applyInfo (s : AState L) (i : Inter) : AState L :=
  let s := skipRows (i.start - s.sortedIdx) s
  let s := takeRows i.peerDup (i.selfDup + 1) s
  { s with sortedIdx := s.sortedIdx + (i.selfDup + 1)
           selfInter := s.selfInter + (i.selfDup + 1)
           peerInter := s.peerInter + (i.peerDup + 1) }

/-- Lines 534-537: the remaining rows go to the except file. -/
def drainRows : List L → AState L → AState L
  | [], s => { s with file := [] }
  | x :: xs, s =>
    drainRows xs { s with line := x, dumper := s.dumper.toExcept x, sortedIdx := s.sortedIdx + 1 }

/-- `KeyInfo::StatInfo`: `psi/utils/table_utils.h:232-247`. -/
structure Stat where
  selfInter : Nat
  peerInter : Nat
  original : Nat
  joinInter : Nat
  uniq : Nat
deriving DecidableEq, Repr

/-- The `while (!inter_index_info.empty())` loop: `psi/utils/table_utils.cc:512-532`, with fuel. -/
def applyLoop {K : Type} : Nat → Proc K → AState L → Except JErr (AState L)
  | 0, _, _ => .error .diverge
  | n + 1, p, s =>
    match getBatchInfo p with
    | .error e => .error e
    | .ok ([], _) => .ok s
    | .ok (i :: is, p') =>
      applyLoop n p' ((i :: is).foldl applyInfo { s with uniq := s.uniq + (i :: is).length })

/-- `KeyInfo::ApplyPeerDupCnt`: `psi/utils/table_utils.cc:497-542`.  `header` is the first line of
the table file and `body` the others. -/
def applyPeerDupCnt {K : Type} (header : L) (body : List L) (batches : List (List (KeyRec K)))
    (idx : List (Nat × Nat)) (d : Dumper L) : Except JErr (Stat × Dumper L) :=
  let d := (d.toInter header 0).toExcept header
  let s : AState L := ⟨header, body, 0, d, 0, 0, 0⟩
  match applyLoop (batches.length + 1) (Proc.init idx batches) s with
  | .error e => .error e
  | .ok s =>
    let s := drainRows s.file s
    .ok (⟨s.selfInter, s.peerInter, s.sortedIdx, s.dumper.interCnt - 1, s.uniq⟩, s.dumper)

end Dump

/-- `AdvancedJoinType` after the default of `psi/utils/join_processor.cc:189-192` was applied. -/
inductive JoinType where
  | inner | left | right | full | difference
deriving DecidableEq, Repr

/-- Whether `sorted_intersect_path_` is set: `psi/utils/join_processor.cc:212-214` (PSI),
`156-158` (UB-PSI). -/
def interOn (t : JoinType) : Bool := t != .difference

/-- Whether `sorted_except_path_` is set: `psi/utils/join_processor.cc:216-223` (PSI), `160-167`
(UB-PSI).  `isLeft` is `left_side_ == role_`. -/
def exceptOn (t : JoinType) (isLeft : Bool) : Bool :=
  t == .difference || t == .full || (t == .left && isLeft) || (t == .right && !isLeft)

/-- A line of the output body: a line of the own input or a line of null values
(`psi/utils/join_processor.cc:305-320`). -/
inductive OutLine (L : Type) where
  | own (l : L)
  | na
deriving DecidableEq, Repr

section Result
variable {L : Type}

/-- `write_output`: copies a file without its first line; nothing for an empty path.
`psi/utils/join_processor.cc:291-303`. -/
def writeOutput : Option (List L) → List (OutLine L)
  | none => []
  | some f => f.tail.map .own

/-- `write_na`: `psi/utils/join_processor.cc:305-320`. -/
def writeNa (n : Nat) : List (OutLine L) := List.replicate n .na

/-- `JoinProcessor::GenerateResult` without the header line:
`psi/utils/join_processor.cc:283-341`. -/
def generateResult (t : JoinType) (isLeft : Bool) (interFile exceptFile : Option (List L))
    (peerExcept : Nat) : List (OutLine L) :=
  writeOutput interFile
    ++ (if !isLeft && (t == .left || t == .difference || t == .full) then writeNa peerExcept else [])
    ++ writeOutput exceptFile
    ++ (if isLeft && (t == .right || t == .difference || t == .full) then writeNa peerExcept else [])

/-- `JoinProcessor::DealResultIndex` for an input whose keys are not declared unique (the branch at
lines 274-279 is `dealResultUnique`): `psi/utils/join_processor.cc:270-281`. -/
def dealResult {K : Type} (t : JoinType) (isLeft : Bool) (header : L) (body : List L)
    (batches : List (List (KeyRec K))) (idx : List (Nat × Nat)) :
    Except JErr (Stat × Dumper L) :=
  applyPeerDupCnt header body batches idx (Dumper.make (interOn t) (exceptOn t isLeft))

/-- `JoinProcessor::DealResultIndex` for an input declared to have unique keys: if aligned output is
requested the intersection file is re-sorted by all columns of the input
(`psi/utils/join_processor.cc:274-279`).  `sortAll` is that sort of the body. -/
def dealResultUnique {K : Type} (align : Bool) (sortAll : List L → List L)
    (t : JoinType) (isLeft : Bool) (header : L) (body : List L)
    (batches : List (List (KeyRec K))) (idx : List (Nat × Nat)) :
    Except JErr (Stat × Dumper L) :=
  match dealResult t isLeft header body batches idx with
  | .error e => .error e
  | .ok (st, d) =>
    if align && st.joinInter != 0 then
      .ok (st, { d with interFile := d.interFile.map fun f =>
                          match f with
                          | [] => []
                          | h :: b => h :: sortAll b })
    else .ok (st, d)

/-- `MultiKeySort` of the input table by its key columns (`Table::Sort`,
`psi/utils/table_utils.cc:238-242`; `psi/utils/key.cc:122-183`): `LC_ALL=C sort --stable` with one
`--key` per key column.  Simplification: the body of the file is the list `rows`, a row has one
(composite) key, and `le` is the order `sort` uses on it; the shell pipeline itself is not
modelled. -/
def sortTable {K : Type} (le : K → K → Bool) (key : L → K) (rows : List L) : List L :=
  rows.mergeSort (fun a b => le (key a) (key b))

/-- Numeric stable sort of the index file in `AbstractPsiParty::Finalize`
(`psi/interface.cc:157-160`, `psi/utils/key.cc:122-183`). -/
def sortIndex (idx : List (Nat × Nat)) : List (Nat × Nat) :=
  idx.mergeSort (fun a b => a.1 ≤ b.1)

/-- Result-generating part of `AbstractPsiParty::Finalize` for a party that obtains the result
(`psi/interface.cc:157-181`), up to the exchange of row counts: returns the statistics and the two
files; `finalizeOut` continues with the peer's row count. -/
def finalizeStat {K : Type} (t : JoinType) (isLeft : Bool) (header : L) (body : List L)
    (batches : List (List (KeyRec K))) (idxFile : List (Nat × Nat)) :
    Except JErr (Stat × Dumper L) :=
  dealResult t isLeft header body batches (sortIndex idxFile)

/-- `finalizeStat` for an input declared to have unique keys (`psi/interface.cc:157-165` with
`psi/utils/join_processor.cc:270-281`): `body` is the unsorted input. -/
def finalizeStatUnique {K : Type} (align : Bool) (sortAll : List L → List L) (t : JoinType)
    (isLeft : Bool) (header : L) (body : List L) (batches : List (List (KeyRec K)))
    (idxFile : List (Nat × Nat)) : Except JErr (Stat × Dumper L) :=
  dealResultUnique align sortAll t isLeft header body batches (sortIndex idxFile)

/-- `psi/interface.cc:168-176`: with broadcast the null rows are the peer's row count minus the peer
rows in the intersection, otherwise none are written. -/
def finalizeOut (broadcast : Bool) (t : JoinType) (isLeft : Bool) (r : Stat × Dumper L)
    (peerOriginal : Nat) : List (OutLine L) :=
  generateResult t isLeft r.2.interFile r.2.exceptFile
    (if broadcast then peerOriginal - r.1.peerInter else 0)

end Result

end Psi.Join
