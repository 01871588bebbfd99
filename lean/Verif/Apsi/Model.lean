import Verif.DkPir.Model

/-!
# Keyword PIR with buckets: the sender's directory, the requests, the result file

Models `psi/wrapper/apsi/utils/{csv_reader,group_db,common}.cc`, `psi/utils/multiplex_disk_cache.cc`,
`psi/wrapper/apsi/api/{sender,receiver}.cc`, `psi/wrapper/apsi/cli/{entry,sender_dispatcher}.cc` and the table of positions
in `psi/wrapper/apsi/receiver.cc` (`group_bucket_db.cc` is a copy of `group_db.cc`).

Parameters (`World`): `std::hash`, the saving and loading of a database of the APSI library, what becomes of a label in a
database whose longest label has `n` bytes, the order in which an `unordered_map` is gone through, whether a stream opened
without truncation keeps what the file held (yacl's `FileOutputStream`), the random OPRF keys.

Simplified: the APSI library finds a key in a database exactly if it was put in and the OPRF key of the request is the one
the database was made with (no false positives, no cuckoo failures); different keys are different items; a database with
labels needs a label that is not empty (`SenderDB::set_data`); the user's own file is given as a table, the files of the
directory as text read with Arrow's default options (`DkPir.readRows`); messages travel unchanged; one request after the
other; the status file is written at once; child processes write different files and are run one after the other.
-/

namespace Psi.Apsi

open Psi.Spiral (Res mapRes)
open Psi.DkPir (Str readRows)

/-- The table of the sender: a header with or without a value column and the rows (`csv_reader.cc:51-76`). -/
structure Table where
  labeled : Bool
  rows : List (Str × Str)
  deriving DecidableEq

/-- A database of one bucket with its OPRF key (`group_db.h:35-39`): the rows put in, the size of labels (0: without labels),
the key. -/
structure Stored where
  rows : List (Str × Str)
  labelBytes : Nat
  key : Nat
  deriving DecidableEq

/-- What is not in the repository; `B` are the bytes of a database file. -/
structure World (B : Type) where
  hash : Str → Nat
  pad : Nat → Str → Str
  keepOld : Bool
  save : Stored → List B
  load : List B → Option Stored
  shuffle : List Nat → List Nat

/-! ### Buckets and groups -/

/-- `std::hash<std::string>()(item) % bucket_cnt` as an `int`: `csv_reader.cc:295`, `receiver.cc:68`, `entry.cc:187`.  A
number that does not fit becomes negative and is used as an index. -/
def bucketIdx {B : Type} (w : World B) (buckets : Nat) (key : Str) : Res Nat :=
  if buckets = 0 then .undefined
  else if w.hash key % buckets < 2 ^ 31 then .ok (w.hash key % buckets) else .undefined

/-- `csv_reader.cc:262`, `group_db.cc:531`, `group_db.cc:540`, `group_db.cc:558`. -/
def perGroup (buckets groups : Nat) : Nat := (buckets + groups - 1) / groups

/-- `GetBucketIndexOfGroup`: `group_db.cc:530-537` (first bucket, number of buckets). -/
def bucketIndexOfGroup (buckets groups g : Nat) : Nat × Nat :=
  let first := min buckets (g * perGroup buckets groups)
  (first, min buckets ((g + 1) * perGroup buckets groups) - first)

/-- `GetBucketGroupIdx`: `group_db.cc:554-559`. -/
def bucketGroupIdx (buckets groups b : Nat) : Res Nat :=
  if b < buckets then .ok (b / perGroup buckets groups) else .throws

/-! ### Dividing the table: `GroupBucketize` -/

/-- The first line of a group file: `csv_reader.cc:246-258`. -/
def groupHeader (labeled : Bool) : Str :=
  if labeled then "bucket_id,key,value\n".toList else "bucket_id,key\n".toList

/-- A line of a group file: `csv_reader.cc:299-304`.  Quotes inside are not doubled. -/
def groupLine (labeled : Bool) (b : Nat) (r : Str × Str) : Str :=
  Text.dec b ++ [',', '"'] ++ r.1 ++ ['"'] ++ (if labeled then [',', '"'] ++ r.2 ++ ['"'] else []) ++ ['\n']

/-- Write to one of the streams. -/
def append (f : Nat → Option Str) (i : Nat) (s : Str) : Nat → Option Str :=
  fun j => if j = i then some ((f j).getD [] ++ s) else f j

/-- One row: `csv_reader.cc:292-305`. -/
def divideRow {B : Type} (w : World B) (buckets groups : Nat) (labeled : Bool) (f : Nat → Option Str) (r : Str × Str) :
    Res (Nat → Option Str) :=
  (bucketIdx w buckets r.1).bind fun b =>
    let g := b / perGroup buckets groups
    if g < groups then .ok (append f g (groupLine labeled b r)) else .undefined

/-- The files after the streams were opened and the headers written: `multiplex_disk_cache.cc:71-80`,
`csv_reader.cc:244-258`. -/
def openStreams {B : Type} (w : World B) (groups : Nat) (labeled : Bool) (old : Nat → Option Str) : Nat → Option Str :=
  fun i => if i < groups then some ((if w.keepOld then (old i).getD [] else []) ++ groupHeader labeled) else old i

/-- All rows. -/
def divideRows {B : Type} (w : World B) (buckets groups : Nat) (labeled : Bool) (f : Nat → Option Str) :
    List (Str × Str) → Res (Nat → Option Str)
  | [] => .ok f
  | r :: rs => (divideRow w buckets groups labeled f r).bind fun f' => divideRows w buckets groups labeled f' rs

/-- `ApsiCsvReader::GroupBucketize`: `csv_reader.cc:235-315`, with the files as they are left behind. -/
def groupBucketize {B : Type} (w : World B) (buckets groups : Nat) (t : Table) (old : Nat → Option Str) :
    (Nat → Option Str) × Res Unit :=
  if groups = 0 then (old, .throws)
  else
    match divideRows w buckets groups t.labeled (openStreams w groups t.labeled old) t.rows with
    | .ok f => (f, if t.rows = [] then .throws else .ok ())
    | .throws => (openStreams w groups t.labeled old, .throws)
    | .undefined => (openStreams w groups t.labeled old, .undefined)

/-! ### One group: `GroupDBItem` -/

/-- The two files of a group: `group_db.cc:200-201`. -/
structure GroupFiles (B : Type) where
  db : Option (List B)
  index : Option Str

/-- Where the buckets start in the file (`bucket_offset_map_`). -/
abbrev Offsets := List (Nat × Nat)

/-- The first entry of a bucket. -/
def look {α : Type} (k : Nat) : List (Nat × α) → Option α
  | [] => none
  | e :: r => if e.1 = k then some e.2 else look k r

/-- The words `operator>>` reads one after the other. -/
def words (s : Str) : List Str := ((Text.lines s).flatMap (Text.split ' ')).filter (· ≠ [])

/-- `>> bucket_id >> offset`, `n` times: `group_db.cc:227-234`.  What is not there is never set. -/
def readPairs : Nat → List Str → Res Offsets
  | 0, _ => .ok []
  | n + 1, a :: b :: r =>
    match Text.digitsVal 0 a, Text.digitsVal 0 b with
    | some x, some y => (readPairs n r).bind fun rest => .ok ((x, y) :: rest)
    | _, _ => .undefined
  | _ + 1, _ => .undefined

/-- `LoadMeta` of the text of the index file: `group_db.cc:207-237`. -/
def loadMeta (cap : Nat) (text : Str) : Res Offsets :=
  match words text with
  | [] => .undefined
  | n :: rest =>
    match Text.digitsVal 0 n with
    | none => .undefined
    | some k => if k ≤ cap then readPairs k rest else .throws

/-- `line.find("value") != npos`: `group_db.cc:257-262`. -/
def hasValue : Str → Bool
  | [] => false
  | c :: r => "value".toList.isPrefixOf (c :: r) || hasValue r

/-- A row of a group file: bucket, key, label (`group_db.cc:302-333`). -/
def groupRow (r : List Str) : Res (Nat × (Str × Str)) :=
  match Text.digitsVal 0 (r.getD 0 []) with
  | some b => if r.getD 0 [] = [] then .throws else .ok (b, (r.getD 1 [], r.getD 2 []))
  | none => .throws

/-- The buckets that occur and their rows (`db_data`): `group_db.cc:293-335`. -/
def rowsOf (rows : List (Nat × (Str × Str))) (b : Nat) : List (Str × Str) :=
  (rows.filter fun r => r.1 = b).map Prod.snd

/-- The longest label: `group_db.cc:374-380`. -/
def longest (rows : List (Str × Str)) : Nat := (rows.map fun r => r.2.length).foldl max 0

/-- A bucket is refused: repeated keys (`group_db.cc:367-369`), labels that are all empty (`group_db.cc:382-384`). -/
def refused (labeled : Bool) (rows : List (Str × Str)) : Bool :=
  decide (¬ (rows.map Prod.fst).Nodup) || (labeled && longest rows == 0)

/-- The database of a bucket: `group_db.cc:371-390`; without labels the label is not looked at. -/
def makeDb (labeled : Bool) (key : Nat) (rows : List (Str × Str)) : Stored :=
  if labeled then ⟨rows, longest rows, key⟩ else ⟨rows.map fun r => (r.1, []), 0, key⟩

/-- The file of databases: `group_db.cc:346-361`. -/
def dbBytes {B : Type} (w : World B) (dbs : List (Nat × Stored)) : List B := dbs.flatMap fun d => w.save d.2

/-- `tellp` before every database: `group_db.cc:354-355`. -/
def offsetsFrom {B : Type} (w : World B) (pos : Nat) : List (Nat × Stored) → Offsets
  | [] => []
  | d :: r => (d.1, pos) :: offsetsFrom w (pos + (w.save d.2).length) r

/-- A line of the index file: `group_db.cc:399-401`. -/
def indexLine (e : Nat × Nat) : Str := Text.dec e.1 ++ [' '] ++ Text.dec e.2

/-- The index file: `group_db.cc:397-401`. -/
def indexText (n : Nat) (entries : Offsets) : Str :=
  (Text.dec n :: entries.map indexLine).flatMap fun l => l ++ ['\n']

/-- Entries of a map in the order it is gone through. -/
def inOrder (ids : List Nat) (o : Offsets) : Offsets := ids.map fun b => (b, (look b o).getD 0)

/-- The rows of a group file, as `Generate` reads them: `group_db.cc:281-335`. -/
def readGroup (text : Str) : Res (Bool × List (Nat × (Str × Str))) :=
  match Text.lines text with
  | [] => .throws
  | h :: _ =>
    (readRows (if hasValue h then 3 else 2) text).bind fun rs =>
      (mapRes groupRow rs).bind fun rows => .ok (hasValue h, rows)

/-- The databases of a group in the order they are written: `group_db.cc:363-393`. -/
def groupDbs {B : Type} (w : World B) (draw : Nat → Nat) (labeled : Bool) (rows : List (Nat × (Str × Str))) :
    List (Nat × Stored) :=
  (w.shuffle (rows.map Prod.fst).dedup).map fun b => (b, makeDb labeled (draw b) (rowsOf rows b))

/-- The finished files. -/
def groupFiles {B : Type} (w : World B) (draw : Nat → Nat) (labeled : Bool) (rows : List (Nat × (Str × Str))) :
    GroupFiles B :=
  let dbs := groupDbs w draw labeled rows
  ⟨some (dbBytes w dbs),
   some (indexText dbs.length (inOrder (w.shuffle (rows.map Prod.fst).dedup) (offsetsFrom w 0 dbs)))⟩

/-- `GroupDBItem::Generate` of a new item: `group_db.cc:264-404`, with the files as they are left behind. -/
def generate {B : Type} (w : World B) (draw : Nat → Nat) (cap : Nat) (csv : Option Str) (f : GroupFiles B) :
    GroupFiles B × Res Offsets :=
  match f.db, f.index with
  | some _, some text => (f, loadMeta cap text)
  | _, _ =>
    match csv with
    | none => (f, .throws)
    | some text =>
      match readGroup text with
      | .throws => (f, .throws)
      | .undefined => (f, .undefined)
      | .ok (labeled, rows) =>
        if cap < (rows.map Prod.fst).dedup.length then (f, .throws)
        else if (rows.map Prod.fst).dedup.any (fun b => refused labeled (rowsOf rows b)) then
          (⟨some [], f.index⟩, .throws)
        else (groupFiles w draw labeled rows, .ok (offsetsFrom w 0 (groupDbs w draw labeled rows)))

/-- `LoadBucket`: `group_db.cc:239-255`; a database that cannot be read is a null pointer, like a bucket that is not there. -/
def loadBucket {B : Type} (w : World B) (o : Offsets) (db : Option (List B)) (b : Nat) : Option Stored :=
  match look b o with
  | none => none
  | some pos => w.load ((db.getD []).drop pos)

/-! ### The directory: `GroupDB` -/

/-- `GroupDBState`: `group_db_status.proto:20-25`. -/
inductive State where
  | empty
  | bucketed
  | generated
  deriving DecidableEq

/-- What the sender is started with: `group_db.h:79-82`. -/
structure Config where
  buckets : Nat
  groups : Nat
  nonce : Nat
  params : Str
  compress : Bool
  deriving DecidableEq

/-- The status file: `group_db_status.proto:27-35`. -/
structure Status where
  version : Str
  config : Config
  state : State
  deriving DecidableEq

/-- `KGroupDBVersion`: `group_db.h:72`. -/
def dbVersion : Str := "sf_pir_group_db.0.0.1".toList

/-- The directory. -/
structure Disk (B : Type) where
  status : Option Status
  csv : Nat → Option Str
  group : Nat → GroupFiles B

/-- A directory with nothing in it. -/
def Disk.fresh {B : Type} : Disk B := ⟨none, fun _ => none, fun _ => ⟨none, none⟩⟩

/-- Replace the files of one group. -/
def Disk.setGroup {B : Type} (d : Disk B) (g : Nat) (f : GroupFiles B) : Disk B :=
  { d with group := fun j => if j = g then f else d.group j }

/-- The constructor with settings: `group_db.cc:453-499`. `compress` is not compared and neither is the source file. -/
def openNew {B : Type} (c : Config) (d : Disk B) : Disk B × Res Status :=
  match d.status with
  | some s =>
    if s.version = dbVersion ∧ s.config.groups = c.groups ∧ s.config.buckets = c.buckets ∧ s.config.nonce = c.nonce
        ∧ s.config.params = c.params then (d, .ok s)
    else (d, .throws)
  | none => ({ d with status := some ⟨dbVersion, c, .empty⟩ }, .ok ⟨dbVersion, c, .empty⟩)

/-- The constructor with the directory only: `group_db.cc:435-451`. -/
def openOld {B : Type} (d : Disk B) : Res Status :=
  match d.status with
  | some s => if s.version = dbVersion then .ok s else .throws
  | none => .throws

/-- `DivideGroup`: `group_db.cc:510-526`; `src` is the source file, if it can be read. -/
def divideGroup {B : Type} (w : World B) (s : Status) (src : Option Table) (d : Disk B) : Disk B × Res Status :=
  if s.state = .bucketed ∨ s.state = .generated then (d, .ok s)
  else
    match src with
    | none => (d, .throws)
    | some t =>
      match groupBucketize w s.config.buckets s.config.groups t d.csv with
      | (f, .ok _) => ({ d with csv := f, status := some { s with state := .bucketed } }, .ok { s with state := .bucketed })
      | (f, .throws) => ({ d with csv := f }, .throws)
      | (f, .undefined) => ({ d with csv := f }, .undefined)

/-- `GenerateGroup`: `group_db.cc:539-547`. -/
def generateGroup {B : Type} (w : World B) (draw : Nat → Nat) (c : Config) (d : Disk B) (g : Nat) :
    Disk B × Res Offsets :=
  let r := generate w draw (perGroup c.buckets c.groups) (d.csv g) (d.group g)
  (d.setGroup g r.1, r.2)

/-- What a child process does with its groups; it ends at the first error: `group_db.cc:171-176`, `group_db.cc:82-109`. -/
def child {B : Type} (w : World B) (draw : Nat → Nat) (c : Config) (d : Disk B) : List Nat → Disk B × Res Unit
  | [] => (d, .ok ())
  | g :: gs =>
    match generateGroup w draw c d g with
    | (d', .ok _) => child w draw c d' gs
    | (d', .throws) => (d', .throws)
    | (d', .undefined) => (d', .undefined)

/-- The groups of process `i`: `group_db.cc:153-169`. -/
def rangeOf (groups procs i : Nat) : List Nat :=
  let per := (groups + procs - 1) / procs
  (List.range groups).filter fun g => per * i ≤ g ∧ g < min (per * (i + 1)) groups

/-- The processes one after the other; how a child ended is not looked at (`group_db.cc:117-134`). A child that dies before
it raises the semaphore is waited for for ever. -/
def children {B : Type} (w : World B) (draw : Nat → Nat) (c : Config) (d : Disk B) :
    List (List Nat) → Disk B × Res Unit
  | [] => (d, .ok ())
  | r :: rs =>
    match child w draw c d r with
    | (d', .undefined) => (d', .undefined)
    | (d', _) => children w draw c d' rs

/-- `ProcessGroupParallel`: `group_db.cc:152-182`. -/
def processGroups {B : Type} (w : World B) (draw : Nat → Nat) (c : Config) (procs : Nat) (d : Disk B) :
    Disk B × Res Unit :=
  if procs = 0 then (d, .undefined) else children w draw c d ((List.range procs).map (rangeOf c.groups procs))

/-- `GenerateGroupBucketDB`: `group_db.cc:184-192`. -/
def generateAll {B : Type} (w : World B) (draw : Nat → Nat) (procs : Nat) (s : Status) (src : Option Table) (d : Disk B) :
    Disk B × Res Status :=
  match divideGroup w s src d with
  | (d1, .ok s1) =>
    match processGroups w draw s1.config procs d1 with
    | (d2, .ok _) =>
      ({ d2 with status := some { s1 with state := .generated } }, .ok { s1 with state := .generated })
    | (d2, .throws) => (d2, .throws)
    | (d2, .undefined) => (d2, .undefined)
  | (d1, .throws) => (d1, .throws)
  | (d1, .undefined) => (d1, .undefined)

/-- Starting the sender: `DealGroupBucketDB`, `entry.cc:404-442`; `api::Sender` with `GenerateSenderDb`,
`api/sender.cc:36-40`. -/
def start {B : Type} (w : World B) (draw : Nat → Nat) (procs : Nat) (c : Config) (src : Option Table) (d : Disk B) :
    Disk B × Res Status :=
  match openNew c d with
  | (d1, .ok s) => if s.state = .generated then (d1, .ok s) else generateAll w draw procs s src d1
  | (d1, .throws) => (d1, .throws)
  | (d1, .undefined) => (d1, .undefined)

/-- A running sender: the directory and the groups loaded so far (`group_map_`). -/
structure Server (B : Type) where
  config : Config
  disk : Disk B
  groups : Nat → Option Offsets

/-- The sender after the start; the groups made by child processes are not in the parent's map. -/
def Server.of {B : Type} (c : Config) (d : Disk B) : Server B := ⟨c, d, fun _ => none⟩

/-- A group enters the map. -/
def Server.load {B : Type} (s : Server B) (d : Disk B) (g : Nat) (o : Offsets) : Server B :=
  ⟨s.config, d, fun j => if j = g then some o else s.groups j⟩

/-- `GetBucketDB`: `group_db.cc:561-567`. -/
def getBucket {B : Type} (w : World B) (draw : Nat → Nat) (s : Server B) (b : Nat) : Server B × Res (Option Stored) :=
  match bucketGroupIdx s.config.buckets s.config.groups b with
  | .throws => (s, .throws)
  | .undefined => (s, .undefined)
  | .ok g =>
    match s.groups g with
    | some o => (s, .ok (loadBucket w o (s.disk.group g).db b))
    | none =>
      match generateGroup w draw s.config s.disk g with
      | (d, .ok o) => (s.load d g o, .ok (loadBucket w o (d.group g).db b))
      | (d, .throws) => (⟨s.config, d, s.groups⟩, .throws)
      | (d, .undefined) => (⟨s.config, d, s.groups⟩, .undefined)

/-! ### Queries -/

/-- `MatchRecord`. -/
structure Match where
  found : Bool
  label : Option Str
  deriving DecidableEq

/-- The label of a key in a database. -/
def lookStr (k : Str) : List (Str × Str) → Option Str
  | [] => none
  | e :: r => if e.1 = k then some e.2 else lookStr k r

/-- The record for one item of a query made with the OPRF key `k`: `receiver.cc:533-616`.  Equal items have one place in the
cuckoo table, which stands for the last of them (`receiver.cc:289-294`). -/
def recordAt {B : Type} (w : World B) (s : Stored) (k : Nat) (item : Str) (later : List Str) : Match :=
  if k = s.key ∧ item ∉ later then
    match lookStr item s.rows with
    | some l => ⟨true, if s.labelBytes = 0 then none else some (w.pad s.labelBytes l)⟩
    | none => ⟨false, none⟩
  else ⟨false, none⟩

/-- `process_result` of the answers to a list of items: `receiver.cc:621-666`. -/
def records {B : Type} (w : World B) (s : Stored) (k : Nat) : List Str → List Match
  | [] => []
  | i :: r => recordAt w s k i r :: records w s k r

/-- No packages (`sender_dispatcher.cc:371-385`): the records are as they were made. -/
def noRecords (items : List Str) : List Match := items.map fun _ => ⟨false, none⟩

/-- Items with their buckets. -/
def inBucket (pairs : List (Str × Nat)) (b : Nat) : List Str := (pairs.filter fun p => p.2 = b).map Prod.fst

/-- `BucketizeItems`: `api/receiver.cc:63-88`; the map of `RunReceiver`: `entry.cc:182-199`. -/
def bucketizeItems {B : Type} (w : World B) (buckets : Nat) (queries : List Str) : Res (List (Nat × List Str)) :=
  (mapRes (bucketIdx w buckets) queries).bind fun bs =>
    .ok ((w.shuffle bs.dedup).map fun b => (b, inBucket (queries.zip bs) b))

/-- `api::Sender::RunOPRF`: `api/sender.cc:73-101`.  For a bucket that is not there the OPRF key is a new one. -/
def runOprf {B : Type} (w : World B) (draw : Nat → Nat) (newKey : Nat) (s : Server B) (b : Nat) : Server B × Res Nat :=
  match getBucket w draw s b with
  | (s', .ok (some db)) => (s', .ok db.key)
  | (s', .ok none) => (s', .ok newKey)
  | (s', .throws) => (s', .throws)
  | (s', .undefined) => (s', .undefined)

/-- `GetDefaultDB`: `api/sender.cc:42-50`. -/
def defaultDb {B : Type} (w : World B) (draw : Nat → Nat) (s : Server B) : List Nat → Server B × Res Unit
  | [] => (s, .throws)
  | b :: bs =>
    match getBucket w draw s b with
    | (s', .ok (some _)) => (s', .ok ())
    | (s', .ok none) => defaultDb w draw s' bs
    | (s', .throws) => (s', .throws)
    | (s', .undefined) => (s', .undefined)

/-- `api::Sender::RunQuery`: `api/sender.cc:103-242`; `none` is the empty string. -/
def runQuery {B : Type} (w : World B) (draw : Nat → Nat) (s : Server B) (b k : Nat) (items : List Str) :
    Server B × Res (Option (List Match)) :=
  match defaultDb w draw s (List.range s.config.buckets) with
  | (s1, .ok _) =>
    match getBucket w draw s1 b with
    | (s2, .ok (some db)) => (s2, .ok (some (records w db k items)))
    | (s2, .ok none) => (s2, .ok none)
    | (s2, .throws) => (s2, .throws)
    | (s2, .undefined) => (s2, .undefined)
  | (s1, .throws) => (s1, .throws)
  | (s1, .undefined) => (s1, .undefined)

/-- The OPRF requests of all buckets: `api/sender.cc:244-251`. -/
def oprfAll {B : Type} (w : World B) (draw : Nat → Nat) (newKey : Nat) :
    Server B → List (Nat × List Str) → Server B × Res (List Nat)
  | s, [] => (s, .ok [])
  | s, c :: cs =>
    match runOprf w draw newKey s c.1 with
    | (s1, .ok k) =>
      match oprfAll w draw newKey s1 cs with
      | (s2, .ok ks) => (s2, .ok (k :: ks))
      | (s2, .throws) => (s2, .throws)
      | (s2, .undefined) => (s2, .undefined)
    | (s1, .throws) => (s1, .throws)
    | (s1, .undefined) => (s1, .undefined)

/-- The queries of all buckets: `api/sender.cc:253-260`. -/
def queryAll {B : Type} (w : World B) (draw : Nat → Nat) :
    Server B → List ((Nat × List Str) × Nat) → Server B × Res (List (Option (List Match)))
  | s, [] => (s, .ok [])
  | s, c :: cs =>
    match runQuery w draw s c.1.1 c.2 c.1.2 with
    | (s1, .ok m) =>
      match queryAll w draw s1 cs with
      | (s2, .ok ms) => (s2, .ok (m :: ms))
      | (s2, .throws) => (s2, .throws)
      | (s2, .undefined) => (s2, .undefined)
    | (s1, .throws) => (s1, .throws)
    | (s1, .undefined) => (s1, .undefined)

/-- `stream_intersection_results`: `common.cc:182-211`. -/
def streamResults : List Str → List Match → List Str × List Str
  | i :: is, m :: ms =>
    let rest := streamResults is ms
    if m.found then
      (i :: rest.1, match m.label with
        | some l => l :: rest.2
        | none => rest.2)
    else rest
  | _, _ => ([], [])

/-- `api::Receiver::ProcessResult`: `api/receiver.cc:164-201`; the header of an empty answer cannot be loaded. -/
def processResult : List (List Str × Option (List Match)) → Res (List Str × List Str)
  | [] => .ok ([], [])
  | (_, none) :: _ => .throws
  | (items, some ms) :: r =>
    (processResult r).bind fun rest =>
      .ok ((streamResults items ms).1 ++ rest.1, (streamResults items ms).2 ++ rest.2)

/-- A whole query through the API: keys found and their values. -/
def apiQuery {B : Type} (w : World B) (draw : Nat → Nat) (newKey : Nat) (s : Server B) (queries : List Str) :
    Server B × Res (List Str × List Str) :=
  match bucketizeItems w s.config.buckets queries with
  | .throws => (s, .throws)
  | .undefined => (s, .undefined)
  | .ok ctxs =>
    match oprfAll w draw newKey s ctxs with
    | (s1, .throws) => (s1, .throws)
    | (s1, .undefined) => (s1, .undefined)
    | (s1, .ok ks) =>
      match queryAll w draw s1 (ctxs.zip ks) with
      | (s2, .throws) => (s2, .throws)
      | (s2, .undefined) => (s2, .undefined)
      | (s2, .ok ms) => (s2, processResult ((ctxs.map Prod.snd).zip ms))

/-! ### The command line -/

/-- `print_intersection_results`, a line: `common.cc:226-237`. -/
def printLine (i : Str) (m : Match) : Str :=
  if m.found then
    i ++ (match m.label with
      | some l => ',' :: l
      | none => []) ++ ['\n']
  else []

/-- The lines: `common.cc:224-243`. -/
def printLines : List Str → List Match → Str
  | i :: is, m :: ms => printLine i m ++ printLines is ms
  | _, _ => []

/-- The header grows by a column with every label: `common.cc:222`, `common.cc:235`. -/
def printHeader : List Match → Str
  | [] => "key".toList
  | m :: ms => printHeader ms ++ (if m.found ∧ m.label ≠ none then ",value".toList else [])

/-- `print_intersection_results`: the file and the number of matches, `common.cc:213-259`. -/
def printResults (items : List Str) (ms : List Match) (file : Str) (appending : Bool) : Str × Nat :=
  (if appending then file ++ printLines items ms else printHeader ms ++ ['\n'] ++ printLines items ms,
   (ms.filter fun m => m.found).length)

/-- A dispatcher: the sender and what `SetBucketIdx` left behind (`sender_db_`, `oprf_key_`). -/
structure Dispatcher (B : Type) where
  server : Server B
  current : Option Stored

/-- Requests of receivers. -/
inductive Request where
  | params
  | oprf (bucket : Nat) (items : List Str)
  | query (bucket : Nat) (key : Nat) (items : List Str)
  deriving DecidableEq

/-- Answers; `none` means that nothing is sent. -/
inductive Reply where
  | none
  | params
  | oprf (key : Nat)
  | records (ms : List Match)
  deriving DecidableEq

/-- One request of the loop of `run`: `sender_dispatcher.cc:152-189`, `dispatch_parms` (`sender_dispatcher.cc:240-270`, with
`sender.cc:56-59`), `dispatch_oprf` (`sender_dispatcher.cc:289-320`, with `sender.cc:119-121`), `dispatch_query`
(`sender_dispatcher.cc:348-411`), `SetBucketIdx` (`sender_dispatcher.cc:95-102`).  Errors are logged and nothing is sent. -/
def dispatch {B : Type} (w : World B) (draw : Nat → Nat) (newKey : Nat) (d : Dispatcher B) :
    Request → Dispatcher B × Res Reply
  | .params => (d, .ok (if d.current = none then .none else .params))
  | .oprf b items =>
    match getBucket w draw d.server b with
    | (s, .ok (some db)) => (⟨s, some db⟩, .ok (if items = [] then .none else .oprf db.key))
    | (s, .ok none) => (⟨s, none⟩, .ok (if items = [] then .none else .oprf newKey))
    | (s, .throws) => (⟨s, d.current⟩, .ok .none)
    | (s, .undefined) => (⟨s, d.current⟩, .undefined)
  | .query b k items =>
    match getBucket w draw d.server b with
    | (s, .ok (some db)) => (⟨s, some db⟩, .ok (.records (records w db k items)))
    | (s, .ok none) => (⟨s, none⟩, .ok (.records (noRecords items)))
    | (s, .throws) => (⟨s, d.current⟩, .ok .none)
    | (s, .undefined) => (⟨s, d.current⟩, .undefined)

/-- The constructor takes the first bucket that is there: `sender_dispatcher.cc:82-93`. -/
def makeDispatcher {B : Type} (w : World B) (draw : Nat → Nat) (s : Server B) : List Nat → Res (Dispatcher B)
  | [] => .throws
  | b :: bs =>
    match getBucket w draw s b with
    | (s', .ok (some db)) => .ok ⟨s', some db⟩
    | (s', .ok none) => makeDispatcher w draw s' bs
    | (_, .throws) => .throws
    | (_, .undefined) => .undefined

/-- Requests one after the other. -/
def dispatchAll {B : Type} (w : World B) (draw : Nat → Nat) (newKey : Nat) :
    Dispatcher B → List Request → Dispatcher B × Res (List Reply)
  | d, [] => (d, .ok [])
  | d, r :: rs =>
    match dispatch w draw newKey d r with
    | (d1, .ok a) =>
      match dispatchAll w draw newKey d1 rs with
      | (d2, .ok as) => (d2, .ok (a :: as))
      | (d2, .throws) => (d2, .throws)
      | (d2, .undefined) => (d2, .undefined)
    | (d1, .throws) => (d1, .throws)
    | (d1, .undefined) => (d1, .undefined)

/-- The loop of `RunReceiver` over the buckets: `entry.cc:201-259`: the file, whether it was begun, the matches so far.
Without an answer the receiver waits for ever (here: `throws`). -/
def cliLoop {B : Type} (w : World B) (draw : Nat → Nat) (newKey : Nat) :
    Dispatcher B → Str → Bool → Nat → List (Nat × List Str) → Dispatcher B × Res (Str × Nat)
  | d, file, _, total, [] => (d, .ok (file, total))
  | d, file, appending, total, c :: cs =>
    match dispatch w draw newKey d (.oprf c.1 c.2) with
    | (d1, .ok (.oprf k)) =>
      match dispatch w draw newKey d1 (.query c.1 k c.2) with
      | (d2, .ok (.records ms)) =>
        let out := printResults c.2 ms file appending
        cliLoop w draw newKey d2 out.1 (appending || decide (0 < out.2)) (total + out.2) cs
      | (d2, .undefined) => (d2, .undefined)
      | (d2, _) => (d2, .throws)
    | (d1, .undefined) => (d1, .undefined)
    | (d1, _) => (d1, .throws)

/-- `RunReceiver` with buckets: `entry.cc:170-270`; the query file may not be empty and holds every key once
(`csv_reader.cc:157-161`). -/
def cliQuery {B : Type} (w : World B) (draw : Nat → Nat) (newKey : Nat) (d : Dispatcher B) (buckets : Nat)
    (queries : List Str) : Dispatcher B × Res (Str × Nat) :=
  if queries = [] ∨ ¬ queries.Nodup then (d, .throws)
  else
    match bucketizeItems w buckets queries with
    | .throws => (d, .throws)
    | .undefined => (d, .undefined)
    | .ok ctxs => cliLoop w draw newKey d [] false 0 ctxs

end Psi.Apsi
