import Verif.Spiral.ArithModel

/-!
# Stored data bases of the labeled PSI sender

Models `psi/wrapper/apsi/utils/sender_db.cc`, the part of `psi/wrapper/apsi/cli/entry.cc` without buckets, the translation of the
configuration in `psi/apps/psi_launcher/launch.cc`, and the data bases of `psi/algorithm/dkpir/sender.cc`.

The library APSI (format of a data base, its keyed hash) is a parameter.  Labels are compared as they are stored; how the library pads
them is in `Verif/Apsi`.
-/

namespace Psi.Stored

open Psi.Spiral (Res)

abbrev Bytes := List Nat

/-- A data base: parameters, sizes, and for each item its hash and its label. -/
structure Db (H Params : Type) where
  params : Params
  labelBytes : Nat
  nonce : Nat
  compress : Bool
  rows : List (H × Bytes)

/-- The table of a CSV file: with a value column or without, and the rows. -/
structure Table where
  labeled : Bool
  rows : List (Bytes × Bytes)
deriving DecidableEq

/-- The library.  `spoil` is what a key is after a load that failed. -/
structure Lib (H Params Key : Type) where
  oprf : Key → Bytes → H
  saveDb : Db H Params → Bytes
  loadDb : Bytes → Option (Db H Params × Bytes)
  saveKey : Key → Bytes
  readKey : Bytes → Key
  spoil : Key → Bytes → Key
  parseParams : Bytes → Option Params
  parseCsv : Bytes → Option Table

variable {H Params Key : Type}

/-- The files; a path of no characters names no file. -/
abbrev Disk := String → Option Bytes

/-- A file is written. -/
def Disk.set (d : Disk) (p : String) (b : Bytes) : Disk := fun q => if q = p then some b else d q

/-- `OPRFKey::load`: `oprf_key_size` is 32. -/
def loadKey (L : Lib H Params Key) (b : Bytes) : Option Key := if b.length < 32 then none else some (L.readKey (b.take 32))

/-- `TryLoadSenderDB`: `psi/wrapper/apsi/utils/sender_db.cc:42-63, 90-117`.  The result is set before the key is loaded, and an
exception of the load of the key is only logged: the key is then what it was, or spoilt. -/
def tryLoad (L : Lib H Params Key) (key : Key) (b : Bytes) : Option (Db H Params) × Key :=
  match L.loadDb b with
  | none => (none, key)
  | some (db, rest) =>
    match loadKey L rest with
    | some k => (some db, k)
    | none => (some db, L.spoil key rest)

/-- The overload for a path: `psi/wrapper/apsi/utils/sender_db.cc:90-117`.  The stream throws outside the `try` if there is no file. -/
def tryLoadFile (L : Lib H Params Key) (key : Key) (d : Disk) (p : String) : Res (Option (Db H Params) × Key) :=
  match d p with
  | none => .throws
  | some b => .ok (tryLoad L key b)

/-- The disk that is written to: the bytes there is room for, and the bytes that a stream hands on before it is destroyed (it keeps
the last ones in its buffer). -/
structure Room where
  cap : Nat
  flushed : Nat

/-- `TrySaveSenderDB`: `psi/wrapper/apsi/utils/sender_db.cc:65-88, 142-166`.  A failure is noticed for what is handed on before the
stream is destroyed; the destructor drops errors. -/
def trySave (L : Lib H Params Key) (r : Room) (d : Disk) (p : String) (db : Db H Params) (key : Key) : Disk × Bool :=
  (d.set p ((L.saveDb db ++ L.saveKey key).take r.cap), decide (r.flushed ≤ r.cap))

/-- `ApsiCsvReader::read`: `psi/wrapper/apsi/utils/csv_reader.cc:92-164`: a table without rows and a table with equal keys are refused. -/
def readCsv (L : Lib H Params Key) (b : Bytes) : Option Table :=
  match L.parseCsv b with
  | none => none
  | some t => if t.rows = [] then none else if (t.rows.map Prod.fst).Nodup then some t else none

/-- `load_db` as it is called, without names of columns: `psi/wrapper/apsi/utils/sender_db.cc:168-185`. -/
def loadTable (L : Lib H Params Key) (d : Disk) (p : String) : Option Table := (d p).bind (readCsv L)

/-- The longest label: `psi/wrapper/apsi/utils/sender_db.cc:227-233`, with the iterator at the end for an empty list. -/
def longest : List (Bytes × Bytes) → Res Nat
  | [] => .undefined
  | (_, l) :: t => .ok (t.foldl (fun m r => max m r.2.length) l.length)

/-- `create_sender_db`: `psi/wrapper/apsi/utils/sender_db.cc:201-263`; `key` is the key that the data base draws. -/
def createDb (L : Lib H Params Key) (key : Key) (t : Table) (params : Params) (nonce : Nat) (compress : Bool) : Res (Db H Params × Key) :=
  if t.labeled then
    (longest t.rows).bind fun n => .ok (⟨params, n, nonce, compress, t.rows.map fun r => (L.oprf key r.1, r.2)⟩, key)
  else .ok (⟨params, 0, 0, compress, t.rows.map fun r => (L.oprf key r.1, [])⟩, key)

/-- `BuildPsiParams`: `psi/wrapper/apsi/utils/common.cc:139-180`. -/
def buildParams (L : Lib H Params Key) (d : Disk) (p : String) : Option Params := (d p).bind L.parseParams

/-- `GenerateSenderDB`: `psi/wrapper/apsi/utils/sender_db.cc:119-140`; `none` stands for a null pointer. -/
def generateDb (L : Lib H Params Key) (key : Key) (d : Disk) (source params : String) (nonce : Nat) (compress : Bool) :
    Res (Option (Db H Params × Key)) :=
  match buildParams L d params with
  | none => .ok none
  | some ps =>
    if source = "" then .ok none
    else match loadTable L d source with
      | none => .ok none
      | some t => (createDb L key t ps nonce compress).bind fun x => .ok (some x)

/-! ## The program of the sender -/

/-- `ApsiSenderConfig`: `psi/proto/pir.proto:27-92`, without the log file, the threads and the fields for buckets that only `GroupDB`
reads. -/
structure Config where
  logLevel : String := ""
  dbFile : String := ""
  sourceFile : String := ""
  paramsFile : String := ""
  sdbOutFile : String := ""
  nonceByteCount : Nat := 0
  compress : Bool := false
  saveDbOnly : Bool := false
  bucketGroupCnt : Nat := 0
  processNum : Nat := 0

/-- `SenderOptions`: `psi/wrapper/apsi/cli/entry.h:57-97`. -/
structure Options where
  logLevel : String := "all"
  nonceByteCount : Nat := 16
  compress : Bool := false
  dbFile : String := ""
  sourceFile : String := ""
  paramsFile : String := ""
  sdbOutFile : String := ""
  saveDbOnly : Bool := false
  processNum : Nat := 8
  bucketGroupCnt : Nat := 512
deriving DecidableEq, Repr

/-- The log levels that are known: `psi/apps/psi_launcher/launch.cc:206-212`. -/
def levels : List String := ["all", "debug", "info", "warning", "error", "off"]

/-- `RunPir` for a sender: `psi/apps/psi_launcher/launch.cc:202-244`. -/
def options (c : Config) : Options :=
  { logLevel := if c.logLevel ∈ levels then c.logLevel else "all"
    dbFile := c.dbFile
    sourceFile := c.sourceFile
    paramsFile := c.paramsFile
    sdbOutFile := c.sdbOutFile
    compress := c.compress
    saveDbOnly := c.saveDbOnly
    nonceByteCount := if c.nonceByteCount ≠ 0 then c.nonceByteCount else 16
    processNum := if c.processNum ≠ 0 then c.processNum else 8
    bucketGroupCnt := if c.bucketGroupCnt ≠ 0 then c.bucketGroupCnt else 512 }

/-- A null pointer is refused. -/
def enforce {α : Type} : Option α → Res α
  | some a => .ok a
  | none => .throws

/-- The data base and its key: `psi/wrapper/apsi/cli/entry.cc:366-384`.  `fresh` is the key that the constructor of `oprf_key` draws,
`draw` the one that a new data base draws. -/
def getDb (L : Lib H Params Key) (fresh draw : Key) (o : Options) (d : Disk) : Res (Db H Params × Key) :=
  if o.dbFile = "" ∧ o.sourceFile = "" then .throws
  else if o.dbFile ≠ "" then
    (tryLoadFile L fresh d o.dbFile).bind fun x => match x with
      | (some db, k) => .ok (db, k)
      | (none, _) => .throws
  else (generateDb L draw d o.sourceFile o.paramsFile o.nonceByteCount o.compress).bind enforce

/-- `DealSingleDB`: `psi/wrapper/apsi/cli/entry.cc:363-402`: the disk afterwards, and the data base and the key that are served, if
any. -/
def dealSingle (L : Lib H Params Key) (fresh draw : Key) (r : Room) (o : Options) (d : Disk) : Disk × Res (Option (Db H Params × Key)) :=
  match getDb L fresh draw o d with
  | .throws => (d, .throws)
  | .undefined => (d, .undefined)
  | .ok (db, k) =>
    if o.sdbOutFile ≠ "" then
      let s := trySave L r d o.sdbOutFile db k
      if s.2 then (s.1, .ok (if o.saveDbOnly then none else some (db, k))) else (s.1, .throws)
    else (d, .ok (if o.saveDbOnly then none else some (db, k)))

/-- A run of the launcher with the configuration of a sender without buckets: `psi/apps/psi_launcher/launch.cc:202-248`,
`psi/wrapper/apsi/cli/entry.cc:447-471`. -/
def runSender (L : Lib H Params Key) (fresh draw : Key) (r : Room) (c : Config) (d : Disk) : Disk × Res (Option (Db H Params × Key)) :=
  dealSingle L fresh draw r (options c) d

/-- What a query for an item gets: the item is hashed with the key that is served and looked up. -/
def answer [DecidableEq H] (L : Lib H Params Key) (s : Db H Params × Key) (q : Bytes) : Option Bytes :=
  (s.1.rows.find? fun r => r.1 = L.oprf s.2 q).map Prod.snd

/-! ## The two data bases of the PIR with duplicate keys -/

/-- The settings of `DkPirSender` that are used here. -/
structure DkOptions where
  paramsFile : String
  valueFile : String
  countFile : String
  skip : Bool
  nonce : Nat := 16
  compress : Bool := false

/-- `DkPirSender::GenerateDB`: `psi/algorithm/dkpir/sender.cc:134-170`, with the two tables of `PreProcessData`; the labels of `counts`
are encrypted already (`none`: that failed, `psi/algorithm/dkpir/sender_cnt_db.cc:126-158`). -/
def dkGenerate (L : Lib H Params Key) (draw : Key) (r r' : Room) (o : DkOptions) (values : Table) (counts : Option Table) (d : Disk) :
    Disk × Res Unit :=
  match buildParams L d o.paramsFile with
  | none => (d, .throws)
  | some ps =>
    match createDb L draw values ps o.nonce o.compress with
    | .throws => (d, .throws)
    | .undefined => (d, .undefined)
    | .ok (db, k) =>
      let s := trySave L r d o.valueFile db k
      if s.2 then
        if o.skip then (s.1, .ok ())
        else match counts with
          | none => (s.1, .throws)
          | some t =>
            match createDb L k t ps o.nonce o.compress with
            | .throws => (s.1, .throws)
            | .undefined => (s.1, .undefined)
            | .ok (cdb, k') =>
              let s' := trySave L r' s.1 o.countFile cdb k'
              if s'.2 then (s'.1, .ok ()) else (s'.1, .throws)
      else (s.1, .throws)

/-- `DkPirSender::LoadDB`: `psi/algorithm/dkpir/sender.cc:172-193`: the data base, that of the counts, and the one key for both, which
is loaded twice. -/
def dkLoad (L : Lib H Params Key) (fresh : Key) (o : DkOptions) (d : Disk) : Res (Db H Params × Option (Db H Params) × Key) :=
  (tryLoadFile L fresh d o.valueFile).bind fun x => match x with
    | (none, _) => .throws
    | (some db, k) =>
      if o.skip then .ok (db, none, k)
      else (tryLoadFile L k d o.countFile).bind fun y => match y with
        | (none, _) => .throws
        | (some cdb, k') => .ok (db, some cdb, k')

end Psi.Stored
