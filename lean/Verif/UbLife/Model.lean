import Mathlib.Data.List.Basic
import Mathlib.Tactic.TypeStar

/-!
# The files of the unbalanced PSI server

Models what the server of unbalanced PSI finds, deletes and writes on its disk: the checks of
`psi/utils/join_processor.cc:48-168`, the generation of the cache (`psi/algorithm/ecdh/ub_psi/server.cc:38-87`) and
the files the later phases take their data from (`psi/algorithm/ecdh/ub_psi/server.cc:89-203`).

A disk assigns to a path nothing, a directory or a file.  Tables, key summaries and cache records are opaque; what
is computed from what is a parameter (`Ops`), modelled in `Verif/Join` (sorting, key summary) and `Verif/UbPsi`
(records).  The bytes of the data file of the cache are counted, since the check of the cache divides its size.
-/

namespace Psi.UbLife

/-- A path, as the list of its components. -/
abbrev Path := List String

/-- What a file holds.  `torn` is a file whose content cannot be read (a piece of a JSON text). -/
inductive File (T I R : Type)
  | table (t : T)
  | info (i : I)
  | infoMeta (size : Nat)
  /-- The data file of the cache: the records, of which `bytes` bytes are on disk. -/
  | bin (rs : List R) (bytes : Nat)
  | binMeta (count : Nat) (key : List UInt8)
  | torn
deriving DecidableEq

/-- An entry of the disk. -/
inductive Node (T I R : Type)
  | dir
  | file (f : File T I R)
deriving DecidableEq

variable {T I R : Type}

/-- A disk. -/
abbrev Disk (T I R : Type) := Path → Option (Node T I R)

/-- `std::filesystem::exists`. -/
def present (d : Disk T I R) (p : Path) : Bool := (d p).isSome

/-- `std::filesystem::remove_all`: the path and everything below it. -/
def removeAll (p : Path) (d : Disk T I R) : Disk T I R := fun q => if p <+: q then none else d q

/-- `std::filesystem::create_directories`: the path and all directories above it that are not there. -/
def mkdirs (p : Path) (d : Disk T I R) : Disk T I R :=
  fun q => if q <+: p then (match d q with | none => some .dir | some n => some n) else d q

/-- Write a file. -/
def put (p : Path) (f : File T I R) (d : Disk T I R) : Disk T I R := fun q => if q = p then some (.file f) else d q

/-- What is computed: `sort keys t` is `MultiKeySort` (no result: a key is no column; an empty file is none
either), `size t` the size of the file, `info keys t` the key summary of the sorted table, `recs key i` the
masked, shuffled records of the cache. -/
structure Ops (T I R : Type) where
  sort : List String → T → Option T
  size : T → Nat
  info : List String → T → I
  recs : List UInt8 → I → List R

/-- `sizeof(UbPsiCacheItem)`: `psi/algorithm/ecdh/ub_psi/ub_psi_cache.h:34-41`. -/
def recSize : Nat := 44

/-- `psi/proto/psi_v2.proto:401-419`. -/
inductive Mode
  | unspecified | genCache | transferCache | offline | online | full
deriving DecidableEq, Repr

/-- What a server reads of its `UbPsiConfig`; `inputCsv`, `outputCsv` say whether the types are
`IO_TYPE_FILE_CSV`, `sideMissing` that the join is not an inner one and no left side is given, `keyFile` is the key
of `server_secret_key_path`, if set. -/
structure Cfg where
  mode : Mode
  cache : Path
  input : Path
  inputCsv : Bool := true
  outputCsv : Bool := true
  serverGets : Bool := false
  sideMissing : Bool := false
  keys : List String := []
  keyFile : Option (List UInt8) := none

/-- Why a run stops. -/
inductive Err
  | mode | cachePath | noInput | inputFormat | outputFormat | leftSide | noTable | noKey | noData | noMeta
  | torn | count
deriving DecidableEq, Repr

/-- A run: what it returns and the disk afterwards, also if it throws. -/
abbrev Run (T I R α : Type) := Disk T I R → Except Err α × Disk T I R

/-- Then. -/
def andThen {α β : Type} (m : Run T I R α) (k : α → Run T I R β) : Run T I R β := fun d =>
  match m d with
  | (.error e, d') => (.error e, d')
  | (.ok a, d') => k a d'

/-! ### Names of files -/

/-- `sorted_input_path_`: `psi/utils/join_processor.cc:74-75`. -/
def sortedPath (c : Path) : Path := c ++ ["join_sorted_input.csv"]

/-- `key_info_path_`: `psi/utils/join_processor.cc:76`. -/
def infoPath (c : Path) : Path := c ++ ["join_sorted_input_key_info.csv"]

/-- `psi/utils/table_utils.cc:282`. -/
def infoMetaPath (c : Path) : Path := c ++ ["join_sorted_input_key_info.csv.meta"]

/-- `GetUbPsiCacheFileName`: `psi/algorithm/ecdh/ub_psi/ub_psi_cache.cc:34-36`. -/
def binPath (c : Path) : Path := c ++ ["ub_psi_cache.bin"]

/-- `GetUbPsiCacheMetaName`: `psi/algorithm/ecdh/ub_psi/ub_psi_cache.cc:38-40`. -/
def binMetaPath (c : Path) : Path := c ++ ["ub_psi_cache.meta"]

/-! ### Start -/

/-- The modes in which a server needs its input: `psi/utils/join_processor.cc:60-64`. -/
def needsInput (m : Mode) : Bool := m = .genCache || m = .offline || m = .full

/-- `CheckUbPsiServerConfig`: `psi/utils/join_processor.cc:52-77`.  The result is `input_path_`, empty if it is not
set. -/
def checkServer (c : Cfg) : Run T I R Path := fun d =>
  if !present d c.cache && !present d c.input then (.error .noInput, d)
  else if needsInput c.mode then
    if !c.inputCsv then (.error .inputFormat, d)
    else (.ok c.input, removeAll c.cache d)
  else (.ok [], d)

/-- Constructor of the join processor of a server: `psi/utils/join_processor.cc:99-168`. -/
def construct (c : Cfg) : Run T I R Path := fun d =>
  if c.cache = [] then (.error .cachePath, d) else
  andThen (checkServer c) (fun inp d =>
    if c.serverGets && (c.mode = .online || c.mode = .full) && !c.outputCsv then (.error .outputFormat, d)
    else
      let d := if present d c.cache then d else mkdirs c.cache d
      if c.sideMissing then (.error .leftSide, d) else (.ok inp, d)) d

/-- `Init`, apart from the connection: `psi/algorithm/ecdh/ub_psi/server.cc:38-51`. -/
def init (c : Cfg) : Run T I R Path := fun d =>
  if c.mode = .unspecified then (.error .mode, d) else construct c d

/-! ### The table and its key summary -/

/-- The table in a file: `psi/utils/table_utils.cc:186-188, 200-210`; there is no file with an empty path. -/
def tableAt (d : Disk T I R) (p : Path) : Except Err T :=
  if p = [] then .error .noTable else
  match d p with
  | some (.file (.table t)) => .ok t
  | _ => .error .noTable

/-- `GetSortedInputTable`: `psi/utils/join_processor.cc:239-256`, `psi/utils/table_utils.cc:252-269`.  A sorted file
that exists is taken as it is. -/
def sortedTable (o : Ops T I R) (c : Cfg) (inp : Path) : Run T I R T := fun d =>
  if present d (sortedPath c.cache) then (tableAt d (sortedPath c.cache), d)
  else match tableAt d inp with
    | .error e => (.error e, d)
    | .ok t =>
      match o.sort c.keys t with
      | none => (.error .noKey, d)
      | some s => (.ok s, put (sortedPath c.cache) (.table s) d)

/-- `KeyInfo::Make` of a sorted table: `psi/utils/table_utils.cc:280-373`.  The summary on disk is taken if its
meta file names the size of the sorted file. -/
def keyInfo (o : Ops T I R) (c : Cfg) (s : T) : Run T I R I := fun d =>
  let rebuild : Except Err I × Disk T I R :=
    (.ok (o.info c.keys s), put (infoMetaPath c.cache) (.infoMeta (o.size s))
      (put (infoPath c.cache) (.info (o.info c.keys s)) d))
  match d (infoPath c.cache), d (infoMetaPath c.cache) with
  | some (.file (.info i)), some (.file (.infoMeta n)) => if n = o.size s then (.ok i, d) else rebuild
  | some _, some (.file .torn) => (.error .torn, d)
  | _, _ => rebuild

/-- `GetUniqueKeysInfo`; the sorted table is kept along: `psi/utils/join_processor.cc:258-268`. -/
def uniqueKeys (o : Ops T I R) (c : Cfg) (inp : Path) : Run T I R (T × I) :=
  andThen (sortedTable o c inp) (fun s => andThen (keyInfo o c s) (fun i d => (.ok (s, i), d)))

/-! ### The cache -/

/-- `OfflineGenCache`: `psi/algorithm/ecdh/ub_psi/server.cc:63-87`, `psi/algorithm/ecdh/ub_psi/ub_psi_cache.cc:123-160`.
The data file is made first, the records are written, then the meta file, then the rest of the records.  `fresh` is
the random key. -/
def genCache (o : Ops T I R) (c : Cfg) (fresh : List UInt8) (inp : Path) : Run T I R Unit := fun d =>
  andThen (uniqueKeys o c inp) (fun k d =>
    let rs := o.recs (c.keyFile.getD fresh) k.2
    (.ok (), put (binPath c.cache) (.bin rs (rs.length * recSize))
      (put (binMetaPath c.cache) (.binMeta (rs.length % 2 ^ 32) (c.keyFile.getD fresh)) d)))
    (put (binPath c.cache) (.bin [] 0) d)

/-- Constructor of the provider of the cache: `psi/algorithm/ecdh/ub_psi/ub_psi_cache.cc:44-63`,
`psi/algorithm/ecdh/ub_psi/server.cc:89-93`. -/
def openCache (c : Path) : Run T I R (List R × List UInt8) := fun d =>
  match d (binPath c) with
  | none => (.error .noData, d)
  | some n =>
    match d (binMetaPath c) with
    | none => (.error .noMeta, d)
    | some (.file (.binMeta count key)) =>
      match n with
      | .file (.bin rs bytes) =>
        if bytes / recSize = count then (.ok (rs.take count, key), d) else (.error .count, d)
      | _ => (.error .torn, d)
    | some _ => (.error .torn, d)

/-- `OfflineTransferCache`; the result is what is sent: `psi/algorithm/ecdh/ub_psi/server.cc:95-107`. -/
def transfer (c : Path) : Run T I R (List R) :=
  andThen (openCache c) (fun r d => (.ok r.1, d))

/-- What the server has in the online phase: key, sorted table, key summary and, if it gets the result, the records
of the cache. -/
structure Serving (T I R : Type) where
  key : List UInt8
  table : T
  info : I
  recs : Option (List R)
deriving DecidableEq

/-- `Online`, as far as files of the server matter: `psi/algorithm/ecdh/ub_psi/server.cc:116-125, 151-203`. -/
def online (o : Ops T I R) (c : Cfg) (inp : Path) : Run T I R (Serving T I R) :=
  andThen (fun d => match c.keyFile with
    | some k => (.ok k, d)
    | none => andThen (openCache c.cache) (fun r d => (.ok r.2, d)) d) (fun key =>
  andThen (uniqueKeys o c inp) (fun k =>
    if c.serverGets then andThen (openCache c.cache) (fun r d => (.ok ⟨key, k.1, k.2, some r.1⟩, d))
    else fun d => (.ok ⟨key, k.1, k.2, none⟩, d)))

/-- What a run delivers: the records sent to the client and what the online phase works with. -/
structure Out (T I R : Type) where
  sent : Option (List R) := none
  serving : Option (Serving T I R) := none
deriving DecidableEq

/-- The run of a server: `psi/interface.cc:281-312`, `psi/algorithm/ecdh/ub_psi/server.cc:109-114`.  (An unspecified
mode was refused by `Init`.) -/
def run (o : Ops T I R) (c : Cfg) (fresh : List UInt8) : Run T I R (Out T I R) :=
  andThen (init c) (fun inp =>
    match c.mode with
    | .genCache => andThen (genCache o c fresh inp) (fun _ d => (.ok {}, d))
    | .transferCache => andThen (transfer c.cache) (fun s d => (.ok { sent := some s }, d))
    | .offline => andThen (genCache o c fresh inp) (fun _ =>
        andThen (transfer c.cache) (fun s d => (.ok { sent := some s }, d)))
    | .online => andThen (online o c inp) (fun s d => (.ok { serving := some s }, d))
    | .full => andThen (genCache o c fresh inp) (fun _ =>
        andThen (transfer c.cache) (fun s =>
          andThen (online o c inp) (fun v d => (.ok { sent := some s, serving := some v }, d))))
    | .unspecified => fun d => (.error .mode, d))

/-! ### Interruption -/

/-- The disks a generation passes through, from the start of the constructor on; `sorts` are the pieces of the
sorted file, `infos` those of the summary, `flushed` the bytes of the data file that were on disk at different
moments.  Files are completed in the order of the code: data file made, sorted table, summary, its meta file,
records, meta file of the cache, rest of the records.  The meta files are short texts; `torn` is any proper piece
of one. -/
def genStates (o : Ops T I R) (c : Cfg) (key : List UInt8) (s : T) (sorts : List T) (infos : List I)
    (flushed flushed' : List Nat) (d : Disk T I R) : List (Disk T I R) :=
  let i := o.info c.keys s
  let rs := o.recs key i
  let d1 := mkdirs c.cache (removeAll c.cache d)
  let d2 := put (binPath c.cache) (.bin [] 0) d1
  let d3 := put (sortedPath c.cache) (.table s) d2
  let d4 := put (infoPath c.cache) (.info i) d3
  let d5 := put (infoMetaPath c.cache) (.infoMeta (o.size s)) d4
  let d6 := put (binMetaPath c.cache) (.binMeta (rs.length % 2 ^ 32) key) d5
  [removeAll c.cache d, d1, d2]
    ++ sorts.map (fun t => put (sortedPath c.cache) (.table t) d2) ++ [d3]
    ++ infos.map (fun j => put (infoPath c.cache) (.info j) d3) ++ [d4]
    ++ [put (infoMetaPath c.cache) .torn d4, d5]
    ++ flushed.map (fun n => put (binPath c.cache) (.bin rs (min n (rs.length * recSize))) d5)
    ++ flushed.map (fun n => put (binPath c.cache) (.bin rs (min n (rs.length * recSize)))
        (put (binMetaPath c.cache) .torn d5))
    ++ flushed'.map (fun n => put (binPath c.cache) (.bin rs (min n (rs.length * recSize))) d6)

end Psi.UbLife
