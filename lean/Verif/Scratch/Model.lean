import Mathlib.Data.List.Basic
import Mathlib.Tactic.TypeStar

/-!
# Scratch places

Models what a run puts into places of its own on the disk and what it deletes again: the names of these places
(`psi/utils/random_str.h`), the directory of a disk cache (`psi/utils/multiplex_disk_cache.{h,cc}`), the directories
that the resource manager owns (`psi/utils/resource_manager.{h,cc}`, `psi/interface.cc:51-65`), the launcher
(`psi/apps/psi_launcher/main.cc:85-145`, `psi/apps/psi_launcher/launch.cc:97-128`), the temporary files of DkPir
(`psi/algorithm/dkpir/entry.cc`) and of the CSV checker (`psi/utils/csv_checker.cc:60-151`).

A path is a list of components, a disk assigns to a path nothing, a directory or a file.  Simplified: no symbolic
links, no access rights, no full disk; what is written into a scratch place is arbitrary.  Other processes appear only
where a test and the action that relies on it are separate (`race`).
-/

namespace Psi.Scratch

/-- A component of a path. -/
abbrev Name := List Char

/-- A path. -/
abbrev Path := List Name

/-- An entry of the disk. -/
inductive Node
  | dir
  | file (content : List UInt8)
deriving DecidableEq, Repr

/-- A disk. -/
abbrev Disk := Path → Option Node

/-! ### Names -/

/-- `kPathChars`: `psi/utils/random_str.h:24-25`. -/
def pathChars : List Char := "ABCDEFGHIJKLMNOPQRSTUVWXYZabcdefghijklmnopqrstuvwxyz0123456789-_".toList

/-- `kPathChars[i]`; the index is below 64 in `nameFrom`. -/
def pathChar (i : Nat) : Char := pathChars.getD i '_'

/-- The loop of `GetRandomString`, `psi/utils/random_str.h:28-36`, for `n` more characters and the bytes that are
left; `none` is a read past the last byte. -/
def nameFrom : Nat → List UInt8 → Option Name
  | 0, _ => some []
  | _ + 1, [] => none
  | 1, b :: _ => some [pathChar (b.toNat / 64)]
  | n + 2, b :: bs => (nameFrom n bs).map fun r => pathChar (b.toNat / 64) :: pathChar (b.toNat % 64) :: r

/-- The number of random bytes that are drawn: `psi/utils/random_str.h:23`. -/
def drawn (n : Nat) : Nat := (n + 1) / 2

/-- `GetRandomString()` with its default length: `psi/utils/random_str.h:22-38`. -/
def randomName (bytes : List UInt8) : Name := (nameFrom 16 bytes).getD []

/-! ### `std::filesystem` -/

/-- `exists`. -/
def present (d : Disk) (p : Path) : Bool := (d p).isSome

/-- `remove_all`: the path and all below it. -/
def removeAll (p : Path) (d : Disk) : Disk := fun q => if p <+: q then none else d q

/-- `remove` for a file that may be missing. -/
def removeFile (p : Path) (d : Disk) : Disk := fun q => if q = p then none else d q

/-- Write a file. -/
def put (p : Path) (c : List UInt8) (d : Disk) : Disk := fun q => if q = p then some (.file c) else d q

/-- There is a file at the path. -/
def isFile (d : Disk) (p : Path) : Bool := match d p with | some (.file _) => true | _ => false

/-- `create_directories`: the path and all above it that is missing; `none` is the exception for a file that is in
the way. -/
def createDirs (p : Path) (d : Disk) : Option Disk :=
  if p.inits.any (isFile d) then none
  else some fun q => if q <+: p then some .dir else d q

/-- `create_directory`: whether a directory was made; `none` is the exception for a file of that name or a parent that
is no directory. -/
def createDir (p : Path) (d : Disk) : Option (Disk × Bool) :=
  match d p with
  | some .dir => some (d, false)
  | some (.file _) => none
  | none => if d p.dropLast = some .dir then some (fun q => if q = p then some .dir else d q, true) else none

/-! ### The directory of a disk cache -/

/-- What `CreateUniqueTempDirUnderPath` did: the member `dir_`, the disk and the result, `none` for an exception. -/
structure Tried where
  dir : Path
  disk : Disk
  result : Option Bool

/-- `ScopedTempDir::CreateUniqueTempDirUnderPath`, `psi/utils/multiplex_disk_cache.cc:31-48`: `draw i` is the name of
try `i`, `race i` what other processes do between the test of line 40 and the creation of line 41.  `dir_` is set
before the test. -/
def tryDirs (parent : Path) (draw : Nat → Name) (race : Nat → Disk → Disk) : Nat → Nat → Path → Disk → Tried
  | 0, _, dir, d => ⟨dir, d, some false⟩
  | left + 1, i, _, d =>
    let dir := parent ++ [draw i]
    if present d dir then tryDirs parent draw race left (i + 1) dir d
    else match createDir dir (race i d) with
      | none => ⟨dir, race i d, none⟩
      | some (d', made) => ⟨dir, d', some made⟩

/-- `kMaxTries`: `psi/utils/multiplex_disk_cache.cc:35`. -/
def maxTries : Nat := 10

/-- `~ScopedTempDir`: `psi/utils/multiplex_disk_cache.h:35-41`. -/
def dropScoped (dir : Path) (d : Disk) : Disk := if dir = [] then d else removeAll dir d

/-- A disk cache: `cache_dir_` and the directory that goes with the object, if there is one. -/
structure Cache where
  dir : Path
  owned : Option Path
deriving DecidableEq, Repr

/-- The constructor of `MultiplexDiskCache`, `psi/utils/multiplex_disk_cache.cc:50-63`; `none` is an exception, which
destroys the `ScopedTempDir` that was made in line 55. -/
def openCache (path : Path) (own : Bool) (draw : Nat → Name) (race : Nat → Disk → Disk) (d : Disk) :
    Option Cache × Disk :=
  if own then
    let t := tryDirs path draw race maxTries 0 [] d
    if t.result = some true then (some ⟨t.dir, some t.dir⟩, t.disk) else (none, dropScoped t.dir t.disk)
  else (some ⟨path, none⟩, d)

/-- The destructor of `MultiplexDiskCache`. -/
def closeCache (c : Cache) (d : Disk) : Disk := match c.owned with | some p => dropScoped p d | none => d

/-- The life of a disk cache: it is opened, used, and destroyed at the end. -/
def cacheLife (path : Path) (own : Bool) (draw : Nat → Name) (race : Nat → Disk → Disk) (use : Path → Disk → Disk)
    (d : Disk) : Disk :=
  match openCache path own draw race d with
  | (some c, d1) => closeCache c (use c.dir d1)
  | (none, d1) => d1

/-! ### The resource manager -/

/-- The key of a resource: the path of a directory, the id of a link.  (In the code both are strings of one map; a
party whose id is the path of a scratch directory is left out.) -/
inductive Key
  | dir (p : Path)
  | link (id : Name)
deriving DecidableEq, Repr

/-- A resource.  `inst` tells the links of one id apart. -/
inductive Res
  | dir (p : Path)
  | link (inst : Nat)
deriving DecidableEq, Repr

/-- The manager, the disk and the links whose tasks were waited for. -/
structure Mgr where
  held : List (Key × Res) := []
  disk : Disk
  waited : List Nat := []

/-- `AddResource`, `psi/utils/resource_manager.cc:59-61`: `emplace` keeps what is there. -/
def addResource (k : Key) (r : Res) (m : Mgr) : Mgr :=
  if k ∈ m.held.map Prod.fst then m else { m with held := m.held ++ [(k, r)] }

/-- `DirResource::Acquire`: `psi/utils/resource_manager.cc:22-27`. -/
def acquireDir (p : Path) (d : Disk) : Option Disk := if present d p then some d else createDirs p d

/-- `AddDirResouce`: `psi/utils/resource_manager.cc:77-83`; `none` is an exception. -/
def addDir (p : Path) (m : Mgr) : Option Mgr :=
  (acquireDir p m.disk).map fun d => addResource (.dir p) (.dir p) { m with disk := d }

/-- `AddLinkResource`: `psi/utils/resource_manager.cc:85-92`, for a party of the link. -/
def addLink (id : Name) (inst : Nat) (m : Mgr) : Mgr := addResource (.link id) (.link inst) m

/-- `Release`: `psi/utils/resource_manager.cc:29-34`, `psi/utils/resource_manager.cc:47-52`. -/
def release (r : Res) (m : Mgr) : Mgr :=
  match r with
  | .dir p => if present m.disk p then { m with disk := removeAll p m.disk } else m
  | .link i => { m with waited := m.waited ++ [i] }

/-- `RemoveResource`: `psi/utils/resource_manager.cc:63-69`. -/
def removeResource (k : Key) (m : Mgr) : Mgr :=
  match m.held.lookup k with
  | some r => let m' := release r m; { m' with held := m'.held.filter fun e => e.1 ≠ k }
  | none => m

/-- `RemoveAllResource`: `psi/utils/resource_manager.cc:70-75`; `order` is the order in which the `unordered_map` is
gone through. -/
def removeAllResource (order : List (Key × Res)) (m : Mgr) : Mgr :=
  { order.foldl (fun m e => release e.2 m) m with held := [] }

/-! ### A run -/

/-- What a party keeps: `recovery` is the folder of `recovery_config`, if recovery is enabled, `dir` is
`dir_resource_`. -/
structure Party where
  recovery : Option Path
  dir : Option Path := none

/-- `AbstractPsiParty::GetTaskDir`: `psi/interface.cc:51-65`; `tmp` is `temp_directory_path()`, `name` the name that is
drawn if one is needed. -/
def taskDir (tmp : Path) (name : Name) (p : Party) (m : Mgr) : Option (Path × Party × Mgr) :=
  match p.recovery with
  | some folder => some (folder, p, m)
  | none =>
    match p.dir with
    | some dir => some (dir, p, m)
    | none => (addDir (tmp ++ [name]) m).map fun m' => (tmp ++ [name], { p with dir := some (tmp ++ [name]) }, m')

/-- What happens to the disk during a run, as far as it concerns scratch places: a directory is given to the manager,
something happens on the disk, a disk cache is used. -/
inductive Step
  | addDir (p : Path)
  | write (f : Disk → Disk)
  | cache (path : Path) (draw : Nat → Name) (use : Path → Disk → Disk)

/-- One step; `none` is an exception. -/
def step (s : Step) (m : Mgr) : Option Mgr :=
  match s with
  | .addDir p => addDir p m
  | .write f => some { m with disk := f m.disk }
  | .cache path draw use =>
    match openCache path true draw (fun _ d => d) m.disk with
    | (some c, d1) => some { m with disk := closeCache c (use c.dir d1) }
    | (none, _) => none

/-- The steps of a run. -/
def steps : List Step → Mgr → Option Mgr
  | [], m => some m
  | s :: ss, m => (step s m).bind (steps ss)

/-- The launcher, `psi/apps/psi_launcher/main.cc:85-145`: after the run all resources are released (line 140).  There
is no handler, so that an exception of the run (`ok = false`) ends the process with `std::terminate`: nothing is
released. -/
def launcher (ok : Bool) (order : List (Key × Res)) (m : Mgr) : Disk :=
  if ok then (removeAllResource order m).disk else m.disk

/-- The trace of a run: `psi/apps/psi_launcher/launch.cc:122-125`. -/
def tracePath (given : Path) (name : Name) : Path :=
  if given = [] then ["tmp".toList, "psi_".toList ++ name ++ ".trace".toList] else given

/-- The end of `RunPsi`: `psi/apps/psi_launcher/launch.cc:122-125`. -/
def writeTrace (given : Path) (name : Name) (trace : List UInt8) (d : Disk) : Disk := put (tracePath given name) trace d

/-! ### Temporary files of DkPir -/

/-- Where the receiver of DkPir stops: the parameters cannot be read (`psi/algorithm/dkpir/entry.cc:189-195`), the
query cannot be read (`psi/algorithm/dkpir/entry.cc:200-207`, with the file written or not), the OPRF or the query fails
(`psi/algorithm/dkpir/entry.cc:246-249`, `psi/algorithm/dkpir/entry.cc:259-262`, `psi/algorithm/dkpir/entry.cc:283-286`,
`psi/algorithm/dkpir/entry.cc:323-326`), the result cannot be saved (an exception of `SaveResult`), or it comes to its end. -/
inductive Stop
  | params | query (written : Bool) | oprf | answer | save | none
deriving DecidableEq, Repr

/-- `tmp_query_file`: `psi/algorithm/dkpir/entry.cc:184-185`. -/
def queryFile (tmp : Path) (name : Name) : Path := tmp ++ ["tmp_query_".toList ++ name ++ ".csv".toList]

/-- `tmp_result_file`: `psi/algorithm/dkpir/entry.cc:186-187`. -/
def resultFile (tmp : Path) (name : Name) : Path := tmp ++ ["tmp_result_".toList ++ name ++ ".csv".toList]

/-- `ReceiverOnline`, `psi/algorithm/dkpir/entry.cc:167-340`, for a `tmp_folder` that exists: `query` is the text of the
query, `rows` that of the temporary result, `out` where and what `SaveResult` writes for the user. -/
def dkReceiver (tmp : Path) (name : Name) (query rows : List UInt8) (out : Path × List UInt8) (stop : Stop)
    (d : Disk) : Disk :=
  match stop with
  | .params => d
  | .query false => d
  | .query true => put (queryFile tmp name) query d
  | .oprf => put (queryFile tmp name) query d
  | .answer => put (queryFile tmp name) query d
  | .save => put (resultFile tmp name) rows (put (queryFile tmp name) query d)
  | .none =>
    removeFile (resultFile tmp name) (removeFile (queryFile tmp name)
      (put out.1 out.2 (put (resultFile tmp name) rows (put (queryFile tmp name) query d))))

/-- `key_value_file`: `psi/algorithm/dkpir/entry.cc:41-42`. -/
def valueFile (tmp : Path) (name : Name) : Path := tmp ++ ["key_value_".toList ++ name ++ ".csv".toList]

/-- `key_count_file`: `psi/algorithm/dkpir/entry.cc:43-44`. -/
def countFile (tmp : Path) (name : Name) : Path := tmp ++ ["key_count_".toList ++ name ++ ".csv".toList]

/-- `SenderOffline`, `psi/algorithm/dkpir/entry.cc:25-58`, for a `tmp_folder` that exists: `built` says whether
`GenerateDB` comes to its end, `db` is what it does to the disk. -/
def dkSender (tmp : Path) (name : Name) (values counts : List UInt8) (skipCount built : Bool) (db : Disk → Disk)
    (d : Disk) : Disk :=
  let d1 := put (valueFile tmp name) values d
  let d2 := if skipCount then d1 else put (countFile tmp name) counts d1
  if built then
    let d3 := removeFile (valueFile tmp name) (db d2)
    if skipCount then d3 else removeFile (countFile tmp name) d3
  else d2

/-! ### Temporary files of the CSV checker -/

/-- How far `CsvChecker::CsvChecker` comes: it throws while it reads the rows, it throws when it looks for duplicates, or
it comes to its end. -/
inductive Checked
  | rows | dups | done
deriving DecidableEq, Repr

/-- The files of `CsvChecker::CsvChecker`, `psi/utils/csv_checker.cc:77-145`: `keys` is what was written to
`selected-keys.…` so far, `dups` what `uniq -d` wrote to `duplicate-keys.…`; both are removed when the scope is left,
however it is left (lines 81-88, 117-124).  The names are relative, `cwd` is the current directory. -/
def checker (cwd : Path) (name name' : Name) (keys dups : List UInt8) (skip : Bool) (how : Checked) (d : Disk) : Disk :=
  let d1 := put (cwd ++ ["selected-keys.".toList ++ name]) keys d
  let d2 :=
    if skip || how = .rows then d1
    else removeFile (cwd ++ ["duplicate-keys.".toList ++ name']) (put (cwd ++ ["duplicate-keys.".toList ++ name']) dups d1)
  removeFile (cwd ++ ["selected-keys.".toList ++ name]) d2

end Psi.Scratch
