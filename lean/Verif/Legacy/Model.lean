import Verif.Bucket.Model
import Verif.Coll.Model
import Verif.Std.Model

/-!
# The bucket interface for any number of parties

Models `BucketPsi` (`psi/legacy/bucket_psi.cc`), `MemoryPsi` (`psi/legacy/memory_psi.cc`),
`PsiBaseOperator` (`psi/legacy/base_operator.cc`), `NpartyPsiOperator` (`psi/legacy/nparty_psi.cc`),
`AllGatherItemsSize` and `BroadcastResult` (`psi/utils/sync.cc`), `NegotiateBucketNum` and
`HashListEqualTest` (`psi/utils/bucket.cc`), and `CsvChecker` (`psi/utils/csv_checker.cc`).

Every party is a program of collective calls (`Verif.Coll`).

Simplifications.
* A two-party PSI inside `NpartyPsiOperator::Run2PartyPsi` is one call of its two members; the operators
  `KKRT_PSI_2PC` and `ECDH_PSI_3PC` are one call of all parties.  What they return is a parameter; that the
  protocols return it is the subject of other areas (`Psi.Ecdh`, `Psi.Kkrt`, `Psi.Ecdh3`).
* `SyncWait` (`psi/utils/sync.h:39-95`) is one call of all parties at which those arrive whose function
  returned (see `Psi.Run.C48_rounds_as_one`).
* All parties are configured alike.  `DP_PSI_2PC` is in `Verif.Legacy.DpModel`.  Progress reporting and logging are left out.
* The table is a list of rows; each row is its line in the file and its tokens in the selected columns.
  A line holds one row.
-/

namespace Psi.Legacy
open Psi.Coll (Prog Sys)
open Psi.Std (Bytes)

/-! ## Collective calls -/

/-- The kinds of calls, with the parameters the members must agree on. -/
inductive Call where
  /-- `yacl::link::AllGather` in the (sub-)world of these ranks -/
  | gather (group : List Nat)
  /-- two-party PSI: `nparty_psi.cc:156-188`; the result goes to `target` -/
  | pair (target other : Nat)
  /-- the operator of a protocol for the whole world -/
  | protocol
  /-- `yacl::link::Broadcast` in the world -/
  | bcast (root : Nat)
  /-- the end of `SyncWait` -/
  | sync
deriving DecidableEq

/-- What parties bring to calls. -/
inductive Part (D : Type) where
  | size (n : Nat)
  | items (l : List Bytes)
  | digest (d : D)
  | empty

instance {D : Type} : Inhabited (Part D) := ⟨.empty⟩

/-- `DeserializeSize`. -/
def Part.toSize {D : Type} : Part D → Nat
  | .size n => n
  | _ => 0

/-- `DeserializeStrItems`. -/
def Part.toItems {D : Type} : Part D → List Bytes
  | .items l => l
  | _ => []

def Part.toDigest {D : Type} : Part D → Option D
  | .digest d => some d
  | _ => none

/-- A message to or from a call. -/
abbrev Msg (D : Type) := List (Part D)

/-- The configuration, which is the same for all parties. -/
structure Env (D : Type) where
  /-- `lctx->WorldSize()` -/
  world : Nat
  /-- `receiver_rank`, `master_rank` -/
  master : Nat
  /-- `broadcast_result` -/
  broadcast : Bool
  /-- protocol `ECDH_PSI_NPC` or `KKRT_PSI_NPC` -/
  nparty : Bool
  /-- result of a two-party PSI for the party that gets it: its items, the peer's items -/
  psi2 : List Bytes → List Bytes → List Bytes
  /-- result of a protocol for the whole world for the party that gets it: its items, those of all others -/
  direct : List Bytes → List (List Bytes) → List Bytes
  /-- `bucket_size` after `Init` (`bucket_psi.cc:355-358`) -/
  bucketSize : Nat
  /-- `std::hash<std::string>` -/
  hash : List Char → Nat
  /-- SHA-256 -/
  sha : Bytes → D
  /-- separator of `KeysJoin` -/
  sep : UInt8
  /-- `input_params().precheck()` -/
  precheck : Bool
  /-- `output_params().need_sort()` -/
  needSort : Bool
  /-- `MultiKeySort` of data lines by the selected columns -/
  multiKeySort : List Bytes → List Bytes

variable {D : Type}

/-- All ranks. -/
def Env.ranks (c : Env D) : List Nat := List.range c.world

/-- Who takes part in a call. -/
def members (c : Env D) : Call → List Nat
  | .gather g => g
  | .pair a b => [a, b]
  | .protocol => c.ranks
  | .bcast _ => c.ranks
  | .sync => c.ranks

/-- What the members of a call get. -/
def answer (c : Env D) : Call → (Nat → Msg D) → Nat → Msg D
  | .gather g, pay, _ => g.map fun t => (pay t).headD .empty
  | .pair a b, pay, t =>
    [.items (if t = a then c.psi2 ((pay a).headD .empty).toItems ((pay b).headD .empty).toItems else [])]
  | .protocol, pay, t =>
    [.items (if t = c.master then
      c.direct ((pay t).headD .empty).toItems
        ((c.ranks.filter (· ≠ c.master)).map fun u => ((pay u).headD .empty).toItems)
      else [])]
  | .bcast root, pay, _ => pay root
  | .sync, _, _ => []

/-- The parties' world. -/
def sys (c : Env D) : Sys Nat Call (Msg D) := ⟨members c, answer c⟩

/-- Party programs. -/
abbrev P (D R : Type) := Prog Call (Msg D) R

/-- `AllGather` of sizes: `sync.cc:35-47`, `nparty_psi.cc:104-113, 194-205`. -/
def gatherSizes (group : List Nat) (n : Nat) : P D (List Nat) :=
  .call (.gather group) [.size n] fun l => .ret (l.map Part.toSize)

/-! ## N parties -/

/-- `std::pair::operator<` on sizes and ranks. -/
def pairLe (a b : Nat × Nat) : Bool := a.1 < b.1 || (a.1 == b.1 && a.2 ≤ b.2)

/-- `std::swap` of two elements of a vector. -/
def swap (l : List (Nat × Nat)) (i j : Nat) : List (Nat × Nat) :=
  match l[i]?, l[j]? with
  | some a, some b => (l.set i b).set j a
  | _, _ => l

/-- `GetAllPartyItemSizeVec` after the gathering: `nparty_psi.cc:200-215`. -/
def sizeRankVec (master : Nat) (sizes : List Nat) : List (Nat × Nat) :=
  let v := sizes.zipIdx
  let v := if master ≠ 0 then swap v 0 master else v
  v.take 1 ++ (v.drop 1).mergeSort pairLe

/-- `GetPsiRank`: `nparty_psi.cc:215-246`, on the ranks of `party_size_rank_vec` (the sizes are not used any
more).  The result is `(peer_rank, target_rank)`; `none` is the exception. -/
def psiRank (vec : List Nat) (rank : Nat) : Option (Nat × Nat) :=
  if vec.length % 2 ≠ 0 ∧ vec.getD (vec.length / 2) 0 = rank then some (rank, rank)
  else
    (List.range (vec.length / 2)).findSome? fun idx =>
      let a := vec.getD idx 0
      let b := vec.getD (vec.length - 1 - idx) 0
      if a = rank then some (b, a) else if b = rank then some (a, a) else none

/-- `Run2PartyPsi`: `nparty_psi.cc:158-187`. -/
def run2 (rank : Nat) (items : List Bytes) (peer target : Nat) : P D (List Bytes) :=
  if peer = rank then .ret items
  else .call (if target = rank then .pair rank peer else .pair peer rank) [.items items]
    fun l => .ret (l.headD .empty).toItems

/-- The loop of `OnRun`: `nparty_psi.cc:85-152`; the first argument is the number of levels left, `inputs` is
`inputs.size()`. -/
def levels (c : Env D) (rank inputs : Nat) : Nat → List Nat → List Bytes → P D (List Bytes)
  | 0, _, _ => .ret []
  | n + 1, vec, items =>
    match psiRank vec rank with
    | none => .fail
    | some (peer, target) =>
      (run2 rank items peer target).bind fun inter =>
        let erase := (vec.length + 1) / 2
        if rank ∈ vec.drop erase then .call (.bcast c.master) [] fun _ => .ret []
        else
          let vec := vec.take erase
          (gatherSizes vec inter.length).bind fun sizes =>
            if sizes.foldl min inputs = 0 then .call (.bcast c.master) [] fun _ => .ret []
            else if vec.length = 1 then .call (.bcast c.master) [] fun _ => .ret (Std.sort inter)
            else levels c rank inputs n vec inter

/-- `std::log2(absl::bit_ceil(n))`: the number of doublings of 1 needed to reach `n`. -/
def levelNumFrom (n : Nat) : Nat → Nat → Nat
  | 0, _ => 0
  | fuel + 1, p => if n ≤ p then 0 else levelNumFrom n fuel (2 * p) + 1

def levelNum (n : Nat) : Nat := levelNumFrom n n 1

/-- `NpartyPsiOperator::OnRun`: `nparty_psi.cc:60-156`. -/
def npartyRun (c : Env D) (rank : Nat) (inputs : List Bytes) : P D (List Bytes) :=
  (gatherSizes c.ranks inputs.length).bind fun sizes =>
    let vec := sizeRankVec c.master sizes
    if (vec.getD 0 (0, 0)).1 = 0 ∨ (vec.getD 1 (0, 0)).1 = 0 then .ret []
    else levels c rank inputs.length (levelNum vec.length) (vec.map Prod.snd) inputs

/-! ## One bucket -/

/-- The loop over the gathered sizes in `BroadcastResult`: `sync.cc:63-71`.  `none`: the check fails. -/
def bcastRank : List Nat → Nat → Nat → Option Nat
  | [], _, rank => some rank
  | s :: sizes, i, rank =>
    if s > 0 then if rank = 0 then bcastRank sizes (i + 1) i else none
    else bcastRank sizes (i + 1) rank

/-- `BroadcastResult`: `sync.cc:55-84`. -/
def broadcastResult (c : Env D) (res : List Bytes) : P D (List Bytes) :=
  (gatherSizes c.ranks res.length).bind fun sizes =>
    match bcastRank sizes 0 0 with
    | none => .fail
    | some root =>
      if sizes.foldl max res.length = 0 then .ret res
      else .call (.bcast root) [.items res] fun l =>
        .ret (if res = [] then (l.headD .empty).toItems else res)

/-- `OnRun` of the operator that `OperatorFactory::Create` makes. -/
def onRun (c : Env D) (rank : Nat) (inputs : List Bytes) : P D (List Bytes) :=
  if c.nparty then npartyRun c rank inputs
  else .call .protocol [.items inputs] fun l => .ret (l.headD .empty).toItems

/-- `PsiBaseOperator::Run`: `base_operator.cc:30-39`. -/
def operatorRun (c : Env D) (rank : Nat) (inputs : List Bytes) : P D (List Bytes) :=
  (onRun c rank inputs).bind fun res =>
    .call .sync [] fun _ => if c.broadcast then broadcastResult c res else .ret res

/-- `MemoryPsi::Run`: `memory_psi.cc:52-76`. -/
def memoryRun (c : Env D) (rank : Nat) (inputs : List Bytes) : P D (List Bytes) :=
  (gatherSizes c.ranks inputs.length).bind fun sizes =>
    if sizes.foldl min inputs.length = 0 then .ret [] else operatorRun c rank inputs

/-! ## All buckets -/

/-- Text as bytes. -/
def bytes (s : List Char) : Bytes := s.map fun ch => UInt8.ofNat ch.toNat

/-- `GetResultIndices`: `bucket_psi.cc:450-471`, the indices it appends. -/
def resultIndices (items : List Bucket.Item) (result : List Bytes) : List Nat :=
  if result = [] then []
  else if result.length = items.length then items.map (·.index)
  else
    let sorted := Std.sort result
    (items.filter fun x => Std.binarySearch sorted (bytes x.data64)).map (·.index)

/-- `NegotiateBucketNum` after the gathering: `bucket.cc:149-166`, on 64-bit words. -/
def bucketNum (size own : Nat) (sizes : List Nat) : Nat :=
  if sizes.foldl min own = 0 then 0
  else (sizes.map fun n => (n + size - 1) % 2 ^ 64 / size).foldl max 0

/-- The loop over the buckets: `bucket_psi.cc:416-443`; `b` is the next bucket, the first argument the number
of buckets left. -/
def bucketLoop (c : Env D) (rank : Nat) (store : Bucket.Cache) : Nat → Nat → List Nat → P D (List Nat)
  | 0, _, ret => .ret ret
  | n + 1, b, ret =>
    match store.load b with
    | none => .fail
    | some items =>
      (memoryRun c rank (items.map fun x => bytes x.data64)).bind fun result =>
        bucketLoop c rank store n (b + 1) (ret ++ resultIndices items result)

/-- `RunBucketPsi`: `bucket_psi.cc:396-446`. -/
def runBucketPsi (c : Env D) (rank : Nat) (keys : List Bytes) : P D (List Nat) :=
  (gatherSizes c.ranks keys.length).bind fun sizes =>
    let n := bucketNum c.bucketSize keys.length sizes
    if n = 0 then .ret []
    else bucketLoop c rank ((Bucket.Cache.fresh n).writeAll c.hash (keys.map fun k => (k, 0))) n 0 []

/-! ## Checking the input -/

/-- A row: its line in the file, and its tokens in the selected columns. -/
structure Row where
  line : Bytes
  tokens : List Bytes
deriving DecidableEq, Repr

/-- `KeysJoin`: `psi/utils/key.cc:185-187`. -/
def Row.key (sep : UInt8) (r : Row) : Bytes := List.intercalate [sep] r.tokens

/-- `std::getline` / `sort` / `uniq` see lines: the text split at newlines, without an empty rest. -/
def splitLines : Bytes → List Bytes
  | [] => []
  | b :: s =>
    if b = 10 then [] :: splitLines s
    else match splitLines s with
      | [] => [[b]]
      | l :: ls => (b :: l) :: ls

/-- `uniq -d`: one line for each group of equal adjacent lines.  `seen` says that the line before equals the
first one and has been printed. -/
def uniqD : Bool → List Bytes → List Bytes
  | _, [] => []
  | _, [_] => []
  | seen, a :: b :: l =>
    if a = b then (if seen then [] else [a]) ++ uniqD true (b :: l) else uniqD false (b :: l)

/-- `sort keys_file | uniq -d`: `csv_checker.cc:124-130`, on the text written at `csv_checker.cc:101-104`. -/
def duplicates (keys : List Bytes) : List Bytes :=
  uniqD false (Std.sort (splitLines (keys.flatMap fun k => k ++ [10])))

/-- `CheckIfBOMExists`: `csv_checker.cc:45-57`; the first line is the header. -/
def hasBom (header : Bytes) : Bool :=
  header.getD 0 0 == 0xEF && header.getD 1 0 == 0xBB && header.getD 2 0 == 0xBF && decide (header.length ≥ 3)

/-- `CsvChecker::CsvChecker`: `csv_checker.cc:60-151`: data count and digest; `none` is an exception. -/
def checker (c : Env D) (header : Bytes) (rows : List Row) : Option (Nat × D) :=
  if hasBom header then none
  else if rows.any fun r => r.tokens.any fun t => t.isEmpty then none
  else if c.precheck && !(duplicates (rows.map (Row.key c.sep))).isEmpty then none
  else some (rows.length, c.sha (rows.map (Row.key c.sep)).flatten)

/-! ## The output file -/

/-- The loop of `FilterFileByIndices`: `bucket_psi.cc:130-158`.  Gives the lines written, `actual_count` and the
final `idx`. -/
def filterLoop (header : Nat) (diff : Bool) : List Bytes → Nat → List Nat → List Bytes × Nat × Nat
  | [], idx, _ => ([], 0, idx)
  | l :: ls, idx, ind =>
    if idx < header then
      let r := filterLoop header diff ls (idx + 1) ind
      (l :: r.1, r.2.1, r.2.2)
    else if !diff && ind.isEmpty then ([], 0, idx)
    else
      let hit := decide (ind.head? = some (idx - header))
      let r := filterLoop header diff ls (idx + 1) (if hit then ind.tail else ind)
      if hit != diff then (l :: r.1, r.2.1 + 1, r.2.2) else r

/-- `FilterFileByIndices` with a vector: `bucket_psi.cc:125-175`; `none`: the check fails. -/
def filterFile (header : Nat) (diff : Bool) (lines : List Bytes) (ind : List Nat) : Option (List Bytes × Nat) :=
  let r := filterLoop header diff lines 0 ind
  let target := if diff then (r.2.2 + 2 ^ 65 - header - ind.length) % 2 ^ 64 else ind.length
  if r.2.1 = target then some (r.1, ind.length) else none

/-- The loop of `FilterFileByIndices` with an index file: `bucket_psi.cc:178-222`.  `cur` is the index read
last, `rest` what is left in the file, `cnt` is `read_cnt()`.  Also gives the final `cnt`. -/
def filterLoopFile (header : Nat) (diff : Bool) : List Bytes → Nat → Option Nat → List Nat → Nat →
    List Bytes × Nat × Nat × Nat
  | [], idx, _, _, cnt => ([], 0, idx, cnt)
  | l :: ls, idx, cur, rest, cnt =>
    if idx < header then
      let r := filterLoopFile header diff ls (idx + 1) cur rest cnt
      (l :: r.1, r.2.1, r.2.2)
    else if !diff && cur.isNone then ([], 0, idx, cnt)
    else
      let hit := decide (cur = some (idx - header))
      let r := if hit then filterLoopFile header diff ls (idx + 1) rest.head? rest.tail (cnt + min 1 rest.length)
        else filterLoopFile header diff ls (idx + 1) cur rest cnt
      if hit != diff then (l :: r.1, r.2.1 + 1, r.2.2) else r

/-- `FilterFileByIndices` with an index file: `bucket_psi.cc:177-232`. -/
def filterFileByFile (header : Nat) (diff : Bool) (lines : List Bytes) (ind : List Nat) : Option (List Bytes × Nat) :=
  let r := filterLoopFile header diff lines 0 ind.head? ind.tail (min 1 ind.length)
  let target := if diff then (r.2.2.1 + 2 ^ 65 - header - r.2.2.2) % 2 ^ 64 else r.2.2.2
  if r.2.1 = target then some (r.1, r.2.2.2) else none

/-! ## The whole run -/

/-- What a party has after `BucketPsi::Run`: `PsiResultReport` and the output file.  `intersection = none` is
`-1`. -/
structure Report where
  original : Nat
  intersection : Option Nat
  output : Option (List Bytes)
deriving DecidableEq, Repr

/-- `HashListEqualTest`: `bucket.cc:129-139`. -/
def allEqual [DecidableEq D] : List (Option D) → Bool
  | [] => true
  | d :: ds => ds.all fun x => x = d

/-- `ProduceOutput` and `GenerateResult`: `bucket_psi.cc:318-351`, `bucket_psi.h:55-97`. -/
def produceOutput (c : Env D) (rank : Nat) (header : Bytes) (rows : List Row) (digestEqual : Bool)
    (indices : List Nat) : Option Report :=
  if rank ≠ c.master ∧ c.broadcast = false then some ⟨rows.length, none, none⟩
  else
    match filterFile 1 false (header :: rows.map (·.line)) (indices.mergeSort (· ≤ ·)) with
    | none => none
    | some (out, _) =>
      some ⟨rows.length, some indices.length,
        some (if c.needSort && !digestEqual then out.take 1 ++ c.multiKeySort (out.drop 1) else out)⟩

/-- `BucketPsi::Run`: `bucket_psi.cc:257-316`. -/
def run [DecidableEq D] (c : Env D) (rank : Nat) (header : Bytes) (rows : List Row) : P D Report :=
  match checker c header rows with
  | none => .fail
  | some (count, digest) =>
    .call .sync [] fun _ =>
      .call (.gather c.ranks) [.digest digest] fun l =>
        let equal := allEqual (l.map Part.toDigest)
        Prog.bind (if equal then .ret (List.range count) else runBucketPsi c rank (rows.map (Row.key c.sep)))
          fun indices =>
            match produceOutput c rank header rows equal indices with
            | none => .fail
            | some r => .ret r

/-- All parties at the start; `tables` are the header and the rows of every rank. -/
def start [DecidableEq D] (c : Env D) (tables : Nat → Bytes × List Row) : Nat → P D Report :=
  fun r => if r < c.world then run c r (tables r).1 (tables r).2 else .ret ⟨0, none, none⟩

end Psi.Legacy
