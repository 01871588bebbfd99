import Verif.Spiral.ArithModel
import Verif.Spiral.PackModel
import Mathlib.Data.Nat.Log

/-!
# Piano PIR

Models `experiment/pir/piano/{util,client,server}.{h,cc}`: the parameters, the pass over the database before the queries, the
queries, the answers of the server and the refresh of the hints.

Parameters: the pseudorandom function (AES), the random replacements and masks, the padding of the database, the numbers of
queries and backup sets that are computed in floating point.

Simplified: the square root in `GenChunkParams` is exact; the threads of `PreprocessDBChunk` run one after the other (they
update different sets, the shared map of hits under a lock); messages travel unchanged (protobuf); an `unordered_map` is a list
with the newest entry in front.  Access behind the end of a vector is `undefined`, a failed `YACL_ENFORCE` is `throws`.
-/

namespace Psi.Piano

open Psi.Spiral (Res mapRes w64 w32)

/-- `DBEntry`: the bytes, `util.h:29-81`. -/
abbrev Entry := List Nat

/-- `DBEntry::ZeroEntry`: `util.h:56`. -/
def zeroEntry (size : Nat) : Entry := List.replicate size 0

/-- The XOR of two entries of one size: `util.h:41-53`. -/
def xorE (a b : Entry) : Entry := List.zipWith (· ^^^ ·) a b

/-- `DBEntry::Xor`, `XorFromRaw`: `util.h:41-53`. -/
def xorChecked (a b : Entry) : Res Entry := if a.length = b.length then .ok (xorE a b) else .throws

/-- The bytes of entry `i`. -/
def slice (size : Nat) (bytes : List Nat) (i : Nat) : Entry := (bytes.drop (i * size)).take size

/-! ### Parameters -/

/-- The loop of `GenChunkParams`: `util.cc:23-26`; `fuel` bounds it, 64 steps suffice for all 64-bit numbers. -/
def chunkLoop (n : Nat) : Nat → Nat → Nat
  | 0, cs => cs
  | fuel + 1, cs => if cs * cs < 4 * n then chunkLoop n fuel (2 * cs) else cs

/-- What the client is made with.  `queries` and `backups` are the numbers computed in floating point, `client.cc:37-39` and
`client.cc:56-58`. -/
structure Params where
  n : Nat
  size : Nat
  threadNum : Nat
  queries : Nat
  backups : Nat

namespace Params

variable (p : Params)

/-- `GenChunkParams`, first part: `util.cc:19-26`. -/
def cs : Nat := chunkLoop p.n 64 1

/-- `GenChunkParams`, second part: `util.cc:28`. -/
def ss : Nat := (p.n + p.cs - 1) / p.cs

/-- `client.cc:22`. -/
def threads : Nat := if p.threadNum > 0 then p.threadNum else 1

/-- `client.cc:46-51`. -/
def m1 : Nat := (p.queries + p.threads - 1) / p.threads * p.threads

/-- `client.cc:56-61`. -/
def m2 : Nat := (p.backups + p.threads - 1) / p.threads * p.threads

/-- `client.cc:63-64`. -/
def total : Nat := p.m2 * p.ss

end Params

/-! ### The client -/

/-- `LocalSet`: `client.h:34-58`. -/
structure PSet where
  tag : Nat
  parity : Entry
  point : Nat
  programmed : Bool

/-- `LocalBackupSet`: `client.h:60-75`. -/
structure BSet where
  tag : Nat
  parity : Entry

/-- `QueryServiceClient` with its groups: `client.h:77-115`, `client.h:185-204`.  The backup sets of group `c` begin at
`c * m2`. -/
structure Client where
  primary : List PSet
  backup : List BSet
  bconsumed : List Nat
  rconsumed : List Nat
  indices : List (List Nat)
  values : List (List Entry)
  cache : List (Nat × Entry)
  miss : List (Nat × Entry)
  mask : Bool
  index : Nat
  hit : Nat

/-- `InitializeLocalSets`: `client.cc:67-100`. -/
def initial (p : Params) : Client where
  primary := (List.range p.m1).map fun j => ⟨w32 j, zeroEntry p.size, 0, false⟩
  backup := (List.range p.total).map fun i => ⟨w32 (p.m1 + i), zeroEntry p.size⟩
  bconsumed := List.replicate p.ss 0
  rconsumed := List.replicate p.ss 0
  indices := List.replicate p.ss (List.replicate p.m2 0)
  values := List.replicate p.ss (List.replicate p.m2 [])
  cache := []
  miss := []
  mask := false
  index := 0
  hit := 0

/-- The sets that the threads go through: `client.cc:112-130`. -/
def covered (total threads : Nat) : List Nat :=
  (List.range threads).flatMap fun tid =>
    let per := (total + threads - 1) / threads
    List.range' (tid * per) (min (tid * per + per) total - tid * per)

section Queries

variable (p : Params) (prf : Nat → Nat → Nat)

/-- The offset of a set in a chunk: `client.cc:131-133`, `util.cc:56-58`. -/
def offset (tag chunk : Nat) : Nat := prf tag chunk &&& (p.cs - 1)

/-- An entry enters the parity of a primary set: `client.cc:138-139`. -/
def addPrimary (bytes : List Nat) (chunk : Nat) (s : PSet) : PSet :=
  { s with parity := xorE s.parity (slice p.size bytes (offset p prf s.tag chunk)) }

/-- An entry enters the parity of a backup set: `client.cc:147-152`. -/
def addBackup (bytes : List Nat) (chunk : Nat) (s : BSet) : BSet :=
  { s with parity := xorE s.parity (slice p.size bytes (offset p prf s.tag chunk)) }

/-- The map of hits: `client.cc:109-137`. -/
def hitMap (primary : List PSet) (chunk : Nat) : List Bool :=
  (covered p.m1 p.threads).foldl (fun h j => h.set (offset p prf (primary.getD j ⟨0, [], 0, false⟩).tag chunk) true)
    (List.replicate p.cs false)

/-- `PreprocessDBChunk`: `client.cc:102-190`.  Every entry of the chunk is read. -/
def preprocess (rnd : Nat → Nat) (chunk : Nat) (bytes : List Nat) (cl : Client) : Res Client :=
  if bytes.length < p.cs * p.size ∨ p.ss ≤ chunk then .undefined
  else .ok { cl with
    primary := (covered p.m1 p.threads).foldl (fun l j => l.modify j (addPrimary p prf bytes chunk)) cl.primary
    backup := (covered p.total p.threads).foldl
      (fun l j => if j < chunk * p.m2 ∨ (chunk + 1) * p.m2 ≤ j then l.modify j (addBackup p prf bytes chunk) else l) cl.backup
    miss := (List.range p.cs).foldl
      (fun m j => if (hitMap p prf cl.primary chunk).getD j false then m
        else (j + chunk * p.cs, slice p.size bytes j) :: m) cl.miss
    indices := cl.indices.set chunk ((List.range p.m2).map fun k => (rnd k &&& (p.cs - 1)) + chunk * p.cs)
    values := cl.values.set chunk ((List.range p.m2).map fun k => slice p.size bytes (rnd k &&& (p.cs - 1))) }

/-- `find` in an `unordered_map`. -/
def look (m : List (Nat × Entry)) (x : Nat) : Option Entry := (m.find? fun e => e.1 = x).map Prod.snd

/-- `GenerateMaskQuery`: `client.cc:192-199`. -/
def maskQuery (rnd : Nat → Nat) : List Nat := (List.range p.ss).map fun i => rnd i % p.cs + i * p.cs

/-- The test for a set: `client.cc:215-220`, `util.cc:64-70`. -/
def matchSet (x : Nat) (s : PSet) : Bool :=
  !(s.programmed && x / p.cs == s.point / p.cs) && x % p.cs == offset p prf s.tag (x / p.cs)

/-- The first set that matches: `client.cc:209-224`. -/
def findHit (x : Nat) (primary : List PSet) : Option Nat :=
  (List.range p.m1).find? fun i => matchSet p prf x (primary.getD i ⟨0, [], 0, false⟩)

/-- `ExpandWithLongKey`: `util.cc:51-62`. -/
def expandSet (tag : Nat) : List Nat := (List.range p.ss).map fun i => i * p.cs + offset p prf tag i

/-- The elements of a set, with the programmed one: `client.cc:236-246`. -/
def elementsOf (s : PSet) : List Nat :=
  if s.programmed then (expandSet p prf s.tag).set (s.point / p.cs) s.point else expandSet p prf s.tag

/-- `GenerateIndexQuery`: `client.cc:201-263`: the client and the message. -/
def query (rnd : Nat → Nat) (x : Nat) (cl : Client) : Res (Client × List Nat) :=
  if (look cl.cache x).isSome then .ok ({ cl with index := x, mask := true }, maskQuery p rnd)
  else match findHit p prf x cl.primary with
    | none =>
      match look cl.miss x with
      | none => .ok ({ cl with index := x, mask := true }, maskQuery p rnd)
      | some v => .ok ({ cl with index := x, mask := true, cache := (x, v) :: cl.cache }, maskQuery p rnd)
    | some h =>
      if p.ss ≤ x / p.cs then .undefined
      else if cl.rconsumed.getD (x / p.cs) 0 = p.m2 then .ok ({ cl with index := x, mask := true }, maskQuery p rnd)
      else .ok ({ cl with index := x, hit := h },
        (elementsOf p prf (cl.primary.getD h ⟨0, [], 0, false⟩)).set (x / p.cs)
          ((cl.indices.getD (x / p.cs) []).getD (cl.rconsumed.getD (x / p.cs) 0) 0))

/-- The refreshed set: `client.cc:300-310`. -/
def refreshed (x : Nat) (b : BSet) (v : Entry) : PSet := ⟨b.tag, v, x, true⟩

/-- `RecoverIndexReply`: `client.cc:265-314`: the client and the entry. -/
def recover (reply : Entry) (cl : Client) : Res (Client × Entry) :=
  if cl.mask then .ok ({ cl with mask := false }, (look cl.cache cl.index).getD (zeroEntry p.size))
  else
    let c := cl.index / p.cs
    (xorChecked (cl.primary.getD cl.hit ⟨0, [], 0, false⟩).parity reply).bind fun v1 =>
    (xorChecked v1 ((cl.values.getD c []).getD (cl.rconsumed.getD c 0) [])).bind fun v =>
    let cl1 := { cl with
      rconsumed := cl.rconsumed.set c (cl.rconsumed.getD c 0 + 1)
      cache := (cl.index, v) :: cl.cache }
    if cl.bconsumed.getD c 0 = p.m2 then .ok (cl1, v)
    else
      let b := cl.backup.getD (c * p.m2 + cl.bconsumed.getD c 0) ⟨0, []⟩
      (xorChecked v b.parity).bind fun w =>
        .ok ({ cl1 with
          primary := cl.primary.set cl.hit (refreshed cl.index b w)
          bconsumed := cl.bconsumed.set c (cl.bconsumed.getD c 0 + 1) }, v)

end Queries

/-! ### The server -/

/-- `GenDBEntry` of padding: `util.h:58-72`; `hash` gives the bytes of `FNVHash`. -/
def padEntry (size : Nat) (hash : List Nat) : Entry := (List.range size).map fun i => hash.getD i 0

/-- `AlignDBToChunkBoundary`: `server.cc:26-39`. -/
def align (p : Params) (pad : Nat → List Nat) (db : List Nat) : List Nat :=
  if p.n < p.cs * p.ss then db ++ (List.range (p.cs * p.ss - p.n)).flatMap fun i => padEntry p.size (pad i) else db

/-- `GetDBChunk`: `server.cc:41-48`. -/
def dbChunk (p : Params) (db : List Nat) (chunk : Nat) : List Nat :=
  (db.drop (chunk * p.cs * p.size)).take ((chunk + 1) * p.cs * p.size - chunk * p.cs * p.size)

/-- `DBAccess`: `server.cc:61-70`; `entry_num_` is the number of entries with padding. -/
def dbAccess (p : Params) (db : List Nat) (i : Nat) : Entry :=
  if i < max p.n (p.cs * p.ss) then slice p.size db i else zeroEntry p.size

/-- `GenerateIndexReply`: `server.cc:50-59`. -/
def reply (p : Params) (db : List Nat) (set : List Nat) : Entry :=
  set.foldl (fun acc i => xorE acc (dbAccess p db i)) (zeroEntry p.size)

/-! ### Sessions (`piano_test.cc:63-117`) -/

/-- The pass over the database. -/
def offline (p : Params) (prf : Nat → Nat → Nat) (rnd : Nat → Nat → Nat) (db : List Nat) : Res Client :=
  (List.range p.ss).foldl
    (fun acc c => Res.bind acc fun cl => preprocess p prf (rnd c) c (dbChunk p db c) cl) (Res.ok (initial p))

/-- One query: the client afterwards, what the server saw, and the entry. -/
def turn (p : Params) (prf : Nat → Nat → Nat) (db : List Nat) (rnd : Nat → Nat) (x : Nat) (cl : Client) :
    Res (Client × List Nat × Entry) :=
  (query p prf rnd x cl).bind fun q =>
    (recover p (reply p db q.2) q.1).bind fun r => .ok (r.1, q.2, r.2)

/-- Queries one after the other; `rnd t` is the randomness of query `t`: what the server saw and the entries. -/
def turns (p : Params) (prf : Nat → Nat → Nat) (db : List Nat) (rnd : Nat → Nat → Nat) :
    Nat → List Nat → Client → Res (List (List Nat × Entry))
  | _, [], _ => .ok []
  | t, x :: xs, cl => (turn p prf db (rnd t) x cl).bind fun out =>
    (turns p prf db rnd (t + 1) xs out.1).bind fun rs => .ok (out.2 :: rs)

/-- A whole run. -/
def run (p : Params) (prf : Nat → Nat → Nat) (pad : Nat → List Nat) (rndOff rnd : Nat → Nat → Nat) (db : List Nat)
    (xs : List Nat) : Res (List (List Nat × Entry)) :=
  (offline p prf rndOff (align p pad db)).bind fun cl => turns p prf (align p pad db) rnd 0 xs cl

end Psi.Piano
