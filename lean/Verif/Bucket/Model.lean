import Verif.Text.Model

/-!
# Hash bucket cache and per-bucket intersection

Models `psi/utils/hash_bucket_cache.{h,cc}`, `psi/utils/multiplex_disk_cache.cc` and
`FinalizeAndComputeIndices` of `psi/utils/ec_point_store.cc`.

Simplifications: a bucket file is its text; output buffering is not modelled (`Flush` is called before
every read, `ec_point_store.cc:71-72, 103-104`); I/O errors are not modelled.  `hash` stands for
`std::hash<std::string>` and is an arbitrary function.
-/

namespace Psi.Bucket
open Psi.Text

/-- `HashBucketCache::BucketItem`: `psi/utils/hash_bucket_cache.h:37-42` (`sec_hash` and `pad` are
never used). -/
structure Item where
  index : Nat
  dup : Nat
  data64 : List Char
deriving DecidableEq, Repr

/-- `BucketItem::Serialize`: `psi/utils/hash_bucket_cache.h:44-46`. -/
def Item.serialize (i : Item) : List Char := dec i.index ++ ',' :: (dec i.dup ++ ',' :: i.data64)

/-- `BucketItem::Deserialize`: `psi/utils/hash_bucket_cache.h:56-70`; `none` is an exception. -/
def Item.deserialize (s : List Char) : Option Item :=
  match split ',' s with
  | [a, b, c] =>
    match simpleAtoi (2 ^ 64) a, simpleAtoi (2 ^ 32) b with
    | some i, some d => some ⟨i, d, c⟩
    | _, _ => none
  | _ => none

/-- `HashBucketCache` (`psi/utils/hash_bucket_cache.h:94-101`): contents of the bucket files and the
number of items written through this object. -/
structure Cache where
  files : List (List Char)
  itemIndex : Nat

/-- Constructor on a directory whose bucket files hold `old` (all empty for a new directory); the files
are opened without truncation and the item index starts at 0.
`psi/utils/hash_bucket_cache.cc:30-42`, `psi/utils/multiplex_disk_cache.cc:71-80`. -/
def Cache.openDir (old : List (List Char)) : Cache := ⟨old, 0⟩

/-- A cache with `n` empty buckets. -/
def Cache.fresh (n : Nat) : Cache := Cache.openDir (List.replicate n [])

/-- `HashBucketCache::WriteItem`: `psi/utils/hash_bucket_cache.cc:49-61`. -/
def Cache.writeItem (hash : List Char → Nat) (c : Cache) (data : List UInt8) (dup : Nat) : Cache :=
  let item : Item := ⟨c.itemIndex, dup, base64 data⟩
  { files := c.files.modify (hash item.data64 % c.files.length)
      (fun f => f ++ (item.serialize ++ ['\n']))
    itemIndex := c.itemIndex + 1 }

/-- A sequence of `WriteItem` calls (for instance `HashBucketEcPointStore::Save`,
`psi/utils/ec_point_store.cc:58-61`). -/
def Cache.writeAll (hash : List Char → Nat) (c : Cache) (ds : List (List UInt8 × Nat)) : Cache :=
  ds.foldl (fun c d => c.writeItem hash d.1 d.2) c

/-- `HashBucketCache::LoadBucketItems`: `psi/utils/hash_bucket_cache.cc:70-81`. -/
def Cache.load (c : Cache) (i : Nat) : Option (List Item) :=
  match c.files[i]? with
  | none => none
  | some f => (lines f).mapM Item.deserialize

/-- `std::unordered_set<BucketItem>` built from a range; equality is on `base64_data`
(`psi/utils/hash_bucket_cache.h:52-54`), an element equal to one already present is not inserted. -/
def mkSet (l : List Item) : List Item :=
  l.foldl (fun s x => if s.any (fun y => y.data64 == x.data64) then s else s ++ [x]) []

/-- Loop over the self items of one bucket: `psi/utils/ec_point_store.cc:120-126`.  Returns the lines
given to the index writer and the number of peer rows in the intersection. -/
def matchBucket (peerSet : List Item) : List Item → List (Nat × Nat) × Nat
  | [] => ([], 0)
  | x :: xs =>
    let (w, n) := matchBucket peerSet xs
    match peerSet.find? (fun y => y.data64 == x.data64) with
    | some p => ((x.index, p.dup) :: w, n + (p.dup + 1))
    | none => (w, n)

/-- The loop over buckets `bin_idx, …, bin_idx + n - 1`: `psi/utils/ec_point_store.cc:109-129`.
The two counters are `uint32_t` in the code and unbounded here. -/
def binLoop (self peer : Cache) : Nat → Nat → Option (List (Nat × Nat) × Nat × Nat)
  | _, 0 => some ([], 0, 0)
  | b, n + 1 =>
    match self.load b, peer.load b with
    | some s, some p =>
      match binLoop self peer (b + 1) n with
      | some (w, total, inter) =>
        let (w', i') := matchBucket (mkSet p) s
        some (w' ++ w, (p.map (fun x => x.dup + 1)).sum + total, i' + inter)
      | none => none
    | _, _ => none

/-- `FinalizeAndComputeIndices`: `psi/utils/ec_point_store.cc:98-131`: the lines written to the index
writer, the number of peer rows and the number of peer rows in the intersection.  `none`: exception. -/
def computeIndices (self peer : Cache) : Option (List (Nat × Nat) × Nat × Nat) :=
  if self.files.length = peer.files.length then binLoop self peer 0 self.files.length else none

end Psi.Bucket
