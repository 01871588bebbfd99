/-!
# Cuckoo hashing

Models `CuckooIndex` (`psi/utils/cuckoo_index.{h,cc}`).  64-bit words are natural numbers; that they
stay below `2 ^ 64` is part of what is proved.  The number of bins, a product with a floating-point
factor (`cuckoo_index.h:114-124`), is a parameter.
-/

namespace Psi.Cuckoo

/-- `Bin::kEmpty`: `cuckoo_index.h:52`. -/
def kEmpty : Nat := 2 ^ 64 - 1

/-- `Bin::HashIdx`: `cuckoo_index.h:56`. -/
def hashIdx (e : Nat) : Nat := e >>> 56

/-- `Bin::InputIdx`: `cuckoo_index.h:57`. -/
def inputIdx (e : Nat) : Nat := e &&& (kEmpty >>> 8)

/-- `Bin::Encode`: `cuckoo_index.h:70-72`. -/
def encode (input hash : Nat) : Nat := input ||| (hash <<< 56)

/-- `HashRoom::GetHash`: eight bytes of the 128-bit code from byte `2 * idx` on, little endian.
`cuckoo_index.h:85-94`. -/
def getHash (code idx : Nat) : Nat := (code >>> (16 * idx)) % 2 ^ 64

/-- `Options`: `cuckoo_index.h:100-125`. -/
structure Options where
  numInput : Nat
  numStash : Nat
  numHash : Nat
  numBins : Nat
  maxTry : Nat

/-- `hashes_`, `bins_`, `stash_`. -/
structure Table where
  hashes : List Nat
  bins : List Nat
  stash : List Nat

inductive Err
  /-- `YACL_ENFORCE` in the constructor. -/
  | badOptions
  /-- `YACL_ENFORCE` on the number of inputs. -/
  | tooMany
  /-- `PutToStash` finds no room. -/
  | stashFull
  /-- Remainder by zero: undefined behaviour. -/
  | noBins
deriving DecidableEq

/-- Constructor: `cuckoo_index.cc:22-30`.  (With `num_hash = 0` the unsigned difference wraps round:
`-1 * 2 + 8 = 6`.) -/
def new (o : Options) : Except Err Table :=
  if (o.numHash + (2 ^ 64 - 1)) * 2 % 2 ^ 64 + 8 ≤ 16 then
    .ok ⟨[], List.replicate o.numBins kEmpty, List.replicate o.numStash kEmpty⟩
  else .error .badOptions

/-- The bin a candidate goes to: `cuckoo_index.cc:56-57`. -/
def target (o : Options) (hashes : List Nat) (cand : Nat) : Nat :=
  getHash (hashes.getD (inputIdx cand) 0) (hashIdx cand) % o.numBins

/-- One round over the candidates: every one takes its bin and evicts what is there, which becomes a
candidate of the next round under its next hash function.  `cuckoo_index.cc:53-67`. -/
def pass (o : Options) (hashes : List Nat) : List Nat → List Nat → List Nat × List Nat
  | bins, [] => (bins, [])
  | bins, cand :: cs =>
    let b := target o hashes cand
    let evicted := bins.getD b 0
    let r := pass o hashes (bins.set b cand) cs
    if evicted = kEmpty then r
    else (r.1, encode (inputIdx evicted) ((hashIdx evicted + 1) % o.numHash) :: r.2)

/-- `cuckoo_index.cc:52-68`; the first argument is the number of rounds left. -/
def loop (o : Options) (hashes : List Nat) : Nat → List Nat → List Nat → List Nat × List Nat
  | 0, bins, cs => (bins, cs)
  | _ + 1, bins, [] => (bins, [])
  | k + 1, bins, c :: cs =>
    let r := pass o hashes bins (c :: cs)
    loop o hashes k r.1 r.2

/-- `PutToStash`: `cuckoo_index.cc:75-84`; `none` is the exception. -/
def putToStash : List Nat → Nat → Option (List Nat)
  | [], _ => none
  | s :: ss, i => if s = kEmpty then some (i :: ss) else (putToStash ss i).map (s :: ·)

/-- `cuckoo_index.cc:70-72`. -/
def stashAll : List Nat → List Nat → Option (List Nat)
  | stash, [] => some stash
  | stash, c :: cs => (putToStash stash (inputIdx c)).bind (stashAll · cs)

/-- `Insert`: `cuckoo_index.cc:32-73`. -/
def insert (o : Options) (t : Table) (codes : List Nat) : Except Err Table :=
  let hashes := t.hashes ++ codes
  if o.numInput < hashes.length then .error .tooMany
  else if o.numBins = 0 ∧ codes ≠ [] ∧ o.maxTry ≠ 0 then .error .noBins
  else
    let cands := (List.range codes.length).map (t.hashes.length + ·)
    let r := loop o hashes o.maxTry t.bins cands
    match stashAll t.stash r.2 with
    | none => .error .stashFull
    | some stash => .ok ⟨hashes, r.1, stash⟩

/-- A sequence of insertions into a new table. -/
def insertAll (o : Options) (batches : List (List Nat)) : Except Err Table :=
  batches.foldlM (insert o) =<< new o

/-- `SanityCheck`: `cuckoo_index.cc:86-108`; the set is ordered, `set.insert(..).second` is "not yet
there". -/
def sanityCheck (o : Options) (t : Table) : Bool :=
  let used := ((t.bins ++ t.stash).filter (· ≠ kEmpty)).map inputIdx
  decide used.Nodup && used.length == o.numInput &&
    (used.mergeSort (· ≤ ·)) == List.range used.length

/-- `MinCollidingHashIdx`: `cuckoo_index.cc:136-148`; `none` is the exception. -/
def minCollidingHashIdx (o : Options) (t : Table) (b : Nat) : Option Nat :=
  (List.range o.numHash).find?
    (fun i => getHash (t.hashes.getD (inputIdx (t.bins.getD b 0)) 0) i % o.numBins == b)

end Psi.Cuckoo
