/-!
# The equal-input shortcut and the cached key summary

Models the digest comparison of `AbstractPsiParty::Init` (`psi/interface.cc:94-127`), the digest itself
(`psi/utils/table_utils.cc:300-319, 397-412`) and the summary file that `KeyInfo::Make(UniqueKeyTable)`
keeps beside the input file (`psi/utils/table_utils.cc:377-421`).

Simplifications: SHA-256 is a function `H` of the concatenated updates; counters are unbounded; the
summary file is either absent or complete.
-/

namespace Psi.Digest

/-- A key. -/
abbrev Key := List Char

/-- A cumulative hash sees only the concatenation of what it was updated with:
`psi/utils/table_utils.cc:310, 365`, `405, 411`. -/
def digest {D : Type} (H : List Char → D) (keys : List Key) : D := H keys.flatten

/-- `digest_equal_` of both parties: `psi/interface.cc:98-107`, `psi/utils/bucket.cc:129-139`.  `check` is
`check_hash_digest`, forced to true with recovery (`psi/interface.cc:222-227`).  Items are keys with the
number of further rows; `DupKeyCnt() == 0` says that all these numbers are 0. -/
def shortcut {D : Type} [DecidableEq D] (H : List Char → D) (check : Bool) (a b : List (Key × Nat)) :
    Bool :=
  check && ([a, b].all fun l => l.all fun x => x.2 == 0) &&
    decide (digest H (a.map Prod.fst) = digest H (b.map Prod.fst))

/-- The lines a party writes when the shortcut is taken: `psi/interface.cc:117-126`. -/
def shortcutIndex (a : List (Key × Nat)) : List (Nat × Nat) := (List.range a.length).map (fun i => (i, 0))

/-- The index file after a further start that takes the shortcut: `psi/interface.cc:113-126`,
`psi/utils/index_store.cc:33-48`.  `trunc` is `trunc_intersection_indices_` (true for ECDH only:
`psi/algorithm/ecdh/receiver.cc:36`). -/
def startIndex (trunc : Bool) (a : List (Key × Nat)) (file : List (Nat × Nat)) : List (Nat × Nat) :=
  (if trunc then [] else file) ++ shortcutIndex a

/-- `KeyInfoMeta`: hash of the keys, number of lines, size of the file they were read from. -/
structure Summary (D : Type) where
  hash : D
  lines : Nat
  size : Nat
deriving DecidableEq

/-- The input file as a function of what is needed of it: its size, and the keys under a choice of key
columns. -/
structure Table (C : Type) where
  size : Nat
  keys : C → List Key

/-- A summary computed from the file: `psi/utils/table_utils.cc:397-417`. -/
def fresh {C D : Type} (H : List Char → D) (cols : C) (t : Table C) : Summary D :=
  ⟨digest H (t.keys cols), (t.keys cols).length, t.size⟩

/-- `KeyInfo::Make(UniqueKeyTable)`: the summary used, which is also the one stored afterwards.
`psi/utils/table_utils.cc:377-421`. -/
def summary {C D : Type} (H : List Char → D) (stored : Option (Summary D)) (cols : C) (t : Table C) :
    Summary D :=
  match stored with
  | some m => if m.size = t.size then m else fresh H cols t
  | none => fresh H cols t

/-- The summary file after a sequence of runs on the same path. -/
def runs {C D : Type} (H : List Char → D) (hist : List (C × Table C)) : Option (Summary D) :=
  hist.foldl (fun m x => some (summary H m x.1 x.2)) none

end Psi.Digest
