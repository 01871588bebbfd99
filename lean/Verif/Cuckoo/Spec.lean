/-!
# What a cuckoo table must be

Independent of the insertion algorithm.  A word `2 ^ 64 - 1` is an empty place; any other word `e` stores
item number `e % 2 ^ 56` under hash function number `e / 2 ^ 56`.
-/

namespace Psi.Cuckoo.Spec

/-- Item numbers stored in a list of places. -/
def stored (l : List Nat) : List Nat := (l.filter (· ≠ 2 ^ 64 - 1)).map (· % 2 ^ 56)

/-- Items `0 … codes.length - 1` are stored, each in exactly one place; an item in bin `b` is there under
one of its own hash functions. -/
structure Placed (numHash numBins numStash : Nat) (hash : Nat → Nat → Nat) (codes bins stash : List Nat) :
    Prop where
  bins_length : bins.length = numBins
  stash_length : stash.length = numStash
  once : (stored bins ++ stored stash).Perm (List.range codes.length)
  own_bin : ∀ (b e : Nat), bins[b]? = some e → e ≠ 2 ^ 64 - 1 → ∃ code, codes[e % 2 ^ 56]? = some code ∧
    e / 2 ^ 56 < numHash ∧ hash code (e / 2 ^ 56) % numBins = b

end Psi.Cuckoo.Spec
