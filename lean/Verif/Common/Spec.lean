/-!
# What a PSI protocol must deliver

Shared specification of the protocol layer.  The input of a party is the list of its distinct keys, each
with the number of *further* rows carrying it.  The result is a set of lines (position of an own key,
number of further peer rows carrying it).
-/

namespace Psi.Spec

variable {α : Type}

/-- `w` is the exact intersection seen from the owner of `own`: one line for every own key that the peer
has, with the peer's count; no other line and no line twice. -/
structure ExactIndex (own peer : List (α × Nat)) (w : List (Nat × Nat)) : Prop where
  nodup : (w.map Prod.fst).Nodup
  mem : ∀ i d, (i, d) ∈ w ↔ ∃ x e, own[i]? = some (x, e) ∧ (x, d) ∈ peer

/-- Lines of an intersection result, in the order of the own keys. -/
def resultLines [DecidableEq α] (own peer : List (α × Nat)) : List (Nat × Nat) :=
  own.zipIdx.filterMap (fun x => (peer.find? (fun y => y.1 = x.1.1)).map (fun y => (x.2, y.2)))

/-- Number of peer rows, and number of peer rows whose key is also an own key. -/
def peerRows (peer : List (α × Nat)) : Nat := (peer.map (fun p => p.2 + 1)).sum

def peerCommonRows [DecidableEq α] (own peer : List (α × Nat)) : Nat :=
  ((peer.filter (fun p => p.1 ∈ own.map Prod.fst)).map (fun p => p.2 + 1)).sum

end Psi.Spec
