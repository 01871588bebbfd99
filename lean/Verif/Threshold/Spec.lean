import Verif.Common.Spec

/-!
# What PSI with a threshold must deliver

The parties agree on a set `T` of common keys: all common keys if there are at most `threshold` of them, else
`threshold` of them.  Each party's lines are those of an exact intersection in which the peer has only the
keys of `T`.
-/

namespace Psi.Threshold

variable {α : Type} [DecidableEq α]

/-- Keys of `own` that are also keys of `peer`. -/
def commonKeys (own peer : List (α × Nat)) : List α :=
  (own.map Prod.fst).filter (fun x => x ∈ peer.map Prod.fst)

/-- `T` is a legal choice of keys. -/
structure Choice (t : Nat) (own peer : List (α × Nat)) (T : List α) : Prop where
  nodup : T.Nodup
  common : ∀ x ∈ T, x ∈ commonKeys own peer
  size : T.length = min t (commonKeys own peer).length

/-- The table restricted to the keys `T`. -/
def only (T : List α) (l : List (α × Nat)) : List (α × Nat) := l.filter (fun x => x.1 ∈ T)

omit [DecidableEq α] in
/-- The positions written are exactly those of the keys `T`, each once; nothing is said about the counts. -/
structure ExactPositions (own : List (α × Nat)) (T : List α) (w : List (Nat × Nat)) : Prop where
  nodup : (w.map Prod.fst).Nodup
  mem : ∀ i, i ∈ w.map Prod.fst ↔ ∃ x e, own[i]? = some (x, e) ∧ x ∈ T

end Psi.Threshold
