import Verif.Operator.Model
import Verif.Common.Spec

/-!
# What the operators must deliver: vocabulary of the statements

The full demand is `Psi.Spec.ExactIndex` on the inputs of a bucket, with the counts of the input store.
-/

namespace Psi.Operator

variable {α : Type}

/-- The lines name exactly the own items that the peer has, each once; nothing is said of the counts. -/
structure Positions (own peer : List (α × Nat)) (w : List (Nat × Nat)) : Prop where
  nodup : (w.map Prod.fst).Nodup
  mem : ∀ i, i ∈ w.map Prod.fst ↔ ∃ x e, own[i]? = some (x, e) ∧ x ∈ peer.map Prod.fst

/-- The inputs of a bucket: distinct items with positive counts, at both parties. -/
structure WellFormed (input : Bool → List (α × Nat)) : Prop where
  distinct : ∀ r, ((input r).map Prod.fst).Nodup
  positive : ∀ r, ∀ x ∈ input r, 0 < x.2

end Psi.Operator
