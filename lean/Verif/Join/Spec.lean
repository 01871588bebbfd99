import Verif.Join.Model
import Mathlib.Order.Defs.LinearOrder
import Mathlib.Data.Finset.Card
import Mathlib.Data.Finset.Dedup

/-!
# Specification of the join step

Independent of the model's helpers: everything is phrased with counting in the two input tables.
-/

namespace Psi.Join.Spec

variable {RA RB K : Type} [LinearOrder K]

/-- Number of rows of table `B` whose key is `k`. -/
def cnt (keyB : RB → K) (B : List RB) (k : K) : Nat := B.countP fun b => keyB b = k

/-- What a correct PSI protocol writes to the index file of the party owning the records `recs`
(its distinct keys in file order): for every own key that occurs at the peer, one line with the
position of the key and the number of *further* peer rows (total minus one); lines in any order. -/
structure LawfulIndex (recKeys : List K) (keyB : RB → K) (B : List RB) (idx : List (Nat × Nat)) :
    Prop where
  nodup : (idx.map Prod.fst).Nodup
  mem : ∀ i c, (i, c) ∈ idx ↔ ∃ h : i < recKeys.length, cnt keyB B recKeys[i] = c + 1

/-- The rows of a table that must be kept although unmatched. -/
def keepUnmatched (t : JoinType) (isLeft : Bool) : Prop :=
  t = .full ∨ t = .difference ∨ (t = .left ∧ isLeft = true) ∨ (t = .right ∧ isLeft = false)

instance (t : JoinType) (isLeft : Bool) : Decidable (keepUnmatched t isLeft) := by
  unfold keepUnmatched; infer_instance

/-- How often the output must contain row `r` of table `A`. -/
def rowMultiplicity [DecidableEq RA] (t : JoinType) (isLeft : Bool) (keyA : RA → K) (A : List RA)
    (keyB : RB → K) (B : List RB) (r : RA) : Nat :=
  if cnt keyB B (keyA r) = 0 then (if keepUnmatched t isLeft then A.count r else 0)
  else (if t = .difference then 0 else A.count r * cnt keyB B (keyA r))

/-- Rows of `A` without partner in `B`. -/
def unmatched (keyA : RA → K) (A : List RA) (keyB : RB → K) (B : List RB) : List RA :=
  A.filter fun a => cnt keyB B (keyA a) = 0

/-- Two output lines at the same row number fit together: two rows with the same key, or an unmatched
row facing a null row. -/
def Fits (keyA : RA → K) (A : List RA) (keyB : RB → K) (B : List RB) :
    OutLine RA → OutLine RB → Prop
  | .own a, .own b => keyA a = keyB b
  | .own a, .na => cnt keyB B (keyA a) = 0
  | .na, .own b => cnt keyA A (keyB b) = 0
  | .na, .na => False

/-- The relational (SQL) inner join of the two tables. -/
def sqlJoin (keyA : RA → K) (A : List RA) (keyB : RB → K) (B : List RB) : List (RA × RB) :=
  A.flatMap fun a => (B.filter fun b => keyB b = keyA a).map fun b => (a, b)

/-- `bs` is a division of `l` into non-empty batches, in order (what a batch provider yields). -/
def Chunks {α : Type} (bs : List (List α)) (l : List α) : Prop := (∀ b ∈ bs, b ≠ []) ∧ bs.flatten = l

/-- The input side of one party: a non-empty table (a file with a header only is rejected when the
input is checked), the keys of the sorted table read in batches `kbs`, and the key-info file read
back in batches `rbs`. -/
structure Input (emptyKey : K) (keyA : RA → K) (A : List RA) (kbs : List (List K))
    (rbs : List (List (KeyRec K))) : Prop where
  nonempty : A ≠ []
  keyChunks : Chunks kbs ((sortTable (fun a b => decide (a ≤ b)) keyA A).map keyA)
  recChunks : Chunks rbs (keyInfoMake emptyKey kbs)

/-- The keys a party feeds into the PSI protocol: one per record of its key-info file. -/
def protocolKeys (emptyKey : K) (kbs : List (List K)) : List K :=
  (keyInfoMake emptyKey kbs).map (·.key)

end Psi.Join.Spec
