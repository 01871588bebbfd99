import Verif.Legacy.Model
import Mathlib.Data.List.Perm.Subperm

/-! # The bucket interface: what it should do

Stated from the input alone. -/

namespace Psi.Legacy
open Psi.Std (Bytes)

variable {D : Type}

/-- What is assumed of the protocols inside: on lists that are `good` (no condition for ECDH, distinct items for
KKRT) they return the right items in some order. -/
structure Lawful (c : Env D) (good : List Bytes → Prop) : Prop where
  two : 2 ≤ c.world
  master : c.master < c.world
  closed : ∀ a b : List Bytes, a.Subperm b → good b → good a
  psi2 : ∀ a b, good a → good b → (c.psi2 a b).Perm (a.filter (· ∈ b))
  direct : ∀ a bs, good a → (∀ b ∈ bs, good b) → (c.direct a bs).Perm (a.filter fun x => ∀ b ∈ bs, x ∈ b)

/-- Only ranks below the world size are parties. -/
def parties {R : Type} (c : Env D) (p : Nat → P D R) (d : R) : Nat → P D R := fun r => if r < c.world then p r else .ret d

/-- In whatever order the calls happen, nobody throws, only so many calls can happen, and when no call can
happen any more every party `r` has returned `v r`; and that state can be reached. -/
def Ends {R : Type} (c : Env D) (p : Nat → P D R) (d : R) (v : Nat → R) : Prop :=
  (∃ bound, ∀ sched : List Call,
    (∀ r, ((sys c).exec sched (parties c p d)).1 r ≠ .fail) ∧ ((sys c).exec sched (parties c p d)).2 ≤ bound ∧
    ((sys c).Stuck ((sys c).exec sched (parties c p d)).1 →
      ∀ r, r < c.world → ((sys c).exec sched (parties c p d)).1 r = .ret (v r))) ∧
  ∃ sched : List Call, (sys c).Stuck ((sys c).exec sched (parties c p d)).1 ∧
    ∀ r, r < c.world → ((sys c).exec sched (parties c p d)).1 r = .ret (v r)

/-- Strictly increasing numbers in a range. -/
def Inc (lo hi : Nat) (l : List Nat) : Prop := l.Pairwise (· < ·) ∧ ∀ x ∈ l, lo ≤ x ∧ x < hi

instance (lo hi : Nat) (l : List Nat) : Decidable (Inc lo hi l) := by unfold Inc; infer_instance

/-- The lines whose number, counted from `lo`, is in the list (or is not). -/
def pick (diff : Bool) (lo : Nat) (lines : List Bytes) (ind : List Nat) : List Bytes :=
  ((lines.zipIdx lo).filter fun x => decide (x.2 ∈ ind) != diff).map Prod.fst

/-- In the list of every rank. -/
def InAll (c : Env D) (I : Nat → List Bytes) (x : Bytes) : Prop := ∀ u ∈ c.ranks, x ∈ I u

instance (c : Env D) (I : Nat → List Bytes) (x : Bytes) : Decidable (InAll c I x) := by unfold InAll; infer_instance

/-- A key that every party has. -/
def Common (c : Env D) (K : Nat → List Bytes) (k : Bytes) : Prop := ∀ u, u < c.world → k ∈ K u

instance (c : Env D) (K : Nat → List Bytes) (k : Bytes) : Decidable (Common c K k) := by
  unfold Common
  infer_instance

variable [DecidableEq D]

/-- The keys of the parties. -/
def keysOf (c : Env D) (tables : Nat → Bytes × List Row) (r : Nat) : List Bytes := (tables r).2.map (Row.key c.sep)

/-- All parties computed the same digest. -/
def SameDigest (c : Env D) (K : Nat → List Bytes) : Prop := ∀ u, u < c.world → c.sha (K u).flatten = c.sha (K 0).flatten

instance (c : Env D) (K : Nat → List Bytes) : Decidable (SameDigest c K) := by
  unfold SameDigest
  infer_instance

/-- The rows that party `r` shares with all others. -/
def commonRows (c : Env D) (tables : Nat → Bytes × List Row) (r : Nat) : List Row :=
  (tables r).2.filter fun x => decide (Common c (keysOf c tables) (x.key c.sep))

/-- The report of party `r` when its result is the rows `sel`. -/
def reportOf (c : Env D) (tables : Nat → Bytes × List Row) (r : Nat) (sel : List Row) : Report :=
  if r = c.master ∨ c.broadcast = true then
    ⟨(tables r).2.length, some sel.length,
      some ((tables r).1 :: (if c.needSort && !decide (SameDigest c (keysOf c tables))
        then c.multiKeySort (sel.map (·.line)) else sel.map (·.line)))⟩
  else ⟨(tables r).2.length, none, none⟩

/-- What party `r` should report. -/
def expected (c : Env D) (tables : Nat → Bytes × List Row) (r : Nat) : Report :=
  reportOf c tables r (commonRows c tables r)

end Psi.Legacy
