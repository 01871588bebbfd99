import Verif.Okvs.Model
import Mathlib.Data.Finset.Card
import Mathlib.Algebra.Group.Even

/-! # When a set of keys cannot be encoded -/

namespace Psi.Okvs.Spec
open Psi.Okvs

/-- The keys at the positions `T` cancel: every column of `C` occurs an even number of times in their rows
and so does every one of the `D` dense bits. -/
def CancelOn (rows : List Row) (C : Nat → Prop) (D : Nat) (T : Finset Nat) : Prop :=
  T.Nonempty ∧ (∀ r ∈ T, r < rows.length) ∧
    (∀ c, C c → Even (T.filter (fun r => c ∈ (rows.getD r default).cols)).card) ∧
    ∀ k < D, Even (T.filter (fun r => (rows.getD r default).dense.testBit k = true)).card

/-- The xor of the complete rows of some keys is zero: the equations of these keys contradict each other
for almost all values. -/
def Dependent (rows : List Row) (D : Nat) : Prop := ∃ T, CancelOn rows (fun _ => True) D T

end Psi.Okvs.Spec
