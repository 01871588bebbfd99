import Verif.IndexStore.Model

/-!
# What an index file must hold

The rows that are safe (they survive a crash) and those only written, computed from the history of the
file alone, with no file format in it.
-/

namespace Psi.IndexStore.Spec
open Psi.IndexStore

/-- Rows safe in the file, rows written since the last commit. -/
structure Log where
  safe : List Row
  fresh : List Row
deriving DecidableEq, Repr

/-- Effect of an action: opening for a new result forgets the old rows; a commit (also the one in `Close`
and in the destructor) makes all rows safe; a crash loses the fresh ones. -/
def Log.step (l : Log) : Op → Log
  | .make true => ⟨[], []⟩
  | .make false => ⟨l.safe, []⟩
  | .write r => ⟨l.safe, l.fresh ++ [r]⟩
  | .writeAll is cs => ⟨l.safe, l.fresh ++ is.zip cs⟩
  | .writeIdx is => ⟨l.safe, l.fresh ++ is.map (fun i => (i, 0))⟩
  | .commit => ⟨l.safe ++ l.fresh, []⟩
  | .close => ⟨l.safe ++ l.fresh, []⟩
  | .destroy => ⟨l.safe ++ l.fresh, []⟩
  | .crash => ⟨l.safe, []⟩

def logOf (h : List Op) : Log := h.foldl Log.step ⟨[], []⟩

/-- The reader cuts the lines into non-empty blocks. -/
def Cuts (cut : List (List Char) → List (List (List Char))) : Prop :=
  ∀ ls, (cut ls).flatten = ls ∧ ∀ b ∈ cut ls, b ≠ []

/-- Rows with index and count in the range of `int64`. -/
def Small (r : Row) : Prop := r.1 < 2 ^ 63 ∧ r.2 < 2 ^ 63

/-- Result of sorting by index: the same rows, indexes not decreasing. -/
def SortsByIndex (l out : List Row) : Prop :=
  out.Perm l ∧ out.Pairwise (fun a b => a.1 ≤ b.1)

end Psi.IndexStore.Spec
