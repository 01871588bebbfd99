import Verif.ApsiCore.Model
import Mathlib.Tactic.Ring
import Mathlib.Tactic.Linarith
import Mathlib.Algebra.BigOperators.Group.List.Lemmas

/-!
# The laws of the libraries, and what the answer should be

The polynomials of a bundle (APSI), the cuckoo table of the receiver (kuku), and the graph of powers (APSI).
-/

namespace Psi.ApsiCore

open Psi.Spiral (Res mapRes)

section

variable {F : Type} [Field F] {ι : Type}

/-- The value at `x` of the polynomial with the coefficients in slot `s`. -/
def peval : List (Vec F) → Nat → F → F
  | [], _, _ => 0
  | c :: cs, s, x => c s + x * peval cs s x

/-- The items of the sender: for each bundle index the bundles, each a list of items for each place. -/
abbrev Content (ι : Type) := Nat → List (Nat → List ι)

/-- One bundle: in slot `k` of place `i` the roots of the matching polynomial are the `k`-th field elements of the items, and
the polynomials of the labels go through the field elements of the labels. -/
structure BundleOf (P : Params) (felt : ι → Nat → F) (lab : ι → Nat → Nat → F) (parts : Nat) (b : Bundle F)
    (cell : Nat → List ι) : Prop where
  matchLen : b.matching.length ≤ P.maxItems + 1
  parts : b.labels.length = parts
  labLen : ∀ l ∈ b.labels, l.length ≤ P.maxItems + 1
  roots : ∀ i < P.perBundle, ∀ k < P.felts, ∀ x,
    peval b.matching (i * P.felts + k) x = ((cell i).map fun y => x - felt y k).prod
  label : ∀ i < P.perBundle, ∀ k < P.felts, ∀ y ∈ cell i, ∀ (j : Nat) (l : List (Vec F)), b.labels[j]? = some l →
    peval l (i * P.felts + k) (felt y k) = lab y j k

/-- The data base of the sender: the bundles of every index. -/
def Represents (P : Params) (felt : ι → Nat → F) (lab : ι → Nat → Nat → F) (parts : Nat) (db : Db F) (ct : Content ι) : Prop :=
  ∀ idx < P.bundleCount, List.Forall₂ (BundleOf P felt lab parts) (db.caches idx) (ct idx)

/-- The cuckoo table of the receiver: every item is where the table says. -/
def Fits (P : Params) (items : List ι) (f : Filled ι) : Prop :=
  ∀ x ∈ items, f.table (f.loc x) = x ∧ f.loc x < P.bundleCount * P.perBundle

/-- An order in which the nodes of the graph of powers may be computed: parents first, and the power of a node is the sum of
those of its parents. -/
def Topo : List Nat → List Node → Prop
  | _, [] => True
  | known, n :: ns =>
    (match n.parents with
    | none => n.power ∈ known
    | some (a, b) => a ∈ known ∧ b ∈ known ∧ n.power = a + b) ∧ Topo (n.power :: known) ns

/-- The powers that the evaluation uses. -/
def Needed (P : Params) (i : Nat) : Prop :=
  1 ≤ i ∧ i ≤ P.maxItems ∧ (P.low ≤ 1 ∨ i ≤ P.low ∨ (P.low + 1) ∣ i)

instance (P : Params) (i : Nat) : Decidable (Needed P i) := by unfold Needed; infer_instance

/-- The graph of powers: sources that are not too large, an order for every bundle index, all needed powers. -/
structure Graph (P : Params) (es : List Nat) (order : Nat → List Node) : Prop where
  sources : ∀ e ∈ es, e ≤ P.maxItems
  topo : ∀ idx, Topo es (order idx)
  all : ∀ idx i, Needed P i → i ∈ es ∨ i ∈ (order idx).map Node.power

/-- The item `x` of the receiver hits a bundle: each of its field elements occurs at its place. -/
def Hits (P : Params) (felt : ι → Nat → F) (f : Filled ι) (x : ι) (cell : Nat → List ι) : Prop :=
  ∀ k < P.felts, ∃ y ∈ cell (f.loc x % P.perBundle), felt y k = felt x k

/-- The bundles that may hold `x`. -/
def home (P : Params) (f : Filled ι) (ct : Content ι) (x : ι) : List (Nat → List ι) := ct (f.loc x / P.perBundle)

/-- `j` is the last place of its item. -/
def Last (items : List ι) (j : Nat) : Prop := ∀ j' > j, items[j']? ≠ items[j]?

end

end Psi.ApsiCore
