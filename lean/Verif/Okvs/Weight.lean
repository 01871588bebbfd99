import Verif.Okvs.Model

/-!
# The lists of columns by weight (`WeightData`)

Models `psi/algorithm/rr22/okvs/paxos_utils.h:30-192` and the triangulation in `paxos.cc` on top of it,
with the doubly linked lists as they are in the code.  `Model.lean` has the triangulation with any choice of
column; here the choice is the one the code makes.

* Pointers into `nodes` are indices; `NullNode` and `nullptr` are `none`.
* A vector is its length and its elements; a read behind the end is undefined.
* Weights are natural numbers.  (In the code they have the index type; `init` refuses 200 and more.)
-/

namespace Psi.Okvs

/-- Why the triangulation ends without a result. -/
inductive WErr
  /-- "something went wrong, maybe duplicate inputs": `paxos_utils.h:171-172`. -/
  | heavy
  /-- One of the other `YACL_ENFORCE`: `paxos_utils.h:77-78, 87, 98, 176`. -/
  | enforce
  /-- `GetMinWeightNode` finds nothing: `paxos_utils.h:143`. -/
  | noMin
  /-- `vector::back` or `operator[]` behind the end. -/
  | undefined
  /-- The model ran out of steps (`triW_refines` shows that it does not). -/
  | fuel
  /-- An error of `Triangulate` itself. -/
  | base (e : Err)
deriving DecidableEq, Repr

/-- `WeightNode`: `paxos_utils.h:36-45`. -/
structure WNode where
  weight : Nat
  prev : Option Nat
  next : Option Nat
deriving DecidableEq, Repr, Inhabited

/-- `WeightData`: `paxos_utils.h:33-51`.  `heads` and `len` are `weight_sets`. -/
structure WData where
  len : Nat
  heads : Nat → Option Nat
  nodes : Nat → WNode

def WData.setPrev (d : WData) (c : Nat) (v : Option Nat) : WData :=
  { d with nodes := Function.update d.nodes c { d.nodes c with prev := v } }

def WData.setNext (d : WData) (c : Nat) (v : Option Nat) : WData :=
  { d with nodes := Function.update d.nodes c { d.nodes c with next := v } }

def WData.setWeight (d : WData) (c : Nat) (v : Nat) : WData :=
  { d with nodes := Function.update d.nodes c { d.nodes c with weight := v } }

def WData.setHead (d : WData) (w : Nat) (v : Option Nat) : WData :=
  { d with heads := Function.update d.heads w v }

/-- `weight_sets.resize(w + 1, nullptr)` if it is shorter: `paxos_utils.h:80-82`. -/
def WData.grow (d : WData) (w : Nat) : WData :=
  if d.len ≤ w then { d with len := w + 1, heads := fun v => if v < d.len then d.heads v else none } else d

/-- A column becomes the first of the list for weight `w`: `paxos_utils.h:84-92` and `174-182`. -/
def WData.front (d : WData) (w c : Nat) : Except WErr WData :=
  match d.heads w with
  | none => .ok (d.setHead w (some c))
  | some h =>
    if (d.nodes h).prev ≠ none then .error .enforce
    else .ok (((d.setPrev h (some c)).setNext c (some h)).setHead w (some c))

/-- `PushNode`: `paxos_utils.h:76-93`. -/
def WData.push (d : WData) (c : Nat) : Except WErr WData :=
  if (d.nodes c).next ≠ none ∨ (d.nodes c).prev ≠ none then .error .enforce
  else (d.grow (d.nodes c).weight).front (d.nodes c).weight c

/-- The length after `while (weight_sets.back() == nullptr) weight_sets.pop_back()`. -/
def trimLen (heads : Nat → Option Nat) : Nat → Nat
  | 0 => 0
  | n + 1 => if heads n = none then trimLen heads n else n + 1

/-- `PopNode`: `paxos_utils.h:96-123`. -/
def WData.pop (d : WData) (c : Nat) : Except WErr WData := do
  let n := d.nodes c
  let d ← match n.prev with
    | none =>
      if d.len ≤ n.weight then .error .undefined
      else if d.heads n.weight ≠ some c then .error .enforce
      else match n.next with
        | none =>
          let d := d.setHead n.weight none
          let k := trimLen d.heads d.len
          if k = 0 then .error .undefined else .ok { d with len := k }
        | some x => .ok ((d.setHead n.weight (some x)).setPrev x none)
    | some p =>
      match n.next with
      | none => .ok (d.setNext p none)
      | some x => .ok ((d.setNext p (some x)).setPrev x (some p))
  .ok ((d.setPrev c none).setNext c none)

/-- `GetMinWeightNode`: `paxos_utils.h:135-144`. -/
def WData.getMin (d : WData) : Except WErr Nat :=
  match (List.range' 1 (d.len - 1)).findSome? d.heads with
  | some c => .ok c
  | none => .error .noMin

/-- One column in `init`: `paxos_utils.h:165-182`. -/
def WData.add (wt : Nat → Nat) (d : WData) (c : Nat) : Except WErr WData :=
  if d.len ≤ wt c then .error .heavy
  else WData.front { d with nodes := Function.update d.nodes c ⟨wt c, none, none⟩ } (wt c) c

/-- `init`: `paxos_utils.h:148-191`; 200 is the number of sets at first. -/
def WData.init (S : Nat) (wt : Nat → Nat) : Except WErr WData := do
  let d ← (List.range S).foldlM (WData.add wt) ⟨200, fun _ => none, fun _ => ⟨0, none, none⟩⟩
  let k := trimLen d.heads d.len
  .ok (if k = 0 then d else { d with len := k })

/-- Local variables of `Triangulate`, with the lists. -/
structure TriW where
  wd : WData
  set : Nat → Bool
  main : List (Nat × Nat)
  gap : List (Nat × Nat)

/-- The weight of a column of the row goes down: `paxos.cc:541-557`. -/
def decW (d : WData) (c : Nat) : Except WErr WData :=
  if (d.nodes c).weight ≠ 0 then do
    let d ← d.pop c
    (d.setWeight c ((d.nodes c).weight - 1)).push c
  else .ok d

/-- Body of the loop over the rows of column `c`: `paxos.cc:527-583`. -/
def visitW (rows : List Row) (c : Nat) (s : TriW × Bool) (r : Nat) : Except WErr (TriW × Bool) :=
  if s.1.set r then .ok s
  else do
    let wd ← (cols rows r).foldlM decW s.1.wd
    let t : TriW := { s.1 with set := Function.update s.1.set r true, wd := wd }
    if s.2 then .ok ({ t with main := t.main ++ [(r, c)] }, false)
    else
      let back := (t.main.getLastD (0, 0)).1
      if dns rows back = dns rows r then .error (.base .duplicate)
      else .ok ({ t with gap := t.gap ++ [(r, back)] }, false)

/-- One column: `paxos.cc:514-585`. -/
def colStepW (rows : List Row) (t : TriW) : Except WErr TriW := do
  let c ← t.wd.getMin
  let wd ← t.wd.pop c
  let s ← (colRows rows c).foldlM (visitW rows c) ({ t with wd := wd.setWeight c 0 }, true)
  if s.2 then .error (.base .noRow) else .ok s.1

/-- The loop of `Triangulate`: `paxos.cc:513-586`. -/
def loopW (rows : List Row) : Nat → TriW → Except WErr TriW
  | 0, t => if t.wd.len > 1 then .error .fuel else .ok t
  | fuel + 1, t => if t.wd.len > 1 then do loopW rows fuel (← colStepW rows t) else .ok t

/-- What `Triangulate` gives, with the weights of the nodes. -/
def TriW.abs (t : TriW) : Tri := ⟨fun c => (t.wd.nodes c).weight, t.set, t.main, t.gap⟩

/-- `SetInput`, `paxos.cc:313`, and `Triangulate`, `paxos.cc:499-589`, for new keys. -/
def triangulateW (rows : List Row) (S : Nat) : Except WErr Tri := do
  let wd ← WData.init S (fun c => (colRows rows c).length)
  let t ← loopW rows S ⟨wd, fun _ => false, [], []⟩
  .ok t.abs

section
variable {K V : Type} [CommRing K] [DecidableEq K] [AddCommGroup V] [Module K V]

def liftErr {α : Type} : Except Err α → Except WErr α
  | .ok a => .ok a
  | .error e => .error (.base e)

/-- `Encode` with `DenseType::GF128`: `paxos.cc:456-496`. -/
def encodeGfW (rows : List Row) (S D : Nat) (coef : Nat → Nat → K) (inv : K → K) (X : Nat → V) :
    Except WErr ((Nat → V) × (Nat → V)) := do
  liftErr (backfillGf rows coef inv D (← triangulateW rows S) X)

/-- `Encode` and `EncodeU64` with `DenseType::Binary`: `paxos.cc:410-496`. -/
def encodeBinW (rows : List Row) (S D gMax : Nat) (coef : Nat → Nat → K) (X : Nat → V) :
    Except WErr ((Nat → V) × (Nat → V)) := do
  liftErr (backfillBin rows coef D gMax (← triangulateW rows S) X)

end

end Psi.Okvs
