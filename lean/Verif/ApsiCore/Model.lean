import Verif.Spiral.PackModel
import Mathlib.Algebra.Field.Defs
import Mathlib.Algebra.BigOperators.Group.List.Basic
import Mathlib.Logic.Function.Basic

/-!
# Labeled PSI: the encrypted query, the answer and the records

Models `create_query`, `request_query`, `process_result_part`, `process_result` and `process_result_worker` of
`psi/wrapper/apsi/receiver.cc` and `RunQuery`, `ComputePowers` and `ProcessBinBundleCache` of
`psi/wrapper/apsi/sender.cc` (`psi/algorithm/dkpir/sender.cc:278-451` is the same `RunQuery` with the other two functions).

A ciphertext is the vector of its slots (SEAL computes in every slot; noise, levels and forms are not modelled).  The
cuckoo table of kuku, the field elements of an item, the polynomials of a bundle and the opening of a label are those
of the libraries: parameters here, with laws in `Spec.lean`.
-/

namespace Psi.ApsiCore

open Psi.Spiral (Res mapRes)

/-- `PSIParams`: field elements per item, items per bundle, bundle indices, the low degree of Paterson-Stockmeyer, the
greatest number of items in a bin, bits of an item. -/
structure Params where
  felts : Nat
  perBundle : Nat
  bundleCount : Nat
  low : Nat
  maxItems : Nat
  itemBits : Nat

/-- The slots of a ciphertext or plaintext. -/
abbrev Vec (F : Type) := Nat → F

/-- `CiphertextPowers`: the powers that have been set. -/
abbrev Powers (F : Type) := Nat → Option (Vec F)

section

variable {F : Type} [Field F]

/-! ## The sender -/

/-- A node of the graph of powers. -/
structure Node where
  power : Nat
  parents : Option (Nat × Nat)
deriving DecidableEq

/-- The powers sent, loaded for the bundle index `b`: `psi/wrapper/apsi/sender.cc:234-247`.  Both indices are used without a check. -/
def load (P : Params) (b : Nat) : List (Nat × List (Vec F)) → Powers F → Res (Powers F)
  | [], ps => .ok ps
  | (e, vs) :: r, ps =>
    if P.maxItems < e then .undefined
    else match vs[b]? with
      | none => .undefined
      | some v => load P b r (Function.update ps e (some v))

/-- One node: `psi/wrapper/apsi/sender.cc:335-351`.  The evaluator throws for a ciphertext that was never set. -/
def nodeStep (ps : Powers F) (n : Node) : Res (Powers F) :=
  match n.parents with
  | none => .ok ps
  | some (a, b) =>
    match ps a, ps b with
    | some x, some y => .ok (Function.update ps n.power (some fun s => x s * y s))
    | _, _ => .throws

/-- `ComputePowers`: `psi/wrapper/apsi/sender.cc:315-351`, with the nodes in the order in which the threads take them. -/
def computePowers : List Node → Powers F → Res (Powers F)
  | [], ps => .ok ps
  | n :: ns, ps => (nodeStep ps n).bind fun ps' => computePowers ns ps'

/-- A power that was set. -/
def getPower (ps : Powers F) (i : Nat) : Res (Vec F) :=
  match ps i with
  | some v => .ok v
  | none => .throws

/-- `BatchedPlaintextPolyn::eval`: the coefficients times the powers from `i` on. -/
def evalFrom (ps : Powers F) : Nat → List (Vec F) → Res (Vec F)
  | _, [] => .ok fun _ => 0
  | i, c :: cs =>
    if i = 0 then (evalFrom ps 1 cs).bind fun r => .ok fun s => c s + r s
    else (getPower ps i).bind fun p => (evalFrom ps (i + 1) cs).bind fun r => .ok fun s => c s * p s + r s

/-- `BatchedPlaintextPolyn::eval_patstock`: blocks of `low + 1` coefficients, each evaluated with the low powers and then
multiplied with a high power. -/
def evalBlocks (ps : Powers F) (low : Nat) (cs : List (Vec F)) : List Nat → Res (Vec F)
  | [] => .ok fun _ => 0
  | i :: is =>
    (evalFrom ps 0 ((cs.drop (i * (low + 1))).take (low + 1))).bind fun v =>
      (if i = 0 then .ok v else (getPower ps (i * (low + 1))).bind fun p => .ok fun s => v s * p s).bind fun w =>
        (evalBlocks ps low cs is).bind fun r => .ok fun s => w s + r s

/-- The choice between the two: `psi/wrapper/apsi/sender.cc:433-445, 449-459`. -/
def evalPoly (P : Params) (ps : Powers F) (cs : List (Vec F)) : Res (Vec F) :=
  if 1 < P.low ∧ P.low < cs.length - 1 then evalBlocks ps P.low cs (List.range ((cs.length - 1) / (P.low + 1) + 1))
  else evalFrom ps 0 cs

/-- `BinBundleCache`: the polynomial whose roots are the items, and one polynomial for each part of the labels. -/
structure Bundle (F : Type) where
  matching : List (Vec F)
  labels : List (List (Vec F))

/-- `SenderDB`: the bundles of each bundle index. -/
structure Db (F : Type) where
  caches : Nat → List (Bundle F)
  nonceBytes : Nat
  labelBytes : Nat

/-- `PlainResultPackage`: what the receiver decrypts. -/
structure Package (F : Type) where
  bundleIdx : Nat
  nonceBytes : Nat
  labelBytes : Nat
  psi : Vec F
  labels : List (Vec F)

/-- `ProcessBinBundleCache`: `psi/wrapper/apsi/sender.cc:408-475`. -/
def processCache (P : Params) (db : Db F) (ps : Powers F) (idx : Nat) (c : Bundle F) : Res (Package F) :=
  (evalPoly P ps c.matching).bind fun v =>
    (mapRes (evalPoly P ps) c.labels).bind fun ls => .ok ⟨idx, db.nonceBytes, db.labelBytes, v, ls⟩

/-- The packages of one bundle index: `psi/wrapper/apsi/sender.cc:249-253, 269-281, 321-324`.  `order` is the order of the nodes. -/
def bundlePackages (P : Params) (db : Db F) (data : List (Nat × List (Vec F))) (order : List Node) (idx : Nat) :
    Res (List (Package F)) :=
  (load P idx data fun _ => none).bind fun ps =>
    (if (db.caches idx).isEmpty then .ok ps else computePowers order ps).bind fun ps =>
      mapRes (processCache P db ps idx) (db.caches idx)

/-- `RunQuery`: `psi/wrapper/apsi/sender.cc:174-313`: all packages; they are sent in any order, after their number. -/
def runQuery (P : Params) (db : Db F) (data : List (Nat × List (Vec F))) (order : Nat → List Node) :
    Res (List (Package F)) :=
  (mapRes (fun idx => bundlePackages P db data (order idx) idx) (List.range P.bundleCount)).bind fun l => .ok l.flatten

/-! ## The receiver -/

variable {ι : Type}

/-- The cuckoo table after all items were inserted: cells, and the place of an item. -/
structure Filled (ι : Type) where
  table : Nat → ι
  loc : ι → Nat

/-- `IndexTranslationTable`: `psi/wrapper/apsi/receiver.cc:289-294`; of equal items the last stays. -/
def translate (f : Filled ι) : Nat → List ι → (Nat → Option Nat) → Nat → Option Nat
  | _, [], t => t
  | i, x :: xs, t => translate f (i + 1) xs (Function.update t (f.loc x) (some i))

/-- The slots for one bundle index: `psi/wrapper/apsi/receiver.cc:296-332`: the field elements of the items of the bundle, one after the
other. -/
def querySlots (P : Params) (felt : ι → Nat → F) (f : Filled ι) (idx : Nat) : Vec F := fun s =>
  felt (f.table (idx * P.perBundle + s / P.felts)) (s % P.felts)

/-- The powers that are sent: `psi/wrapper/apsi/receiver.cc:334-362`; `es` are the sources of the graph of powers. -/
def queryData (P : Params) (felt : ι → Nat → F) (f : Filled ι) (es : List Nat) : List (Nat × List (Vec F)) :=
  es.map fun e => (e, (List.range P.bundleCount).map fun idx s => querySlots P felt f idx s ^ e)

/-- How much of the label is used: bytes of the label, of the nonce, of both, and the bits received:
`psi/wrapper/apsi/receiver.cc:468-531`. -/
def labelPlan (P : Params) (p : Package F) (keys items : Nat) : Nat × Nat × Nat × Nat :=
  let lb := if p.labelBytes ≠ 0 ∧ p.labels.isEmpty then 0 else p.labelBytes
  let nb := if lb ≠ 0 then p.nonceBytes else 0
  let bits := P.itemBits * p.labels.length
  let got := bits / 8
  let (lb, eff) := if got < nb then (0, 0) else if got < nb + lb then (got - nb, got) else (lb, nb + lb)
  let (lb, eff) := if lb ≠ 0 ∧ keys ≠ items then (0, 0) else (lb, eff)
  (lb, nb, eff, bits)

variable [DecidableEq F] {K Lab : Type}

/-- The records: `none` is no match, `some none` a match without label. -/
abbrev Recs (Lab : Type) := Nat → Option (Option Lab)

/-- `has_n_zeros` at the item `i` of a bundle: `psi/wrapper/apsi/receiver.cc:536-545`. -/
def isMatch (P : Params) (v : Vec F) (i : Nat) : Bool := (List.range P.felts).all fun k => v (i * P.felts + k) = 0

/-- The field elements of the label: `psi/wrapper/apsi/receiver.cc:585-595`. -/
def labelFelts (P : Params) (p : Package F) (i : Nat) : List F :=
  p.labels.flatMap fun v => (List.range P.felts).map fun k => v (i * P.felts + k)

/-- One place of a result part: `psi/wrapper/apsi/receiver.cc:540-616`.  `dec felts bits bytes key nonce` opens a label. -/
def partStep (P : Params) (dec : List F → Nat → Nat → K → Nat → Lab) (keys : List K) (n : Nat) (itt : Nat → Option Nat)
    (p : Package F) (mrs : Recs Lab) (i : Nat) : Res (Recs Lab) :=
  if isMatch P p.psi i then
    match itt (i + p.bundleIdx * P.perBundle) with
    | none => .ok mrs
    | some j =>
      if (mrs j).isSome then .throws
      else
        let (lb, nb, eff, bits) := labelPlan P p keys.length n
        if lb ≠ 0 then
          match keys[j]? with
          | none => .undefined
          | some key => .ok (Function.update mrs j (some (some (dec (labelFelts P p i) bits eff key nb))))
        else .ok (Function.update mrs j (some none))
  else .ok mrs

/-- Steps one after the other. -/
def foldRes {α β : Type} (f : β → α → Res β) : List α → β → Res β
  | [], b => .ok b
  | a :: as, b => (f b a).bind fun b' => foldRes f as b'

/-- `process_result_part`: `psi/wrapper/apsi/receiver.cc:443-619`. -/
def processPart (P : Params) (dec : List F → Nat → Nat → K → Nat → Lab) (keys : List K) (n : Nat)
    (itt : Nat → Option Nat) (p : Package F) : Res (Recs Lab) :=
  foldRes (partStep P dec keys n itt p) (List.range P.perBundle) fun _ => none

/-- The records of a part go to the others: `psi/wrapper/apsi/receiver.cc:637-656, 703-723`. -/
def mergeStep (this : Recs Lab) (mrs : Recs Lab) (i : Nat) : Res (Recs Lab) :=
  match this i with
  | none => .ok mrs
  | some r => if (mrs i).isSome then .throws else .ok (Function.update mrs i (some r))

/-- `process_result`: `psi/wrapper/apsi/receiver.cc:621-666`; a part that could not be loaded is skipped. -/
def processAll (P : Params) (dec : List F → Nat → Nat → K → Nat → Lab) (keys : List K) (n : Nat)
    (itt : Nat → Option Nat) (parts : List (Option (Package F))) : Res (Recs Lab) :=
  foldRes (fun mrs part =>
    match part with
    | none => .ok mrs
    | some p => (processPart P dec keys n itt p).bind fun this => foldRes (mergeStep this) (List.range n) mrs)
    parts fun _ => none

/-! ## The workers -/

/-- What a worker is doing. -/
inductive Worker (Lab : Type)
  | idle
  | claimed
  | merging (this : Recs Lab) (i : Nat)
  | done

/-- The receiver while results arrive: packages not yet claimed, packages in the channel, the common records, the workers,
and whether a worker has thrown. -/
structure Pool (F Lab : Type) where
  count : Nat
  queue : List (Option (Package F))
  mrs : Recs Lab
  workers : Nat → Worker Lab
  failed : Bool

/-- One step of a worker: `process_result_worker`, `psi/wrapper/apsi/receiver.cc:668-725`.  A record is merged in one step; nothing
protects it (`C109_no_race`). -/
def workerStep (P : Params) (dec : List F → Nat → Nat → K → Nat → Lab) (keys : List K) (n : Nat)
    (itt : Nat → Option Nat) (s : Pool F Lab) (t : Nat) : Pool F Lab :=
  match s.workers t with
  | .idle =>
    if s.count = 0 then { s with workers := Function.update s.workers t .done }
    else { s with count := s.count - 1, workers := Function.update s.workers t .claimed }
  | .claimed =>
    match s.queue with
    | [] => s
    | none :: q => { s with queue := q }
    | some p :: q =>
      match processPart P dec keys n itt p with
      | .ok this => { s with queue := q, workers := Function.update s.workers t (.merging this 0) }
      | _ => { s with queue := q, failed := true }
  | .merging this i =>
    if n ≤ i then { s with workers := Function.update s.workers t .idle }
    else match mergeStep this s.mrs i with
      | .ok mrs => { s with mrs := mrs, workers := Function.update s.workers t (.merging this (i + 1)) }
      | _ => { s with failed := true }
  | .done => s

/-- A schedule: the workers in the order of their steps. -/
def runWorkers (P : Params) (dec : List F → Nat → Nat → K → Nat → Lab) (keys : List K) (n : Nat)
    (itt : Nat → Option Nat) (sched : List Nat) (s : Pool F Lab) : Pool F Lab :=
  sched.foldl (workerStep P dec keys n itt) s

/-- The start of the streaming mode: `psi/wrapper/apsi/receiver.cc:397-419`. -/
def poolStart (announced : Nat) (queue : List (Option (Package F))) : Pool F Lab where
  count := announced
  queue := queue
  mrs := fun _ => none
  workers := fun _ => .idle
  failed := false

end

end Psi.ApsiCore
