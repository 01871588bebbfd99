import Verif.Apsi.Model

/-!
# The processes that build a data base of groups

Models `GroupDBGenerator` and `ProcessGroupParallel`, `psi/wrapper/apsi/utils/group_db.cc:57-182`, as a transition system: the
parent forks its children, waits until the semaphore has been raised by all of them, kills and reaps them; the children write
the files of their groups.  `Verif.Apsi.Model` runs the children one after the other; here their steps come in any order, with
the files half written in between.

Simplified: `fork`, `semget`, `semop` and `kill` do not fail, apart from the limit of a semaphore (`SEMVMX`, 32767), at which a
child gives up; writing a file takes a few steps (created, data, index created, index), each of which is atomic; a child that
has raised the semaphore does nothing that matters any more, whether or not it exits.  A child that dies by itself (`crash`) is a
step of its own.
-/

namespace Psi.Procs

open Psi.Spiral (Res)
open Psi.Apsi (World Config Disk GroupFiles generate readGroup groupFiles refused rowsOf perGroup rangeOf processGroups)
open Psi.DkPir (Str)

variable {B : Type}

/-- What becomes of the files of a group, one write after the other: `group_db.cc:264-404`. -/
def writes (w : World B) (draw : Nat → Nat) (cap : Nat) (csv : Option Str) (f : GroupFiles B) : List (GroupFiles B) :=
  match f.db, f.index with
  | some _, some _ => []
  | _, _ =>
    match csv with
    | none => []
    | some text =>
      match readGroup text with
      | .throws => []
      | .undefined => []
      | .ok (labeled, rows) =>
        if cap < (rows.map Prod.fst).dedup.length then []
        else if (rows.map Prod.fst).dedup.any (fun b => refused labeled (rowsOf rows b)) then [⟨some [], f.index⟩]
        else
          let r := groupFiles w draw labeled rows
          [⟨some [], f.index⟩, ⟨r.db, f.index⟩, ⟨r.db, some []⟩, r]

/-- Where a child is. -/
inductive Phase (B : Type) where
  /-- Before the groups that are left. -/
  | next (todo : List Nat)
  /-- At a group: what is still to be written, whether this ends well, the groups after it. -/
  | writing (g : Nat) (pending : List (GroupFiles B)) (ok : Bool) (todo : List Nat)
  /-- The semaphore has been raised. -/
  | raised
  /-- Killed by the parent. -/
  | killed
  /-- Died by itself. -/
  | crashed

/-- A child and the groups it was given. -/
structure Kid (B : Type) where
  range : List Nat
  phase : Phase B

/-- Where the parent is. -/
inductive Parent where
  /-- Forking; the groups of the children still to come. -/
  | forking (rest : List (List Nat))
  /-- In `kill` and `waitpid`. -/
  | killing
  /-- `WaitToFinish` has returned. -/
  | done

structure Sys (B : Type) where
  disk : Disk B
  sem : Nat
  kids : List (Kid B)
  parent : Parent

/-- `sem_op = -1 * child_num`, a `short`: `group_db.cc:118-122`. -/
def semOp (n : Nat) : Int := (-(n : Int) + 2 ^ 15) % 2 ^ 16 - 2 ^ 15

/-- `semop` of the parent, `group_db.cc:123-126` (`semop(2)`): waits for a value that is large enough, for zero, or adds.  A sum
beyond the limit is an error, with which the parent exits: it makes no further step either. -/
def semWait (op : Int) (v : Nat) : Option Nat :=
  if op < 0 then if op.natAbs ≤ v then some (v - op.natAbs) else none
  else if op = 0 then if v = 0 then some v else none
  else if v + op.toNat ≤ 32767 then some (v + op.toNat) else none

/-- A group ends well. -/
def isOk {α : Type} : Res α → Bool
  | .ok _ => true
  | _ => false

section
variable (w : World B) (draw : Nat → Nat) (c : Config)

/-- A step of a child on its own: the files, the semaphore and where it is afterwards. -/
def kidStep (d : Disk B) (sem : Nat) : Phase B → Option (Disk B × Nat × Phase B)
  /- The next group: `group_db.cc:171-176`, `group_db.cc:539-547`. -/
  | .next (g :: todo) =>
    some (d, sem, .writing g (writes w draw (perGroup c.buckets c.groups) (d.csv g) (d.group g))
      (isOk (generate w draw (perGroup c.buckets c.groups) (d.csv g) (d.group g)).2) todo)
  /- The semaphore: `group_db.cc:96-103`. -/
  | .next [] => if sem < 32767 then some (d, sem + 1, .raised) else some (d, sem, .crashed)
  | .writing g (f :: fs) ok todo => some (d.setGroup g f, sem, .writing g fs ok todo)
  /- An exception ends the work: `group_db.cc:84-92`. -/
  | .writing _ [] ok todo => some (d, sem, .next (if ok then todo else []))
  | .raised => none
  | .killed => none
  | .crashed => none

/-- A child makes a step. -/
def stepKid (s : Sys B) (i : Nat) : Option (Sys B) :=
  match s.kids[i]? with
  | none => none
  | some k =>
    (kidStep w draw c s.disk s.sem k.phase).map fun r =>
      { s with disk := r.1, sem := r.2.1, kids := s.kids.set i { k with phase := r.2.2 } }

/-- The parent makes a step: `group_db.cc:75-115`, `group_db.cc:117-134`. -/
def stepParent (s : Sys B) : Option (Sys B) :=
  match s.parent with
  | .forking (r :: rest) => some { s with kids := s.kids ++ [⟨r, .next r⟩], parent := .forking rest }
  | .forking [] => (semWait (semOp s.kids.length) s.sem).map fun v => { s with sem := v, parent := .killing }
  | .killing => some { s with kids := s.kids.map (fun k => { k with phase := .killed }), parent := .done }
  | .done => none

/-- One step of the whole. -/
def Step (s s' : Sys B) : Prop := stepParent s = some s' ∨ ∃ i, stepKid w draw c s i = some s'

/-- Any number of steps. -/
inductive Run : Nat → Sys B → Sys B → Prop where
  | nil (s : Sys B) : Run 0 s s
  | step {n : Nat} {s s' s'' : Sys B} : Run n s s' → Step w draw c s' s'' → Run (n + 1) s s''

/-- A child dies at some point before it has raised the semaphore. -/
def Crash (s s' : Sys B) : Prop :=
  ∃ i k, s.kids[i]? = some k ∧ k.phase ≠ .raised ∧ k.phase ≠ .killed ∧ k.phase ≠ .crashed ∧
    s' = { s with kids := s.kids.set i { k with phase := .crashed } }

/-- Any number of steps, with children that die. -/
inductive RunC : Nat → Sys B → Sys B → Prop where
  | nil (s : Sys B) : RunC 0 s s
  | step {n : Nat} {s s' s'' : Sys B} : RunC n s s' → Step w draw c s' s'' → RunC (n + 1) s s''
  | crash {n : Nat} {s s' s'' : Sys B} : RunC n s s' → Crash s' s'' → RunC (n + 1) s s''

/-- The groups of the children that are forked: `group_db.cc:163-169`. -/
def forks (groups procs : Nat) : List (List Nat) :=
  ((List.range procs).takeWhile fun i => decide ((groups + procs - 1) / procs * i < groups)).map (rangeOf groups procs)

/-- The beginning. -/
def start (procs : Nat) (d : Disk B) : Sys B := ⟨d, 0, [], .forking (forks c.groups procs)⟩

end

end Psi.Procs
