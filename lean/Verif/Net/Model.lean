import Mathlib.Logic.Function.Basic

/-!
# Tasks that exchange messages over queues

A small language for the concurrent parts of the protocols: a party is one or more tasks (the main
thread and every `std::async`), a link direction with its own tag space is a first-in-first-out queue
with one writer and one reader.  `std::future` is a queue with one message: `get` waits for it.

Link behaviour: reliable, in order per queue (yacl `link::Context`; tags on one queue are counters, see
`psi/algorithm/ecdh/ecdh_psi.cc:111, 157, 247`).  `SendAsyncThrottled` blocks while `window` messages
are unread, `SendAsync` (`window = none`) never blocks, `Recv` blocks while the queue is empty.
-/

namespace Psi.Net

/-- Straight-line code of a task, up to the head of its next loop iteration. -/
inductive Prog (C M S : Type) where
  /-- Go (back) to the loop head in state `s`. -/
  | next (s : S)
  /-- The task has returned. -/
  | halt (s : S)
  /-- The task has thrown. -/
  | fail
  | send (c : C) (m : M) (k : Prog C M S)
  | recv (c : C) (k : M → Prog C M S)

/-- A set of tasks `T` over queues `C` with messages `M`; `S` are the loop-head states. -/
structure Sys (T C M S : Type) where
  body : T → S → Prog C M S
  start : T → S
  writer : C → T
  reader : C → T
  window : C → Option Nat

/-- The remaining code of every task, the unread messages of every queue, and (for stating properties
only) all messages ever sent on it. -/
structure Conf (T C M S : Type) where
  task : T → Prog C M S
  queue : C → List M
  log : C → List M

variable {T C M S : Type} [DecidableEq T] [DecidableEq C]

def Sys.init (N : Sys T C M S) : Conf T C M S :=
  { task := fun t => .next (N.start t), queue := fun _ => [], log := fun _ => [] }

/-- Let task `t` do one thing; `none`: it has ended, or it is blocked.  A task that touches a queue
that is not its own fails. -/
def Sys.step (N : Sys T C M S) (t : T) (s : Conf T C M S) : Option (Conf T C M S) :=
  match s.task t with
  | .next x => some { s with task := Function.update s.task t (N.body t x) }
  | .halt _ => none
  | .fail => none
  | .send c m k =>
    if N.writer c ≠ t then some { s with task := Function.update s.task t .fail }
    else if (N.window c).any (fun w => w ≤ (s.queue c).length) then none
    else some
      { task := Function.update s.task t k
        queue := Function.update s.queue c (s.queue c ++ [m])
        log := Function.update s.log c (s.log c ++ [m]) }
  | .recv c k =>
    if N.reader c ≠ t then some { s with task := Function.update s.task t .fail }
    else match s.queue c with
      | [] => none
      | m :: q => some { s with task := Function.update s.task t (k m), queue := Function.update s.queue c q }

/-- Run under a schedule; a blocked or ended task is passed over.  Also counts the steps really done. -/
def Sys.exec (N : Sys T C M S) : List T → Conf T C M S → Conf T C M S × Nat
  | [], s => (s, 0)
  | t :: ts, s =>
    match N.step t s with
    | none => N.exec ts s
    | some s' => let r := N.exec ts s'; (r.1, r.2 + 1)

/-- No task can move. -/
def Sys.Stuck (N : Sys T C M S) (s : Conf T C M S) : Prop := ∀ t, N.step t s = none

end Psi.Net
