/-!
# RR22: the three-thread bucket pipeline

Models `Rr22Runner::AsyncRun` and `Run` (`psi/algorithm/rr22/rr22_psi.h:180-248`) of two parties that run
against each other.

A bucket goes through three stages, each in a thread of its own: `Prepare`, `RunOprf`, `GetIntersection`.
Each stage of a bucket is an interactive protocol on its own link context (`read`, `run`, `intersection`).
It is modelled by a start and a finish; a party can finish a stage of a bucket only after the peer has
started a stage number at least as high on that link (the most restrictive assumption: every message of the
peer may be needed).  The two condition variables are modelled by guards: a wait ends at any time at which
its predicate holds; every change of a queue is followed by `notify_all`, so no wake-up is lost.
-/

namespace Psi.Pipeline

/-- Where a thread is inside its loop body. -/
inductive Phase
  /-- At the head of the loop. -/
  | idle
  /-- In the stage of a bucket. -/
  | busy (b : Nat)
  /-- Stage finished, runner not yet handed on. -/
  | ready (b : Nat)
deriving DecidableEq, Repr

/-- One party.  `pi`, `ri`, `ii` are the loop counters; the lists `pStart`, ... are the buckets whose stage
has been started or finished, in order. -/
structure Party where
  pi : Nat
  p : Phase
  q1 : List Nat
  ri : Nat
  r : Phase
  q2 : List Nat
  ii : Nat
  i : Phase
  pStart : List Nat
  pDone : List Nat
  rStart : List Nat
  rDone : List Nat
  iStart : List Nat
  /-- Calls of `post_f` (inside `GetIntersection`). -/
  iDone : List Nat
deriving Repr

/-- Thread steps. -/
inductive Step
  | pStart | pFinish | pPush
  | rPop | rFinish | rPush
  | iPop | iFinish
deriving DecidableEq, Repr

/-- Before `AsyncRun(start)`. -/
def Party.init (start : Nat) : Party :=
  ⟨start, .idle, [], start, .idle, [], start, .idle, [], [], [], [], [], []⟩

/-- One step of a party with `n` buckets against `peer`; `none`: not enabled.
`rr22_psi.h:202-212` (prepare), `213-231` (run), `232-244` (intersection). -/
def Party.step (n : Nat) (s peer : Party) : Step → Option Party
  | .pStart =>
    match s.p with
    | .idle => if s.pi < n then some { s with p := .busy s.pi, pStart := s.pStart ++ [s.pi] } else none
    | _ => none
  | .pFinish =>
    match s.p with
    | .busy b =>
      if s.pStart.length ≤ peer.pStart.length then
        some { s with p := .ready b, pDone := s.pDone ++ [b] }
      else none
    | _ => none
  | .pPush =>
    match s.p with
    | .ready b =>
      if s.q1.length < 1 then some { s with p := .idle, pi := s.pi + 1, q1 := s.q1 ++ [b] } else none
    | _ => none
  | .rPop =>
    match s.r, s.q1 with
    | .idle, b :: q =>
      if s.ri < n then some { s with r := .busy b, q1 := q, rStart := s.rStart ++ [b] } else none
    | _, _ => none
  | .rFinish =>
    match s.r with
    | .busy b =>
      if s.rStart.length ≤ peer.rStart.length then
        some { s with r := .ready b, rDone := s.rDone ++ [b] }
      else none
    | _ => none
  | .rPush =>
    match s.r with
    | .ready b => some { s with r := .idle, ri := s.ri + 1, q2 := s.q2 ++ [b] }
    | _ => none
  | .iPop =>
    match s.i, s.q2 with
    | .idle, b :: q =>
      if s.ii < n then some { s with i := .busy b, q2 := q, iStart := s.iStart ++ [b] } else none
    | _, _ => none
  | .iFinish =>
    match s.i with
    | .busy b =>
      if s.iStart.length ≤ peer.iStart.length then
        some { s with i := .idle, ii := s.ii + 1, iDone := s.iDone ++ [b] }
      else none
    | _ => none

/-- Both parties. -/
structure State where
  a : Party
  b : Party

def init (start : Nat) : State := ⟨Party.init start, Party.init start⟩

/-- A step of the first (`false`) or second (`true`) party. -/
def step (n : Nat) (s : State) : Bool × Step → Option State
  | (false, x) => (s.a.step n s.b x).map (fun a => { s with a := a })
  | (true, x) => (s.b.step n s.a x).map (fun b => { s with b := b })

/-- A schedule; steps that are not enabled are refused. -/
def exec (n : Nat) : State → List (Bool × Step) → Option State
  | s, [] => some s
  | s, x :: xs => (step n s x).bind (exec n · xs)

/-- All three loops have ended. -/
def Party.finished (n : Nat) (s : Party) : Prop :=
  s.p = .idle ∧ n ≤ s.pi ∧ s.r = .idle ∧ n ≤ s.ri ∧ s.i = .idle ∧ n ≤ s.ii

/-- `Run`: one bucket after the other; the calls of `post_f`.  `rr22_psi.h:180-187`. -/
def sequential (start n : Nat) : List Nat := List.range' start (n - start)

end Psi.Pipeline
