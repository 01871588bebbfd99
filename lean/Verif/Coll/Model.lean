/-!
# Parties that only meet in collective calls

Many protocols of the library above the level of single messages are sequences of collective calls:
`yacl::link::AllGather` and `Broadcast` in a (sub-)world, or a two-party protocol over a point-to-point
link (`psi/utils/sync.cc`, `psi/legacy/nparty_psi.cc`).  A party is a program of such calls.  A call is
carried out when all its members have arrived at it; each member then gets its answer and goes on.
Parties that are not members are not affected, so calls of disjoint groups happen in any order.

A party that arrives at a call which the other members never make waits forever.  (In `yacl`, the root of
a `Broadcast` does not wait for the others; waiting for them is the more cautious reading.)
-/

namespace Psi.Coll

/-- A party's program: finished with a result, failed with an exception, or at a call. -/
inductive Prog (K M R : Type) where
  | ret (r : R)
  | fail
  | call (k : K) (m : M) (next : M → Prog K M R)

/-- Sequencing. -/
def Prog.bind {K M R S : Type} : Prog K M R → (R → Prog K M S) → Prog K M S
  | .ret r, f => f r
  | .fail, _ => .fail
  | .call k m g, f => .call k m (fun a => (g a).bind f)

/-- A system of parties `T`: who takes part in a call, and what each member is answered. -/
structure Sys (T K M : Type) where
  members : K → List T
  answer : K → (T → M) → T → M

variable {T K M R : Type} [DecidableEq T] [DecidableEq K] [Inhabited M]

/-- Is this program at a call of `k`? -/
def Prog.atCall (k : K) : Prog K M R → Bool
  | .call k' _ _ => k' = k
  | _ => false

/-- What a waiting party brings to its call. -/
def Prog.payload : Prog K M R → M
  | .call _ m _ => m
  | _ => default

/-- Go on with an answer. -/
def Prog.resume : Prog K M R → M → Prog K M R
  | .call _ _ g, a => g a
  | p, _ => p

/-- Only what members bring counts. -/
def Sys.masked (s : Sys T K M) (k : K) (pay : T → M) : T → M :=
  fun t => if t ∈ s.members k then pay t else default

/-- Carry out the call `k`, if it has members and all of them have arrived. -/
def Sys.step (s : Sys T K M) (k : K) (c : T → Prog K M R) : Option (T → Prog K M R) :=
  if s.members k ≠ [] ∧ ∀ t ∈ s.members k, (c t).atCall k = true then
    some (fun t =>
      if t ∈ s.members k then (c t).resume (s.answer k (s.masked k (fun t => (c t).payload)) t) else c t)
  else none

/-- Try the calls of a schedule one after the other; those that cannot happen are skipped.  Also counts the
calls carried out. -/
def Sys.exec (s : Sys T K M) : List K → (T → Prog K M R) → (T → Prog K M R) × Nat
  | [], c => (c, 0)
  | k :: ks, c =>
    match s.step k c with
    | none => s.exec ks c
    | some c' => ((s.exec ks c').1, (s.exec ks c').2 + 1)

/-- No call can be carried out. -/
def Sys.Stuck (s : Sys T K M) (c : T → Prog K M R) : Prop := ∀ k, s.step k c = none

end Psi.Coll
