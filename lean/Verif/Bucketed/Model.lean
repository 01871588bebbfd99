/-!
# Bucketed protocols with recovery

Models the bucket loop of KKRT-PSI (`psi/algorithm/kkrt/receiver.cc:84-153`,
`psi/algorithm/kkrt/sender.cc:88-151`) and RR22-PSI (`psi/algorithm/rr22/receiver.cc:86-142`,
`psi/algorithm/rr22/sender.cc:76-136`, `psi/algorithm/rr22/rr22_psi.cc:106-120, 152-167`) as far as the
files are concerned that survive a crash: the index file and the checkpoint.

Simplifications: what the protocol finds in a bucket is a parameter (`res`), the same in every run.  A
crash leaves each party after an arbitrary number of its own file actions; that the messages of the
protocol keep the parties close to each other is not used.  A half-written action is not modelled.
-/

namespace Psi.Bucketed

/-- A task: number of buckets, result lines of each party in each bucket, and whether a bucket is
counted in the checkpoint (KKRT: not if it is empty for one party, `kkrt/receiver.cc:114-116`; RR22:
always, `rr22_psi.cc:108-111, 154-157`). -/
structure Task where
  n : Nat
  res : Bool → Nat → List (Nat × Nat)
  counted : Nat → Bool

/-- File actions of a party. -/
inductive Act
  /-- `WriteCache` of all lines and `Commit`: `psi/utils/bucket.cc:122-126`,
  `rr22/receiver.cc:127-131`. -/
  | write (b : Nat)
  /-- `UpdateParsedBucketCount(bucket_idx + 1)`: `kkrt/receiver.cc:147-149`, `rr22/receiver.cc:132-134`. -/
  | count (b : Nat)

/-- The files of both parties: index file (opened for append, `psi/utils/index_store.cc:37-48`,
`psi/interface.h`) and `parsed_bucket_count`. -/
structure Disk where
  file : Bool → List (Nat × Nat)
  cnt : Bool → Nat

def Disk.new : Disk := ⟨fun _ => [], fun _ => 0⟩

/-- The loop from bucket `k` on: `kkrt/receiver.cc:109-150`. -/
def Task.acts (t : Task) (k : Nat) : List Act :=
  (List.range' k (t.n - k)).flatMap (fun b => if t.counted b then [.write b, .count b] else [])

def Task.act (t : Task) (r : Bool) (s : List (Nat × Nat) × Nat) : Act → List (Nat × Nat) × Nat
  | .write b => (s.1 ++ t.res r b, s.2)
  | .count b => (s.1, b + 1)

/-- One run of both parties, from the smaller of the two counts (`kkrt/receiver.cc:103-107`), of which
party `r` completes the first `p r` file actions. -/
def Task.run (t : Task) (d : Disk) (p : Bool → Nat) : Disk :=
  let k := min (d.cnt false) (d.cnt true)
  let out := fun r => ((t.acts k).take (p r)).foldl (t.act r) (d.file r, d.cnt r)
  ⟨fun r => (out r).1, fun r => (out r).2⟩

/-- Any number of runs that crash, then a complete one. -/
def Task.history (t : Task) (ps : List (Bool → Nat)) : Disk :=
  let d := ps.foldl t.run Disk.new
  t.run d (fun _ => (t.acts (min (d.cnt false) (d.cnt true))).length)

end Psi.Bucketed
