import Verif.Ecdh.Resume

/-!
# ECDH-PSI with recovery: any number of restarts

`Verif.Ecdh.Resume` has one restart.  Here a task is interrupted again and again.  The files of a party keep what every run has
saved; the two counts of its checkpoint are those of the last run that saved something, since a store that is opened again counts
from 0 (`psi/utils/hash_bucket_cache.cc:32`, `psi/utils/hash_bucket_cache.h:92`) and the count is overwritten
(`psi/checkpoint/recovery.cc:213-229`).  Simplifications as in `Verif.Ecdh.Resume`; each run ends in any state it can reach.
-/

namespace Psi.Ecdh
open Psi.Bucket (Cache)
variable {α P : Type}

/-- The recovery folder of a party: what each run has saved in the two stores, and the two counts of the checkpoint. -/
structure Folder where
  selfRuns : List (List (Bytes × Nat))
  peerRuns : List (List (Bytes × Nat))
  selfCount : Nat
  peerCount : Nat

/-- A new folder. -/
def Folder.new : Folder := ⟨[], [], 0, 0⟩

/-- `processed_item_cnt` of party `r`: `psi/algorithm/ecdh/ecdh_psi.cc:462-479`, `psi/checkpoint/recovery.cc:148-192`. -/
def processedAt (t : Target) (d : Bool → Folder) (r : Bool) : Nat :=
  if t.canTouch r && t.canTouch (!r) then min (d (!r)).peerCount (d r).selfCount
  else if t.canTouch r then (d r).selfCount
  else (d (!r)).peerCount

/-- Configuration of the run that is started on these folders. -/
def resumeAt (c : Cfg α P) (d : Bool → Folder) : Option (Cfg α P) :=
  match skip (processedAt c.target d false) (c.input false), skip (processedAt c.target d true) (c.input true) with
  | some f, some t => some { c with input := fun r => if r then t else f }
  | _, _ => none

/-- A count is written for every batch that is not empty: `psi/algorithm/ecdh/ecdh_psi.cc:182-188`, `265-270`. -/
def newCount (old saved : Nat) : Nat := if saved = 0 then old else saved

/-- The folders when a run has ended or was stopped: the counts are those of state `s0`, the files have what was saved up to the
same or a later state `s`. -/
def after (d : Bool → Folder) (s0 s : State α) (r : Bool) : Folder :=
  { selfRuns := (d r).selfRuns ++ [(s.party r).selfStore]
    peerRuns := (d r).peerRuns ++ [(s.party r).peerStore]
    selfCount := newCount (d r).selfCount (s0.party r).selfStore.length
    peerCount := newCount (d r).peerCount (s0.party r).peerStore.length }

/-- `Stopped c st d`: a task that was started and stopped any number of times has the folders `d`; party `r` began its runs with
its items number `st r` (counted from 0). -/
inductive Stopped (c : Cfg α P) : (Bool → List Nat) → (Bool → Folder) → Prop
  | new : Stopped c (fun _ => []) (fun _ => Folder.new)
  | stop {st : Bool → List Nat} {d : Bool → Folder} {c' : Cfg α P} {sched0 sched1 : List (Task × Bool)} {s0 s : State α}
      (hd : Stopped c st d) (hr : resumeAt c d = some c') (h0 : exec c' sched0 (init c') = some s0)
      (h1 : exec c' sched1 s0 = some s) : Stopped c (fun r => st r ++ [processedAt c.target d r]) (after d s0 s)

/-- A store that was opened by every run in turn: `psi/utils/hash_bucket_cache.cc:25-35`,
`psi/utils/multiplex_disk_cache.cc:71-80` (append). -/
def storeOf (hash : List Char → Nat) (n : Nat) (runs : List (List (Bytes × Nat))) : Cache :=
  runs.foldl (fun c ds => (Cache.openDir c.files).writeAll hash ds) (Cache.fresh n)

/-- All batches have `b` items except for the last one, which may have fewer: `psi/utils/arrow_csv_batch_provider.cc` and the
other providers (C31). -/
def Chunked (b : Nat) (bs : List (List (α × Nat))) : Prop :=
  (∀ x ∈ bs.dropLast, x.length = b) ∧ ∀ x ∈ bs.getLast?, x.length ≤ b

instance (b : Nat) (bs : List (List (α × Nat))) : Decidable (Chunked b bs) := by unfold Chunked; infer_instance

end Psi.Ecdh
