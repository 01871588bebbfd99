import Verif.Ecdh.Model
import Verif.Bucket.Model

/-!
# ECDH-PSI with recovery: restart after a crash

Models how a restarted run continues: `RunEcdhPsi` (`psi/algorithm/ecdh/ecdh_psi.cc:462-479`),
`MaskSelf` (`ecdh_psi.cc:63-91`) and the point stores opened again on the folder of the first run
(`psi/algorithm/ecdh/receiver.cc:75-81`, `psi/algorithm/ecdh/sender.cc:76-82`).

Simplifications.  The private keys are those of the first run (C37).  Both parties are restarted.  The
checkpoint files hold the counts of some state of the run and the bucket files the items of the same or
a later state (`Flush` comes before the checkpoint, `ecdh_psi.cc:182-188`, `265-270`); a batch that is
half on disk is not modelled.
-/

namespace Psi.Ecdh
open Psi.Bucket (Cache)
variable {α P : Type}

/-- What is left of a batch of which `p` items were processed: `psi/algorithm/ecdh/ecdh_psi.cc:80-90`.
`processed_item_cnt` is already 0 when the duplicate counts are renumbered, so they keep their old
positions.  (Entries past the end of the shortened batch stay in the map; the receiver never looks them
up.) -/
def rest (p : Nat) (b : List (α × Nat)) : List (α × Nat) :=
  ((b.drop p).map Prod.fst).zipIdx.map (fun x => (x.1, dupAt (dupMap b) x.2))

/-- The batches a restarted `MaskSelf` sends: `psi/algorithm/ecdh/ecdh_psi.cc:69-91`; `none`: the check
in line 74 fails. -/
def skip (p : Nat) : List (List (α × Nat)) → Option (List (List (α × Nat)))
  | [] => if p = 0 then some [] else none
  | b :: bs =>
    if p = 0 then some (b :: bs)
    else if b.length ≤ p then skip (p - b.length) bs
    else some (rest p b :: bs)

/-- `processed_item_cnt` of party `r` when the checkpoints hold the counts of state `s`:
`psi/algorithm/ecdh/ecdh_psi.cc:462-479`.  The count of the peer arrives through `MarkOnlineStart`. -/
def processed (t : Target) (s : State α) (r : Bool) : Nat :=
  if t.canTouch r && t.canTouch (!r) then
    min (s.party (!r)).peerStore.length (s.party r).selfStore.length
  else if t.canTouch r then (s.party r).selfStore.length
  else (s.party (!r)).peerStore.length

/-- Configuration of the restarted run. -/
def resume (c : Cfg α P) (s : State α) : Option (Cfg α P) :=
  match skip (processed c.target s false) (c.input false),
        skip (processed c.target s true) (c.input true) with
  | some f, some t => some { c with input := fun r => if r then t else f }
  | _, _ => none

/-- A point store with the files of the first run, opened again and written by the second:
`psi/utils/hash_bucket_cache.cc:25-35` (`item_index_` starts at 0),
`psi/utils/multiplex_disk_cache.cc:71-80` (append). -/
def reopened (hash : List Char → Nat) (n : Nat) (first second : List (Bytes × Nat)) : Cache :=
  (Cache.openDir ((Cache.fresh n).writeAll hash first).files).writeAll hash second

end Psi.Ecdh
