import Verif.UbPsi.Model

/-!
# Model of unbalanced PSI with a threshold

`experiment/psi/threshold_ub_psi/client.cc`, `experiment/psi/threshold_ub_psi/server.cc` and
`experiment/psi/threshold_ub_psi/threshold_ecdh_oprf_psi.cc`.  Only the online phase differs from unbalanced
PSI (`Verif/UbPsi/Model.lean`, whose definitions are reused): the server shuffles the evaluated items in every
run, the client cuts what it finds, and asks the server to undo the shuffle.

Simplifications
* As in `Verif/UbPsi` the phase is one function of both parties; an error of either is the error of the phase.
* `report_` and log messages are left out.
* The two parties read the threshold from their own configurations, which are not compared.
-/

namespace Psi.ThresholdUb
open Psi.Ecdh (Bytes)
open Psi.UbPsi

variable {α G : Type} [AddCommGroup G]

/-- What a party hands to its join and to `SaveIntersectCount`. -/
structure Out where
  /-- Lines of the `MemoryIndexReader`: own row, duplicate count of the peer. -/
  lines : List (Nat × Nat)
  /-- Rows of the peer. -/
  peerRows : Nat
  /-- `real_intersection_unique_key_count`. -/
  real : Nat
  /-- `final_intersection_unique_key_count`. -/
  final : Nat
deriving DecidableEq, Repr

/-- Results of both parties; `none`: gets no result. -/
structure Result where
  client : Option Out
  server : Option Out
deriving DecidableEq, Repr

/-- `ResizeIntersection` to `std::min(threshold, real)`:
`experiment/psi/threshold_ub_psi/client.cc:67-74, 126-132`. -/
def limit (threshold : Nat) (found : List (Nat × Nat × Nat)) : List (Nat × Nat × Nat) :=
  found.take (min threshold found.length)

/-- `RecvAndRestoreIndexes`: `experiment/psi/threshold_ub_psi/threshold_ecdh_oprf_psi.cc:24-46`; the shuffle is
generated again from the same seed and counter for `client_unique_count` items. -/
def restoreIndexes (perm : Nat → List Nat) (unique : Nat) (ix : List Nat) : Except Err (List Nat) :=
  mapE (elemAt (perm unique)) ix

/-- Sending of the shuffled indexes, their restoration and the lines of the client:
`experiment/psi/threshold_ub_psi/client.cc:78-90, 101-104`, `experiment/psi/threshold_ub_psi/server.cc:53-55`. -/
def clientLines (perm : Nat → List Nat) (unique : Nat) (found : List (Nat × Nat × Nat)) :
    Except Err (List (Nat × Nat)) :=
  match restoreIndexes perm unique (found.map (fun x => x.1)) with
  | .error e => .error e
  | .ok restored =>
    if restored.length ≠ found.length then .error .throw
    else .ok (restored.zip (found.map (fun x => x.2.2)))

/-- The server's part after it received the cache indexes and the real count:
`experiment/psi/threshold_ub_psi/server.cc:61-97`; `pairs` are the cache indexes with the client's indexes. -/
def serverOut (threshold : Nat) (cache : ServerCache) (batch : Nat) (p : PeerCnt) (pairs : List (Nat × Nat))
    (real : Nat) : Except Err Out :=
  if pairs.length ≠ min threshold real then .error .throw
  else
    match rowIndexes cache batch (countMap p pairs) with
    | .error e => .error e
    | .ok rows => .ok ⟨rows, p.total, real, pairs.length⟩

/-- `Online` of both sides up to the join, with the client's store open:
`experiment/psi/threshold_ub_psi/client.cc:24-124`, `experiment/psi/threshold_ub_psi/server.cc:29-115`.  The
server always calls `RecvBlindAndShuffleSendEvaluate`, which in `exchange` is the case that the client gets no
result. -/
def onlineWith (c : Curve α G) (o : Online α) (tClient tServer : Nat) (keyFile : Option Bytes)
    (server : ServerCache) (store : ClientStore) : Except Err Result :=
  match serverKey keyFile server with
  | .error e => .error e
  | .ok key =>
    match exchange c { o with clientGets := false } key with
    | .error e => .error e
    | .ok (self, p) =>
      match computeIndices self store o.batch o.threads with
      | .error e => .error e
      | .ok all =>
        let found := limit tClient all
        match (if o.clientGets then
            match clientLines o.perm p.unique found with
            | .error e => .error e
            | .ok lines => .ok (some (⟨lines, store.peerCnt, all.length, found.length⟩ : Out))
          else .ok none : Except Err (Option Out)) with
        | .error e => .error e
        | .ok clientOut =>
          if o.serverGets then
            match serverOut tServer server o.batch p (found.map (fun x => (x.2.1, x.1))) all.length with
            | .error e => .error e
            | .ok s => .ok ⟨clientOut, some s⟩
          else .ok ⟨clientOut, none⟩

/-- `Online`; also what is on the client's disk afterwards, as in `UbPsi.online`. -/
def online (c : Curve α G) (o : Online α) (tClient tServer : Nat) (keyFile : Option Bytes)
    (server : ServerCache) (client : ClientDisk) : Except Err Result × ClientDisk :=
  match openStore client c.cmpLen with
  | .error e => (.error e, ⟨some (client.file.getD []), client.info⟩)
  | .ok store => (onlineWith c o tClient tServer keyFile server store, flushStore store)

end Psi.ThresholdUb
