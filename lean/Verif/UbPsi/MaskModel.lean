/-!
# The server learns the intersection from masked values (unbalanced PSI)

Models `EcdhOprfPsiClient::SendIntersectionMaskedItems` (`psi/algorithm/ecdh/ub_psi/ecdh_oprf_psi.cc:654-697`) and
`EcdhOprfPsiServer::RecvIntersectionMaskedItems` (`ecdh_oprf_psi.cc:365-461`): the client sends the masked values of the
intersection, the server looks for them in its cache and gets the positions of its own items.

Parameters: `dec` is what `absl::Base64Unescape` makes of a text (`none`: it refuses it), `L` is `compare_length_`, `procs`
is `omp_get_num_procs()`.  Simplified: the link delivers the batches in order (the tags count them); what an
`unordered_set` contains is the list of the values put into it.
-/

namespace Psi.UbMask

abbrev Bytes := List Nat

inductive Outcome (β : Type)
  | ok (v : β)
  | throws
  | undefined
  /-- It waits for a message that never comes. -/
  | waits
deriving DecidableEq

/-- A `PsiDataBatch`, as far as it is used here: `flatten_bytes`, or the last batch. -/
inductive Msg
  | data (b : Bytes)
  | last
deriving DecidableEq

/-- The bytes of a batch: `ecdh_oprf_psi.cc:680-687`.  The result of `Base64Unescape` is not looked at; when it refuses the
text it leaves the destination empty. -/
def flatten {T : Type} (dec : T → Option Bytes) (items : List T) : Bytes := items.flatMap fun e => (dec e).getD []

/-- The loop of the client: `ecdh_oprf_psi.cc:661-693`.  `batches` is what `ReadNextBatch` returns; an empty batch, or none,
is the last one. -/
def send {T : Type} (dec : T → Option Bytes) : List (List T) → List Msg
  | [] => [.last]
  | [] :: _ => [.last]
  | b :: bs => .data (flatten dec b) :: send dec bs

/-- The values in a batch: `ecdh_oprf_psi.cc:385-392`. -/
def cut (L : Nat) (b : Bytes) : List Bytes := (List.range (b.length / L)).map fun i => (b.drop (i * L)).take L

/-- The first loop of the server: `ecdh_oprf_psi.cc:374-400`. -/
def collect (L : Nat) : List Msg → List Bytes → Outcome (List Bytes)
  | [], _ => .waits
  | .last :: _, sent => .ok sent
  | .data b :: ms, sent =>
    if L = 0 then .undefined
    else if b.length % L ≠ 0 then .throws
    else collect L ms (sent ++ cut L b)

/-- A `ShuffledBatch` of the cache: `psi/utils/batch_provider.h:73-78`. -/
structure Batch where
  items : List Bytes
  indices : List Nat

/-- `compare_proc`: `ecdh_oprf_psi.cc:426-437`.  `size` is `compare_size`. -/
def compareProc (sent : List Bytes) (B : Batch) (size idx : Nat) : List Nat :=
  let first := idx * size
  let stop := min B.items.length (first + size)
  (List.range' first (stop - first)).filterMap fun i =>
    if B.items.getD i [] ∈ sent then some (B.indices.getD i 0) else none

/-- The tasks of one batch and their results, in order: `ecdh_oprf_psi.cc:420-453`. -/
def compareBatch (sent : List Bytes) (procs : Nat) (B : Batch) : List Nat :=
  (List.range procs).flatMap (compareProc sent B ((B.items.length + procs - 1) / procs))

/-- The second loop of the server: `ecdh_oprf_psi.cc:402-461`.  The positions found and the number of entries read. -/
def scan (sent : List Bytes) (procs : Nat) : List Batch → Outcome (List Nat × Nat)
  | [] => .ok ([], 0)
  | B :: Bs =>
    if B.items = [] then .ok ([], 0)
    else if B.items.length ≠ B.indices.length then .throws
    else if procs = 0 then .undefined
    else
      match scan sent procs Bs with
      | .ok r => .ok (compareBatch sent procs B ++ r.1, B.items.length + r.2)
      | .throws => .throws
      | .undefined => .undefined
      | .waits => .waits

/-- `RecvIntersectionMaskedItems`: `ecdh_oprf_psi.cc:365-461`. -/
def recv (L procs : Nat) (msgs : List Msg) (cache : List Batch) : Outcome (List Nat × Nat) :=
  match collect L msgs [] with
  | .ok sent => scan sent procs cache
  | .throws => .throws
  | .undefined => .undefined
  | .waits => .waits

end Psi.UbMask
