import Mathlib.Data.List.Sort
import Verif.Rr22.Oprf

/-!
# Multi-party intersection by encoded pseudorandom values (NTY)

Models `psi/algorithm/nty/nty_mp_psi.cc:44-388` and `psi/algorithm/nty/server_aided_psi.cc:24-117`.

Items and keys are 128-bit words.  Parameters: AES under a key and its inverse, the hash of a key under the seed of a table,
the sizes `Baxos::Init` computes from the number of items, the orders of the threads of every key-value store, the shuffles,
and all random words.  Messages between honest parties arrive as they were sent; the two message formats whose length the
receiver does not check are modelled on bytes.  `std::async` tasks of one party touch disjoint data and are run in sequence.
-/

namespace Psi.Nty
open Psi.Gf128
open Psi.Okvs hiding Err
open Psi.Baxos hiding Err
open Psi.Rr22 Psi.Rr22.Oprf
open Psi.Ecdh (Bytes)

/-- What one key-value store is made with: `nty_mp_psi.cc:318-366`.  `cfg` is `Baxos::Init` for a number of items. -/
structure Store where
  cfg : Nat → Cfg
  hash : Gf → Nat
  pick : Tri → Nat
  send : Sched
  recv : Sched

/-- `GenOkvs`: `nty_mp_psi.cc:318-339`.  For no items `Init` converts `log2(0)` to an integer (`baxos.h:54-56`). -/
noncomputable def genOkvs (o : Store) (items hashed : List Gf) : Except Err (List (List Gf)) :=
  if items.length = 0 then .error .undefined
  else match solve (o.cfg items.length) (encGf (o.cfg items.length) o.pick) o.send.threads o.send.solve1 o.send.solve2
      (items.map o.hash) (fun j => hashed.getD j 0) (fun _ => 0) with
    | .ok p => .ok (sendChunked kSendChunkSize ((List.range (tableSize (o.cfg items.length))).map p))
    | .error e => .error (.store e)

/-- `DecodeOkvs`: `nty_mp_psi.cc:341-366`.  `count` is the number of items of the sender. -/
noncomputable def decodeOkvs (o : Store) (count : Nat) (msgs : List (List Gf)) (items : List Gf) : Except Err (List Gf) := do
  if count = 0 then .error .undefined
  else
    let l ← recvChunked (tableSize (o.cfg count)) [] msgs
    match decodeAll (o.cfg count) (decode1Gf (o.cfg count).w (o.cfg count).S (o.cfg count).D)
        (decode32Gf (o.cfg count).w (o.cfg count).S (o.cfg count).D) o.recv.threads o.recv.decode (items.map o.hash)
        (fun k => l.getD k 0) (fun _ => 0) with
    | .ok v => .ok ((List.range items.length).map v)
    | .error e => .error (.store e)

/-- `AES_ecb_encrypt_blks` under one key, added to what is there: `nty_mp_psi.cc:114-124`. -/
def addPrf (aes : Gf → Gf → Gf) (items : List Gf) (acc : List Gf) (seed : Gf) : List Gf :=
  (List.range items.length).map fun i => acc.getD i 0 + aes seed (items.getD i 0)

/-- `hashed_items[j] ^= recv_hashed_items[i][j]`: `nty_mp_psi.cc:163-169`; the `transform` with the inputs: `:173-175`. -/
def addAll (acc l : List Gf) : List Gf := (List.range acc.length).map fun j => acc.getD j 0 + l.getD j 0

/-! ### Two parties and a server -/

/-- A vector of 128-bit words as the bytes of a message. -/
def packet (l : List Gf) : Bytes := l.flatMap fun x => le16 x.val

/-- A message as a vector of 128-bit words: the size is rounded down, the copy is not (`server_aided_psi.cc:57-67`,
`:89-97`, `nty_mp_psi.cc:136-138`). -/
def unpack (b : Bytes) : Except Err (List Nat) :=
  if b.length % 16 ≠ 0 then .error .undefined
  else .ok ((List.range (b.length / 16)).map fun i => ofLe ((b.drop (16 * i)).take 16))

/-- `SendEncItems`: `server_aided_psi.cc:24-39`. -/
def sendEncItems (aes : Gf → Gf → Gf) (key : Gf) (shuffle : List Gf → List Gf) (items : List Gf) : Bytes :=
  packet (shuffle (items.map (aes key)))

/-- `std::set_intersection`. -/
def setInter : List Nat → List Nat → List Nat
  | [], _ => []
  | _ :: _, [] => []
  | a :: x, b :: y => if a < b then setInter x (b :: y) else if b < a then setInter (a :: x) y else a :: setInter x y
termination_by x y => x.length + y.length

/-- `ServerAssist`: `server_aided_psi.cc:81-117`. -/
def serverAssist (helper receiver : Bytes) : Except Err Bytes := do
  let h ← unpack helper
  let r ← unpack receiver
  .ok ((setInter (h.insertionSort (· ≤ ·)) (r.insertionSort (· ≤ ·))).flatMap le16)

/-- The end of `ServerAidedPsi` at the receiver: `server_aided_psi.cc:54-73`. -/
def decryptResult (aesInv : Gf → Gf → Gf) (key : Gf) (msg : Bytes) : Except Err (List Gf) := do
  let l ← unpack msg
  .ok (l.map fun c => aesInv key (Gf.ofNat c))

/-- The map of `GetIntersection`: the first index of every value, as 32 bits (`nty_mp_psi.cc:372-377`). -/
def firstIdx (tags : List Gf) : List (Gf × Nat) :=
  (List.range tags.length).foldl
    (fun m i => if m.any (fun e => e.1 = tags.getD i 0) then m else m ++ [(tags.getD i 0, i % 2 ^ 32)]) []

/-- `GetIntersection`: `nty_mp_psi.cc:368-388`.  A dense hash map must not be given its empty key. -/
def getIntersection (empty : Gf) (inputs tags raw : List Gf) : Except Err (List Gf) :=
  if tags.any (· = empty) ∨ raw.any (· = empty) then .error .undefined
  else .ok (raw.filterMap fun t => ((firstIdx tags).find? (fun e => e.1 = t)).map fun e => inputs.getD e.2 0)

/-! ### The protocol -/

/-- What is drawn in a run, and how the key-value stores run. -/
structure Coins where
  /-- the key of `i` (in the three-party protocol: of the helper) -/
  seed : Nat → Gf
  /-- the store that `i` sends -/
  store : Nat → Store
  key : Gf
  shuffleH : List Gf → List Gf
  shuffleR : List Gf → List Gf
  empty : Gf

/-- The options of a run: number of parties and roles. -/
structure Setup where
  n : Nat
  server : Nat
  helper : Nat
  receiver : Nat

/-- The parties without a role, in the order of their ranks: `nty_mp_psi.cc:98-103`. -/
def Setup.others (s : Setup) : List Nat :=
  (List.range s.n).filter fun i => i ≠ s.server ∧ i ≠ s.helper ∧ i ≠ s.receiver

/-- The checks of the constructor: `nty_mp_psi.cc:46-58`. -/
def Setup.valid (s : Setup) : Bool :=
  s.server ≠ s.helper ∧ s.server ≠ s.receiver ∧ s.helper ≠ s.receiver ∧ s.server < s.n ∧ s.helper < s.n ∧ s.receiver < s.n ∧ 3 ≤ s.n

/-- The values of the helper: `nty_mp_psi.cc:145-175` for more parties, `:258-272` for three. -/
noncomputable def helperTags (aes : Gf → Gf → Gf) (s : Setup) (C : Coins) (inputs : Nat → List Gf) : Except Err (List Gf) :=
  let own := inputs s.helper
  if s.n = 3 then .ok (addAll own (own.map (aes (C.seed s.helper))))
  else do
    let acc ← s.others.foldlM (fun acc i => do
      let hashed := (inputs i).map (aes (C.seed i))
      let msgs ← genOkvs (C.store i) (inputs i) hashed
      let l ← decodeOkvs (C.store i) (inputs i).length msgs own
      .ok (addAll acc l)) (own.map fun _ => 0)
    .ok (addAll own acc)

/-- The values the server encodes: `nty_mp_psi.cc:96-125`, `:225-236`. -/
def serverValues (aes : Gf → Gf → Gf) (s : Setup) (C : Coins) (inputs : Nat → List Gf) : List Gf :=
  if s.n = 3 then (inputs s.server).map (aes (C.seed s.helper))
  else s.others.foldl (fun acc i => addPrf aes (inputs s.server) acc (C.seed i)) ((inputs s.server).map fun _ => 0)

/-- The values of the receiver: `nty_mp_psi.cc:188-195`, `:281-288`. -/
noncomputable def receiverTags (aes : Gf → Gf → Gf) (s : Setup) (C : Coins) (inputs : Nat → List Gf) : Except Err (List Gf) := do
  let msgs ← genOkvs (C.store s.server) (inputs s.server) (serverValues aes s C inputs)
  let l ← decodeOkvs (C.store s.server) (inputs s.server).length msgs (inputs s.receiver)
  .ok (addAll (inputs s.receiver) l)

/-- `Run`: `nty_mp_psi.cc:68-84` with `MultiPartyPsi` and `ThreePartyPsi` (`:88-316`).  The results of all parties. -/
noncomputable def run (aes aesInv : Gf → Gf → Gf) (s : Setup) (broadcast : Bool) (C : Coins) (inputs : Nat → List Gf) :
    Except Err (Nat → List Gf) := do
  if ¬ s.valid then .error .check
  else
    let h ← helperTags aes s C inputs
    let r ← receiverTags aes s C inputs
    let msg ← serverAssist (sendEncItems aes C.key C.shuffleH h) (sendEncItems aes C.key C.shuffleR r)
    let raw ← decryptResult aesInv C.key msg
    let res ← getIntersection C.empty (inputs s.receiver) r raw
    let sent ← unpack (packet res)
    .ok fun i => if i = s.receiver then res else if i < s.n ∧ broadcast then sent.map Gf.ofNat else []

end Psi.Nty
