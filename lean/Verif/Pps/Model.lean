import Verif.Spiral.ArithModel
import Verif.Spiral.PackModel
import Mathlib.Data.Nat.Log

/-!
# PIR with puncturable pseudorandom sets

Models `experiment/pir/pps/{ggm_pset,client,server,sender,receiver}.{h,cc}`: the tree, puncturing, the protocol for one bit and
the one for many queries.

Parameters: the generator `AESPRG` that doubles a seed, all random numbers, the coin of `Bernoulli`, the order of iteration
over an `unordered_map`, `ceil(log(n))` (floating point).

Simplified: `Depth` is the exact rounded up logarithm; a `std::set` is a sorted list, an `unordered_set` the same (only
membership and size are used); memory does not run out.  Reading a bit set or a vector behind its end is `undefined`; `abort()`
and a failed `YACL_ENFORCE` are `throws`.
-/

namespace Psi.Pps

open Psi.Spiral (Res mapRes w64)

/-- `PIR_ABORT`: `ggm_pset.h:31`. -/
def pirAbort : Nat := 2 ^ 64 - 1

/-- `MODULE_ADD`: `ggm_pset.h:33-34`. -/
def moduleAdd (a b m : Nat) : Nat := if w64 (a + b) ≥ m then w64 (a + b) - m else w64 (a + b)

/-- `MODULE_SUB`: `ggm_pset.h:35`. -/
def moduleSub (a b m : Nat) : Nat := if a ≥ b then a - b else w64 (a + m + 2 ^ 64 - b)

/-- `LemireTrick` on 128 bits: `ggm_pset.h:62-64`. -/
def lemire (v m : Nat) : Nat := w64 (v / 2 ^ 64 * m % 2 ^ 128 / 2 ^ 64)

/-- `LemireTrick` on 64 bits: `ggm_pset.h:66-69`. -/
def lemire64 (v m : Nat) : Nat := w64 (v * m % 2 ^ 128 / 2 ^ 64)

/-- `Depth`: `ggm_pset.h:99-101`. -/
def depth (size : Nat) : Nat := Nat.clog 2 size

/-- `std::set::insert`. -/
def setInsert (x : Nat) : List Nat → List Nat
  | [] => [x]
  | y :: r => if x < y then x :: y :: r else if x = y then y :: r else y :: setInsert x r

/-- `std::unordered_map::emplace`: an entry that is there stays. -/
def emplace (m : List (Nat × Nat)) (e : Nat × Nat) : List (Nat × Nat) :=
  if e.1 ∈ m.map Prod.fst then m else m ++ [e]

/-- `PIRPuncKey`: `ggm_pset.h:40-46`. -/
structure PuncKey where
  k : List Nat
  pos : Nat
  delta : Nat
  deriving DecidableEq

/-- `PIRPuncKey::PIRPuncKey`: `ggm_pset.h:45`. -/
def PuncKey.empty : PuncKey := ⟨[], 0, 0⟩

/-- `PPS::PPS`: `ggm_pset.h:107-114`. -/
def sizesOk (n s : Nat) : Bool := !(w64 (s * s) < n / 2 || w64 (s * s) > w64 (2 * n))

section Tree

variable (prg : Nat → Nat × Nat)

/-- The inner loop of `GGMTree::Gen`: `ggm_pset.cc:34-36`. -/
def expand (temp leaf : List Nat) (count : Nat) : List Nat :=
  (List.range count).foldl
    (fun l i => (l.set (2 * i) (prg (temp.getD i 0)).1).set (2 * i + 1) (prg (temp.getD i 0)).2) leaf

/-- `GGMTree::Gen`: `ggm_pset.cc:27-38`. -/
def genTree (root height : Nat) : List Nat :=
  (List.range height).foldl (fun leaf d => expand prg leaf leaf (2 ^ d)) ((List.replicate (2 ^ height) 0).set 0 root)

/-- The elements in the order of the leaves: `ggm_pset.cc:80-89`. -/
def elements (n s k : Nat) : List Nat :=
  (List.range s).map fun i => lemire ((genTree prg k (depth s)).getD i 0) n

/-- `PPS::EvalMap`: `ggm_pset.cc:78-91`. -/
def evalMap (n s k : Nat) : List (Nat × Nat) :=
  (List.range s).foldl (fun m i => emplace m ((elements prg n s k).getD i 0, i)) []

/-- `PPS::Eval`: `ggm_pset.cc:93-121`. -/
def eval (n s k : Nat) : List Nat := (elements prg n s k).foldl (fun l x => setInsert x l) []

/-- `PPS::Gen`: `ggm_pset.cc:40-53`: the first of `lambda` keys without a collision, and the map it leaves behind. -/
def genKey (n s : Nat) (rand : Nat → Nat) (lambda : Nat) : Res (Nat × List (Nat × Nat)) :=
  match (List.range lambda).find? fun i => (evalMap prg n s (rand i)).length = s with
  | some i => .ok (rand i, evalMap prg n s (rand i))
  | none => .throws

/-- One level of the path: `ggm_pset.cc:63-71`; `bit` is the bit of the position at that level. -/
def puncStep (bit : Bool) (st : Nat × List Nat) : Nat × List Nat :=
  if bit then ((prg st.1).2, st.2 ++ [(prg st.1).1]) else ((prg st.1).1, st.2 ++ [(prg st.1).2])

/-- `PPS::Punc`: `ggm_pset.cc:55-76`.  The keys are put behind those that `sk` already has. -/
def punc (s : Nat) (map : List (Nat × Nat)) (i k : Nat) (sk : PuncKey) : Res PuncKey :=
  match map.find? fun e => e.1 = i with
  | some e =>
    .ok { sk with
      pos := e.2
      k := ((List.range (depth s)).foldl
        (fun st t => puncStep prg (e.2.testBit (depth s - 1 - t)) st) (k, sk.k)).2 }
  | none => .throws

/-- The inner loop of the evaluation of a punctured key: `ggm_pset.cc:131-137`. -/
def expandPunc (temp leaf : List Nat) (count : Nat) : List Nat :=
  (List.range count).foldl
    (fun l i =>
      if temp.getD i 0 ≠ 0 then (l.set (2 * i) (prg (temp.getD i 0)).1).set (2 * i + 1) (prg (temp.getD i 0)).2
      else (l.set (2 * i) 0).set (2 * i + 1) 0) leaf

/-- The leaves of a punctured key: `ggm_pset.cc:124-139`. -/
def puncTree (height : Nat) (sk : PuncKey) : List Nat :=
  (List.range height).foldl
    (fun leaf d => (expandPunc prg leaf leaf (2 ^ d)).set (sk.pos / 2 ^ (height - 1 - d) ^^^ 1) (sk.k.getD d 0))
    (List.replicate (2 ^ height) 0)

/-- `PPS::Eval` of a punctured key: `ggm_pset.cc:123-148`.  The key must have a value for every level. -/
def evalPunc (n s : Nat) (sk : PuncKey) : Res (List Nat) :=
  if sk.k.length < depth s ∨ 2 ^ depth s ≤ sk.pos then .undefined
  else .ok ((((List.range s).filter fun i => i ≠ sk.pos).map fun i =>
    lemire ((puncTree prg (depth s) sk).getD i 0) n).foldl (fun l x => setInsert x l) [])

/-! ### The server -/

/-- A bit of a `dynamic_bitset`. -/
def bitAt (bits : List Bool) (i : Nat) : Res Bool := if i < bits.length then .ok (bits.getD i false) else .undefined

/-- The sum of the bits at the elements of a set, shifted: `server.cc:27-31`, `server.cc:38-42`. -/
def parity (n : Nat) (bits : List Bool) (set : List Nat) (delta : Nat) : Res Bool :=
  set.foldl (fun acc x => acc.bind fun r => (bitAt bits (moduleAdd x delta n)).bind fun b => .ok (r ^^ b)) (.ok false)

/-- `PpsPirServer::Hint` for one query: `server.cc:19-32`. -/
def hint (n s k : Nat) (deltas : List Nat) (bits : List Bool) : Res (List Bool) :=
  mapRes (fun d => parity n bits (eval prg n s k) d) deltas

/-- `PpsPirServer::Answer`: `server.cc:34-43`. -/
def answer (n s : Nat) (sk : PuncKey) (bits : List Bool) : Res Bool :=
  (evalPunc prg n s sk).bind fun set => parity n bits set sk.delta

/-- `PpsPirServer::Hint` for many queries: `server.cc:45-57`; a key comes with its shift. -/
def hintMulti (n s : Nat) (ck : List (Nat × Nat)) (bits : List Bool) : Res (List Bool) :=
  mapRes (fun c => parity n bits (eval prg n s c.1) c.2) ck

/-- `PpsPirServer::AnswerMulti`: `server.cc:59-69`. -/
def answerMulti (n s : Nat) (pl pr : PuncKey) (bits : List Bool) : Res (Bool × Bool) :=
  (answer prg n s pl bits).bind fun al =>
    if pl.pos = pr.pos ∧ (pl.k = [] ∨ pr.k = []) then .undefined
    else if pl.pos = pr.pos ∧ pl.k.getD 0 0 = pr.k.getD 0 0 then .ok (al, al)
    else (answer prg n s pr bits).bind fun ar => .ok (al, ar)

/-! ### The client, one query -/

/-- `PpsPirClient::M`: `client.h:41-48`; `lg` is `ceil(log(n))`. -/
def setupCount (n s lg : Nat) : Nat := (if n % s ≠ 0 then n / s + 1 else n / s) * lg

/-- The loop of `Setup`: `client.cc:48-55`.  `fuel` tries are left, `i` of `m` shifts found. -/
def drawDeltas (n m : Nat) (rand : Nat → Nat) : Nat → Nat → Nat → List Nat → Nat × List Nat
  | 0, count, _, deltas => (count, deltas)
  | fuel + 1, count, i, deltas =>
    if i < m then
      let r := lemire64 (rand count) n
      if r ∈ deltas then drawDeltas n m rand fuel (count + 1) i deltas
      else drawDeltas n m rand fuel (count + 1) (i + 1) (setInsert r deltas)
    else (count, deltas)

/-- `PpsPirClient::Setup` for one query: `client.cc:39-58`: the key, its map and the shifts. -/
def setup (n s lambda lg : Nat) (randKey rand : Nat → Nat) : Res ((Nat × List (Nat × Nat)) × List Nat) :=
  (genKey prg n s randKey lambda).bind fun key =>
    let max := 10 * setupCount n s lg
    let out := drawDeltas n (setupCount n s lg) rand max 0 0 []
    if out.1 < max then .ok (key, out.2) else .throws

/-- The key of the element at a random place of the map, `std::next(map.begin(), r)->first`. -/
def elementAt (order : List (Nat × Nat) → List (Nat × Nat)) (map : List (Nat × Nat)) (r : Nat) : Nat :=
  ((order map).getD r (0, 0)).1

/-- The loop of `Query` over the shifts: `client.cc:66-72`: the first shift that brings an element of the set to `i`. -/
def findDelta (n : Nat) (map : List (Nat × Nat)) (i : Nat) (deltas : List Nat) : Option Nat :=
  (List.range deltas.length).find? fun j => moduleSub i (deltas.getD j 0) n ∈ map.map Prod.fst

/-- The coins of a query. -/
structure QueryCoins where
  b : Bool
  r1 : Nat
  r2 : Nat

/-- `PpsPirClient::Query` for one query: `client.cc:62-88`: `j_`, `b_` and the punctured key. -/
def query (n s : Nat) (order : List (Nat × Nat) → List (Nat × Nat)) (key : Nat × List (Nat × Nat)) (deltas : List Nat)
    (c : QueryCoins) (i : Nat) (sk : PuncKey) : Res (Nat × Bool × PuncKey) :=
  let j := (findDelta n key.2 i deltas).getD pirAbort
  let delta := match findDelta n key.2 i deltas with
    | some j => deltas.getD j 0
    | none => moduleSub i (elementAt order key.2 c.r1) n
  let iPunc := if c.b then elementAt order key.2 c.r2 else moduleSub i delta n
  (punc prg s key.2 iPunc key.1 { sk with delta := delta }).bind fun pk => .ok (j, c.b, pk)

/-- `PpsPirClient::Reconstruct` for one query: `client.cc:90-98`; nothing for `PIR_ABORT`. -/
def reconstruct (j : Nat) (b : Bool) (h : List Bool) (a : Bool) : Res (Option Bool) :=
  if b || j == pirAbort then .ok none else (bitAt h j).bind fun x => .ok (some (a ^^ x))

/-! ### The client, many queries -/

/-- `PpsPirClient::MM`: `client.h:67-74`. -/
def setupCountMulti (n s lg : Nat) : Nat := (if 2 * n % s ≠ 0 then 2 * n / s + 1 else 2 * n / s) * lg

/-- The loop of `Setup`: `client.cc:108-119`. -/
def drawKeys (n s m : Nat) (rand : Nat → Nat) : Nat → Nat → List Nat → Nat × List Nat
  | 0, count, keys => (count, keys)
  | fuel + 1, count, keys =>
    if keys.length < m then
      if (eval prg n s (rand count)).length = s then drawKeys n s m rand fuel (count + 1) (keys ++ [rand count])
      else drawKeys n s m rand fuel (count + 1) keys
    else (count, keys)

/-- What the client keeps: the keys with their shifts, and their sets. -/
structure Client where
  ck : List (Nat × Nat)
  v : List (List Nat)

/-- `PpsPirClient::Setup` for many queries: `client.cc:100-121`. -/
def setupMulti (n s lg : Nat) (rand : Nat → Nat) : Res Client :=
  let max := 10 * setupCountMulti n s lg
  let out := drawKeys prg n s (setupCountMulti n s lg) rand max 0 []
  if out.1 < max then .ok ⟨out.2.map fun k => (k, 0), out.2.map fun k => eval prg n s k⟩ else .throws

/-- The loop of `Query` over the sets: `client.cc:140-149`: the first set that has `i`. -/
def findSet (n : Nat) (cl : Client) (i : Nat) : Option Nat :=
  (List.range cl.ck.length).find? fun j => moduleSub i (cl.ck.getD j (0, 0)).2 n ∈ cl.v.getD j []

/-- The new key for a query, with the shift that brings a random element to `i`: `client.cc:129-132`. -/
def freshDelta (n : Nat) (order : List (Nat × Nat) → List (Nat × Nat)) (map : List (Nat × Nat)) (c : QueryCoins) (i : Nat) :
    Nat := moduleSub i (elementAt order map c.r1) n

/-- `PpsPirClient::Query` for many queries: `client.cc:123-168`, for a key drawn by `Gen`: the client afterwards, `j_` and
both punctured keys. -/
def queryMulti (n s : Nat) (order : List (Nat × Nat) → List (Nat × Nat)) (key : Nat × List (Nat × Nat)) (cl : Client)
    (c : QueryCoins) (i : Nat) : Res (Client × Nat × PuncKey × PuncKey) :=
  let delta := freshDelta n order key.2 c i
  if c.b then
    let iPunc := moduleAdd (elementAt order key.2 c.r2) delta n
    (punc prg s key.2 (moduleSub iPunc delta n) key.1 ⟨[], 0, delta⟩).bind fun pl => .ok (cl, pirAbort, pl, pl)
  else
    (punc prg s key.2 (moduleSub i delta n) key.1 ⟨[], 0, delta⟩).bind fun pl =>
      match findSet n cl i with
      | none => .ok (cl, pirAbort, pl, pl)
      | some j =>
        let right := cl.ck.getD j (0, 0)
        (punc prg s (evalMap prg n s right.1) (moduleSub i right.2 n) right.1 PuncKey.empty).bind fun pr =>
          .ok (⟨cl.ck.set j (key.1, delta), cl.v.set j (eval prg n s key.1)⟩, j, pl, { pr with delta := right.2 })

/-- `PpsPirClient::Reconstruct` for many queries: `client.cc:170-180`: the hints afterwards and the bit. -/
def reconstructMulti (j : Nat) (h : List Bool) (al ar : Bool) : Res (List Bool × Option Bool) :=
  if j ≠ pirAbort then (bitAt h j).bind fun x => .ok (h.set j (al ^^ (ar ^^ x)), some (ar ^^ x)) else .ok (h, none)

end Tree

/-! ### Messages -/

/-- `memcpy` of an unsigned number of `c` bytes. -/
def leBytes : Nat → Nat → List Nat
  | 0, _ => []
  | c + 1, v => v % 256 :: leBytes c (v / 256)

/-- The number in bytes, lowest first. -/
def ofLeBytes : List Nat → Nat
  | [] => 0
  | b :: r => b + 256 * ofLeBytes r

/-- `Uint128_to_bytes`: `sender.cc:24-31`. -/
def keyBytes (k : Nat) : List Nat := leBytes 8 (w64 (k / 2 ^ 64)) ++ leBytes 8 (w64 k)

/-- `Bytes_to_uint128`: `receiver.cc:24-30`. -/
def keyOfBytes (b : List Nat) : Nat := ofLeBytes (b.take 8) * 2 ^ 64 + ofLeBytes ((b.drop 8).take 8)

/-- `SerializeOfflineMessage` for one query: `sender.cc:33-49`. -/
def offlineBytes (k : Nat) (deltas : List Nat) : List Nat :=
  keyBytes k ++ leBytes 8 deltas.length ++ deltas.flatMap (leBytes 8)

/-- The loop of `DeserializeOfflineMessage`: `receiver.cc:43-48`; a read behind the end of the buffer is undefined. -/
def readWords (c : Nat) : Nat → List Nat → Res (List Nat × List Nat)
  | 0, b => .ok ([], b)
  | k + 1, b =>
    if b.length < c then .undefined
    else (readWords c k (b.drop c)).bind fun out => .ok (ofLeBytes (b.take c) :: out.1, out.2)

/-- `DeserializeOfflineMessage` for one query: `receiver.cc:32-49`. -/
def offlineOfBytes (b : List Nat) : Res (Nat × List Nat) :=
  if b.length < 24 then .undefined
  else (readWords 8 (ofLeBytes ((b.drop 16).take 8)) (b.drop 24)).bind fun out =>
    .ok (keyOfBytes (b.take 16), out.1.foldl (fun l x => setInsert x l) [])

/-- `SerializeOnlineMessage`: `sender.cc:51-65`. -/
def onlineBytes (sk : PuncKey) : List Nat :=
  leBytes 8 sk.k.length ++ sk.k.flatMap (leBytes 16) ++ leBytes 8 sk.pos ++ leBytes 8 sk.delta

/-- `DeserializeOnlineMessage`: `receiver.cc:51-62`. -/
def onlineOfBytes (b : List Nat) : Res PuncKey :=
  if b.length < 8 then .undefined
  else (readWords 16 (ofLeBytes (b.take 8)) (b.drop 8)).bind fun out =>
    if out.2.length < 16 then .undefined
    else .ok ⟨out.1, ofLeBytes (out.2.take 8), ofLeBytes ((out.2.drop 8).take 8)⟩

/-- `SerializeOfflineMessage` for many queries: `sender.cc:67-82`. -/
def keysBytes (ck : List (Nat × Nat)) : List Nat :=
  leBytes 8 ck.length ++ ck.flatMap fun c => leBytes 16 c.1 ++ leBytes 8 c.2

/-- The loop of `DeserializeOfflineMessage` for many queries: `receiver.cc:71-79`. -/
def readKeys : Nat → List Nat → Res (List (Nat × Nat))
  | 0, _ => .ok []
  | k + 1, b =>
    if b.length < 24 then .undefined
    else (readKeys k (b.drop 24)).bind fun out =>
      .ok ((ofLeBytes (b.take 16), ofLeBytes ((b.drop 16).take 8)) :: out)

/-- `DeserializeOfflineMessage` for many queries: `receiver.cc:64-80`. -/
def keysOfBytes (b : List Nat) : Res (List (Nat × Nat)) :=
  if b.length < 8 then .undefined else readKeys (ofLeBytes (b.take 8)) (b.drop 8)

/-- `dynamic_bitset::to_string`, highest bit first, and the constructor from a string: `sender.cc:91-94`,
`receiver.cc:89-94`. -/
def bitsText (h : List Bool) : List Char := (h.map fun b => if b then '1' else '0').reverse

/-- The constructor of a `dynamic_bitset` from a string. -/
def bitsOfText (s : List Char) : List Bool := (s.map fun c => c == '1').reverse

/-! ### Sessions -/

section Sessions

variable (prg : Nat → Nat × Nat)

/-- One query, offline and online, over the wire (`pps_pir_test.cc:46-121`). -/
def runSingle (n s lambda lg : Nat) (order : List (Nat × Nat) → List (Nat × Nat)) (randKey rand : Nat → Nat) (c : QueryCoins)
    (bits : List Bool) (i : Nat) : Res (Option Bool) :=
  if sizesOk n s then
    (setup prg n s lambda lg randKey rand).bind fun st =>
    (offlineOfBytes (offlineBytes st.1.1 st.2)).bind fun off =>
    (hint prg n s off.1 off.2 bits).bind fun h =>
    (query prg n s order st.1 st.2 c i PuncKey.empty).bind fun q =>
    (onlineOfBytes (onlineBytes q.2.2)).bind fun pk =>
    (answer prg n s pk bits).bind fun a => reconstruct q.1 q.2.1 (bitsOfText (bitsText h)) a
  else .throws

/-- The randomness of a query among many: the keys that `Gen` tries, and the rest. -/
structure Turn where
  index : Nat
  keys : Nat → Nat
  coins : QueryCoins

/-- One query among many, over the wire: the client and its hints afterwards, what the server saw, and the bit
(`pps_pir_test.cc:155-216`). -/
def turn (n s lambda : Nat) (order : List (Nat × Nat) → List (Nat × Nat)) (bits : List Bool) (st : Client × List Bool)
    (t : Turn) : Res ((Client × List Bool) × (PuncKey × PuncKey) × Option Bool) :=
  (genKey prg n s t.keys lambda).bind fun key =>
  (queryMulti prg n s order key st.1 t.coins t.index).bind fun q =>
  (onlineOfBytes (onlineBytes q.2.2.1)).bind fun pl =>
  (onlineOfBytes (onlineBytes q.2.2.2)).bind fun pr =>
  (answerMulti prg n s pl pr bits).bind fun a =>
  (reconstructMulti q.2.1 st.2 a.1 a.2).bind fun r => .ok ((q.1, r.1), (pl, pr), r.2)

/-- Many queries one after the other; the bits. -/
def turns (n s lambda : Nat) (order : List (Nat × Nat) → List (Nat × Nat)) (bits : List Bool) :
    Client × List Bool → List Turn → Res (List (Option Bool))
  | _, [] => .ok []
  | st, t :: ts => (turn prg n s lambda order bits st t).bind fun out =>
    (turns n s lambda order bits out.1 ts).bind fun rs => .ok (out.2.2 :: rs)

/-- Set up and many queries (`pps_pir_test.cc:123-217`). -/
def runMulti (n s lambda lg : Nat) (order : List (Nat × Nat) → List (Nat × Nat)) (rand : Nat → Nat) (bits : List Bool)
    (ts : List Turn) : Res (List (Option Bool)) :=
  if sizesOk n s then
    (setupMulti prg n s lg rand).bind fun cl =>
    (keysOfBytes (keysBytes cl.ck)).bind fun ck =>
    (hintMulti prg n s ck bits).bind fun h => turns prg n s lambda order bits (cl, bitsOfText (bitsText h)) ts
  else .throws

end Sessions

end Psi.Pps
