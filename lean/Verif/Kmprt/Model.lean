import Verif.Spiral.PackModel

/-!
# The KMPRT17 multi-party PSI

Models `experiment/psi/kmprt17_mp_psi/{kmprt17_hashing,kmprt17_opprf,kmprt17_mp_psi}.cc`: cuckoo and simple hashing, the
table-based OPPRF, zero sharing, the exchange of shares and the reconstruction at the leader.

Parameters: BLAKE3, the random oracle, the OPRF values of a session (KKRT from `yacl`: what the receiver encodes for an
element is what the sender evaluates), all random numbers, the order of iteration over an `unordered_map`.

Simplified: the two numbers of bins, computed in `float`, are parameters (both sides compute them from the same size);
a session delivers its messages in order; the sessions, which run in threads of their own on links of their own, are
independent; a search for a nonce is cut off after any number of steps.
-/

namespace Psi.Kmprt

open Psi.Spiral (Res mapRes)

/-! ### Hashing -/

/-- `HashU128`: `kmprt17_hashing.h:26-30`. -/
def hash (x idx : Nat) : Nat := (x / 2 ^ 64 + idx * (x % 2 ^ 64)) % 2 ^ 64

/-- `num_hashes_`: `kmprt17_hashing.h:41`. -/
def numHashes (c : Nat) : Nat := if c = 0 then 3 else 2

/-- The indexes of hash functions that a try goes through, from the one behind the random one: `kmprt17_hashing.cc:28-38`. -/
def tries (nh r : Nat) : List Nat := (List.range (nh - 1)).map fun t => (r + 1 + t) % nh

/-- `insert_into` of `KmprtCuckooHashing::Insert`: `kmprt17_hashing.cc:26-41`.  `rs` are the random numbers, `n` the tries
left; the bins and what is left in hand. -/
def insertInto (nh : Nat) : Nat → (Nat → Nat) → List Nat → Nat → List Nat × Nat
  | 0, _, bins, e => (bins, e)
  | n + 1, rs, bins, e =>
    if e = 0 then (bins, e)
    else
      let addr := fun idx => hash e idx % bins.length
      let ts := tries nh (rs n % nh)
      match ts.find? fun idx => bins.getD (addr idx) 0 == 0 || bins.getD (addr idx) 0 == e with
      | some idx => (bins.set (addr idx) e, 0)
      | none => insertInto nh n rs (bins.set (addr (ts.getLastD 0)) e) (bins.getD (addr (ts.getLastD 0)) 0)

/-- The two tables. -/
structure Cuckoo where
  b0 : List Nat
  b1 : List Nat

def Cuckoo.bins (t : Cuckoo) (c : Nat) : List Nat := if c = 0 then t.b0 else t.b1

/-- `KmprtCuckooHashing::Insert`: `kmprt17_hashing.cc:25-46`. -/
def insert (rs : Nat → Nat → Nat) (t : Cuckoo) (e : Nat) : Res Cuckoo :=
  let (b0, e) := insertInto (numHashes 0) 128 (rs 0) t.b0 e
  let (b1, e) := insertInto (numHashes 1) 128 (rs 1) t.b1 e
  if e = 0 then .ok ⟨b0, b1⟩ else .throws

/-- All queries, one after the other: `kmprt17_opprf.cc:68-72`. -/
def insertAll (rs : Nat → Nat → Nat → Nat) : Nat → Cuckoo → List Nat → Res Cuckoo
  | _, t, [] => .ok t
  | i, t, e :: l => (insert (rs i) t e).bind fun t => insertAll rs (i + 1) t l

/-- `KmprtCuckooHashing::Lookup`: `kmprt17_hashing.cc:48-59`.  `none`: `{-1, -1}`. -/
def lookup (t : Cuckoo) (e : Nat) : Option (Nat × Nat) :=
  match (List.range (numHashes 0)).find? fun idx => t.b0.getD (hash e idx % t.b0.length) 0 == e with
  | some idx => some (0, hash e idx % t.b0.length)
  | none =>
    match (List.range (numHashes 1)).find? fun idx => t.b1.getD (hash e idx % t.b1.length) 0 == e with
    | some idx => some (1, hash e idx % t.b1.length)
    | none => none

/-- `unordered_map::emplace`: an element that is there stays. -/
def emplace (bin : List (Nat × Nat)) (p : Nat × Nat) : List (Nat × Nat) :=
  if bin.any fun q => q.1 == p.1 then bin else bin ++ [p]

/-- One bin of `KmprtSimpleHashing` with `m` bins and `nh` functions, after inserting all points:
`kmprt17_hashing.cc:61-67`. -/
def simpleBin (nh m addr : Nat) (points : List (Nat × Nat)) : List (Nat × Nat) :=
  points.foldl (fun bin p =>
    (List.range nh).foldl (fun bin idx => if hash p.1 idx % m = addr then emplace bin p else bin) bin) []

/-! ### OPPRF -/

/-- `TABLE_SIZE`: `kmprt17_opprf.cc:40`. -/
def tableSize (c : Nat) : Nat := if c = 0 then 32 else 64

/-- `BATCH_SIZE`: `kmprt17_opprf.cc:45`. -/
def BATCH : Nat := 896

/-- What a session between a sender and a receiver depends on. -/
structure Session where
  /-- OPRF value of a bin number and an element, 64 bits. -/
  prf : Nat → Nat → Nat
  /-- Random oracle on an OPRF value and a nonce. -/
  ro : Nat → Nat → Nat
  /-- Nonces tried for a bin. -/
  nonce : Nat → Nat → Nat
  /-- Number of nonces tried before giving up. -/
  patience : Nat
  /-- Random words for empty cells of the table of a bin. -/
  filler : Nat → Nat → Nat
  /-- Order of iteration over a bin. -/
  order : List (Nat × Nat) → List (Nat × Nat)
  /-- Random elements for empty bins of the receiver. -/
  dummy : Nat → Nat
  /-- Random numbers of the cuckoo insertions. -/
  evict : Nat → Nat → Nat → Nat
  /-- Numbers of bins. -/
  m0 : Nat
  m1 : Nat

/-- The body of the loop over a nonce: `kmprt17_opprf.cc:163-175`. -/
def tableFor (s : Session) (size ot nonce : Nat) : List (Nat × Nat) → List Nat → Option (List Nat)
  | [], table => some table
  | p :: bin, table =>
    let eval := s.prf ot p.1
    let index := s.ro eval nonce % size
    if table.getD index 0 ≠ 0 then none else tableFor s size ot nonce bin (table.set index (eval ^^^ p.2))

/-- The search for a nonce: `kmprt17_opprf.cc:160-176`. -/
def searchNonce (s : Session) (size ot : Nat) (bin : List (Nat × Nat)) : Nat → Nat → Option (Nat × List Nat)
  | 0, _ => none
  | n + 1, t =>
    match tableFor s size ot (s.nonce ot t) bin (List.replicate size 0) with
    | some table => some (s.nonce ot t, table)
    | none => searchNonce s size ot bin n (t + 1)

/-- Random words in empty cells: `kmprt17_opprf.cc:177-179`. -/
def fillTable (s : Session) (ot : Nat) (table : List Nat) : List Nat :=
  (List.range table.length).map fun i => if table.getD i 0 = 0 then s.filler ot i else table.getD i 0

/-- The message for one bin: `kmprt17_opprf.cc:156-183`. -/
def sendBin (s : Session) (c ot : Nat) (bin : List (Nat × Nat)) : Res (Nat × List Nat) :=
  match searchNonce s (tableSize c) ot (s.order bin) s.patience 0 with
  | none => .throws
  | some (nonce, table) => .ok (nonce, fillTable s ot table)

/-- The number of bins of table `c`, and the number of its first OT. -/
def Session.m (s : Session) (c : Nat) : Nat := if c = 0 then s.m0 else s.m1
def Session.begin (s : Session) (c : Nat) : Nat := if c = 0 then 0 else s.m0

/-- The messages for table `c`. -/
def sendStage (s : Session) (points : List (Nat × Nat)) (c : Nat) : Res (List (Nat × List Nat)) :=
  mapRes (fun addr => sendBin s c (s.begin c + addr) (simpleBin (numHashes c) (s.m c) addr points)) (List.range (s.m c))

/-- `KmprtOpprfSend`: `kmprt17_opprf.cc:123-186`. -/
def opprfSend (s : Session) (xs ys : List Nat) : Res (List (Nat × List Nat)) :=
  if xs.length ≠ ys.length then .throws
  else (sendStage s (xs.zip ys) 0).bind fun a => (sendStage s (xs.zip ys) 1).bind fun b => .ok (a ++ b)

/-- The corrections that the sender waits for, table `c`: `kmprt17_opprf.cc:152-155`. -/
def recvCorrections (s : Session) (c : Nat) : List Nat :=
  (List.range (s.m c)).filterMap fun addr =>
    if addr % BATCH = 0 then
      some (if s.begin c + addr + BATCH ≥ s.begin c + s.m c then s.m c - addr else BATCH)
    else none

/-- State of the receiver's loop. -/
structure RecvState where
  /-- `batch_evals` and `b`. -/
  buf : List Nat
  b : Nat
  evals : List Nat
  msgs : List (Nat × List Nat)
  corrections : List Nat

/-- The values of a batch: `kmprt17_opprf.cc:93-108`. -/
def flush (s : Session) (size : Nat) (buf : List Nat) : List Nat → List (Nat × List Nat) → List Nat → Res (List Nat × List (Nat × List Nat))
  | [], msgs, evals => .ok (evals, msgs)
  | _ :: _, [], _ => .throws
  | i :: is, (nonce, table) :: msgs, evals =>
    let eval := buf.getD i 0
    flush s size buf is msgs (evals ++ [eval ^^^ table.getD (s.ro eval nonce % size) 0])

/-- One bin of the receiver: `kmprt17_opprf.cc:82-110`. -/
def recvBin (s : Session) (t : Cuckoo) (c addr : Nat) (st : RecvState) : Res RecvState :=
  let ot := s.begin c + addr
  let elem := (t.bins c).getD addr 0
  let elem := if elem = 0 then s.dummy ot else elem
  if st.buf.length ≤ st.b then .undefined
  else
    let buf := st.buf.set st.b (s.prf ot elem)
    let batch := addr % BATCH + 1
    if batch = BATCH ∨ ot + 1 = s.begin c + s.m c then
      (flush s (tableSize c) buf (List.range batch) st.msgs st.evals).bind fun r =>
        .ok { buf := buf, b := 0, evals := r.1, msgs := r.2, corrections := st.corrections ++ [batch] }
    else .ok { st with buf := buf, b := st.b + 1 }

/-- The loop over the bins of table `c`. -/
def recvStage (s : Session) (t : Cuckoo) (c : Nat) : List Nat → RecvState → Res RecvState
  | [], st => .ok st
  | addr :: l, st => (recvBin s t c addr st).bind fun st => recvStage s t c l st

/-- The value of a query: `kmprt17_opprf.cc:115-119`. -/
def queryEval (s : Session) (t : Cuckoo) (evals : List Nat) (q : Nat) : Res Nat :=
  match lookup t q with
  | none => .undefined
  | some (c, addr) =>
    match evals[c * s.m0 + addr]? with
    | none => .undefined
    | some v => .ok v

/-- `KmprtOpprfRecv`: `kmprt17_opprf.cc:52-121`; values and corrections sent.  `msgs`: what arrives. -/
def opprfRecv (s : Session) (queries : List Nat) (msgs : List (Nat × List Nat)) : Res (List Nat × List Nat) :=
  (insertAll s.evict 0 ⟨List.replicate s.m0 0, List.replicate s.m1 0⟩ queries).bind fun t =>
  (recvStage s t 0 (List.range s.m0) { buf := List.replicate BATCH 0, b := 0, evals := [], msgs := msgs, corrections := [] }).bind fun st =>
  (recvStage s t 1 (List.range s.m1) st).bind fun st =>
  (mapRes (queryEval s t st.evals) queries).bind fun r =>
  .ok (r, st.corrections)

/-- Both ends of a session: the values of the receiver for its queries. -/
def opprf (s : Session) (xs ys queries : List Nat) : Res (List Nat) :=
  (opprfSend s xs ys).bind fun msgs => (opprfRecv s queries msgs).bind fun r => .ok r.1

/-! ### The protocol -/

/-- Parameters of a run. -/
structure Cfg (α : Type) where
  n : Nat
  leader : Nat
  inputs : Nat → List α
  /-- `Blake3_128`. -/
  blake : α → Nat
  /-- Random elements that fill up the items of a party. -/
  pad : Nat → Nat → Nat
  /-- Random shares: party, destination, position. -/
  rnd : Nat → Nat → Nat → Nat
  /-- Session in which the first party sends shares to the second. -/
  swap : Nat → Nat → Session
  /-- Session in which a party sends its sum to the leader. -/
  recon : Nat → Session

variable {α : Type}

/-- The largest number of items: `kmprt17_mp_psi.cc:49-56`. -/
def Cfg.count (c : Cfg α) : Nat := ((List.range c.n).map fun i => (c.inputs i).length).foldl max 0

/-- `EncodeInputs`: `kmprt17_mp_psi.cc:70-81`. -/
def Cfg.items (c : Cfg α) (i : Nat) : List Nat :=
  (c.inputs i).map c.blake ++ (List.range (c.count - (c.inputs i).length)).map (c.pad i)

/-- XOR of the values of `f` below `n`. -/
def xorSum (n : Nat) (f : Nat → Nat) : Nat := (List.range n).foldl (fun a i => a ^^^ f i) 0

/-- `ZeroSharing`: `kmprt17_mp_psi.cc:83-94`; the share of party `i` for `dst`. -/
def Cfg.share (c : Cfg α) (i dst : Nat) : List Nat :=
  (List.range c.count).map fun k =>
    if dst = 0 then (List.range (c.n - 1)).foldl (fun a d => a ^^^ c.rnd i (d + 1) k) 0 else c.rnd i dst k

/-- `SwapShares` of party `i`: `kmprt17_mp_psi.cc:96-132`.  `recv_shares` has `count` elements and is indexed by party. -/
def Cfg.swapShares (c : Cfg α) (i : Nat) : Res (List Nat) :=
  (mapRes (fun src => if src = i then .ok (c.share i i) else opprf (c.swap src i) (c.items src) (c.share src i) (c.items i))
    (List.range c.n)).bind fun recv =>
  if c.count < c.n then .undefined
  else .ok ((List.range c.count).map fun k => xorSum c.n fun src => (recv.getD src []).getD k 0)

/-- `Reconstruct`: `kmprt17_mp_psi.cc:134-161`.  `shares` are the results of `SwapShares` of all parties. -/
def Cfg.reconstruct (c : Cfg α) (shares : List (List Nat)) (i : Nat) : Res (List Nat) :=
  if i = c.leader then
    (mapRes (fun src => if src = i then .ok (shares.getD i []) else
      opprf (c.recon src) (c.items src) (shares.getD src []) (c.items i)) (List.range c.n)).bind fun recv =>
    if c.count < c.n then .undefined
    else .ok ((List.range c.count).map fun k => xorSum c.n fun src => (recv.getD src []).getD k 0)
  else .ok (shares.getD i [])

/-- The items whose value is zero: `kmprt17_mp_psi.cc:61-67`. -/
def collect (inputs : List α) (recons : List Nat) : Res (List α) :=
  mapRes (fun k => match inputs[k]? with | none => .undefined | some x => .ok x)
    ((List.range recons.length).filter fun k => recons.getD k 0 == 0)

/-- `Run` of party `i`: `kmprt17_mp_psi.cc:46-68`. -/
def Cfg.run (c : Cfg α) (i : Nat) : Res (List α) :=
  if (List.range c.n).any fun j => (c.inputs j).length == 0 then .ok []
  else
    (mapRes c.swapShares (List.range c.n)).bind fun shares =>
    (c.reconstruct shares i).bind fun recons => collect (c.inputs i) recons

end Psi.Kmprt
