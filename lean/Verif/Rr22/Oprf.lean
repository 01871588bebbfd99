import Verif.Rr22.Intersect
import Verif.Baxos.Model
import Mathlib.Algebra.Module.Submodule.Basic

/-!
# RR22: the oblivious pseudorandom function

Models `psi/algorithm/rr22/rr22_oprf.cc:125-592`, `SendChunked` and `RecvChunked` (`rr22_utils.h:55-84`),
`AesCrHash` (`okvs/aes_crhash.cc:30-94`) and `DavisMeyerHash` (`davis_meyer_hash.cc:30-83`).

Parameters: AES, the hash of a key under the seed of the table, SHA256, and the vectors of the VOLE (its
protocol is in yacl).  Both parties compute the sizes of the table from the number of items of the receiver and from the same
constants, and use the seed sent by the receiver (`rr22_oprf.cc:134-196, 400-449`): one `Cfg` stands for both.
The two background tasks (`std::async`) touch no data of the foreground and are modelled in sequence.
-/

namespace Psi.Rr22
open Psi.Gf128 Psi.Okvs Psi.Baxos
open Psi.Ecdh (Bytes)

namespace Oprf

/-- Outcomes that are no result. -/
inductive Err where
  /-- a failing `YACL_ENFORCE` -/
  | check
  /-- the key-value store fails -/
  | store (e : Baxos.Err)
  /-- undefined behaviour -/
  | undefined
  /-- waits for a message that does not come -/
  | stuck
deriving DecidableEq

/-- External functions. -/
structure Prims where
  /-- `SymmetricCrypto::Encrypt` of a block under a key -/
  aes : Gf → Gf → Gf
  /-- the hash of a key under the seed of the table -/
  hash : Gf → Nat
  /-- SHA256, 32 bytes -/
  sha : Bytes → Bytes
  /-- `kAesHashSeed` -/
  seed : Gf

/-! ## Hashes -/

/-- `AesCrHash::Hash` of a block: `aes_crhash.cc:90-94`. -/
def crHash (pr : Prims) (x : Gf) : Gf := pr.aes pr.seed x + x

/-- A loop over groups of 8 and a loop over the rest: `aes_crhash.cc:58-88`, `davis_meyer_hash.cc:53-76`. -/
def by8 {A B : Type} (f : A → B) (l : List A) : List B :=
  ((List.range (l.length / 8)).map (fun i => ((l.drop (8 * i)).take 8).map f)).flatten ++ (l.drop (8 * (l.length / 8))).map f

/-- `AesCrHash::Hash` of a span. -/
def crHashAll (pr : Prims) (l : List Gf) : List Gf := by8 (crHash pr) l

/-- `DavisMeyerHash` of a key and a block: `davis_meyer_hash.cc:30-37`. -/
def dmHash (pr : Prims) (key value : Gf) : Gf := pr.aes key value + value

/-- `DavisMeyerHash` of spans: `davis_meyer_hash.cc:39-83`. -/
def dmHashAll (pr : Prims) (avx2 : Bool) (keys values : List Gf) : Except Err (List Gf) :=
  if keys.length ≠ values.length then .error .check
  else .ok (if avx2 then by8 (fun x => dmHash pr x.1 x.2) (keys.zip values) else (keys.zip values).map (fun x => dmHash pr x.1 x.2))

/-! ## Transport of the table -/

/-- `SendChunked`: `rr22_utils.h:73-85`.  A message is a list of whole values. -/
def sendChunked {V : Type} (chunk : Nat) (l : List V) : List (List V) :=
  (List.range ((l.length + chunk - 1) / chunk)).map (fun i => (l.drop (i * chunk)).take (min chunk (l.length - i * chunk)))

/-- `RecvChunked`: `rr22_utils.h:54-71`.  `got` are the values so far; a `memcpy` behind the end of the vector is
undefined behaviour. -/
def recvChunked {V : Type} (size : Nat) : List V → List (List V) → Except Err (List V)
  | got, msgs =>
    if got.length < size then
      match msgs with
      | [] => .error .stuck
      | m :: ms => if size < got.length + m.length then .error .undefined else recvChunked size (got ++ m) ms
    else .ok got
termination_by _ msgs => msgs.length

/-- `kSendChunkSize`: `rr22_utils.h:27`. -/
def kSendChunkSize : Nat := 100000

/-! ## The coin toss of the malicious variant -/

/-- The sender's messages and mask: `rr22_oprf.cc:201-233`.  `wr` is the message received. -/
def senderCommit (pr : Prims) (ws : Gf) : Bytes := pr.sha (le16 ws.val)

def senderMask (ws : Gf) (wr : Bytes) : Except Err Gf :=
  if wr.length ≠ 16 then .error .check else .ok (Gf.ofNat (ofLe wr) + ws)

/-- The receiver's mask: `rr22_oprf.cc:467-508`.  `com` and `ws` are the messages received. -/
def receiverMask (pr : Prims) (wr : Gf) (com ws : Bytes) : Except Err Gf :=
  if com.length ≠ 32 then .error .check
  else if ws.length ≠ 16 then .error .check
  else if pr.sha ws ≠ com then .error .check
  else .ok (wr + Gf.ofNat (ofLe ws))

/-- The masks of a run with honest parties; `none` is the semi-honest variant. -/
def maskR (pr : Prims) : Option (Gf × Gf) → Except Err (Option Gf)
  | none => .ok none
  | some (ws, wr) => (receiverMask pr wr (senderCommit pr ws) (le16 ws.val)).map some

def maskS : Option (Gf × Gf) → Except Err (Option Gf)
  | none => .ok none
  | some (ws, wr) => (senderMask ws (le16 wr.val)).map some

/-! ## Fast mode -/

/-- `paxos_size_`: `baxos.h`, `rr22_oprf.cc:153, 412`. -/
def tableSize (c : Cfg) : Nat := c.nBins * c.size

/-- The tail of `RecvFast` and of both `Eval`: the mask, then the hash (`rr22_oprf.cc:341-353, 382-396, 514-528`). -/
def finish (pr : Prims) (avx2 : Bool) (w : Option Gf) (inputs outs : List Gf) : Except Err (List Gf) :=
  match w with
  | some w => dmHashAll pr avx2 (outs.map (· + w)) inputs
  | none => .ok (crHashAll pr outs)

/-- `Decode` of a table at the inputs. -/
noncomputable def decodeFast (c : Cfg) (pr : Prims) (threads : Nat) (sched : List Nat) (inputs : List Gf) (table v0 : Nat → Gf) :
    Except Err (List Gf) :=
  match decodeAll c (decode1Gf c.w c.S c.D) (decode32Gf c.w c.S c.D) threads sched (inputs.map pr.hash) table v0 with
  | .ok v => .ok ((List.range inputs.length).map v)
  | .error e => .error (.store e)

/-- The table of `RecvFast`: `rr22_oprf.cc:478-487`. -/
def solveFast (c : Cfg) (pr : Prims) (enc : List Row → (Nat → Gf) → Except Okvs.Err (Nat → Gf)) (threads : Nat)
    (s1 s2 : List Nat) (inputs : List Gf) : Except Err (Nat → Gf) :=
  match solve c enc threads s1 s2 (inputs.map pr.hash) (fun j => (crHashAll pr inputs).getD j 0) (fun _ => 0) with
  | .ok p => .ok p
  | .error e => .error (.store e)

/-- `p ^ a`: `rr22_oprf.cc:533-537`, `584-586`. -/
def maskTable {V : Type} [Add V] (n : Nat) (p a : Nat → V) : List V := (List.range n).map (fun k => p k + a k)

/-- `HashInputMulDelta`, fast mode: `rr22_oprf.cc:279-292`. -/
noncomputable def mulDelta (pr : Prims) (delta : Gf) (inputs : List Gf) : List Gf := inputs.map (fun y => delta * crHash pr y)

/-- `b ^ delta * msg`: `rr22_oprf.cc:235-243`. -/
noncomputable def senderTable (b : Nat → Gf) (delta : Gf) (msg : List Gf) : Nat → Gf :=
  fun k => if k < msg.length then b k + delta * msg.getD k 0 else b k

/-- `Eval` with hashed inputs, fast mode: `rr22_oprf.cc:357-398`. -/
noncomputable def evalHashed (c : Cfg) (pr : Prims) (threads : Nat) (sched : List Nat) (w : Option Gf) (table : Nat → Gf)
    (inputs inputsHash : List Gf) : Except Err (List Gf) := do
  let outs ← decodeFast c pr threads sched inputs table (fun _ => 0)
  finish pr c.avx2 w inputs ((List.range inputs.length).map (fun i => outs.getD i 0 + inputsHash.getD i 0))

/-- `Eval` with inputs only, fast mode: `rr22_oprf.cc:304-355`. -/
noncomputable def evalPlain (c : Cfg) (pr : Prims) (threads : Nat) (sched : List Nat) (w : Option Gf) (delta : Gf) (table : Nat → Gf)
    (inputs : List Gf) : Except Err (List Gf) := do
  let outs ← decodeFast c pr threads sched inputs table (fun _ => 0)
  finish pr c.avx2 w inputs ((List.range inputs.length).map (fun i => outs.getD i 0 + delta * crHash pr (inputs.getD i 0)))

/-- The correlation of the VOLE: `a` and `c` at the receiver, `b` and `delta` at the sender. -/
structure Vole (V : Type) where
  a : Nat → V
  b : Nat → Gf
  c : Nat → Gf
  delta : Gf

/-- How the threads of a party are run: their number and the orders of their steps. -/
structure Sched where
  threads : Nat
  solve1 : List Nat
  solve2 : List Nat
  decode : List Nat

/-- One run of both parties in the fast mode; the first list are the sender's values, the second the receiver's.
`coins` are `ws` and `wr` in the malicious variant.  `rr22_oprf.cc:198-246, 357-398, 462-542`. -/
noncomputable def runFast (c : Cfg) (pr : Prims) (enc : List Row → (Nat → Gf) → Except Okvs.Err (Nat → Gf)) (sS sR : Sched)
    (v : Vole Gf) (coins : Option (Gf × Gf)) (ys xs : List Gf) : Except Err (List Gf × List Gf) := do
  -- receiver
  let p ← solveFast c pr enc sR.threads sR.solve1 sR.solve2 xs
  let wR ← maskR pr coins
  let own ← decodeFast c pr sR.threads sR.decode xs v.c (fun j => (crHashAll pr xs).getD j 0)
  let outR ← finish pr c.avx2 wR xs own
  let msgs := sendChunked kSendChunkSize (maskTable (tableSize c) p v.a)
  -- sender
  let wS ← maskS coins
  let msg ← recvChunked (tableSize c) [] msgs
  let outS ← evalHashed c pr sS.threads sS.decode wS (senderTable v.b v.delta msg) ys (mulDelta pr v.delta ys)
  .ok (outS, outR)

/-! ## Low communication mode -/

/-- 64-bit words in 128-bit words: `Galois128(uint64_t)` (`galois128.h`). -/
noncomputable def Low : Submodule (ZMod 2) Gf where
  carrier := {a | a.val < 2 ^ 64}
  add_mem' := fun {a b} ha hb => (Nat.xor_lt_two_pow ha hb : a.val ^^^ b.val < 2 ^ 64)
  zero_mem' := Nat.two_pow_pos 64
  smul_mem' := fun r x hx => by
    match r with
    | 0 => rw [zero_smul]; exact Nat.two_pow_pos 64
    | 1 => rw [one_smul]; exact hx

/-- `DecomposeUInt128(x).second`, the low 64 bits. -/
noncomputable def low64 (x : Gf) : Low :=
  ⟨⟨x.val % 2 ^ 64, Nat.lt_of_lt_of_le (Nat.mod_lt _ (Nat.two_pow_pos 64)) (by decide)⟩, (Nat.mod_lt _ (Nat.two_pow_pos 64) : x.val % 2 ^ 64 < 2 ^ 64)⟩

/-- `SetInput` and `EncodeU64` of `Paxos<uint32_t>`: `rr22_oprf.cc:558-570`, `paxos.cc:238-320`. -/
noncomputable def solveLow (c : Cfg) (pr : Prims) (gMax : Nat) (pick : Tri → Nat) (inputs : List Gf) : Except Err (Nat → Low) :=
  if c.nItems < inputs.length then .error .check
  -- `SetInput` reads `num_items_` keys
  else if inputs.length < c.nItems then .error .undefined
  else match encBin c gMax pick (rows32 c.avx2 c.w c.S (inputs.map pr.hash))
      (fun j => ((inputs.map (fun x => low64 (crHash pr x))).getD j 0)) with
    | .ok p => .ok p
    | .error e => .error (.store (.bin e))

/-- `Paxos::Decode` of a table at the inputs: `paxos.cc:1697-1704, 1785-1848`. -/
noncomputable def decodeLow (c : Cfg) (pr : Prims) (inputs : List Gf) (table v0 : Nat → Gf) : Except Err (List Gf) :=
  match decodeList (decode1Bin c.w c.S c.D table) (decode32Bin c.w c.S c.D table) c.avx2 c.w c.S (inputs.map pr.hash) v0 with
  | .ok vs => .ok vs
  | .error e => .error (.store (.bin e))

/-- `b ^ delta * msg`: `rr22_oprf.cc:262-275`. -/
noncomputable def senderTableLow (b : Nat → Gf) (delta : Gf) (msg : List Low) : Nat → Gf :=
  fun k => if k < msg.length then b k + delta * (msg.getD k 0).1 else b k

/-- `HashInputMulDelta`, low communication mode: `rr22_oprf.cc:292-301`. -/
noncomputable def mulDeltaLow (pr : Prims) (delta : Gf) (inputs : List Gf) : List Gf :=
  inputs.map (fun y => delta * (low64 (crHash pr y)).1)

/-- `Eval` with hashed inputs, low communication mode: `rr22_oprf.cc:357-398`.  `malicious_` is false: the
constructors refuse it (`rr22_oprf.h`). -/
noncomputable def evalHashedLow (c : Cfg) (pr : Prims) (table : Nat → Gf) (inputs inputsHash : List Gf) : Except Err (List Gf) := do
  let outs ← decodeLow c pr inputs table (fun _ => 0)
  finish pr c.avx2 none inputs ((List.range inputs.length).map (fun i => outs.getD i 0 + inputsHash.getD i 0))

/-- `Eval` with inputs only, low communication mode: `rr22_oprf.cc:304-355`. -/
noncomputable def evalPlainLow (c : Cfg) (pr : Prims) (delta : Gf) (table : Nat → Gf) (inputs : List Gf) : Except Err (List Gf) := do
  let outs ← decodeLow c pr inputs table (fun _ => 0)
  finish pr c.avx2 none inputs
    ((List.range inputs.length).map (fun i => outs.getD i 0 + delta * (low64 (crHash pr (inputs.getD i 0))).1))

/-- One run of both parties in the low communication mode: `rr22_oprf.cc:248-277, 357-398, 544-592`. -/
noncomputable def runLow (c : Cfg) (pr : Prims) (gMax : Nat) (pick : Tri → Nat) (v : Vole Low) (ys xs : List Gf) :
    Except Err (List Gf × List Gf) := do
  let p ← solveLow c pr gMax pick xs
  let own ← decodeLow c pr xs v.c (fun j => (crHashAll pr xs).getD j 0)
  let outR ← finish pr c.avx2 none xs own
  let msgs := sendChunked kSendChunkSize (maskTable c.size p v.a)
  let msg ← recvChunked c.size [] msgs
  let outS ← evalHashedLow c pr (senderTableLow v.b v.delta msg) ys (mulDeltaLow pr v.delta ys)
  .ok (outS, outR)

end Oprf
end Psi.Rr22
