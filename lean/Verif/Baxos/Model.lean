import Verif.Common.Threads
import Verif.Okvs.Decode

/-!
# The binned key-value store (`Baxos`)

Models `psi/algorithm/rr22/okvs/baxos.h` and `baxos.cc`.  Keys enter by their 128-bit hashes `hs`
(`AesCrHash` with the seed), `X j` is the value of key `j`.  The encoder and the decoder of one bin are
parameters (`Okvs`).  Threads take steps in any order; a step is one item, or one bin.
The sizes of the bins come from `SimpleIndex::GetBinSize` (floating point) and are parameters.
`input_mapping` is written but never read and is left out.
-/

namespace Psi.Baxos
open Psi.Okvs

/-- Why there is no result. -/
inductive Err
  /-- Access outside the array: undefined behaviour. -/
  | undefined
  /-- A failed check; in a worker thread this ends the process. -/
  | check
  /-- The encoder or decoder of a bin failed. -/
  | bin (e : Okvs.Err)
  /-- Not an outcome of the program: the given schedule stops before the threads are done. -/
  | unfinished
deriving DecidableEq, Repr

/-- `Baxos::Init`, `baxos.h:50-60`: the parameters. -/
structure Cfg where
  /-- `num_items_` -/
  nItems : Nat
  /-- `num_bins_` -/
  nBins : Nat
  /-- `items_per_bin_` -/
  perBin : Nat
  /-- `per_thrd_max_bin_size`, a function of the number of threads: `baxos.cc:185-191`. -/
  perThread : Nat → Nat
  /-- `weight_` -/
  w : Nat
  /-- `paxos_param_.sparse_size` -/
  S : Nat
  /-- `paxos_param_.dense_size` -/
  D : Nat
  /-- `yacl::hasAVX2()` -/
  avx2 : Bool

/-- `paxos_param_.size()`, and `size() / num_bins_`. -/
def Cfg.size (c : Cfg) : Nat := c.S + c.D

/-- `BinIdxCompress` and `ModNumBins`: `baxos.h:138-147`; `DoMod32` is `% num_bins_`. -/
def binIdx (nBins h : Nat) : Nat := ((h % 2 ^ 64) ^^^ (h / 2 ^ 64 % 2 ^ 64) ^^^ (h / 2 ^ 96 % 2 ^ 32)) % nBins

/-- Begin of the range of thread `i`: `baxos.cc:253-254, 661-662`. -/
def first (n T i : Nat) : Nat := n * i / T

/-- The bits of the smallest index type: `baxos.cc:135-148`, `RoundUpTo(Log2Ceil(S + 1), 8)`. -/
def idxBits (S : Nat) : Nat :=
  if S + 1 ≤ 2 ^ 8 then 8 else if S + 1 ≤ 2 ^ 16 then 16 else if S + 1 ≤ 2 ^ 32 then 32 else 64

/-- The checks of `Paxos::Init`: `paxos.cc:220-231`. -/
def paxosInitOk (c : Cfg) (n : Nat) : Bool := c.S < 2 ^ idxBits c.S - 1 ∧ n ≤ c.S + c.D

/-- The rows of a list of hashes, 32 at a time: `baxos.cc:409-430`, `paxos.cc:256-294`. -/
def rows32 (avx2 : Bool) (w S : Nat) (hs : List Nat) : List Row :=
  ((List.range (hs.length / 32)).flatMap fun c =>
    (List.range 32).map fun k =>
      ⟨((buildRow32 avx2 w S (fun k => hs.getD (32 * c + k) 0)).drop (w * k)).take w, hs.getD (32 * c + k) 0⟩) ++
  (hs.drop (hs.length / 32 * 32)).map (fun h => ⟨buildRow w S h, h⟩)

/-! ## Encoding, first phase: every thread sorts its items into its own bins -/

/-- Local variables of the first phase. -/
structure Scan where
  pos : Nat
  /-- `bin_sizes` -/
  sizes : Nat → Nat

section
variable {V : Type}

/-- One item: `baxos.cc:252-332`.  The array holds hash and value; the place of item number `bs` of bin
`b` of thread `i` is `combined_max_bin_size * b + per_thrd_max_bin_size * i + bs`.  The items that are handled
32 at a time are stored without looking at the capacity of the bin. -/
def scanStep (c : Cfg) (T : Nat) (hs : List Nat) (X : Nat → V) (i : Nat) (l : Scan) :
    Except Err (Scan × List (Nat × (Nat × V))) :=
  let b := first hs.length T i
  let n := first hs.length T (i + 1) - b
  if l.pos < n then
    let h := hs.getD (b + l.pos) 0
    let bin := binIdx c.nBins h
    let bs := l.sizes bin
    if bs < c.perThread T then
      .ok (⟨l.pos + 1, Function.update l.sizes bin (bs + 1)⟩,
        [(c.perThread T * T * bin + c.perThread T * i + bs, (h, X (b + l.pos)))])
    else .error (if l.pos < n / 32 * 32 then .undefined else .check)
  else .ok (l, [])

/-- All items of all threads are stored: the barrier, `baxos.cc:343-348`. -/
def scanDone (T : Nat) (hs : List Nat) (s : Nat → Scan) : Bool :=
  (List.range T).all fun i => first hs.length T (i + 1) - first hs.length T i ≤ (s i).pos

/-! ## Encoding, second phase: every thread encodes its share of the bins -/

/-- `memmove` of the hashes: `baxos.cc:396-397`. -/
def moveBlock (a : Nat → Nat) (dst src n : Nat) : Nat → Nat :=
  fun k => if dst ≤ k ∧ k < dst + n then a (src + (k - dst)) else a k

/-- The loop that copies the values: `baxos.cc:399-401`. -/
def copyLoop (a : Nat → V) (dst src n : Nat) : Nat → V :=
  (List.range n).foldl (fun a j => Function.update a (dst + j) (a (src + j))) a

/-- The items of the other threads are moved behind those of thread 0: `baxos.cc:383-404`. -/
def mergeBin (c : Cfg) (T : Nat) (sizes : Nat → Nat → Nat) (bin : Nat) (hash : Nat → Nat) (val : Nat → V) :
    Except Err (Nat × (Nat → Nat) × (Nat → V)) :=
  let start := c.perThread T * T * bin
  if c.perThread T < sizes 0 bin then .error .check
  else (List.range' 1 (T - 1)).foldlM (fun s i =>
    if c.perThread T < sizes i bin then .error .check
    else
      let src := start + c.perThread T * i
      .ok (s.1 + sizes i bin, moveBlock s.2.1 (start + s.1) src (sizes i bin),
        copyLoop s.2.2 (start + s.1) src (sizes i bin))) (sizes 0 bin, hash, val)

/-- One bin: `baxos.cc:357-443`.  The bin's part of the arrays is touched by nobody else, so that the
merging is done on the state at the barrier. -/
def encodeBinAt (c : Cfg) (enc : List Row → (Nat → V) → Except Okvs.Err (Nat → V)) (T : Nat)
    (sizes : Nat → Nat → Nat) (mem : Nat → Nat × V) (bin : Nat) : Except Err (List (Nat × V)) := do
  let n := ((List.range T).map (fun i => sizes i bin)).sum
  if c.perBin < n then .error .check
  else if ¬ paxosInitOk c n then .error .check
  else
    let m ← mergeBin c T sizes bin (fun k => (mem k).1) (fun k => (mem k).2)
    let start := c.perThread T * T * bin
    let hashes := (List.range n).map (fun j => m.2.1 (start + j))
    let rows := if c.w = 3 then rows32 c.avx2 c.w c.S hashes else rowsOf c.w c.S hashes
    match enc rows (fun j => m.2.2 (start + j)) with
    | .ok p => .ok ((List.range c.size).map (fun k => (c.size * bin + k, p k)))
    | .error e => .error (.bin e)

/-- Thread `i` does the bins `i`, `i + T`, …: `baxos.cc:355-356`; the local state is the number of bins done. -/
def binStep (c : Cfg) (enc : List Row → (Nat → V) → Except Okvs.Err (Nat → V)) (T : Nat)
    (sizes : Nat → Nat → Nat) (mem : Nat → Nat × V) (i : Nat) (k : Nat) : Except Err (Nat × List (Nat × V)) :=
  if i + k * T < c.nBins then do
    let ws ← encodeBinAt c enc T sizes mem (i + k * T)
    .ok (k + 1, ws)
  else .ok (k, [])

/-- All threads have joined: `baxos.cc:447-457`. -/
def binsDone (c : Cfg) (T : Nat) (s : Nat → Nat) : Bool := (List.range T).all fun i => c.nBins ≤ i + s i * T

/-- `Solve`: `baxos.cc:119-458`.  `s1` and `s2` are the orders of the steps before and behind the barrier;
`out0` is the table before the call. -/
def solve [Zero V] (c : Cfg) (enc : List Row → (Nat → V) → Except Okvs.Err (Nat → V)) (threads : Nat)
    (s1 s2 : List Nat) (hs : List Nat) (X out0 : Nat → V) : Except Err (Nat → V) := do
  if c.nItems < hs.length then .error .check
  else if c.nBins = 1 then
    if ¬ paxosInitOk c c.nItems then .error .check
    -- `SetInput` reads `num_items_` keys
    else if hs.length < c.nItems then .error .undefined
    else match enc (rows32 c.avx2 c.w c.S hs) X with
      | .ok p => .ok p
      | .error e => .error (.bin e)
  else
    let T := max 1 threads
    let a ← Threads.run (scanStep c T hs X) s1 (fun _ => ⟨0, fun _ => 0⟩, fun _ => (0, 0))
    if ¬ scanDone T hs a.1 then .error .unfinished
    else
      let b ← Threads.run (binStep c enc T (fun i => (a.1 i).sizes) a.2) s2 (fun _ => 0, out0)
      if ¬ binsDone c T b.1 then .error .unfinished else .ok b.2

/-! ## Decoding -/

/-- Local variables of `ImplDecodeBatch`. -/
structure Dec where
  pos : Nat
  /-- `batches_mtx`, `in_idxs_mtx` and `batch_sizes` -/
  buf : Nat → List (Nat × Nat)
  /-- the bins flushed at the end -/
  flushed : Nat

/-- `ImplDecodeBin`: `baxos.cc:487-541`; the writes to the values. -/
def decodeBin (c : Cfg) (dec1 : (Nat → V) → (Nat → Nat) → Nat → Except Okvs.Err V)
    (dec32 : (Nat → V) → (Nat → Nat) → (Nat → Nat) → (Nat → V) → Except Okvs.Err (Nat → V)) (p : Nat → V)
    (v0 : Nat → V) (items : List (Nat × Nat)) : Except Err (List (Nat × V)) :=
  if 20 < c.w then .error .check
  else match decodeList (dec1 p) (dec32 p) c.avx2 c.w c.S (items.map Prod.fst) v0 with
    | .ok vs => .ok ((items.map Prod.snd).zip vs)
    | .error e => .error (.bin e)

/-- One item, or one bin of the rest: `baxos.cc:543-643`.  `va` is a part of the values that begins at
`first`. -/
def decStep (c : Cfg) (dec1 : (Nat → V) → (Nat → Nat) → Nat → Except Okvs.Err V)
    (dec32 : (Nat → V) → (Nat → Nat) → (Nat → Nat) → (Nat → V) → Except Okvs.Err (Nat → V)) (T : Nat) (hs : List Nat)
    (pp : Nat → V) (v0 : Nat → V) (i : Nat) (l : Dec) : Except Err (Dec × List (Nat × V)) :=
  let b := first hs.length T i
  let n := first hs.length T (i + 1) - b
  let flush := fun bin items => do
    let ws ← decodeBin c dec1 dec32 (fun k => pp (bin * c.size + k)) v0 items
    Except.ok (ws.map (fun w => (b + w.1, w.2)))
  if l.pos < n then
    let h := hs.getD (b + l.pos) 0
    let bin := binIdx c.nBins h
    let items := l.buf bin ++ [(h, l.pos)]
    if items.length = min 512 n then do
      let ws ← flush bin items
      .ok (⟨l.pos + 1, Function.update l.buf bin [], l.flushed⟩, ws)
    else .ok (⟨l.pos + 1, Function.update l.buf bin items, l.flushed⟩, [])
  else if l.flushed < c.nBins then
    if l.buf l.flushed = [] then .ok (⟨l.pos, l.buf, l.flushed + 1⟩, [])
    else do
      let ws ← flush l.flushed (l.buf l.flushed)
      .ok (⟨l.pos, l.buf, l.flushed + 1⟩, ws)
  else .ok (l, [])

/-- All threads have joined. -/
def decDone (c : Cfg) (T : Nat) (hs : List Nat) (s : Nat → Dec) : Bool :=
  (List.range T).all fun i => decide (first hs.length T (i + 1) - first hs.length T i ≤ (s i).pos) &&
    decide (c.nBins ≤ (s i).flushed)

/-- `Decode`: `baxos.cc:460-485, 645-679`.  `v0` are the values before the call. -/
def decodeAll (c : Cfg) (dec1 : (Nat → V) → (Nat → Nat) → Nat → Except Okvs.Err V)
    (dec32 : (Nat → V) → (Nat → Nat) → (Nat → Nat) → (Nat → V) → Except Okvs.Err (Nat → V)) (threads : Nat)
    (sched : List Nat) (hs : List Nat) (pp v0 : Nat → V) : Except Err (Nat → V) := do
  if c.nBins = 1 then
    if ¬ paxosInitOk c 1 then .error .check
    else match decodeList (dec1 pp) (dec32 pp) c.avx2 c.w c.S hs v0 with
      | .ok vs => .ok (fun j => if j < hs.length then vs.getD j (v0 j) else v0 j)
      | .error e => .error (.bin e)
  else if ¬ paxosInitOk c 1 then .error .check
  else
    let T := max 1 threads
    let a ← Threads.run (decStep c dec1 dec32 T hs pp v0) sched (fun _ => ⟨0, fun _ => [], 0⟩, v0)
    if ¬ decDone c T hs a.1 then .error .unfinished else .ok a.2

end

/-- The output of the encoder of a bin, `output = [P1 | P2]`: `paxos.cc:790`, `991`, `baxos.cc:381`. -/
def flat {V : Type} (S : Nat) (x : (Nat → V) × (Nat → V)) : Nat → V := fun k => if k < S then x.1 k else x.2 (k - S)

/-- `paxos.Encode` of a bin, `DenseType::GF128`, without randomization: `baxos.cc:443`, `paxos.cc:456-496`. -/
noncomputable def encGf (c : Cfg) (pick : Tri → Nat) (rows : List Row) (X : Nat → Gf128.Gf) : Except Okvs.Err (Nat → Gf128.Gf) :=
  (encodeGf rows c.S c.D pick powCoef Gf128.Gf.inv X).map (flat c.S)

/-- `paxos.Encode` of a bin, `DenseType::Binary`, without randomization: `baxos.cc:443`. -/
def encBin {V : Type} [AddCommGroup V] [Module (ZMod 2) V] (c : Cfg) (gMax : Nat) (pick : Tri → Nat) (rows : List Row)
    (X : Nat → V) : Except Okvs.Err (Nat → V) :=
  (encodeBin rows c.S c.D gMax pick bitCoef X).map (flat c.S)

end Psi.Baxos
