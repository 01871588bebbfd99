import Verif.Cuckoo.Model
import Verif.Ecdh.Wire

/-!
# KKRT-PSI: one round

Models `KkrtPsiSend` and `KkrtPsiRecv` (`psi/algorithm/kkrt/kkrt_psi.{h,cc}`).

Simplifications.  The oblivious PRF of `yacl` is a function `F` of bin and item hash: `sender.Encode` after
the correction of a bin has arrived and `receiver.Encode` of that bin return the same `size` bytes for the
same item (this is the correctness of the OPRF).  The set sizes both parties exchange
(`kkrt_psi.cc:45-61`) are known to both.  The number of bins (floating-point arithmetic,
`cuckoo_index.cc:112-134`) is an arbitrary function of the receiver's set size, the same for both parties.
Corrections and messages are delivered in order.
-/

namespace Psi.Kkrt
open Psi.Cuckoo (getHash Options Table inputIdx kEmpty minCollidingHashIdx insertAll)
open Psi.Ecdh (Bytes Msg)

structure Params where
  /-- `NumBins` for a receiver with this many items. -/
  numBinsOf : Nat → Nat
  /-- `encode_size`. -/
  size : Nat
  F : Nat → Nat → Bytes
  /-- `psi_batch_size`. -/
  batch : Nat

/-- Options of the receiver's table: `kkrt_psi.cc:331-333`, `cuckoo_index.cc:112-134`,
`cuckoo_index.h:112`. -/
def Params.options (p : Params) (n : Nat) : Options := ⟨n, 0, 3, p.numBinsOf n, 128⟩

/-! ## Sender -/

/-- The bins of an item, without those that an earlier hash function already gave (the sentinel `-1` of
the code is `none`): `kkrt_psi.cc:187-199`. -/
def slots (numBins item h : Nat) : Option Nat :=
  let b0 := getHash item 0 % numBins
  let b1 := getHash item 1 % numBins
  let b2 := getHash item 2 % numBins
  match h with
  | 0 => some b0
  | 1 => if b0 = b1 then none else some b1
  | 2 => if b0 = b2 ∨ b1 = b2 then none else some b2
  | _ => none

/-- `bin_indices` (by item) and `encode_buf` (by position after the permutation), with a log of the calls
of `sender.Encode`: position, hash function, number of corrections received. -/
structure Enc where
  pend : Nat → Nat → Option Nat
  buf : Nat → Nat → Bytes
  log : List (Nat × Nat × Nat)

/-- Encode slot `(pos, h)` if it is pending: `kkrt_psi.cc:238-246`, `272-274`. -/
def Enc.encode (p : Params) (item : Nat → Nat) (perm : Nat → Nat) (r : Nat) (s : Enc) (pos h : Nat) :
    Enc :=
  match s.pend (perm pos) h with
  | none => s
  | some b =>
    if b < r then
      { pend := fun i k => if i = perm pos ∧ k = h then none else s.pend i k
        buf := fun q k => if q = pos ∧ k = h then p.F b (item (perm pos)) else s.buf q k
        log := s.log ++ [(pos, h, r)] }
    else s

/-- All three slots of a position: `kkrt_psi.cc:231-247`. -/
def Enc.attempt (p : Params) (item : Nat → Nat) (perm : Nat → Nat) (r : Nat) (s : Enc) (pos : Nat) : Enc :=
  (List.range 3).foldl (fun s h => s.encode p item perm r pos h) s

/-- `k` attempts from position `t` on, going round: `kkrt_psi.cc:223-251`. -/
def Enc.round (p : Params) (item : Nat → Nat) (perm : Nat → Nat) (n r : Nat) :
    Nat → Nat → Enc → Nat × Enc
  | 0, t, s => (t, s)
  | k + 1, t, s => Enc.round p item perm n r k ((t + 1) % n) (s.attempt p item perm r t)

/-- The spinning loop: one round for each value of `r` that was loaded (`kkrt_psi.cc:220-255`); `rs` are
the values before the last one, which is `num_bins`; `step` is the batch size of the OT extension. -/
def Enc.spin (p : Params) (item : Nat → Nat) (perm : Nat → Nat) (n step : Nat) :
    List Nat → Nat → Enc → Enc
  | [], _, s => s
  | r :: rs, t, s =>
    let u := Enc.round p item perm n r step t s
    Enc.spin p item perm n step rs u.1 u.2

/-- What is still pending is encoded in order before sending: `kkrt_psi.cc:268-277` (the test there is
for the sentinel only; all bins are below `num_bins`). -/
def Enc.flush (p : Params) (item : Nat → Nat) (perm : Nat → Nat) (n numBins : Nat) (s : Enc) : Enc :=
  (List.range n).foldl (fun s pos => s.attempt p item perm numBins pos) s

/-- The encodings sent.  `fill` is the initial contents of the buffer: random bytes in the slots without
bin (`kkrt_psi.cc:200-213`), anything in the others.  `rs` starts with the initial `r = 0`. -/
def encodings (p : Params) (item : Nat → Nat) (perm : Nat → Nat) (n numBins step : Nat)
    (fill : Nat → Nat → Bytes) (rs : List Nat) : Enc :=
  Enc.flush p item perm n numBins
    (Enc.spin p item perm n step (0 :: rs) 0 ⟨fun i h => slots numBins (item i) h, fill, []⟩)

/-- Positions of the batches: `kkrt_psi.cc:261-266, 293`; the first argument bounds the number of
batches. -/
def batches (n k : Nat) : Nat → Nat → List (List Nat)
  | 0, _ => []
  | f + 1, i =>
    if i < n then List.range' i (min k (n - i)) :: batches n k f (i + min k (n - i)) else []

/-- One batch: `kkrt_psi.cc:264-296`.  `cnt` is the number of rows of an item (further rows plus one,
`psi/algorithm/kkrt/sender.cc:132`). -/
def message (cnt : Nat → Nat) (perm : Nat → Nat) (n : Nat) (buf : Nat → Nat → Bytes) (poss : List Nat) :
    Msg :=
  { itemNum := poss.length
    flat := (poss.flatMap (fun q => (List.range 3).map (buf q))).flatten
    batchIndex := 0
    isLast := poss.getLast?.map (· + 1) == some n
    dup := poss.zipIdx.filterMap
      (fun x => if 1 < cnt (perm x.1) then some (x.2, cnt (perm x.1)) else none) }

/-- `KkrtPsiSend` on items with hash and number of further rows: the messages sent. -/
def send (p : Params) (ys : List (Nat × Nat)) (recvSize step : Nat) (perm : Nat → Nat)
    (fill : Nat → Nat → Bytes) (rs : List Nat) : List Msg :=
  let n := ys.length
  let item := fun i => (ys.getD i (0, 0)).1
  let cnt := fun i => (ys.getD i (0, 0)).2 + 1
  let e := encodings p item perm n (p.numBinsOf recvSize) step fill rs
  (batches n p.batch n 0).map (message cnt perm n e.buf)

/-! ## Receiver -/

/-- `oprf_encode_map[j]` in order of insertion; `emplace` keeps the first entry of a key, so a lookup is a
search from the front.  `kkrt_psi.cc:356-384`. -/
def encodeMap (p : Params) (xs : List Nat) (t : Table) (j : Nat) : List (Bytes × Nat) :=
  (List.range t.bins.length).filterMap (fun b =>
    let e := t.bins.getD b 0
    if e = kEmpty then none
    else if minCollidingHashIdx (p.options xs.length) t b = some j then
      some (p.F b (xs.getD (inputIdx e) 0), inputIdx e)
    else none)

def lookup (m : List (Bytes × Nat)) (k : Bytes) : Option Nat := (m.find? (fun x => x.1 = k)).map Prod.snd

/-- `batch.duplicate_item_cnt[i]`: 0 if absent. -/
def dupLookup (dup : List (Nat × Nat)) (i : Nat) : Nat := ((dup.find? (fun x => x.1 = i)).map Prod.snd).getD 0

/-- The matches of one batch: `kkrt_psi.cc:401-413`.  `none`: the length check fails. -/
def recvMsg (p : Params) (maps : Nat → List (Bytes × Nat)) (m : Msg) : Option (List (Nat × Nat)) :=
  if m.flat.length = m.itemNum * 3 * p.size then
    some ((List.range m.itemNum).flatMap (fun i => (List.range 3).filterMap (fun j =>
      (lookup (maps j) ((m.flat.drop ((i * 3 + j) * p.size)).take p.size)).map
        (fun idx => (idx, dupLookup m.dup i)))))
  else none

/-- The loop over batches until the last one: `kkrt_psi.cc:386-418`; `none`: an exception, or waiting for
a message that never comes. -/
def recvAll (p : Params) (maps : Nat → List (Bytes × Nat)) : List Msg → Option (List (Nat × Nat))
  | [] => none
  | m :: ms =>
    (recvMsg p maps m).bind (fun w =>
      if m.isLast then some w else (recvAll p maps ms).map (w ++ ·))

/-- `KkrtPsiRecvIndices`: `kkrt_psi.cc:309-423`; positions of matched items with the counts of the messages. -/
def recvIndices (p : Params) (xs : List Nat) (ms : List Msg) : Option (List (Nat × Nat)) :=
  match insertAll (p.options xs.length) [xs] with
  | .error _ => none
  | .ok t => recvAll p (encodeMap p xs t) ms

/-- `KkrtPsiRecv`: `kkrt_psi.h:78-98`; positions of matched items with the number of further peer rows. -/
def recv (p : Params) (xs : List Nat) (ms : List Msg) : Option (List (Nat × Nat)) :=
  (recvIndices p xs ms).map (fun w => w.map (fun x => (x.1, if 1 < x.2 then x.2 - 1 else 0)))

end Psi.Kkrt
