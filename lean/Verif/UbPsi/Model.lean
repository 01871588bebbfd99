import Verif.Ecdh.Wire
import Verif.Ecdh.Model
import Verif.Provider.Model
import Mathlib.Algebra.Group.Defs

/-!
# Unbalanced PSI (UB-PSI)

Models the OPRF of `psi/algorithm/ecdh/ub_psi/basic_ecdh_oprf.cc`, the server cache
(`psi/algorithm/ecdh/ub_psi/ub_psi_cache.cc`), the cache of the client and the comparison
(`psi/utils/ec_point_store.cc`), and the phases of client and server
(`psi/algorithm/ecdh/ub_psi/{client,server,ecdh_oprf_psi}.cc`).

Simplifications.
* The curve is an abelian group with encoding and decoding of points, hash to the curve, reduction of a key
  to a scalar and inversion of scalars as parameters; the hash function is a parameter.
* A message is what the receiver reads of `PsiDataBatch`: `is_last_batch`, `flatten_bytes`,
  `duplicate_item_cnt`; the protobuf encoding is lossless (as in `Verif/Ecdh/Wire.lean`).
* Each side of a link sees the messages in the order sent, and no side waits for a message the other one
  sends only later, so a phase is a function from the messages received to the messages sent.
* `yacl::parallel_for` over disjoint elements is a map.
* A map is a list of pairs whose first matching pair counts (new pairs are put in front).
* Files are byte lists; the JSON file beside the server cache is the record of its fields.
-/

namespace Psi.UbPsi
open Psi.Ecdh (Bytes dupMap dupAt)
open Psi.Provider (ShufDup Sim)

inductive Err
  /-- `YACL_ENFORCE` or `YACL_THROW`. -/
  | throw
  /-- Undefined behaviour (division by zero, read outside a vector). -/
  | undefined
deriving DecidableEq, Repr

/-- `Except.map` over a list, left to right. -/
def mapE {β γ : Type} (f : β → Except Err γ) : List β → Except Err (List γ)
  | [] => .ok []
  | x :: xs =>
    match f x with
    | .error e => .error e
    | .ok y =>
      match mapE f xs with
      | .error e => .error e
      | .ok ys => .ok (y :: ys)

/-! ### OPRF -/

/-- The group and the functions around it.  `α` is the type of keys of the tables. -/
structure Curve (α G : Type) where
  /-- Order of the group. -/
  order : Nat
  /-- `BigNumSt::FromBytes` modulo the order, or the digits of the FourQ library. -/
  scalar : Bytes → Nat
  /-- `BN_mod_inverse`, or `Montgomery_inversion_mod_order`. -/
  inverse : Nat → Nat
  /-- Hash to the curve. -/
  point : α → G
  enc : G → Bytes
  /-- `none`: the bytes are no point (FourQ throws; with OpenSSL see `Verif/TryPoint/PointModel.lean`). -/
  dec : Bytes → Option G
  /-- The item as bytes. -/
  bytes : α → Bytes
  /-- Blake3, or the hash set by `SetHashType`. -/
  digest : Bytes → Bytes
  /-- `GetEcPointLength`: `psi/algorithm/ecdh/ub_psi/basic_ecdh_oprf.cc:190-192, 352-354`. -/
  pointLen : Nat
  /-- `compare_length_`. -/
  compareLength : Nat

variable {α G : Type} [AddCommGroup G]

/-- `GetCompareLength`: `psi/algorithm/ecdh/ub_psi/basic_ecdh_oprf.cc:182-188, 240-246, 345-350, 410-416`. -/
def Curve.cmpLen (c : Curve α G) : Nat := if c.compareLength ≠ 0 then c.compareLength else 12

/-- `HashItem`: `psi/algorithm/ecdh/ub_psi/basic_ecdh_oprf.cc:34-58`. -/
def hashItem (c : Curve α G) (item masked : Bytes) : Except Err Bytes :=
  let h := c.digest (item ++ masked)
  if c.cmpLen ≤ h.length then .ok (h.take c.cmpLen) else .error .throw

/-- `EcPointMul` and `FourQPointMul` on an encoded point:
`psi/algorithm/ecdh/ub_psi/basic_ecdh_oprf.cc:68-92, 270-286`. -/
def pointMul (c : Curve α G) (k : Nat) (b : Bytes) : Except Err Bytes :=
  match c.dec b with
  | none => .error .throw
  | some p => .ok (c.enc (k • p))

/-- `ItemMul`: `psi/algorithm/ecdh/ub_psi/basic_ecdh_oprf.cc:102-122, 288-301, 255-268`. -/
def itemMul (c : Curve α G) (k : Nat) (x : α) : Bytes := c.enc (k • c.point x)

/-- `Evaluate`: `psi/algorithm/ecdh/ub_psi/basic_ecdh_oprf.cc:148-154, 305-312`. -/
def evaluate (c : Curve α G) (key : Bytes) (b : Bytes) : Except Err Bytes := pointMul c (c.scalar key) b

/-- `FullEvaluate`: `psi/algorithm/ecdh/ub_psi/basic_ecdh_oprf.cc:156-166, 314-327`. -/
def fullEvaluate (c : Curve α G) (key : Bytes) (x : α) : Except Err Bytes :=
  hashItem c (c.bytes x) (itemMul c (c.scalar key) x)

/-- `SimpleEvaluate`: `psi/algorithm/ecdh/ub_psi/basic_ecdh_oprf.cc:168-180, 329-343`. -/
def simpleEvaluate (c : Curve α G) (key : Bytes) (x : α) : Except Err Bytes :=
  hashItem c [] (itemMul c (c.scalar key) x)

/-- `Blind`: `psi/algorithm/ecdh/ub_psi/basic_ecdh_oprf.cc:214-219, 380-388`. -/
def blind (c : Curve α G) (key : Bytes) (x : α) : Bytes := itemMul c (c.scalar key) x

/-- `EccPrivateKeyInv` and `Unblind`: `psi/algorithm/ecdh/ub_psi/basic_ecdh_oprf.cc:124-144, 233-238,
366-378, 402-408`. -/
def unblind (c : Curve α G) (key : Bytes) (b : Bytes) : Except Err Bytes :=
  pointMul c (c.inverse (c.scalar key)) b

/-- `Finalize` with the item: `psi/algorithm/ecdh/ub_psi/basic_ecdh_oprf.cc:221-226, 390-395`. -/
def finalizeItem (c : Curve α G) (key : Bytes) (item b : Bytes) : Except Err Bytes :=
  match unblind c key b with
  | .error e => .error e
  | .ok u => hashItem c item u

/-- `Finalize` without the item: `psi/algorithm/ecdh/ub_psi/basic_ecdh_oprf.cc:228-231, 397-400`. -/
def finalize (c : Curve α G) (key : Bytes) (b : Bytes) : Except Err Bytes := finalizeItem c key [] b

/-! ### Files of fixed-size records -/

/-- A `uint32_t` in memory (little endian). -/
def putU32 (n : Nat) : Bytes :=
  [UInt8.ofNat n, UInt8.ofNat (n / 2 ^ 8), UInt8.ofNat (n / 2 ^ 16), UInt8.ofNat (n / 2 ^ 24)]

/-- Reading it back. -/
def getU32 (b : Bytes) : Nat :=
  (b.getD 0 0).toNat + (b.getD 1 0).toNat * 2 ^ 8 + (b.getD 2 0).toNat * 2 ^ 16 +
    (b.getD 3 0).toNat * 2 ^ 24

/-- `UbPsiCacheItem`: `psi/algorithm/ecdh/ub_psi/ub_psi_cache.h:34-41`. -/
structure Rec where
  origin : Nat
  shuffle : Nat
  dup : Nat
  data : Bytes
deriving DecidableEq, Repr

/-- `kMaxCipherSize`: `psi/algorithm/ecdh/ub_psi/ub_psi_cache.h:34`, `psi/utils/ec_point_store.h:114`. -/
def maxCipher : Nat := 32

/-- The record in memory: `psi/algorithm/ecdh/ub_psi/ub_psi_cache.cc:150-155`; `data` is zeroed first. -/
def Rec.bytes (r : Rec) : Bytes :=
  putU32 r.origin ++ (putU32 r.shuffle ++ (putU32 r.dup ++ (r.data ++ List.replicate (maxCipher - r.data.length) 0)))

/-- `sizeof(UbPsiCacheItem)`. -/
def recSize : Nat := 44

/-- Reading a record; the data is cut to `item_len`: `psi/algorithm/ecdh/ub_psi/ub_psi_cache.cc:103-108`. -/
def parseRec (itemLen : Nat) (b : Bytes) : Rec :=
  ⟨getU32 b, getU32 (b.drop 4), getU32 (b.drop 8), (b.drop 12).take itemLen⟩

/-- The server's cache directory: data file and summary. -/
structure ServerCache where
  file : Bytes
  itemLen : Nat
  itemCount : Nat
  privKey : Bytes
deriving DecidableEq, Repr

/-- Batch `pos` up to `pos + count` of the records: `psi/algorithm/ecdh/ub_psi/ub_psi_cache.cc:65-72`. -/
def readRecs (s : ServerCache) (pos count : Nat) : List Rec :=
  (List.range count).map (fun i => parseRec s.itemLen ((s.file.drop ((pos + i) * recSize)).take recSize))

/-- Constructor of the provider: `psi/algorithm/ecdh/ub_psi/ub_psi_cache.cc:44-63`. -/
def openCache (s : ServerCache) : Except Err Unit :=
  if s.file.length / recSize ≠ s.itemCount then .error .throw else .ok ()

/-- `ReadNextShuffledBatch`: `psi/algorithm/ecdh/ub_psi/ub_psi_cache.cc:91-113`; the state is
`read_count_`. -/
def readCache (s : ServerCache) (batch : Nat) (pos : Nat) : Except Err (List Rec × Nat) :=
  if s.itemCount ≤ pos then .ok ([], pos) else
  let n := min batch (s.itemCount - pos)
  .ok (readRecs s pos n, pos + n)

/-- Read batches until an empty one; the loops of `FullEvaluate`, `SendFinalEvaluatedItems`,
`TransCacheIndexesToRowIndexs` and `ComputeIndicesWithDupCnt` all do this.  `fuel` bounds the batches. -/
def drain {σ β E : Type} (read : σ → Except E (List β × σ)) : Nat → σ → Except E (List (List β))
  | 0, _ => .ok []
  | fuel + 1, s =>
    match read s with
    | .error e => .error e
    | .ok (b, s') =>
      if b.isEmpty then .ok [] else
      match drain read fuel s' with
      | .error e => .error e
      | .ok bs => .ok (b :: bs)

/-! ### Offline phase of the server -/

/-- `SaveData` of one batch: `psi/algorithm/ecdh/ub_psi/ecdh_oprf_psi.cc:145-155, 164-171` and
`psi/algorithm/ecdh/ub_psi/ub_psi_cache.cc:145-160`. -/
def saveBatch (c : Curve α G) (key : Bytes) (b : List (ShufDup α)) : Except Err (List Rec) :=
  match mapE (fun x => simpleEvaluate c key x.item) b with
  | .error e => .error e
  | .ok masked =>
    let flat := masked.flatten
    mapE (fun x =>
      let d := (flat.drop (x.2 * c.cmpLen)).take c.cmpLen
      if d.length ≠ c.cmpLen then .error .throw
      else .ok ⟨x.1.pos % 2 ^ 32, x.1.orig % 2 ^ 32, x.1.dup % 2 ^ 32, d⟩) b.zipIdx

/-- `FullEvaluate` into a cache, and `Flush`: `psi/algorithm/ecdh/ub_psi/ecdh_oprf_psi.cc:94-192`,
`psi/algorithm/ecdh/ub_psi/ub_psi_cache.cc:123-143`.  `item_count` is a `uint32`. -/
def fillCache (c : Curve α G) (key : Bytes) (batches : List (List (ShufDup α))) : Except Err ServerCache :=
  if maxCipher ≤ c.cmpLen then .error .throw else
  match mapE (saveBatch c key) batches with
  | .error e => .error e
  | .ok recs => .ok ⟨recs.flatten.flatMap Rec.bytes, c.cmpLen, recs.flatten.length % 2 ^ 32, key⟩

/-- `OfflineGenCache`: `psi/algorithm/ecdh/ub_psi/server.cc:63-87`.  `raw` are the batches of the key
provider, `σ` the shuffles, `batch` is `psi_options_.batch_size`. -/
def genCache (c : Curve α G) (key : Bytes) (σ : Nat → Nat → List Nat) (raw : List (List (α × Nat)))
    (batch : Nat) : Except Err ServerCache :=
  match drain (Sim.read σ) (raw.flatten.length + 1) (Sim.make σ raw batch) with
  | .error _ => .error .throw
  | .ok batches => fillCache c key batches

/-! ### Transfer of the cache -/

/-- What is read of a `PsiDataBatch`. -/
structure Batch where
  isLast : Bool
  flat : Bytes
  dup : List (Nat × Nat)
deriving DecidableEq, Repr

/-- The message that ends a stream. -/
def Batch.last : Batch := ⟨true, [], []⟩

/-- `SendFinalEvaluatedItems`: `psi/algorithm/ecdh/ub_psi/ecdh_oprf_psi.cc:50-92`, with
`ReadNextBatchWithDupCnt` of the cache (`psi/algorithm/ecdh/ub_psi/ub_psi_cache.cc:79-89`). -/
def transferMsgs (s : ServerCache) (batch : Nat) : Except Err (List Batch) :=
  match openCache s with
  | .error e => .error e
  | .ok _ =>
    match drain (readCache s batch) (s.itemCount + 1) 0 with
    | .error e => .error e
    | .ok bs => .ok (bs.map (fun b => ⟨false, (b.map Rec.data).flatten,
        dupMap (b.map (fun r => (r.data, r.dup)))⟩) ++ [Batch.last])

/-- The client's cache on disk: data file and summary (`item_cnt`, `peer_cnt`, `cipher_len`), each if it
exists. -/
structure ClientDisk where
  file : Option Bytes
  info : Option (Nat × Nat × Nat)
deriving DecidableEq, Repr

/-- `UbPsiClientCacheFileStore` in memory. -/
structure ClientStore where
  file : Bytes
  itemCnt : Nat
  peerCnt : Nat
  cipherLen : Nat
deriving DecidableEq, Repr

/-- `sizeof(UbPsiClientCacheFileStore::CacheItem)`: `psi/utils/ec_point_store.h:115-118`. -/
def itemSize : Nat := 36

/-- Constructor: `psi/utils/ec_point_store.cc:383-413`. -/
def openStore (d : ClientDisk) (cipherLen : Nat) : Except Err ClientStore :=
  if maxCipher < cipherLen then .error .throw else
  let file := d.file.getD []
  let n := file.length / itemSize
  match d.info with
  | some (i, p, l) =>
    if cipherLen ≠ l then .error .throw
    else if n % 2 ^ 32 ≠ i then .error .throw
    else .ok ⟨file, n % 2 ^ 32, p, cipherLen⟩
  | none => .ok ⟨file, n % 2 ^ 32, 0, cipherLen⟩

/-- `Flush` and destructor: `psi/utils/ec_point_store.cc:376-381, 415, 423-426`. -/
def flushStore (s : ClientStore) : ClientDisk := ⟨some s.file, some (s.itemCnt, s.peerCnt, s.cipherLen)⟩

/-- The tail of `CacheItem::ciphertext`, which `Save` leaves as it is in memory. -/
def tail (junk : Nat → Bytes) (i len : Nat) : Bytes :=
  ((junk i) ++ List.replicate (maxCipher - len) 0).take (maxCipher - len)

/-- `Save`: `psi/utils/ec_point_store.cc:428-439`. -/
def saveItem (junk : Nat → Bytes) (s : ClientStore) (ct : Bytes) (dup : Nat) : Except Err ClientStore :=
  if ct.length ≠ s.cipherLen then .error .throw else
  .ok { s with
    file := s.file ++ (ct ++ (tail junk s.itemCnt ct.length ++ putU32 dup))
    itemCnt := (s.itemCnt + 1) % 2 ^ 32
    peerCnt := (s.peerCnt + dup + 1) % 2 ^ 32 }

/-- `Save` of a batch: `psi/utils/ec_point_store.h:50-61`; `i` is the position in the batch. -/
def saveItems (junk : Nat → Bytes) (dup : List (Nat × Nat)) : Nat → List Bytes → ClientStore →
    Except Err ClientStore
  | _, [], s => .ok s
  | i, ct :: cts, s =>
    match saveItem junk s ct (dupAt dup i) with
    | .error e => .error e
    | .ok s' => saveItems junk dup (i + 1) cts s'

/-- Cutting the bytes of a message into pieces of the given length; the division is undefined for length 0:
`psi/algorithm/ecdh/ub_psi/ecdh_oprf_psi.cc:221-228, 277-285, 482-488, 608-616`. -/
def cut (len : Nat) (flat : Bytes) : Except Err (List Bytes) :=
  if len = 0 then .error .undefined
  else if flat.length % len ≠ 0 then .error .throw
  else .ok (Psi.Ecdh.chop (flat.length / len) len flat)

/-- `RecvFinalEvaluatedItems`: `psi/algorithm/ecdh/ub_psi/ecdh_oprf_psi.cc:462-497`.  Messages that do not
come (the stream ends early) leave the store as it is: the receive throws and the store is flushed by its
destructor. -/
def recvCache (junk : Nat → Bytes) (cmpLen : Nat) : List Batch → ClientStore → Except (ClientStore × Err) ClientStore
  | [], s => .error (s, .throw)
  | m :: ms, s =>
    if m.isLast then .ok s else
    match cut cmpLen m.flat with
    | .error e => .error (s, e)
    | .ok items =>
      match saveItems junk m.dup 0 items s with
      | .error e => .error (s, e)
      | .ok s' => recvCache junk cmpLen ms s'

/-- `OfflineTransferCache` of the client: `psi/algorithm/ecdh/ub_psi/client.cc:58-78`.  The directory of an
existing cache is removed first.  Result: what is on disk afterwards, and whether the phase succeeded. -/
def clientTransfer (junk : Nat → Bytes) (cmpLen : Nat) (ms : List Batch) (old : ClientDisk) :
    ClientDisk × Bool :=
  let d : ClientDisk := if old.file.isSome then ⟨none, none⟩ else old
  match openStore d cmpLen with
  | .error _ => (⟨some (d.file.getD []), d.info⟩, false)
  | .ok s =>
    match recvCache junk cmpLen ms s with
    | .error (s', _) => (flushStore s', false)
    | .ok s' => (flushStore s', true)

/-! ### Online phase -/

/-- `SendBlindedItems`: `psi/algorithm/ecdh/ub_psi/ecdh_oprf_psi.cc:512-587`.  `input` are the non-empty
batches of the client's provider. -/
def blindMsgs (c : Curve α G) (r : Bytes) (serverGets : Bool) (input : List (List (α × Nat))) : List Batch :=
  input.map (fun b => ⟨false, (b.map (fun x => blind c r x.1)).flatten,
    if serverGets then dupMap b else []⟩) ++ [Batch.last]

/-- `PeerCntInfo`: `psi/algorithm/ecdh/ub_psi/ecdh_oprf_psi.h:138-142`. -/
structure PeerCnt where
  total : Nat
  unique : Nat
  dup : List (Nat × Nat)
deriving DecidableEq, Repr

/-- Update of the counts by one batch: `psi/algorithm/ecdh/ub_psi/ecdh_oprf_psi.cc:239-242, 247`. -/
def PeerCnt.add (p : PeerCnt) (dup : List (Nat × Nat)) (num : Nat) : PeerCnt :=
  { total := (p.total + (dup.map Prod.snd).sum) % 2 ^ 32
    unique := (p.unique + num) % 2 ^ 32
    dup := dup.map (fun d => ((d.1 + p.unique) % 2 ^ 32, d.2)) ++ p.dup }

/-- Receiving loop of the server with evaluation: `psi/algorithm/ecdh/ub_psi/ecdh_oprf_psi.cc:194-255,
257-306`.  Result: the evaluated batches, and the counts. -/
def recvBlind (c : Curve α G) (key : Bytes) : List Batch → PeerCnt → Except Err (List (List Bytes) × PeerCnt)
  | [], _ => .error .throw
  | m :: ms, p =>
    if m.isLast then .ok ([], { p with total := (p.total + p.unique) % 2 ^ 32 }) else
    match cut c.pointLen m.flat with
    | .error e => .error e
    | .ok items =>
      match mapE (evaluate c key) items with
      | .error e => .error e
      | .ok ev =>
        match recvBlind c key ms (p.add m.dup items.length) with
        | .error e => .error e
        | .ok (evs, p') => .ok (ev :: evs, p')

/-- `RecvBlindAndSendEvaluate`: `psi/algorithm/ecdh/ub_psi/ecdh_oprf_psi.cc:194-255`. -/
def evalMsgs (c : Curve α G) (key : Bytes) (ms : List Batch) : Except Err (List Batch × PeerCnt) :=
  match recvBlind c key ms ⟨0, 0, []⟩ with
  | .error e => .error e
  | .ok (evs, p) => .ok (evs.map (fun ev => ⟨false, ev.flatten, []⟩) ++ [Batch.last], p)

/-- Cut a list into pieces of `size` (the last one may be shorter): loop of lines 320-336.  `fuel` bounds the
number of pieces; with `size = 0` the loop does not end and the pieces are empty. -/
def pieces {β : Type} (size : Nat) : Nat → List β → List (List β)
  | 0, _ => []
  | fuel + 1, l => if l.isEmpty then [] else l.take size :: pieces size fuel (l.drop size)

/-- Access to a vector. -/
def elemAt {β : Type} (l : List β) (i : Nat) : Except Err β :=
  match l[i]? with
  | none => .error .undefined
  | some e => .ok e

/-- `RecvBlindAndShuffleSendEvaluate`: `psi/algorithm/ecdh/ub_psi/ecdh_oprf_psi.cc:257-346`; `perm` is the
shuffled index vector. -/
def shuffleMsgs (c : Curve α G) (key : Bytes) (perm : Nat → List Nat) (batch : Nat) (ms : List Batch) :
    Except Err (List Batch × PeerCnt) :=
  match recvBlind c key ms ⟨0, 0, []⟩ with
  | .error e => .error e
  | .ok (evs, p) =>
    let all := evs.flatten
    let ix := perm all.length
    match mapE (elemAt all) ix with
    | .error e => .error e
    | .ok out =>
      .ok ((pieces batch (out.length + 1) out).map (fun b => ⟨false, b.flatten, []⟩) ++ [Batch.last],
        { p with dup := (ix.zipIdx.map (fun x => (x.2 % 2 ^ 32, dupAt p.dup (x.1 % 2 ^ 32)))).reverse })

/-- `UbPsiClientCacheMemoryStore`: `psi/utils/ec_point_store.h:156-178`, map and `item_cnt_`. -/
structure MemStore where
  map : List (Bytes × Nat)
  cnt : Nat
deriving DecidableEq, Repr

/-- `Save`: `psi/utils/ec_point_store.cc:445-450`; a second entry for the same value replaces the first. -/
def MemStore.save (s : MemStore) (ct : Bytes) : MemStore := ⟨(ct, s.cnt) :: s.map, (s.cnt + 1) % 2 ^ 32⟩

/-- `Find`: `psi/utils/ec_point_store.cc:452-460`. -/
def MemStore.find (s : MemStore) (ct : Bytes) : Option Nat := s.map.lookup ct

/-- `RecvEvaluatedItems`: `psi/algorithm/ecdh/ub_psi/ecdh_oprf_psi.cc:589-652`. -/
def recvEvaluated (c : Curve α G) (r : Bytes) : List Batch → MemStore → Except Err MemStore
  | [], _ => .error .throw
  | m :: ms, s =>
    if m.isLast then .ok s else
    match cut c.pointLen m.flat with
    | .error e => .error e
    | .ok items =>
      match mapE (finalize c r) items with
      | .error e => .error e
      | .ok fin => recvEvaluated c r ms (fin.foldl MemStore.save s)

/-- Records of the client's file: `psi/utils/ec_point_store.cc:344-358`. -/
def storeItems (s : ClientStore) (pos count : Nat) : List (Bytes × Nat) :=
  (List.range count).map (fun i =>
    let b := (s.file.drop ((pos + i) * itemSize)).take itemSize
    (b.take s.cipherLen, getU32 (b.drop maxCipher)))

/-- `ReadNextBatchWithDupCnt` of the client's file: `psi/utils/ec_point_store.cc:316-358`.  (A call after the
end of the data takes the value of a future twice and throws; the only caller stops before.) -/
def readStore (s : ClientStore) (batch : Nat) (pos : Nat) : Except Err (List (Bytes × Nat) × Nat) :=
  let total := s.file.length / itemSize
  if total ≤ pos then .ok ([], pos) else
  let n := min batch (total - pos)
  .ok (storeItems s pos n, pos + n)

/-- What thread `idx` finds in one batch: `psi/utils/ec_point_store.cc:164-187`.  Lines are own index, cache
index, peer count. -/
def compareSlice (self : MemStore) (threads idx processed : Nat) (b : List (Bytes × Nat)) : List (Nat × Nat × Nat) :=
  let size := (b.length + threads - 1) / threads
  ((b.zipIdx.drop (idx * size)).take size).filterMap (fun x =>
    (self.find x.1.1).map (fun i => (i, processed + x.2, dupAt (dupMap b) x.2)))

/-- All batches for one thread; `processed` is the number of records of the batches before. -/
def compareThread (self : MemStore) (threads idx : Nat) : Nat → List (List (Bytes × Nat)) → List (Nat × Nat × Nat)
  | _, [] => []
  | processed, b :: bs =>
    compareSlice self threads idx processed b ++ compareThread self threads idx (processed + b.length) bs

/-- `ComputeIndicesWithDupCnt`: `psi/utils/ec_point_store.cc:133-222`. -/
def computeIndices (self : MemStore) (peer : ClientStore) (batch threads : Nat) : Except Err (List (Nat × Nat × Nat)) :=
  match drain (readStore peer batch) (peer.file.length + 1) 0 with
  | .error e => .error e
  | .ok bs =>
    if threads = 0 then (if bs.isEmpty then .ok [] else .error .undefined) else
    .ok (((List.range threads).flatMap (fun idx => compareThread self threads idx 0 bs)).map
      (fun x => (x.1 % 2 ^ 32, x.2.1 % 2 ^ 32, x.2.2 % 2 ^ 32)))

/-- `RecvCacheIndexes` and the map from cache index to count: `psi/algorithm/ecdh/ub_psi/server.cc:182-189`. -/
def countMap (p : PeerCnt) (ix : List (Nat × Nat)) : List (Nat × Nat) :=
  (ix.map (fun x => (x.1, dupAt p.dup x.2))).reverse

/-- `TransCacheIndexesToRowIndexs`: `psi/algorithm/ecdh/ub_psi/server.cc:116-146`. -/
def rowIndexes (s : ServerCache) (batch : Nat) (m : List (Nat × Nat)) : Except Err (List (Nat × Nat)) :=
  match openCache s with
  | .error e => .error e
  | .ok _ =>
    match drain (readCache s batch) (s.itemCount + 1) 0 with
    | .error e => .error e
    | .ok bs => .ok (bs.flatten.filterMap (fun r => (m.lookup r.origin).map (fun n => (r.shuffle, n))))

/-- Everything the online phase of the two parties depends on besides the caches. -/
structure Online (α : Type) where
  /-- Non-empty batches of the client's keys with duplicate counts. -/
  input : List (List (α × Nat))
  /-- The client's fresh key. -/
  r : Bytes
  clientGets : Bool
  serverGets : Bool
  /-- Shuffle of the server when the client gets no result. -/
  perm : Nat → List Nat
  /-- `psi_options_.batch_size`. -/
  batch : Nat
  /-- `std::thread::hardware_concurrency()`. -/
  threads : Nat

/-- What the parties hand to their join: index lines and number of rows of the peer.  `none`: gets no
result. -/
structure Result where
  client : Option (List (Nat × Nat) × Nat)
  server : Option (List (Nat × Nat) × Nat)
deriving DecidableEq, Repr

/-- The exchange up to the comparison: the evaluated and finalised items of the client, and the counts the
server takes down. -/
def exchange (c : Curve α G) (o : Online α) (key : Bytes) : Except Err (MemStore × PeerCnt) :=
  let sent := blindMsgs c o.r o.serverGets o.input
  match (if o.clientGets then evalMsgs c key sent else shuffleMsgs c key o.perm o.batch sent) with
  | .error e => .error e
  | .ok (replies, peerCnt) =>
    match recvEvaluated c o.r replies ⟨[], 0⟩ with
    | .error e => .error e
    | .ok self => .ok (self, peerCnt)

/-- The key the server evaluates with: `psi/algorithm/ecdh/ub_psi/server.cc:153-160`; `keyFile` is the key
of `server_secret_key_path`, if set. -/
def serverKey (keyFile : Option Bytes) (server : ServerCache) : Except Err Bytes :=
  match keyFile with
  | some k => .ok k
  | none =>
    match openCache server with
    | .error e => .error e
    | .ok _ => .ok server.privKey

/-- `Online` of both sides up to the join, with the client's store open:
`psi/algorithm/ecdh/ub_psi/client.cc:89-141`, `psi/algorithm/ecdh/ub_psi/server.cc:151-203`. -/
def onlineWith (c : Curve α G) (o : Online α) (keyFile : Option Bytes) (server : ServerCache)
    (store : ClientStore) : Except Err Result :=
  match serverKey keyFile server with
  | .error e => .error e
  | .ok key =>
    match exchange c o key with
    | .error e => .error e
    | .ok (self, peerCnt) =>
      match computeIndices self store o.batch o.threads with
      | .error e => .error e
      | .ok found =>
        let clientOut :=
          if o.clientGets then some (found.map (fun x => (x.1, x.2.2)), store.peerCnt) else none
        if o.serverGets then
          match rowIndexes server o.batch (countMap peerCnt (found.map (fun x => (x.2.1, x.1)))) with
          | .error e => .error e
          | .ok rows => .ok ⟨clientOut, some (rows, peerCnt.total)⟩
        else .ok ⟨clientOut, none⟩

/-- `Online`; also what is on the client's disk afterwards.  (A constructor that throws leaves an empty data
file if there was none; otherwise the destructor of the store flushes.) -/
def online (c : Curve α G) (o : Online α) (keyFile : Option Bytes) (server : ServerCache)
    (client : ClientDisk) : Except Err Result × ClientDisk :=
  match openStore client c.cmpLen with
  | .error e => (.error e, ⟨some (client.file.getD []), client.info⟩)
  | .ok store => (onlineWith c o keyFile server store, flushStore store)

/-- Any number of online phases one after the other, over the same caches. -/
def sessions (c : Curve α G) (server : ServerCache) :
    List (Online α × Option Bytes) → ClientDisk → List (Except Err Result) × ClientDisk
  | [], d => ([], d)
  | o :: os, d =>
    let r := online c o.1 o.2 server d
    let rest := sessions c server os r.2
    (r.1 :: rest.1, rest.2)

end Psi.UbPsi
