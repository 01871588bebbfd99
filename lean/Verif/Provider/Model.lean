/-!
# Batch providers

Models `MemoryBatchProvider` and `SimpleShuffledBatchProvider` (`psi/utils/batch_provider_impl.cc`),
`ArrowCsvBatchProvider` (`psi/utils/arrow_csv_batch_provider.cc`), the key-info providers of
`psi/utils/table_utils.cc` and `KeysJoin` (`psi/utils/key.cc`).

Simplifications.
* The CSV reader of Arrow is a list of record batches (possibly empty ones); after the last batch it
  keeps answering "end".  How Arrow cuts the file is arbitrary, so it is a parameter.
* A read started ahead of time on another thread (`std::async`) is run when its result is taken: one read
  is under way at a time and nothing else touches the reader.
* `std::shuffle` is a parameter: the list of positions it leaves behind.
* A map of duplicate counts by position in the batch is modelled by putting the count at the item.
-/

namespace Psi.Provider

inductive Err
  /-- `YACL_ENFORCE` or `YACL_THROW`. -/
  | throw
  /-- Reading outside a vector. -/
  | undefined
deriving DecidableEq, Repr

variable {α β : Type}

/-- `MemoryBatchProvider`: `psi/utils/batch_provider_impl.h:33-69`.  `shuffled` is
`buffer_shuffled_indices_`. -/
structure Mem (α : Type) where
  items : List α
  labels : List α
  shuffled : List Nat
  batch : Nat
  cursor : Nat
deriving DecidableEq

/-- Constructor: `psi/utils/batch_provider_impl.cc:45-58`; `perm` is what `std::shuffle` makes of
`0, 1, …` (looked at only when shuffling is enabled). -/
def Mem.make (items labels : List α) (batch : Nat) (shuffle : Bool) (perm : List Nat) : Mem α :=
  ⟨items, labels, if shuffle then perm else [], batch, 0⟩

/-- `ReadNextImpl`: `psi/utils/batch_provider_impl.cc:145-154`. -/
def Mem.readImpl (m : Mem α) (size : Nat) : Except Err (List α × Mem α) :=
  if m.items.length < m.cursor then .error .throw else
  let n := min size (m.items.length - m.cursor)
  .ok ((m.items.drop m.cursor).take n, { m with cursor := m.cursor + n })

/-- `ReadNextBatch`: `psi/utils/batch_provider_impl.cc:60-62`. -/
def Mem.readBatch (m : Mem α) : Except Err (List α × Mem α) := m.readImpl m.batch

/-- `ReadNextLabeledBatch`: `psi/utils/batch_provider_impl.cc:64-84`.  The range of labels is taken
without looking at the number of labels. -/
def Mem.readLabeled (m : Mem α) : Except Err ((List α × List α) × Mem α) :=
  if m.labels.isEmpty then .error .throw else
  if m.items.length < m.cursor then .error .throw else
  let n := min m.batch (m.items.length - m.cursor)
  if m.labels.length < m.cursor + n then .error .undefined else
  .ok (((m.items.drop m.cursor).take n, (m.labels.drop m.cursor).take n),
    { m with cursor := m.cursor + n })

/-- One element of a `ShuffledBatch` (`psi/utils/batch_provider.h:73-78`): `pos` from `batch_indices`,
`orig` from `shuffled_indices`. -/
structure Shuf (α : Type) where
  item : α
  pos : Nat
  orig : Nat
deriving DecidableEq, Repr

/-- Element `i` of the next batch: `psi/utils/batch_provider_impl.cc:99-102`.  `none` when an index is out
of bounds. -/
def Mem.elem (m : Mem α) (i : Nat) : Option (Shuf α) :=
  match m.shuffled[m.cursor + i]? with
  | none => none
  | some s => (m.items[s]?).map (fun x => ⟨x, m.cursor + i, s⟩)

/-- `ReadNextShuffledBatch` of the memory provider: `psi/utils/batch_provider_impl.cc:86-106`.  It leaves
`dup_cnts` empty. -/
def Mem.readShuffled (m : Mem α) : Except Err (List (Shuf α) × Mem α) :=
  if m.shuffled.isEmpty then .error .throw else
  if m.items.length < m.cursor then .error .throw else
  let n := min m.batch (m.items.length - m.cursor)
  match (List.range n).mapM m.elem with
  | none => .error .undefined
  | some b => .ok (b, { m with cursor := m.cursor + n })

/-- `ReadAll`: `psi/utils/batch_provider_impl.cc:137-143`. -/
def Mem.readAll (m : Mem α) : List α := m.items

/-! ### Re-batching of a stream of record batches -/

/-- State of a provider over a record-batch reader: rows of the current record batch not yet delivered,
record batches not yet read, `reach_eof_`. -/
structure Csv (β : Type) where
  cur : List β
  more : List (List β)
  eof : Bool
  batch : Nat
deriving DecidableEq

/-- Loop of `ReadBatch`: `psi/utils/arrow_csv_batch_provider.cc:91-139`.  `want` is the number of rows
still missing.  Result: rows, rest of the current record batch, record batches left, end reached. -/
def fill (want : Nat) (cur : List β) : List (List β) → List β × List β × List (List β) × Bool
  | [] =>
    if want ≤ cur.length then (cur.take want, cur.drop want, [], false) else (cur, [], [], true)
  | b :: bs =>
    if want ≤ cur.length then (cur.take want, cur.drop want, b :: bs, false) else
    let r := fill (want - cur.length) b bs
    (cur ++ r.1, r.2)

/-- `ReadBatch` and `GetBuffer`: `psi/utils/arrow_csv_batch_provider.cc:54-60, 81-140`. -/
def Csv.read (s : Csv β) : List β × Csv β :=
  if s.eof then ([], s) else
  let r := fill s.batch s.cur s.more
  (r.1, { s with cur := r.2.1, more := r.2.2.1, eof := r.2.2.2 })

/-- `Init`: `psi/utils/arrow_csv_batch_provider.cc:142-174`. -/
def Csv.open (chunks : List (List β)) (batch : Nat) : Csv β := ⟨[], chunks, false, batch⟩

/-- `SortedTableKeysInfoProvider::ReadBatchWithInfo`: `psi/utils/table_utils.cc:84-122`.  Unlike the CSV
provider it keeps no end flag and asks the reader again. -/
def Csv.readInfo (s : Csv β) : List β × Csv β :=
  let r := fill s.batch s.cur s.more
  (r.1, { s with cur := r.2.1, more := r.2.2.1 })

/-- Columns `keys`, `start_indexes`, `dup_cnts` of `KeysInfoProvider::BatchInfo` for an input declared to
have unique keys; `UniqueTableKeysInfoProvider::ReadBatchWithInfo`: `psi/utils/table_utils.cc:175-184`. -/
def uniqueInfo (s : Csv β) (readIndex : Nat) : List (β × Nat × Nat) × Csv β × Nat :=
  let r := s.read
  (r.1.zipIdx.map (fun x => (x.1, readIndex + x.2, 0)), r.2, readIndex + r.1.length)

/-! ### Shuffling provider -/

/-- State of `SimpleShuffledBatchProvider`: `psi/utils/batch_provider_impl.h:82-116`.  `buf` is the raw
batch held (`items`, `dup_cnt`), `deque` are its `shuffled_indices`, `more` the batches the underlying
provider still delivers, `reads` the number of raw batches read. -/
structure Sim (α : Type) where
  buf : List (α × Nat)
  deque : List Nat
  more : List (List (α × Nat))
  base : Nat
  shuffleBase : Nat
  reads : Nat
  readEnd : Bool
  batch : Nat

/-- An element of a shuffled batch with its duplicate count. -/
structure ShufDup (α : Type) where
  item : α
  pos : Nat
  orig : Nat
  dup : Nat
deriving DecidableEq, Repr

/-- `ReadAndShuffle`: `psi/utils/batch_provider_impl.cc:221-252`; `σ k len` is the result of the `k`-th
shuffle.  After the end the underlying provider answers with an empty batch. -/
def Sim.next (σ : Nat → Nat → List Nat) (s : Sim α) : Sim α :=
  { s with
    buf := s.more.headD []
    deque := σ s.reads (s.more.headD []).length
    more := s.more.tail
    reads := s.reads + 1 }

/-- Constructor and `Init`: `psi/utils/batch_provider_impl.cc:165-174`. -/
def Sim.make (σ : Nat → Nat → List Nat) (more : List (List (α × Nat))) (batch : Nat) : Sim α :=
  Sim.next σ ⟨[], [], more, 0, 0, 0, false, batch⟩

/-- Element `i` of those moved out of the buffer: `psi/utils/batch_provider_impl.cc:193-201`.  `none` when
an index is out of bounds. -/
def Sim.elem (s : Sim α) (i : Nat) : Option (ShufDup α) :=
  match s.deque[i]? with
  | none => none
  | some j => (s.buf[j]?).map (fun x => ⟨x.1, s.base + i, s.shuffleBase + j, x.2⟩)

/-- The inner loop that moves `n` elements out of the buffer:
`psi/utils/batch_provider_impl.cc:188-208`. -/
def Sim.push (s : Sim α) (n : Nat) : Except Err (List (ShufDup α) × Sim α) :=
  match (List.range n).mapM s.elem with
  | none => .error .undefined
  | some b => .ok (b, { s with deque := s.deque.drop n, base := s.base + n })

/-- The loop `while (n_items < batch_size_)`: `psi/utils/batch_provider_impl.cc:187-218`.  `fuel` bounds
the number of iterations; `want` is `batch_size_ - n_items`. -/
def Sim.loop (σ : Nat → Nat → List Nat) : Nat → Nat → Sim α → Except Err (List (ShufDup α) × Sim α)
  | 0, _, s => .ok ([], s)
  | fuel + 1, want, s =>
    if want = 0 then .ok ([], s)
    else if s.deque.isEmpty then
      let s' := Sim.next σ { s with shuffleBase := s.shuffleBase + s.buf.length }
      if s'.buf.isEmpty then .ok ([], { s' with readEnd := true })
      else Sim.loop σ fuel want s'
    else
      let n := min want s.deque.length
      match s.push n with
      | .error e => .error e
      | .ok (b, s') =>
        match Sim.loop σ fuel (want - n) s' with
        | .error e => .error e
        | .ok (b', s'') => .ok (b ++ b', s'')

/-- `ReadNextShuffledBatch`: `psi/utils/batch_provider_impl.cc:176-219`.  Every second iteration of the
loop reads a raw batch, and the loop ends at the first empty one, so the fuel is never used up. -/
def Sim.read (σ : Nat → Nat → List Nat) (s : Sim α) : Except Err (List (ShufDup α) × Sim α) :=
  if s.readEnd then .ok ([], s) else Sim.loop σ (2 * s.more.length + 3) s.batch s

/-! ### Composite keys -/

/-- `KeysJoin`: `psi/utils/key.cc:185-187` (`absl::StrJoin` with a one-character separator). -/
def keysJoin (sep : Char) : List (List Char) → List Char
  | [] => []
  | [k] => k
  | k :: ks => k ++ sep :: keysJoin sep ks

end Psi.Provider
