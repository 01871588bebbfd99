/-!
# Wire batches of ECDH-PSI

Models `PsiDataBatch` (`psi/utils/communication.h:50-103`), `BatchData` and `RecvBatchImpl`
(`psi/algorithm/ecdh/ecdh_psi.cc:285-312, 351-387`).

Simplifications: the protobuf encoding of the message fields is taken to be lossless for values of the
field types; the field `type` is written and never read, so it is left out.  The unordered map of
duplicate counts is a list of pairs, read by `lookup`.
-/

namespace Psi.Ecdh

abbrev Bytes := List UInt8

/-- `PsiDataBatch`: `psi/utils/communication.h:50-69`. -/
structure Msg where
  itemNum : Nat
  flat : Bytes
  batchIndex : Nat
  isLast : Bool
  dup : List (Nat × Nat)
deriving DecidableEq, Repr

/-- `BatchData`: `psi/algorithm/ecdh/ecdh_psi.cc:285-305`.  `item_num` is a `uint32_t`; `batch_index`
is an `int32_t` made from a `size_t`, kept here as its 32-bit pattern. -/
def encode (items : List Bytes) (dup : List (Nat × Nat)) (idx : Nat) : Msg :=
  { itemNum := items.length % 2 ^ 32
    flat := items.flatten
    batchIndex := idx % 2 ^ 32
    isLast := items.isEmpty
    dup := if items.isEmpty then [] else dup }

/-- `flatten_bytes.substr(i * item_size, item_size)` for `i = 0 … n-1`:
`psi/algorithm/ecdh/ecdh_psi.cc:379-382`. -/
def chop (n size : Nat) (flat : Bytes) : List Bytes :=
  (List.range n).map (fun i => (flat.drop (i * size)).take size)

/-- `RecvBatchImpl`: `psi/algorithm/ecdh/ecdh_psi.cc:368-387`; `none` is the exception for an unexpected
batch index. -/
def decode (idx : Nat) (m : Msg) : Option (List Bytes × List (Nat × Nat)) :=
  if m.batchIndex = idx % 2 ^ 32 then
    if 0 < m.itemNum then
      some (chop m.itemNum (m.flat.length / m.itemNum) m.flat, m.dup)
    else some ([], [])
  else none

end Psi.Ecdh
