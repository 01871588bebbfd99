import Verif.Apsi.Model

/-!
# The C interface of the labeled PSI

Models `psi/wrapper/apsi/api/{wrapper_common.h,wrapper_util.cc,receiver_c_wrapper.cc,sender_c_wrapper.cc}` over a heap of
blocks, and `ProcessResult` into a file (`api/receiver.cc:203-243`).

A block is named by the number of the call that made it, so that an address that is handed out again is another block; what is
freed twice, read after it was freed, read beyond its end or read before it was written is undefined.  Each call to `malloc` may
fail (`mem`), also for no bytes at all, where the C standard allows a null pointer.  `operator new` succeeds.  The classes behind
the interface are parameters (`Api`).  Exceptions that leave a function declared `extern "C"` are kept as exceptions.
-/

namespace Psi.Capi

open Psi.Spiral (Res)

/-- A string of bytes. -/
abbrev Bytes := List UInt8

/-- A pointer; `none` is the null pointer. -/
abbrev Ptr := Option Nat

/-- `CString`: `wrapper_common.h:25-28`. -/
structure CStr where
  data : Ptr
  size : Nat
  deriving DecidableEq, Repr

/-- `CStringArray`: `wrapper_common.h:30-33`. -/
structure CArr where
  data : Ptr
  size : Nat
  deriving DecidableEq, Repr

/-- `QueryResult`: `receiver_c_wrapper.h:30-35`; fields not yet written are `none`. -/
structure QRes where
  keys : Option CArr
  values : Option CArr
  rows : Option Nat
  labeled : Option Bool
  deriving DecidableEq, Repr

/-- What a block holds; places not yet written are `none`. -/
inductive Block (O : Type) where
  | chars (l : List (Option UInt8))
  | strs (l : List (Option CStr))
  | result (r : QRes)
  | object (o : O)

/-- The heap: calls to the allocator so far, and the blocks in use. -/
structure Heap (O : Type) where
  next : Nat
  live : Nat → Option (Block O)

/-- Programs on the heap. -/
def Prog (O α : Type) : Type := Heap O → Heap O × Res α

section
variable {O : Type}

/-- One program after the other. -/
def Prog.bind {α β : Type} (x : Prog O α) (f : α → Prog O β) : Prog O β := fun h =>
  match x h with
  | (h', .ok a) => f a h'
  | (h', .throws) => (h', .throws)
  | (h', .undefined) => (h', .undefined)

instance : Monad (Prog O) where
  pure a := fun h => (h, .ok a)
  bind := Prog.bind

/-- An exception. -/
def throws {α : Type} : Prog O α := fun h => (h, .throws)

/-- Undefined behaviour. -/
def undef {α : Type} : Prog O α := fun h => (h, .undefined)

/-- The result of a function that does not touch the heap. -/
def lift {α : Type} (r : Res α) : Prog O α := fun h => (h, r)

/-- A block is put in its place. -/
def Heap.put (h : Heap O) (a : Nat) (b : Option (Block O)) : Heap O :=
  ⟨h.next, fun p => if p = a then b else h.live p⟩

/-- `malloc`: a new block, or a null pointer if `mem` says so. -/
def malloc (mem : Nat → Nat → Bool) (bytes : Nat) (b : Block O) : Prog O Ptr := fun h =>
  if mem h.next bytes then (⟨h.next + 1, fun p => if p = h.next then some b else h.live p⟩, .ok (some h.next))
  else (⟨h.next + 1, h.live⟩, .ok none)

/-- `new`. -/
def new (o : O) : Prog O Ptr := malloc (fun _ _ => true) 0 (.object o)

/-- `free`: nothing for a null pointer, undefined for what is not in use or was not made by `malloc`. -/
def free (p : Ptr) : Prog O Unit := fun h =>
  match p with
  | none => (h, .ok ())
  | some a =>
    match h.live a with
    | none => (h, .undefined)
    | some (.object _) => (h, .undefined)
    | some _ => (h.put a none, .ok ())

/-- `delete`. -/
def delete (p : Ptr) : Prog O Unit := fun h =>
  match p with
  | none => (h, .ok ())
  | some a =>
    match h.live a with
    | some (.object _) => (h.put a none, .ok ())
    | _ => (h, .undefined)

/-- `*(a + i) = c`. -/
def writeChar (a i : Nat) (c : UInt8) : Prog O Unit := fun h =>
  match h.live a with
  | some (.chars l) => if i < l.length then (h.put a (some (.chars (l.set i (some c)))), .ok ()) else (h, .undefined)
  | _ => (h, .undefined)

/-- `a[i] = c`. -/
def writeStr (a i : Nat) (c : CStr) : Prog O Unit := fun h =>
  match h.live a with
  | some (.strs l) => if i < l.length then (h.put a (some (.strs (l.set i (some c)))), .ok ()) else (h, .undefined)
  | _ => (h, .undefined)

/-- `a[i]`. -/
def readStr (p : Ptr) (i : Nat) : Prog O CStr := fun h =>
  match p with
  | none => (h, .undefined)
  | some a =>
    match h.live a with
    | some (.strs l) =>
      match l[i]? with
      | some (some c) => (h, .ok c)
      | _ => (h, .undefined)
    | _ => (h, .undefined)

/-- All places are written, and what is there. -/
def written : List (Option UInt8) → Option Bytes
  | [] => some []
  | none :: _ => none
  | some c :: r => (written r).map (c :: ·)

/-! ### Strings: `wrapper_util.cc` -/

/-- The characters one after the other: `wrapper_util.cc:33-36`. -/
def writeChars (a : Nat) : Nat → Bytes → Prog O Nat
  | i, [] => pure i
  | i, c :: r => do
    writeChar a i c
    writeChars a (i + 1) r

/-- `MakeCString`: `wrapper_util.cc:26-39`. -/
def makeCString (mem : Nat → Nat → Bool) (s : Bytes) : Prog O CStr := do
  match ← malloc mem (s.length + 1) (.chars (List.replicate (s.length + 1) none)) with
  | none => throws
  | some a =>
    let i ← writeChars a 0 s
    writeChar a i 0
    pure ⟨some a, s.length⟩

/-- `std::string(data, size)`: `wrapper_util.cc:40`, `wrapper_util.cc:57`; a null pointer is good for no characters only. -/
def makeString (c : CStr) : Prog O Bytes := fun h =>
  match c.data with
  | none => (h, if c.size = 0 then .ok [] else .throws)
  | some a =>
    match h.live a with
    | some (.chars l) =>
      if c.size ≤ l.length then
        match written (l.take c.size) with
        | some s => (h, .ok s)
        | none => (h, .undefined)
      else (h, .undefined)
    | _ => (h, .undefined)

/-- The loop of `MakeCStringArray`: `wrapper_util.cc:47-49`. -/
def writeStrs (mem : Nat → Nat → Bool) (a : Nat) : Nat → List Bytes → Prog O Unit
  | _, [] => pure ()
  | i, s :: r => do
    let c ← makeCString mem s
    writeStr a i c
    writeStrs mem a (i + 1) r

/-- `MakeCStringArray`: `wrapper_util.cc:42-52`; a `CString` has 16 bytes. -/
def makeCStringArray (mem : Nat → Nat → Bool) (strs : List Bytes) : Prog O CArr := do
  match ← malloc mem (16 * strs.length) (.strs (List.replicate strs.length none)) with
  | none => throws
  | some a =>
    writeStrs mem a 0 strs
    pure ⟨some a, strs.length⟩

/-- The loop of `MakeStringArray` over the places `i, i + 1, …`. -/
def readStrs (p : Ptr) : Nat → Nat → Prog O (List Bytes)
  | _, 0 => pure []
  | i, n + 1 => do
    let c ← readStr p i
    let s ← makeString c
    let r ← readStrs p (i + 1) n
    pure (s :: r)

/-- `MakeStringArray`: `wrapper_util.cc:54-60`. -/
def makeStringArray (arr : CArr) : Prog O (List Bytes) := readStrs arr.data 0 arr.size

/-- `FreeCString`: `wrapper_common.h:35-38`; the caller's variable afterwards. -/
def freeCString (c : CStr) : Prog O CStr := do
  free c.data
  pure ⟨c.data, 0⟩

/-- The loop of `FreeCStringArray`: `wrapper_common.h:41-43`. -/
def freeStrs (p : Ptr) : Nat → Nat → Prog O Unit
  | _, 0 => pure ()
  | i, n + 1 => do
    let c ← readStr p i
    free c.data
    freeStrs p (i + 1) n

/-- `FreeCStringArray`: `wrapper_common.h:40-46`; the caller's variable afterwards. -/
def freeCStringArray (arr : CArr) : Prog O CArr := do
  freeStrs arr.data 0 arr.size
  free arr.data
  pure ⟨arr.data, 0⟩

/-! ### Results -/

/-- A field of the result is written. -/
def writeResult (a : Nat) (f : QRes → QRes) : Prog O Unit := fun h =>
  match h.live a with
  | some (.result r) => (h.put a (some (.result (f r))), .ok ())
  | _ => (h, .undefined)

/-- The values of a result, a null pointer if there are none: `receiver_c_wrapper.cc:123-125`. -/
def makeValues (mem : Nat → Nat → Bool) (values : List Bytes) : Prog O CArr :=
  if values.isEmpty then pure ⟨none, 0⟩ else makeCStringArray mem values

/-- `MakeQueryResult`: `receiver_c_wrapper.cc:102-128`; a `QueryResult` has 40 bytes, `row_count` has 32 bits. -/
def makeQueryResult (mem : Nat → Nat → Bool) (keys values : List Bytes) : Prog O Ptr :=
  if keys.length ≠ values.length ∧ values ≠ [] then pure none
  else do
    match ← malloc mem 40 (.result ⟨none, none, none, none⟩) with
    | none => pure none
    | some a =>
      writeResult a fun r => { r with rows := some (keys.length % 2 ^ 32) }
      writeResult a fun r => { r with labeled := some (!values.isEmpty) }
      let k ← makeCStringArray mem keys
      writeResult a fun r => { r with keys := some k }
      let v ← makeValues mem values
      writeResult a fun r => { r with values := some v }
      pure (some a)

/-- The two arrays of a result. -/
def readResult (a : Nat) : Prog O (CArr × CArr) := fun h =>
  match h.live a with
  | some (.result ⟨some k, some v, _, _⟩) => (h, .ok (k, v))
  | _ => (h, .undefined)

/-- The values of a result are freed if there are any: `receiver_c_wrapper.cc:136-138`. -/
def freeValues (a : Nat) (v : CArr) : Prog O Unit :=
  if v.data = none then pure ()
  else do
    let v' ← freeCStringArray v
    writeResult a fun r => { r with values := some v' }

/-- `FreeQueryResult`: `receiver_c_wrapper.cc:130-141`. -/
def freeQueryResult (p : Ptr) : Prog O Unit :=
  match p with
  | none => pure ()
  | some a => do
    let kv ← readResult a
    let k ← freeCStringArray kv.1
    writeResult a fun r => { r with keys := some k }
    freeValues a kv.2
    free (some a)

end

/-! ### Objects behind handles -/

/-- The classes behind the interface: what their methods do to the object and what they return (`api/receiver.cc`,
`api/sender.cc`).  A query context is a vector of `BucketContext`. -/
structure Api (R C S : Type) where
  open_ : Res S
  make : Nat → Nat → Res R
  params : S → Res (S × Bytes)
  load : R → Bytes → Res R
  bucketize : R → List Bytes → Res C
  reqOprf : R → C → Res (C × List Bytes)
  runOprf : S → List Bytes → Res (S × List Bytes)
  reqQuery : R → C → List Bytes → Res (C × List Bytes)
  runQuery : S → List Bytes → Res (S × List Bytes)
  result : R → C → List Bytes → Res (C × (List Bytes × List Bytes))

/-- Objects on the heap. -/
inductive Obj (R C S : Type) where
  | receiver (r : R)
  | ctx (c : C)
  | sender (s : S)

section
variable {R C S : Type}

/-- The receiver behind a handle. -/
def getReceiver (p : Ptr) : Prog (Obj R C S) R := fun h =>
  match p.bind h.live with
  | some (.object (.receiver r)) => (h, .ok r)
  | _ => (h, .undefined)

/-- The query context behind a handle. -/
def getCtx (p : Ptr) : Prog (Obj R C S) C := fun h =>
  match p.bind h.live with
  | some (.object (.ctx c)) => (h, .ok c)
  | _ => (h, .undefined)

/-- The sender behind a handle. -/
def getSender (p : Ptr) : Prog (Obj R C S) S := fun h =>
  match p.bind h.live with
  | some (.object (.sender s)) => (h, .ok s)
  | _ => (h, .undefined)

/-- The object behind a handle changes. -/
def setObj (p : Ptr) (o : Obj R C S) : Prog (Obj R C S) Unit := fun h =>
  match p with
  | some a => (h.put a (some (.object o)), .ok ())
  | none => (h, .undefined)

/-- `BucketReceiverMake`: `receiver_c_wrapper.cc:33-36`. -/
def receiverMake (api : Api R C S) (buckets threads : Nat) : Prog (Obj R C S) Ptr := do
  let r ← lift (api.make buckets threads)
  new (.receiver r)

/-- `BucketReceiverFree`: `receiver_c_wrapper.cc:38-44`; the caller's variable (`none`: no variable at all) afterwards. -/
def receiverFree (pp : Option Ptr) : Prog (Obj R C S) (Option Ptr) :=
  match pp with
  | none => pure none
  | some none => pure (some none)
  | some (some a) => do
    delete (some a)
    pure (some none)

/-- `BucketReceiverLoadParamsStr`: `receiver_c_wrapper.cc:49-53`. -/
def receiverLoadParams (api : Api R C S) (p : Ptr) (c : CStr) : Prog (Obj R C S) Unit := do
  let s ← makeString c
  let r ← getReceiver p
  let r' ← lift (api.load r s)
  setObj p (.receiver r')

/-- `BucketReceiverMakeQueryCtxFromItems`: `receiver_c_wrapper.cc:67-73`. -/
def makeQueryCtx (api : Api R C S) (p : Ptr) (queries : CArr) : Prog (Obj R C S) Ptr := do
  let qs ← makeStringArray queries
  let r ← getReceiver p
  let c ← lift (api.bucketize r qs)
  new (.ctx c)

/-- `BucketReceiverFreeQueryCtx`: `receiver_c_wrapper.cc:75-77`; the pointer comes by value. -/
def freeQueryCtx (p : Ptr) : Prog (Obj R C S) Unit := delete p

/-- `BucketReceiverRequestOPRF`: `receiver_c_wrapper.cc:79-83`. -/
def requestOprf (mem : Nat → Nat → Bool) (api : Api R C S) (p ctx : Ptr) : Prog (Obj R C S) CArr := do
  let r ← getReceiver p
  let c ← getCtx ctx
  let x ← lift (api.reqOprf r c)
  setObj ctx (.ctx x.1)
  makeCStringArray mem x.2

/-- `BucketReceiverRequestQuery`: `receiver_c_wrapper.cc:84-90`. -/
def requestQuery (mem : Nat → Nat → Bool) (api : Api R C S) (p ctx : Ptr) (arr : CArr) : Prog (Obj R C S) CArr := do
  let a ← makeStringArray arr
  let r ← getReceiver p
  let c ← getCtx ctx
  let x ← lift (api.reqQuery r c a)
  setObj ctx (.ctx x.1)
  makeCStringArray mem x.2

/-- `BucketReceiverProcessResult`: `receiver_c_wrapper.cc:143-149`. -/
def processResult (mem : Nat → Nat → Bool) (api : Api R C S) (p ctx : Ptr) (arr : CArr) : Prog (Obj R C S) Ptr := do
  let a ← makeStringArray arr
  let r ← getReceiver p
  let c ← getCtx ctx
  let x ← lift (api.result r c a)
  setObj ctx (.ctx x.1)
  makeQueryResult mem x.2.1 x.2.2

/-- `BucketSenderLoad`: `sender_c_wrapper.cc:47-50`; `BucketSenderMake` (`sender_c_wrapper.cc:30-45`) with `open_` another
function. -/
def senderLoad (api : Api R C S) : Prog (Obj R C S) Ptr := do
  let s ← lift api.open_
  new (.sender s)

/-- `BucketSenderFree`: `sender_c_wrapper.cc:52-56`. -/
def senderFree (pp : Option Ptr) : Prog (Obj R C S) (Option Ptr) :=
  match pp with
  | none => throws
  | some p => do
    delete p
    pure (some none)

/-- `BucketSenderGenerateParams`: `sender_c_wrapper.cc:58-61`. -/
def generateParams (mem : Nat → Nat → Bool) (api : Api R C S) (p : Ptr) : Prog (Obj R C S) CStr := do
  let s ← getSender p
  let x ← lift (api.params s)
  setObj p (.sender x.1)
  makeCString mem x.2

/-- `BucketSenderRunOPRFBatch`: `sender_c_wrapper.cc:75-80`. -/
def runOprfBatch (mem : Nat → Nat → Bool) (api : Api R C S) (p : Ptr) (arr : CArr) : Prog (Obj R C S) CArr := do
  let a ← makeStringArray arr
  let s ← getSender p
  let x ← lift (api.runOprf s a)
  setObj p (.sender x.1)
  makeCStringArray mem x.2

/-- `BucketSenderRunQueryBatch`: `sender_c_wrapper.cc:82-86`. -/
def runQueryBatch (mem : Nat → Nat → Bool) (api : Api R C S) (p : Ptr) (arr : CArr) : Prog (Obj R C S) CArr := do
  let a ← makeStringArray arr
  let s ← getSender p
  let x ← lift (api.runQuery s a)
  setObj p (.sender x.1)
  makeCStringArray mem x.2

/-- A C program that makes one query, in the order of `wrapper_test.cc:70-103`, and frees what it was given except for the
result. -/
def session (mem : Nat → Nat → Bool) (api : Api R C S) (buckets threads : Nat) (queries : CArr) :
    Prog (Obj R C S) Ptr := do
  let s ← senderLoad api
  let params ← generateParams mem api s
  let r ← receiverMake api buckets threads
  receiverLoadParams api r params
  let ctx ← makeQueryCtx api r queries
  let oprfReq ← requestOprf mem api r ctx
  let oprfRes ← runOprfBatch mem api s oprfReq
  let queryReq ← requestQuery mem api r ctx oprfRes
  let queryRes ← runQueryBatch mem api s queryReq
  let res ← processResult mem api r ctx queryRes
  let _ ← freeCStringArray queryRes
  let _ ← freeCStringArray queryReq
  let _ ← freeCStringArray oprfRes
  let _ ← freeCStringArray oprfReq
  let _ ← freeCString params
  freeQueryCtx ctx
  let _ ← senderFree (some s)
  let _ ← receiverFree (some r)
  pure res

/-- The same run in C++ (`api_test.cc` with the classes themselves): keys and values. -/
def direct (api : Api R C S) (buckets threads : Nat) (queries : List Bytes) : Res (List Bytes × List Bytes) := do
  let s ← api.open_
  let p ← api.params s
  let r ← api.make buckets threads
  let r ← api.load r p.2
  let c ← api.bucketize r queries
  let o ← api.reqOprf r c
  let a ← api.runOprf p.1 o.2
  let q ← api.reqQuery r o.1 a.2
  let b ← api.runQuery a.1 q.2
  let x ← api.result r q.1 b.2
  pure x.2

end

/-! ### Results in a file -/

open Psi.Apsi (Match printResults World Server bucketizeItems oprfAll queryAll)
open Psi.DkPir (Str)

/-- The loop of `ProcessResult` into a file: `api/receiver.cc:210-240`; the file (`none`: not there) and the numbers of matches.
The header of an empty answer cannot be loaded. -/
def toFile : Option Str → Bool → List (List Str × Option (List Match)) → Option Str × Res (List Nat)
  | file, _, [] => (file, .ok [])
  | file, _, (_, none) :: _ => (file, .throws)
  | file, appending, (items, some ms) :: r =>
    let out := printResults items ms (file.getD []) appending
    let rest := toFile (some out.1) true r
    (rest.1, rest.2.bind fun ns => .ok (out.2 :: ns))

/-- A number as an `int` of 32 bits. -/
def toInt32 (n : Int) : Int := (n + 2 ^ 31) % 2 ^ 32 - 2 ^ 31

/-- A step of the sum: the `int` becomes a number of 64 bits, the sum an `int` again. -/
def addCount (acc : Int) (n : Nat) : Int := toInt32 ((acc % 2 ^ 64 + n) % 2 ^ 64)

/-- `std::accumulate(begin, end, 0)` over numbers of 64 bits, returned as a number of 32 bits:
`receiver_c_wrapper.cc:99`.  The sum so far is an `int`. -/
def accumulate (ns : List Nat) : Nat :=
  (ns.foldl addCount 0 % 2 ^ 32).toNat

/-- `BucketReceiverProcessResultToFile`: `receiver_c_wrapper.cc:92-100`, `api/receiver.cc:203-243`, with the records of the
answers. -/
def processToFile (file : Option Str) (parts : List (List Str × Option (List Match))) : Option Str × Res Nat :=
  ((toFile file false parts).1, (toFile file false parts).2.bind fun ns => .ok (accumulate ns))

/-- A whole query with the result in a file. -/
def fileQuery {B : Type} (w : World B) (draw : Nat → Nat) (newKey : Nat) (s : Server B) (queries : List Str)
    (file : Option Str) : Server B × (Option Str × Res Nat) :=
  match bucketizeItems w s.config.buckets queries with
  | .throws => (s, file, .throws)
  | .undefined => (s, file, .undefined)
  | .ok ctxs =>
    match oprfAll w draw newKey s ctxs with
    | (s1, .throws) => (s1, file, .throws)
    | (s1, .undefined) => (s1, file, .undefined)
    | (s1, .ok ks) =>
      match queryAll w draw s1 (ctxs.zip ks) with
      | (s2, .throws) => (s2, file, .throws)
      | (s2, .undefined) => (s2, file, .undefined)
      | (s2, .ok ms) => (s2, processToFile file ((ctxs.map Prod.snd).zip ms))

end Psi.Capi
