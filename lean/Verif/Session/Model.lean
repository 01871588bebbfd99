/-
A session of the labeled PSI over a link: `YaclChannel`, the loop of the sender and `RunReceiver`
(`psi/wrapper/apsi/yacl_channel.cc`, `psi/wrapper/apsi/cli/sender_dispatcher.cc`, `psi/wrapper/apsi/cli/entry.cc`).

Lines of `yacl_channel.cc` are in `psi/wrapper/apsi`, those of `sender_dispatcher.cc` and `entry.cc` in
`psi/wrapper/apsi/cli`, those of `sender.cc` and `receiver.cc` in `psi/wrapper/apsi`.  The APSI library (its serialization,
its OPRF, its queries and its homomorphic evaluation) is external.  A link has one queue of messages in each direction; tags
are for the log only.  `Recv` waits for ever (in the code: until the timeout of the link, 24 hours in the launcher).
-/
namespace Psi.Session

abbrev Bytes := List UInt8

/-- `SenderOperationType`. -/
inductive Kind where
  | unknown
  | parms
  | oprf
  | query
  deriving DecidableEq, Repr

/-- `SenderOperation`: a request for parameters, an OPRF request, a query. -/
inductive Op (Q : Type) where
  | parms
  | oprf (data : Bytes) (bucket : Nat)
  | query (q : Q) (bucket : Nat)
  deriving DecidableEq

/-- `SenderOperationResponse`; a response to a query holds the number of packages that follow. -/
inductive Resp (P : Type) where
  | parms (p : P)
  | oprf (data : Bytes)
  | query (packages : Nat)
  deriving DecidableEq

/-- `SenderOperation::type`. -/
def Op.kind {Q : Type} : Op Q → Kind
  | .parms => .parms
  | .oprf _ _ => .oprf
  | .query _ _ => .query

/-- `SenderOperationResponse::type`. -/
def Resp.kind {P : Type} : Resp P → Kind
  | .parms _ => .parms
  | .oprf _ => .oprf
  | .query _ => .query

/-- The request that ends the loop of the sender: `sender_dispatcher.cc:331-337`, `entry.cc:301-306`. -/
def stopOp (Q : Type) : Op Q := .oprf [] (2 ^ 32 - 1)

/-- What a `load` of the library does: a value and the bytes left in the stream, or one of the exceptions that the channel
tells apart (`runtime_error`, `invalid_argument`, any other). -/
inductive Load (α : Type) where
  | ok (a : α) (rest : Bytes)
  | runtime
  | invalid
  | other
  deriving DecidableEq

/-- The serialization of the library (external). -/
structure Codec (P Q R : Type) where
  version : Nat
  saveHeader : Kind → Bytes
  loadHeader : Bytes → Load (Nat × Kind)
  saveOp : Op Q → Bytes
  loadOp : Kind → Bytes → Load (Op Q)
  saveResp : Resp P → Bytes
  loadResp : Kind → Bytes → Load (Resp P)
  savePart : R → Bytes
  loadPart : Bytes → Load R

/-- A message from the sender. -/
inductive Msg (P R : Type) where
  | resp (r : Resp P)
  | part (r : R)

variable {P Q R : Type}

/-- `send` of an operation: header and body in one message (`yacl_channel.cc:32-57`). -/
def encOp (C : Codec P Q R) (op : Op Q) : Bytes := C.saveHeader op.kind ++ C.saveOp op

/-- `send` of a response (`yacl_channel.cc:148-174`) and of a result package, which has no header
(`yacl_channel.cc:252-265`). -/
def encMsg (C : Codec P Q R) : Msg P R → Bytes
  | .resp r => C.saveHeader r.kind ++ C.saveResp r
  | .part r => C.savePart r

/-- What a receiving function of the channel gives: a value, `nullptr`, or an exception that it does not catch; with the
bytes it adds to `bytes_received_`. -/
inductive Got (α : Type) where
  | some (a : α)
  | null
  | escapes
  deriving DecidableEq

/-- The header, the version and the expected type: `yacl_channel.cc:78-104` and `yacl_channel.cc:180-209`. -/
def receiveHeader (C : Codec P Q R) (expected : Kind) (b : Bytes) : Nat × Got (Kind × Bytes) :=
  match C.loadHeader b with
  | .ok (v, k) rest =>
    (b.length - rest.length,
      if v ≠ C.version then .null else if expected ≠ .unknown ∧ expected ≠ k then .null else .some (k, rest))
  | .runtime => (0, .null)
  | .invalid | .other => (0, .escapes)

/-- `receive_operation`: `yacl_channel.cc:59-141`; `valid` tells whether there is a valid SEAL context. -/
def receiveOp (C : Codec P Q R) (valid : Bool) (expected : Kind) (b : Bytes) : Nat × Got (Op Q) :=
  if valid = false ∧ (expected = .unknown ∨ expected = .query) then (0, .null)
  else match receiveHeader C expected b with
    | (n, .some (k, rest)) =>
      if k = .unknown then (n, .null)
      else match C.loadOp k rest with
        | .ok op rest' => (n + (rest.length - rest'.length), .some op)
        | .runtime | .invalid => (n, .null)
        | .other => (n, .escapes)
    | (n, .null) => (n, .null)
    | (n, .escapes) => (n, .escapes)

/-- `receive_response`: `yacl_channel.cc:176-250`.  Only `runtime_error` is caught when the body is loaded. -/
def receiveResp (C : Codec P Q R) (expected : Kind) (b : Bytes) : Nat × Got (Resp P) :=
  match receiveHeader C expected b with
  | (n, .some (k, rest)) =>
    if k = .unknown then (n, .null)
    else match C.loadResp k rest with
      | .ok r rest' => (n + (rest.length - rest'.length), .some r)
      | .runtime => (n, .null)
      | .invalid | .other => (n, .escapes)
  | (n, .null) => (n, .null)
  | (n, .escapes) => (n, .escapes)

/-- `receive_result`: `yacl_channel.cc:267-304`; the context of a receiver is valid. -/
def receivePart (C : Codec P Q R) (b : Bytes) : Nat × Got R :=
  match C.loadPart b with
  | .ok r rest => (b.length - rest.length, .some r)
  | .runtime | .invalid => (0, .null)
  | .other => (0, .escapes)

/-! ### The sender -/

/-- What the library computes for the sender. -/
structure Srv (P Q R Db Key : Type) where
  /-- `SenderDB::get_params`. -/
  params : Db → P
  /-- `OPRFSender::ProcessQueries`; `none`: it throws. -/
  oprf : Key → Bytes → Option Bytes
  /-- The constructor of `Query` finds the query valid for the data base. -/
  valid : Db → Q → Bool
  /-- `get_bin_bundle_count`. -/
  count : Db → Nat
  /-- The packages in the order in which the threads finish them, up to the first exception, and whether there was none. -/
  work : Db → Q → List R × Bool

/-- `sender_db_` and `oprf_key_`. -/
structure St (Db Key : Type) where
  db : Option Db
  key : Key
  deriving DecidableEq

/-- One data base, or buckets: `GetBucketDB` throws (`none`) or gives a data base or a null pointer with a key. -/
inductive Store (Db Key : Type) where
  | single
  | group (look : Nat → Option (St Db Key))

variable {Db Key : Type}

/-- `SetBucketIdx`: `sender_dispatcher.cc:95-106` (the switcher of `sender_dispatcher.cc:108-113` is not used by the
programs). -/
def setBucket (store : Store Db Key) (st : St Db Key) (b : Nat) : Option (St Db Key) :=
  match store with
  | .single => some st
  | .group look => look b

/-- `RunQuery`: `sender.cc:138-313`.  With `streaming` the response goes out first and every package when it is ready; without,
nothing is sent before all packages are there. -/
def runQuery (S : Srv P Q R Db Key) (streaming : Bool) (db : Db) (q : Q) : List (Msg P R) :=
  if S.valid db q then
    if streaming || (S.work db q).2 then .resp (.query (S.count db)) :: (S.work db q).1.map .part else []
  else []

/-- `RunOPRF`: `sender.cc:81-136`. -/
def runOprf (S : Srv P Q R Db Key) (key : Key) (data : Bytes) : List (Msg P R) :=
  if data = [] then []
  else match S.oprf key data with
    | none => []
    | some d => if d = [] then [] else [.resp (.oprf d)]

/-- One request: the state left behind, the messages sent and whether the loop is told to stop.  `dispatch_parms`
(`sender_dispatcher.cc:272-287`, `sender.cc:44-79`), `dispatch_oprf` (`sender_dispatcher.cc:322-346`), `dispatch_query`
(`sender_dispatcher.cc:413-452`).  Exceptions are logged and nothing (more) is sent. -/
def serve (S : Srv P Q R Db Key) (store : Store Db Key) (streaming : Bool) (st : St Db Key) :
    Op Q → St Db Key × List (Msg P R) × Bool
  | .parms =>
    match st.db with
    | none => (st, [], false)
    | some db => (st, [.resp (.parms (S.params db))], false)
  | .oprf data b =>
    if data = [] ∧ b = 2 ^ 32 - 1 then (st, [], true)
    else match setBucket store st b with
      | none => (st, [], false)
      | some st' => (st', runOprf S st'.key data, false)
  | .query q b =>
    match setBucket store st b with
    | none => (st, [], false)
    | some st' =>
      match st'.db with
      | none => (st', [.resp (.query 0)], false)
      | some db => (st', runQuery S streaming db q, false)

/-- The loop of the sender: it waits for a request, or was told to stop, or an exception left it. -/
inductive Snd (Db Key : Type) where
  | running (st : St Db Key)
  | stopped
  | crashed
  deriving DecidableEq

/-- One turn of the loop: `sender_dispatcher.cc:192-238`: the new state, the messages sent, the bytes counted as received. -/
def feed (C : Codec P Q R) (S : Srv P Q R Db Key) (store : Store Db Key) (streaming : Bool) (st : St Db Key) (b : Bytes) :
    Snd Db Key × List Bytes × Nat :=
  match receiveOp C true .unknown b with
  | (n, .null) => (.running st, [], n)
  | (n, .escapes) => (.crashed, [], n)
  | (n, .some op) =>
    match serve S store streaming st op with
    | (st', out, stop) => (if stop then .stopped else .running st', out.map (encMsg C), n)

/-- What a constructor does. -/
inductive Made (Db Key : Type) where
  | ok (st : St Db Key)
  | throws
  | undefined
  deriving DecidableEq

/-- The constructor for one data base: `sender_dispatcher.cc:43-59`.  The member takes the pointer over from the parameter
(`std::move`, `sender_dispatcher.cc:46`), which is null from then on; it is the parameter that is asked for its key
(`sender_dispatcher.cc:53`). -/
def makeSingle [DecidableEq Key] (stripped : Db → Bool) (keyOf : Db → Key) (parameter : Option Db) (key : Key) :
    Made Db Key :=
  let member := parameter
  let parameter : Option Db := none
  match member with
  | none => .throws
  | some d =>
    if stripped d then .ok ⟨some d, key⟩
    else match parameter.map keyOf with
      | none => .undefined
      | some k => if key ≠ k then .throws else .ok ⟨some d, key⟩

/-! ### The receiver -/

/-- What a receiver still has to do.  `recv k` waits for a response of type `k` and drops others; `part again` waits for a
package; a message that is no package counts as one unless `again` (`receiver.cc:435-437`, `receiver.cc:696-698`). -/
inductive Prog (P Q R A : Type) where
  | done (a : A)
  | fail
  | send (op : Op Q) (k : Prog P Q R A)
  | recv (k : Kind) (f : Resp P → Prog P Q R A)
  | part (again : Bool) (f : Option R → Prog P Q R A)

/-- What the library computes for a receiver, once it has the parameters. -/
structure Rcv (Q R I H T M : Type) where
  /-- `OPRFReceiver::query_data`. -/
  blind : List I → Bytes
  /-- `ExtractHashes`: hashed items and label keys. -/
  extract : List I → Bytes → H
  /-- No items, no hashes (`receiver.cc:212-214`). -/
  nothing : H
  /-- `create_query` (`receiver.cc:234-369`); `none`: it throws, as the cuckoo table is full. -/
  makeQuery : H → Option (Q × T)
  /-- `process_result` (`receiver.cc:621-666`); `none`: it throws. -/
  finish : H → T → List (Option R) → Option M

variable {I H T M A : Type}

/-- `RequestOPRF`: `receiver.cc:203-232`. -/
def requestOprf (r : Rcv Q R I H T M) (items : List I) (bucket : Nat) (k : H → Prog P Q R A) [DecidableEq I] :
    Prog P Q R A :=
  .send (.oprf (r.blind items) bucket)
    (if items = [] then k r.nothing
     else .recv .oprf fun
      | .oprf d => k (r.extract items d)
      | _ => .fail)

/-- The packages one after the other: `receiver.cc:434-437` (with threads: `receiver.cc:668-724`, see C109). -/
def collect (again : Bool) : Nat → List (Option R) → (List (Option R) → Prog P Q R A) → Prog P Q R A
  | 0, acc, k => k acc
  | n + 1, acc, k => .part again fun p => collect again n (acc ++ [p]) k

/-- An exception ends the run: `entry.cc:229-232`, `entry.cc:285-288`. -/
def settle (m : Option M) (k : M → Prog P Q R A) : Prog P Q R A :=
  match m with
  | none => .fail
  | some m => k m

/-- `request_query`: `receiver.cc:371-441`. -/
def requestQuery (r : Rcv Q R I H T M) (streaming : Bool) (h : H) (bucket : Nat) (k : M → Prog P Q R A) : Prog P Q R A :=
  match r.makeQuery h with
  | none => .fail
  | some (q, t) =>
    .send (.query q bucket) (.recv .query fun
      | .query n => collect streaming n [] fun ps => settle (r.finish h t ps) k
      | _ => .fail)

/-- The last message (`entry.cc:301-308`): only for the channel that is named `yacl`. -/
def finish (channel : String) (a : A) : Prog P Q R A :=
  if channel = "yacl" then .send (stopOp Q) (.done a) else .done a

/-- The queries: one per bucket (`entry.cc:203-251`) or one for all (`entry.cc:265-295`). -/
def rounds (r : Rcv Q R I H T M) (streaming : Bool) (channel : String) [DecidableEq I] :
    List (Nat × List I) → List M → Prog P Q R (List M)
  | [], acc => finish channel acc
  | (b, items) :: rest, acc =>
    requestOprf r items b fun h => requestQuery r streaming h b fun m => rounds r streaming channel rest (acc ++ [m])

/-- `RunReceiver`: `entry.cc:99-309` (without `zmq`); the parameters are those of the file or those of the sender
(`entry.cc:147-161`, `receiver.cc:127-147`); `make` is the constructor of `Receiver`. -/
def runReceiver (make : P → Option (Rcv Q R I H T M)) (file : Option P) (streaming : Bool) (channel : String)
    [DecidableEq I] (queries : List (Nat × List I)) : Prog P Q R (List M) :=
  let go (p : P) : Prog P Q R (List M) :=
    match make p with
    | none => .fail
    | some r => rounds r streaming channel queries []
  match file with
  | some p => go p
  | none => .send .parms (.recv .parms fun
    | .parms p => go p
    | _ => .fail)

/-! ### Both -/

/-- Both parties, the messages under way and `bytes_sent_`, `bytes_received_` of both channels. -/
structure Config (P Q R Db Key A : Type) where
  prog : Prog P Q R A
  snd : Snd Db Key
  toSnd : List Bytes
  toRcv : List Bytes
  rSent : Nat
  rGot : Nat
  sSent : Nat
  sGot : Nat

/-- A step of the receiver, if it can make one. -/
def stepR (C : Codec P Q R) (c : Config P Q R Db Key A) : Option (Config P Q R Db Key A) :=
  match c.prog with
  | .done _ => none
  | .fail => none
  | .send op k =>
    some { c with prog := k, toSnd := c.toSnd ++ [encOp C op], rSent := c.rSent + (encOp C op).length }
  | .recv k f =>
    match c.toRcv with
    | [] => none
    | b :: w =>
      match receiveResp C .unknown b with
      | (n, .escapes) => some { c with prog := .fail, toRcv := w, rGot := c.rGot + n }
      | (n, .null) => some { c with toRcv := w, rGot := c.rGot + n }
      | (n, .some r) =>
        if r.kind = k then some { c with prog := f r, toRcv := w, rGot := c.rGot + n }
        else some { c with toRcv := w, rGot := c.rGot + n }
  | .part again f =>
    match c.toRcv with
    | [] => none
    | b :: w =>
      match receivePart C b with
      | (n, .escapes) => some { c with prog := .fail, toRcv := w, rGot := c.rGot + n }
      | (n, .null) =>
        some { c with prog := if again then c.prog else f none, toRcv := w, rGot := c.rGot + n }
      | (n, .some r) => some { c with prog := f (some r), toRcv := w, rGot := c.rGot + n }

/-- A step of the sender, if it can make one. -/
def stepS (C : Codec P Q R) (S : Srv P Q R Db Key) (store : Store Db Key) (streaming : Bool)
    (c : Config P Q R Db Key A) : Option (Config P Q R Db Key A) :=
  match c.snd, c.toSnd with
  | .running st, b :: w =>
    match feed C S store streaming st b with
    | (s, out, n) =>
      some { c with snd := s, toSnd := w, toRcv := c.toRcv ++ out, sSent := c.sSent + (out.map List.length).sum,
                    sGot := c.sGot + n }
  | _, _ => none

/-- One of the two makes a step. -/
def Step (C : Codec P Q R) (S : Srv P Q R Db Key) (store : Store Db Key) (streaming : Bool)
    (c c' : Config P Q R Db Key A) : Prop :=
  stepR C c = some c' ∨ stepS C S store streaming c = some c'

/-- `n` steps, by whoever can. -/
inductive Steps (C : Codec P Q R) (S : Srv P Q R Db Key) (store : Store Db Key) (streaming : Bool) :
    Nat → Config P Q R Db Key A → Config P Q R Db Key A → Prop where
  | refl (c) : Steps C S store streaming 0 c c
  | step {n : Nat} {c c' c'' : Config P Q R Db Key A} : Steps C S store streaming n c c' → Step C S store streaming c' c'' →
      Steps C S store streaming (n + 1) c c''

/-- The beginning. -/
def start (p : Prog P Q R A) (st : St Db Key) : Config P Q R Db Key A := ⟨p, .running st, [], [], 0, 0, 0, 0⟩

end Psi.Session
