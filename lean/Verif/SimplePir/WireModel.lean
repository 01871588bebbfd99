import Verif.SimplePir.Model
import Verif.Pps.Model

/-!
# SimplePIR: messages and objects

Models `experiment/pir/simplepir/network_util.cc`, which turns vectors and seeds into messages and back, and the state
that the objects of `experiment/pir/simplepir/{client,server}.{h,cc}` keep between calls.

Simplified: the link delivers the bytes that were sent, in the order in which they were sent; `size_t` has 8 bytes, lowest
first; `mem` is the number of words for which `std::vector` finds memory; the words that a seed stands for (`gen`) are a
parameter.
-/

namespace Psi.SimplePir

open Psi.Spiral (Res mapRes w64)
open Psi.Pps (leBytes ofLeBytes readWords)

/-! ### Messages -/

/-- `SerializeVector`: `network_util.cc:22-40`. -/
def vectorBytes (v : List Nat) : List Nat := leBytes 8 v.length ++ v.flatMap (leBytes 8)

/-- `DeserializeVector`: `network_util.cc:49-70`.  Neither the length of the message nor the number in its head is
checked. -/
def vectorOfBytes (mem : Nat) (b : List Nat) : Res (List Nat) :=
  if b.length < 8 then .undefined
  else if mem < ofLeBytes (b.take 8) then .throws
  else (readWords 8 (ofLeBytes (b.take 8)) (b.drop 8)).bind fun r => .ok r.1

/-- `SerializeUint128`: `network_util.cc:42-47`. -/
def seedBytes (v : Nat) : List Nat := leBytes 16 v

/-- `DeserializeUint128`: `network_util.cc:72-80`. -/
def seedOfBytes (b : List Nat) : Res Nat := if b.length < 16 then .undefined else .ok (ofLeBytes (b.take 16))

/-- `SendVector` and `RecvVector`: `network_util.cc:82-86`, `network_util.cc:93-97`. -/
def passVector (mem : Nat) (v : List Nat) : Res (List Nat) := vectorOfBytes mem (vectorBytes v)

/-- `SendUint128` and `RecvUint128`: `network_util.cc:88-91`, `network_util.cc:99-102`. -/
def passSeed (v : Nat) : Res Nat := seedOfBytes (seedBytes v)

/-! ### Objects -/

/-- `SimplePirClient`: `client.h:60-69`. -/
structure Client where
  A : List (List Nat) := []
  hint : List (List Nat) := []
  s : List Nat := []
  row : Nat := 0
deriving DecidableEq, Repr

/-- `Setup`: `client.cc:39-55`.  The sizes of the two matrices are those of the constructor, so that a second call
overwrites every word. -/
def Client.setup (P : Par) (gen : Nat → Nat → Nat) (c : Client) (seed : Nat) (hint : List Nat) : Res Client :=
  (hintMatrix P hint).bind fun H => .ok { c with A := clientMatrix P (gen seed), hint := H }

/-- `Query`: `client.cc:57-80`.  Without `Setup` there are no rows of the matrix. -/
def Client.query (P : Par) (c : Client) (s : List Nat) (e : List Int) (idx : Nat) : Res (Client × List Nat) :=
  if P.N ≤ idx then .throws
  else if P.q ≤ 1 then .throws
  else if c.A.length < P.rows then .undefined
  else (SimplePir.query P c.A s e idx).bind fun qu => .ok ({ c with s := s, row := idx / P.rows }, qu)

/-- `Recover`: `client.cc:82-90`. -/
def Client.recover (P : Par) (c : Client) (ans : List Nat) : Res Nat :=
  match ans[c.row]?, c.hint[c.row]? with
  | some a, some h => (innerProduct h c.s P.q).bind fun x => roundDiv P (w64 (a + 2 ^ 64 - x))
  | _, _ => .undefined

/-- `SimplePirServer`: `server.h:58-64`. -/
structure Server where
  db : List (List Nat) := []
  A : List (List Nat) := []
  seed : Nat := 0

/-- `SetDatabase`: `server.cc:35-50`. -/
def Server.setDatabase (P : Par) (V : Server) (db : List (List Nat)) : Res Server :=
  (SimplePir.setDatabase P db).bind fun db => .ok { V with db := db }

/-- `GenerateLweMatrix`: `server.cc:52-64`. -/
def Server.generate (P : Par) (gen : Nat → Nat → Nat) (V : Server) (seed : Nat) : Server :=
  { V with A := serverMatrix P (gen seed), seed := seed }

/-- `GetHint`: `server.cc:68-83`; without a database or a matrix it reads rows that are not there. -/
def Server.hint (P : Par) (V : Server) : Res (List Nat) :=
  if V.db = [] ∨ V.A = [] then .undefined else getHint P V.db V.A

/-- `Answer`: `server.cc:85-95`. -/
def Server.answer (P : Par) (V : Server) (qu : List Nat) : Res (List Nat) :=
  if V.db = [] then .undefined else SimplePir.answer P V.db qu

/-- The client gets seed and hint (`pir_test.cc:52-70`). -/
def connect (mem : Nat) (P : Par) (gen : Nat → Nat → Nat) (V : Server) (c : Client) : Res Client :=
  (V.hint P).bind fun h =>
  (passSeed V.seed).bind fun seed =>
  (passVector mem h).bind fun h => c.setup P gen seed h

/-- One query, its answer and the entry (`pir_test.cc:72-92`). -/
def ask (mem : Nat) (P : Par) (V : Server) (c : Client) (s : List Nat) (e : List Int) (idx : Nat) : Res (Client × Nat) :=
  (c.query P s e idx).bind fun r =>
  (passVector mem r.2).bind fun qu =>
  (V.answer P qu).bind fun ans =>
  (passVector mem ans).bind fun ans =>
  (r.1.recover P ans).bind fun v => .ok (r.1, v)

/-- Queries one after the other. -/
def askAll (mem : Nat) (P : Par) (V : Server) : Client → List (List Nat × List Int × Nat) → Res (List Nat)
  | _, [] => .ok []
  | c, (s, e, idx) :: rest =>
    (ask mem P V c s e idx).bind fun r => (askAll mem P V r.1 rest).bind fun vs => .ok (r.2 :: vs)

/-- Two queries are sent before the answer to the first is used. -/
def askTwo (mem : Nat) (P : Par) (V : Server) (c : Client) (s s' : List Nat) (e e' : List Int) (i j : Nat) :
    Res (Nat × Nat) :=
  (c.query P s e i).bind fun r =>
  (r.1.query P s' e' j).bind fun r' =>
  (passVector mem r.2).bind fun qu =>
  (V.answer P qu).bind fun ans =>
  (passVector mem r'.2).bind fun qu' =>
  (V.answer P qu').bind fun ans' =>
  (passVector mem ans).bind fun ans =>
  (passVector mem ans').bind fun ans' =>
  (r'.1.recover P ans).bind fun v => (r'.1.recover P ans').bind fun v' => .ok (v, v')

end Psi.SimplePir
