import Verif.Spiral.PackModel
import Mathlib.Data.Nat.Sqrt

/-!
# SimplePIR

Models `experiment/pir/simplepir/{client,server,util}.cc`: sizes, the matrix made from a seed, the hint, the query, the
answer and the recovery of the entry.

The words drawn from the seed, the secret vector and the errors are parameters.  Simplified: `sqrt` and
`floor(double(q) / double(p))` are exact (they are for numbers below `2 ^ 53`); the messages between client and server
(`network_util.cc`) are the vectors themselves (their bytes are in `WireModel.lean`); the table of the Gaussian distribution, which is floating point, is left
out, and the errors are any integers of the type `int`.
-/

namespace Psi.SimplePir

open Psi.Spiral (Res mapRes w64)

/-- The arguments of the constructors. -/
structure Par where
  dim : Nat
  q : Nat
  N : Nat
  p : Nat

/-- The number of rows and columns: `sqrt(N)`. -/
def Par.rows (P : Par) : Nat := Nat.sqrt P.N

/-- `delta_`: `client.cc:33-34`. -/
def Par.delta (P : Par) : Nat := P.q / P.p

/-- The checks of both constructors: `client.cc:26-31`, `server.cc:27-32`. -/
def Par.accepted (P : Par) : Prop :=
  0 < P.N ∧ P.N = P.rows * P.rows ∧ 0 < P.dim ∧ 0 < P.q ∧ 0 < P.p

instance (P : Par) : Decidable P.accepted := by unfold Par.accepted; infer_instance

/-- `InnerProductModq`: `util.cc:44-59`, with a sum of 128 bits. -/
def innerProduct (row col : List Nat) (q : Nat) : Res Nat :=
  if row.length ≠ col.length then .throws
  else if q = 0 then .throws
  else .ok ((row.zip col).foldl (fun a x => (a + x.1 * x.2) % 2 ^ 128) 0 % q)

/-! ### Server -/

/-- `SetDatabase`: `server.cc:35-50`. -/
def setDatabase (P : Par) (db : List (List Nat)) : Res (List (List Nat)) :=
  if db = [] then .throws
  else if db.length ≠ P.rows then .throws
  else if (db.headD []).length ≠ P.rows then .throws
  else .ok db

/-- `GenerateLweMatrix`: `server.cc:52-64`.  `rand` are the words drawn from the seed. -/
def serverMatrix (P : Par) (rand : Nat → Nat) : List (List Nat) :=
  (List.range P.dim).map fun i => (List.range P.rows).map fun j => rand (i * P.rows + j) % P.q

/-- One entry of the hint: `server.cc:77`. -/
def hintEntry (P : Par) (db A : List (List Nat)) (i j : Nat) : Res Nat :=
  innerProduct (db.getD i []) (A.getD j []) P.q

/-- `GetHint`: `server.cc:68-83`. -/
def getHint (P : Par) (db A : List (List Nat)) : Res (List Nat) :=
  mapRes (fun k => hintEntry P db A (k / P.dim) (k % P.dim)) (List.range (P.rows * P.dim))

/-- `Answer`: `server.cc:85-95`. -/
def answer (P : Par) (db : List (List Nat)) (qu : List Nat) : Res (List Nat) :=
  mapRes (fun i => innerProduct (db.getD i []) qu P.q) (List.range P.rows)

/-- `GetValue`: `server.cc:97-106`. -/
def getValue (P : Par) (db : List (List Nat)) (idx : Nat) : Res Nat :=
  if P.N ≤ idx then .throws else .ok ((db.getD (idx / P.rows) []).getD (idx % P.rows) 0)

/-! ### Client -/

/-- The matrix of the client, transposed: `client.cc:40-55`. -/
def clientMatrix (P : Par) (rand : Nat → Nat) : List (List Nat) :=
  (List.range P.rows).map fun i => (List.range P.dim).map fun j => rand (j * P.rows + i) % P.q

/-- The hint as a matrix: `client.cc:52`. -/
def hintMatrix (P : Par) (hint : List Nat) : Res (List (List Nat)) :=
  if hint.length < P.rows * P.dim then .undefined
  else .ok ((List.range P.rows).map fun i => (List.range P.dim).map fun j => hint.getD (i * P.dim + j) 0)

/-- An `int` converted to `uint64_t`. -/
def toU64 (e : Int) : Nat := (e % 2 ^ 64).toNat

/-- One word of the query: `client.cc:74-76`. -/
def queryWord (P : Par) (A : List (List Nat)) (s : List Nat) (e : List Int) (col i : Nat) : Res Nat :=
  (innerProduct (A.getD i []) s P.q).bind fun x =>
  .ok (w64 (w64 (x + if i = col then P.delta else 0) + toU64 (e.getD i 0)) % P.q)

/-- `Query`: `client.cc:57-80`.  `GenerateRandomVector` (`util.cc:22-42`) wants a modulus above 1. -/
def query (P : Par) (A : List (List Nat)) (s : List Nat) (e : List Int) (idx : Nat) : Res (List Nat) :=
  if P.N ≤ idx then .throws
  else if P.q ≤ 1 then .throws
  else mapRes (queryWord P A s e (idx % P.rows)) (List.range P.rows)

/-- The rounding of `Recover`: `client.cc:86-89`. -/
def roundDiv (P : Par) (phase : Nat) : Res Nat :=
  if P.delta = 0 then .undefined
  else .ok ((if P.delta / 2 ≤ phase % P.delta then phase / P.delta + 1 else phase / P.delta) % P.p)

/-- `Recover`: `client.cc:82-90`.  The difference is one of 64-bit words; it is not reduced modulo `q`. -/
def recover (P : Par) (hint : List (List Nat)) (s : List Nat) (idx : Nat) (ans : List Nat) : Res Nat :=
  match ans[idx / P.rows]? with
  | none => .undefined
  | some a => (innerProduct (hint.getD (idx / P.rows) []) s P.q).bind fun h => roundDiv P (w64 (a + 2 ^ 64 - h))

/-- The whole exchange (`pir_test.cc:40-91`). -/
def retrieve (P : Par) (rand : Nat → Nat) (db : List (List Nat)) (s : List Nat) (e : List Int) (idx : Nat) : Res Nat :=
  if ¬ P.accepted then .throws
  else
    (setDatabase P db).bind fun db =>
    (getHint P db (serverMatrix P rand)).bind fun hint =>
    (hintMatrix P hint).bind fun H =>
    (query P (clientMatrix P rand) s e idx).bind fun qu =>
    (answer P db qu).bind fun ans =>
    recover P H s idx ans

end Psi.SimplePir
