import Verif.UbPsi.Model
import Verif.Common.Spec
import Mathlib.Data.Nat.GCD.Basic
import Mathlib.Algebra.Group.Basic

/-!
# What the theorems about UB-PSI assume and claim
-/

namespace Psi.UbPsi
open Psi.Ecdh (Bytes)
open Psi.Spec (peerRows ExactIndex)

variable {α G : Type} [AddCommGroup G]

/-- What the proofs use of the curve and the hash function. -/
structure Curve.Lawful (c : Curve α G) : Prop where
  order : ∀ g : G, c.order • g = 0
  inverse : ∀ k, Nat.Coprime k c.order → (k * c.inverse k) % c.order = 1 % c.order
  /-- The neutral element is never hashed to. -/
  point : ∀ x, c.point x ≠ 0
  /-- Decoding inverts encoding, except for the neutral element, which has no coordinates. -/
  round : ∀ g, g ≠ 0 → c.dec (c.enc g) = some g
  encLen : ∀ g, (c.enc g).length = c.pointLen
  lenPos : 0 < c.pointLen
  digestLen : ∀ b, c.cmpLen ≤ (c.digest b).length
  cmpLt : c.cmpLen < maxCipher

/-- A key that is no multiple of a divisor of the order (for a prime order: not 0 modulo the order). -/
def Curve.GoodKey (c : Curve α G) (key : Bytes) : Prop := Nat.Coprime (c.scalar key) c.order

/-- The value of the OPRF, as a mathematical function. -/
def Curve.tag (c : Curve α G) (key : Bytes) (x : α) : Bytes :=
  (c.digest (c.enc (c.scalar key • c.point x))).take c.cmpLen

/-- Different keys have different OPRF values. -/
def NoClash (c : Curve α G) (key : Bytes) (keys : List α) : Prop :=
  ∀ x ∈ keys, ∀ y ∈ keys, c.tag key x = c.tag key y → x = y

/-- Assumptions on the input of one online phase, given the server's key and items. -/
structure GoodSession (c : Curve α G) (key : Bytes) (server : List (α × Nat)) (o : Online α) (keyFile : Option Bytes) :
    Prop where
  /-- The server evaluates with the key of its cache. -/
  keyFile : keyFile = none ∨ keyFile = some key
  r : c.GoodKey o.r
  nodup : (o.input.flatten.map Prod.fst).Nodup
  noClash : NoClash c key (o.input.flatten.map Prod.fst ++ server.map Prod.fst)
  perm : ∀ n, (o.perm n).Perm (List.range n)
  batch : 0 < o.batch
  threads : 0 < o.threads
  small : peerRows o.input.flatten < 2 ^ 32

/-- What an online phase must give: to the client, if it is to get the result, exactly the positions of its
items that are also the server's with the server's duplicate counts, and the number of rows of the server; to
the server the same with the roles exchanged; and nothing to a party that is not to get the result. -/
structure ExactResult (server client : List (α × Nat)) (clientGets serverGets : Bool) (res : Result) : Prop where
  forClient : if clientGets then ∃ w, res.client = some (w, peerRows server) ∧ ExactIndex client server w
    else res.client = none
  forServer : if serverGets then ∃ w, res.server = some (w, peerRows client) ∧ ExactIndex server client w
    else res.server = none

end Psi.UbPsi
