import Verif.Elligator.Model
import Verif.X25519.Primes

/-!
# Model of the masks of Curve25519

Source: `psi/cryptor/sodium_curve25519_cryptor.{h,cc}` (all of both) and the masks of
`psi/cryptor/ecc_cryptor.{h,cc}`.

The group `Curve25519` of libsodium multiplies with `crypto_scalarmult`, and the cryptor on ippcp with
`mbx_x25519_mb8`.  Both are the function X25519 of RFC 7748, section 5, which is written out here
(`x25519`).  It takes and gives 32 bytes in little-endian order.

* SHA-256 and Blake3 are parameters.
* The random bytes of the constructor are a parameter.
* libsodium also reports failure when the result is zero; the model returns the zero.  The strings for
  which this happens are those of `C114_vanish`.
* `parallel_for` is a map: each position is written by one thread.
-/

namespace Psi.X25519

open Psi.Elligator

/-! ## X25519 -/

/-- The state of the ladder: the variables `x_2`, `z_2`, `x_3`, `z_3` of RFC 7748, section 5. -/
structure St where
  x2 : Int
  z2 : Int
  x3 : Int
  z3 : Int
deriving DecidableEq, Repr

/-- `cswap` of RFC 7748, section 5. -/
def cswap (b : Bool) (s : St) : St := if b then ⟨s.x3, s.z3, s.x2, s.z2⟩ else s

/-- The body of the loop of RFC 7748, section 5, between the swaps.  `u` is `x_1`. -/
def body (u : Int) (s : St) : St :=
  let a := addMod s.x2 s.z2
  let aa := mulMod a a
  let b := subMod s.x2 s.z2
  let bb := mulMod b b
  let e := subMod aa bb
  let c := addMod s.x3 s.z3
  let d := subMod s.x3 s.z3
  let da := mulMod d a
  let cb := mulMod c b
  let p := addMod da cb
  let m := subMod da cb
  { x3 := mulMod p p
    z3 := mulMod u (mulMod m m)
    x2 := mulMod aa bb
    z2 := mulMod e (addMod aa (mulMod 121665 e)) }

/-- The loop of RFC 7748, section 5, over the bits of `k` from `n - 1` down to 0.  The swap that the
RFC puts off to the next round is done at once. -/
def loop (u : Int) (k : Nat) : Nat → St → St
  | 0, s => s
  | n + 1, s => loop u k n (cswap (k.testBit n) (body u (cswap (k.testBit n) s)))

/-- The last state of the ladder. -/
def ladder (k : Nat) (u : Int) : St := loop u k 255 ⟨1, 0, u, 1⟩

/-- The value that X25519 returns: `x_2 * z_2 ^ (p - 2)`. -/
def mulX (k : Nat) (u : Int) : Int :=
  let s := ladder k u
  mulMod s.x2 (powMod s.z2 (kP - 2))

/-- Bytes of a secret key, adjusted: `decodeScalar25519` of RFC 7748, section 5, and the same in
`SodiumCurve25519Cryptor::SodiumCurve25519Cryptor`: `sodium_curve25519_cryptor.h:49-51`. -/
def clampKey (k : Bytes) : Bytes :=
  (k.set 0 (k.getD 0 0 &&& 248)).set 31 ((k.getD 31 0 &&& 127) ||| 64)

/-- X25519 on bytes: RFC 7748, section 5. -/
def x25519 (k s : Bytes) : Bytes :=
  (be 32 (mulX (leVal (clampKey k)) (x25519Coord s)).toNat).reverse

/-- The base point: RFC 7748, section 4.1. -/
def basePoint : Bytes := (be 32 9).reverse

/-! ## The cryptor -/

/-- `SodiumCurve25519Cryptor::HashToCurve`: `sodium_curve25519_cryptor.cc:25-31`. -/
def hashToCurve25519 (sha : Bytes → Bytes) (item : Bytes) : Bytes := sha item

/-- `IEccCryptor::HashInputs`: `ecc_cryptor.cc:49-58`. -/
def hashInputs (h : Bytes → Bytes) (items : List Bytes) : List Bytes := items.map h

/-- `IEccCryptor::EccMask`: `ecc_cryptor.cc:24-42`.  The scalar is the key read in little-endian order
and libsodium gets it back in that order. -/
def eccMask (key : Bytes) (points : List Bytes) : List Bytes := points.map (x25519 key)

/-- What a party sends in `KeyExchange`: `sodium_curve25519_cryptor.cc:35-40`. -/
def exchangeSend (key : Bytes) : Bytes := x25519 key basePoint

/-- The key that a party derives in `KeyExchange` from what the peer sent:
`sodium_curve25519_cryptor.cc:41-48`. -/
def exchangeKey (blake : Bytes → Bytes) (key peer : Bytes) : Bytes := blake (x25519 key peer)

/-- The items of `mine` that a party with key `a` finds among those of a peer with key `b`: its own
items masked by both keys, the peer's last (`ecdh_psi.cc:104-106,166`), against the peer's items
masked by both keys, its own last.  The batches, the shortening of the masks and the order of the result are
modelled elsewhere. -/
def found (h : Bytes → Bytes) (a b : Bytes) (mine theirs : List Bytes) : List Bytes :=
  let self := eccMask b (eccMask a (hashInputs h mine))
  let peer := eccMask a (eccMask b (hashInputs h theirs))
  ((mine.zip self).filter fun p => peer.contains p.2).map (·.1)

end Psi.X25519
