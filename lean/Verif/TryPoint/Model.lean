import Verif.Spiral.PackModel
import Verif.Ecdh.Model

/-!
# Hash to a curve by trying and hashing again

Models `CreateEcPointByHashToCurve` and the conversions of numbers it uses (`psi/cryptor/ecc_utils.h:61-122, 154-206`),
which the unbalanced PSI uses on SM2 and secp256k1 (`psi/algorithm/ecdh/ub_psi/basic_ecdh_oprf.cc:102-122`).

Parameters: SHA-256, as any function of bytes.  `EC_POINT_set_compressed_coordinates` of OpenSSL gives the point with
the even second coordinate, if there is one; here it is searched for among all numbers below the prime.
-/

namespace Psi.TryPoint

open Psi.Spiral (Res)
open Psi.Ecdh (Bytes)

/-- `EcGroupSt`: the curve `y² = x³ + ax + b` over the numbers modulo `p` (`psi/cryptor/ecc_utils.h:124-152`). -/
structure Curve where
  p : Nat
  a : Nat
  b : Nat

/-- `BN_bin2bn`: `psi/cryptor/ecc_utils.h:85-94`: the first byte is the highest. -/
def ofBytes (s : Bytes) : Nat := s.foldl (fun n c => 256 * n + c.toNat) 0

/-- `BN_bn2binpad` (`psi/cryptor/ecc_utils.h:79`): `k` bytes, the highest first. -/
def toBytes : Nat → Nat → Bytes
  | 0, _ => []
  | k + 1, n => toBytes k (n / 256) ++ [UInt8.ofNat n]

/-- `BigNumSt::ToBytes`: `psi/cryptor/ecc_utils.h:76-83`; `kEc256KeyLength` is 32 (`psi/cryptor/ecc_utils.h:31`). -/
def numBytes (x : Nat) : Bytes := toBytes 32 x

/-- `x` and `y` are the coordinates of a point. -/
def Curve.On (C : Curve) (x y : Nat) : Prop := y * y % C.p = (x * x * x + C.a * x + C.b) % C.p

instance (C : Curve) (x y : Nat) : Decidable (C.On x y) := inferInstanceAs (Decidable (_ = _))

/-- `EC_POINT_set_compressed_coordinates` with the bit 0: `psi/cryptor/ecc_utils.h:177-178`. -/
def Curve.lift (C : Curve) (x : Nat) : Option Nat :=
  (List.range C.p).find? fun y => y % 2 = 0 ∧ C.On x y

/-- `bn_x.FromBytes(Sha256(m), p)`: `psi/cryptor/ecc_utils.h:172, 187-191`,
`FromBytes` modulo `p` (`psi/cryptor/ecc_utils.h:96-110`). -/
def Curve.coord (C : Curve) (sha : Bytes → Bytes) (m : Bytes) : Nat := ofBytes (sha m) % C.p

/-- The loop: `psi/cryptor/ecc_utils.h:174-196`.  `tries` are left;
when the last one fails the counter has reached its guard. -/
def Curve.loop (C : Curve) (sha : Bytes → Bytes) : Nat → Nat → Res (Nat × Nat)
  | 0, _ => .throws
  | tries + 1, x =>
    match C.lift x with
    | some y => .ok (x, y)
    | none => C.loop sha tries (C.coord sha (numBytes x))

/-- `CreateEcPointByHashToCurve`: `psi/cryptor/ecc_utils.h:164-206`;
`kHashToCurveCounterGuard` is 100 (`psi/cryptor/ecc_utils.h:154`). -/
def Curve.hash (C : Curve) (sha : Bytes → Bytes) (m : Bytes) : Res (Nat × Nat) := C.loop sha 100 (C.coord sha m)

/-- SM2 (`NID_sm2` of OpenSSL, GM/T 0003.5). -/
def sm2 : Curve where
  p := 0xFFFFFFFEFFFFFFFFFFFFFFFFFFFFFFFFFFFFFFFF00000000FFFFFFFFFFFFFFFF
  a := 0xFFFFFFFEFFFFFFFFFFFFFFFFFFFFFFFFFFFFFFFF00000000FFFFFFFFFFFFFFFC
  b := 0x28E9FA9E9D9F5E344D5A9E4BCF6509A7F39789F515AB8F92DDBCBD414D940E93

/-- secp256k1 (`NID_secp256k1` of OpenSSL, SEC 2). -/
def secp256k1 : Curve where
  p := 0xFFFFFFFFFFFFFFFFFFFFFFFFFFFFFFFFFFFFFFFFFFFFFFFFFFFFFFFEFFFFFC2F
  a := 0
  b := 7

end Psi.TryPoint
