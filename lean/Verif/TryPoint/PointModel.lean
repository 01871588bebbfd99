import Verif.TryPoint.Model

/-!
# Points as bytes

Models how the OPRF on SM2 and secp256k1 reads, multiplies and writes points
(`psi/cryptor/ecc_utils.h:212-246`, `psi/algorithm/ecdh/ub_psi/basic_ecdh_oprf.cc:60-144`).

Parameters: the multiplication of points, `EC_POINT_mul`; `none` is the point at infinity.  Only strings of 33 bytes are
read as points, since the messages are cut into pieces of this length (`Verif/UbPsi/Model.lean`), so the forms of a point
that OpenSSL writes with 1 or 65 bytes are not read here.
-/

namespace Psi.TryPoint

open Psi.Spiral (Res)
open Psi.Ecdh (Bytes)

/-- The root of the given parity: `EC_POINT_set_compressed_coordinates` (`psi/cryptor/ecc_utils.h:177-178`). -/
def Curve.root (C : Curve) (bit x : Nat) : Option Nat :=
  (List.range C.p).find? fun y => y % 2 = bit ∧ C.On x y

/-- `EC_POINT_oct2point` of OpenSSL on 33 bytes (`psi/algorithm/ecdh/ub_psi/basic_ecdh_oprf.cc:79-82`): 2 or 3, then the
first coordinate, which has to be reduced.  `none`: it fails, and the new point stays the one at infinity; the return
value is not looked at. -/
def Curve.decode (C : Curve) : Bytes → Option (Nat × Nat)
  | [] => none
  | h :: t =>
    if t.length = 32 ∧ (h = 2 ∨ h = 3) ∧ ofBytes t < C.p then
      (C.root (h.toNat % 2) (ofBytes t)).map fun y => (ofBytes t, y)
    else none

/-- The compressed form: `EC_POINT_point2oct` (`psi/cryptor/ecc_utils.h:228-231`). -/
def compress (P : Nat × Nat) : Bytes := UInt8.ofNat (2 + P.2 % 2) :: numBytes P.1

/-- `EcPointSt::ToBytes`: `psi/cryptor/ecc_utils.h:218-236`.  The point at infinity takes one byte, which is refused. -/
def encode : Option (Nat × Nat) → Res Bytes
  | none => .throws
  | some P => .ok (compress P)

/-- `EcPointMul`: `psi/algorithm/ecdh/ub_psi/basic_ecdh_oprf.cc:68-92`; `n` is the order of the group. -/
def Curve.pointMul (C : Curve) (mul : Nat → Option (Nat × Nat) → Option (Nat × Nat)) (n : Nat) (key b : Bytes) :
    Res Bytes :=
  if key.length ≠ 32 then .throws else encode (mul (ofBytes key % n) (C.decode b))

/-- `ItemMul`: `psi/algorithm/ecdh/ub_psi/basic_ecdh_oprf.cc:102-122`. -/
def Curve.itemMul (C : Curve) (sha : Bytes → Bytes) (mul : Nat → Option (Nat × Nat) → Option (Nat × Nat)) (n : Nat)
    (key m : Bytes) : Res Bytes :=
  if key.length ≠ 32 then .throws
  else
    match C.hash sha m with
    | .ok P => encode (mul (ofBytes key % n) (some P))
    | .throws => .throws
    | .undefined => .undefined

/-- `EccPrivateKeyInv`: `psi/algorithm/ecdh/ub_psi/basic_ecdh_oprf.cc:124-144`, `BigNumSt::Inverse`
(`psi/cryptor/ecc_utils.h:112-119`); `inv` is `BN_mod_inverse`. -/
def keyInv (inv : Nat → Nat) (n : Nat) (key : Bytes) : Bytes := numBytes (inv (ofBytes key % n))

end Psi.TryPoint
