import Verif.Spiral.PackModel
import Mathlib.Logic.Function.Basic

/-!
# Choice of the curve library and masking in batches

Models `psi/cryptor/cryptor_selector.cc`, `ecc_cryptor.cc`, `ipp_ecc_cryptor.cc`, `sodium_curve25519_cryptor.cc`, `fourq_cryptor.cc`,
`sm2_cryptor.cc` with their headers, the check of `psi/algorithm/ecdh/ecdh_psi.cc:46-58`, and
`psi/algorithm/ecdh/ub_psi/ecdh_oprf_selector.cc`.

The libraries (libsodium, ippcp, FourQlib, OpenSSL behind yacl's `EcGroup`, SHA-256) are parameters.  `HashToCurveElligator2` is
one as well; it is modelled in `Verif/Elligator`.
-/

namespace Psi.Cryptor

open Psi.Spiral (Res mapRes)

abbrev Bytes := List Nat

/-- `CurveType`: `psi/config/curve.h:22-46`. -/
inductive Curve
  | invalid | c25519 | fourq | sm2 | secp256k1 | elligator2
deriving DecidableEq, Repr

/-- The processor that a party runs on: the platform and what `yacl::hasAVX2` and `yacl::hasAVX512ifma` say. -/
structure Cpu where
  x86 : Bool
  avx2 : Bool
  avx512 : Bool
deriving DecidableEq

/-- The classes of cryptors; `Sm2Cryptor` carries the type that it was made with. -/
inductive Kind
  | ipp | sodium | fourq | openssl (type : Curve) | ippElligator | sodiumElligator
deriving DecidableEq, Repr

/-- `GetIppCryptor`: `psi/cryptor/cryptor_selector.cc:35-43`. -/
def getIpp (c : Cpu) : Option Kind := if c.x86 ∧ c.avx512 then some .ipp else none

/-- `GetElligator2IppCryptor`: `psi/cryptor/cryptor_selector.cc:50-58`. -/
def getElligatorIpp (c : Cpu) : Option Kind := if c.x86 ∧ c.avx512 then some .ippElligator else none

/-- `GetFourQCryptor`: `psi/cryptor/cryptor_selector.cc:65-78`. -/
def getFourQ (c : Cpu) : Option Kind := if c.x86 then if c.avx2 then some .fourq else none else some .fourq

/-- `CreateEccCryptor`: `psi/cryptor/cryptor_selector.cc:80-120`. -/
def createEccCryptor (c : Cpu) : Curve → Res Kind
  | .c25519 => match getIpp c with
    | some k => .ok k
    | none => .ok .sodium
  | .fourq => match getFourQ c with
    | some k => .ok k
    | none => .throws
  | .sm2 => .ok (.openssl .sm2)
  | .secp256k1 => .ok (.openssl .secp256k1)
  | .elligator2 => match getElligatorIpp c with
    | some k => .ok k
    | none => .ok .sodiumElligator
  | .invalid => .throws

/-- `GetCurveType`: `psi/cryptor/ipp_ecc_cryptor.h:33`, `sodium_curve25519_cryptor.h:59`, `fourq_cryptor.h:32`, `sm2_cryptor.h:46`.  The
two classes with Elligator inherit it. -/
def Kind.curveType : Kind → Curve
  | .ipp | .sodium | .ippElligator | .sodiumElligator => .c25519
  | .fourq => .fourq
  | .openssl t => t

/-- The groups of the libraries. -/
inductive Group
  | x25519 | fourq | sm2 | secp256k1
deriving DecidableEq, Repr

/-- The group a cryptor computes in: `psi/cryptor/sodium_curve25519_cryptor.h:53-54`, `fourq_cryptor.h:26-27`, `sm2_cryptor.h:29-33`
(the name is `sm2` whatever the type). -/
def Kind.group : Kind → Group
  | .ipp | .sodium | .ippElligator | .sodiumElligator => .x25519
  | .fourq => .fourq
  | .openssl _ => .sm2

/-- A library: multiplication by a key (`none`: it reports an error) and the form of points in messages. -/
structure Lib (P : Type) where
  mul : Bytes → P → Option P
  ser : P → Bytes
  de : Bytes → Option P

/-- The libraries.  `lane` is one lane of `mbx_x25519_mb8`; points of Curve25519 are arrays of 32 bytes.
`secp` and `secpHash` are what OpenSSL would give for the group `secp256k1`. -/
structure Prims (F S : Type) where
  sha : Bytes → Bytes
  elligator : Bytes → Option Bytes
  fourqHash : Bytes → Option F
  smHash : Bytes → Option S
  secpHash : Bytes → Option S
  x : Lib Bytes
  lane : Bytes → Bytes → Option Bytes
  f : Lib F
  s : Lib S
  secp : Lib S

/-- A result of a library that is checked. -/
def check {α : Type} : Option α → Res α
  | some a => .ok a
  | none => .throws

section

variable {P : Type}

/-- A step for every index of the chunks, in the order in which the threads take them: the bodies of `yacl::parallel_for`. -/
def parallelFor (body : (Nat → Option P) → Nat → Res (Nat → Option P)) : List Nat → (Nat → Option P) → Res (Nat → Option P)
  | [], ret => .ok ret
  | i :: is, ret => (body ret i).bind fun ret' => parallelFor body is ret'

/-- The vector at the end; a place that was not written holds a default point. -/
def collect (default : P) (n : Nat) (ret : Nat → Option P) : List P := (List.range n).map fun i => (ret i).getD default

/-- The indices of chunks `[begin, end)`. -/
def indices (chunks : List (Nat × Nat)) : List Nat := chunks.flatMap fun c => List.range' c.1 (c.2 - c.1)

/-- One step of a loop that sets `ret[idx]` from `in[idx]`. -/
def eachStep {α : Type} (f : α → Res P) (input : List α) (ret : Nat → Option P) (i : Nat) : Res (Nat → Option P) :=
  match input[i]? with
  | none => .undefined
  | some a => (f a).bind fun b => .ok (Function.update ret i (some b))

/-- The loops `psi/cryptor/ecc_cryptor.cc:29-35, 49-57, 59-68, 70-79`. -/
def each {α : Type} (f : α → Res P) (default : P) (input : List α) (chunks : List (Nat × Nat)) : Res (List P) :=
  (parallelFor (eachStep f input) (indices chunks) fun _ => none).bind fun ret =>
    .ok (collect default input.length ret)

end

/-- The eight input lanes: `psi/cryptor/ipp_ecc_cryptor.cc:46-54`; lanes that are not needed repeat the first point. -/
def lanes (batch : List Bytes) : List (Option Bytes) :=
  (List.range 8).map fun i => if i < batch.length then batch[i]? else batch[0]?

/-- One lane of `mbx_x25519_mb8`: `psi/cryptor/ipp_ecc_cryptor.cc:55-56`. -/
def laneOf {F S : Type} (L : Prims F S) (key : Bytes) : Option Bytes → Res (Option Bytes)
  | none => .undefined
  | some p => .ok (L.lane key p)

/-- `mask_functor` on a batch of at most eight points at `idx`: `psi/cryptor/ipp_ecc_cryptor.cc:39-58`.  The status is not 0 if a lane
reports an error.  Lanes that are not needed write to a buffer that nobody reads. -/
def maskBatch {F S : Type} (L : Prims F S) (key : Bytes) (idx : Nat) (batch : List Bytes) (ret : Nat → Option Bytes) :
    Res (Nat → Option Bytes) :=
  (mapRes (laneOf L key) (lanes batch)).bind fun outs =>
    if outs.all Option.isSome then
      .ok fun i => if idx ≤ i ∧ i < idx + batch.length then (outs[i - idx]?).join else ret i
    else .throws

/-- The batches of a chunk: `psi/cryptor/ipp_ecc_cryptor.cc:61-68`. -/
def starts (c : Nat × Nat) : List (Nat × Nat) :=
  (List.range ((c.2 - c.1 + 7) / 8)).map fun k => (c.1 + 8 * k, min 8 (c.2 - (c.1 + 8 * k)))

/-- `IppEccCryptor::EccMask`: `psi/cryptor/ipp_ecc_cryptor.cc:31-70`.  A default point is 32 zero bytes. -/
def ippMask {F S : Type} (L : Prims F S) (key : Bytes) (points : List Bytes) (chunks : List (Nat × Nat)) : Res (List Bytes) :=
  (go (chunks.flatMap starts) fun _ => none).bind fun ret => .ok (collect (List.replicate 32 0) points.length ret)
where
  /-- One batch after the other. -/
  go : List (Nat × Nat) → (Nat → Option Bytes) → Res (Nat → Option Bytes)
    | [], ret => .ok ret
    | (idx, n) :: bs, ret =>
      if points.length < idx + n then .undefined
      else (maskBatch L key idx ((points.drop idx).take n) ret).bind fun ret' => go bs ret'

section

variable {F S : Type}

/-- The points that travel between the parties, masked with a key: `DeserializeEcPoints`, `EccMask`, `SerializeEcPoints`.
`cs` are the chunks of the three loops. -/
def maskWire (L : Prims F S) (k : Kind) (key : Bytes) (msgs : List Bytes) (cs : Fin 3 → List (Nat × Nat)) (f0 : F) (s0 : S) :
    Res (List Bytes) :=
  match k with
  | .ipp | .ippElligator =>
    (each (fun b => if b.length = 32 then .ok b else .throws) (List.replicate 32 0) msgs (cs 0)).bind fun ps =>
      (ippMask L key ps (cs 1)).bind fun qs => each (fun b => .ok b) [] qs (cs 2)
  | .sodium | .sodiumElligator =>
    (each (fun b => check (L.x.de b)) (List.replicate 32 0) msgs (cs 0)).bind fun ps =>
      (each (fun p => check (L.x.mul key p)) (List.replicate 32 0) ps (cs 1)).bind fun qs => each (fun p => .ok (L.x.ser p)) [] qs (cs 2)
  | .fourq =>
    (each (fun b => check (L.f.de b)) f0 msgs (cs 0)).bind fun ps =>
      (each (fun p => check (L.f.mul key p)) f0 ps (cs 1)).bind fun qs => each (fun p => .ok (L.f.ser p)) [] qs (cs 2)
  | .openssl _ =>
    (each (fun b => check (L.s.de b)) s0 msgs (cs 0)).bind fun ps =>
      (each (fun p => check (L.s.mul key p)) s0 ps (cs 1)).bind fun qs => each (fun p => .ok (L.s.ser p)) [] qs (cs 2)

/-- The own items masked: `HashInputs`, `EccMask`, `SerializeEcPoints`: the hash functions of the classes are
`psi/cryptor/ipp_ecc_cryptor.cc:72-75, 93-96`, `sodium_curve25519_cryptor.cc:25-31, 51-54`, `fourq_cryptor.cc:19-23`,
`sm2_cryptor.cc:21-26`. -/
def maskItems (L : Prims F S) (k : Kind) (key : Bytes) (items : List Bytes) (cs : Fin 3 → List (Nat × Nat)) (f0 : F) (s0 : S) :
    Res (List Bytes) :=
  match k with
  | .ipp =>
    (each (fun b => .ok (L.sha b)) (List.replicate 32 0) items (cs 0)).bind fun ps =>
      (ippMask L key ps (cs 1)).bind fun qs => each (fun b => .ok b) [] qs (cs 2)
  | .ippElligator =>
    (each (fun b => check (L.elligator b)) (List.replicate 32 0) items (cs 0)).bind fun ps =>
      (ippMask L key ps (cs 1)).bind fun qs => each (fun b => .ok b) [] qs (cs 2)
  | .sodium =>
    (each (fun b => .ok (L.sha b)) (List.replicate 32 0) items (cs 0)).bind fun ps =>
      (each (fun p => check (L.x.mul key p)) (List.replicate 32 0) ps (cs 1)).bind fun qs => each (fun p => .ok (L.x.ser p)) [] qs (cs 2)
  | .sodiumElligator =>
    (each (fun b => check (L.elligator b)) (List.replicate 32 0) items (cs 0)).bind fun ps =>
      (each (fun p => check (L.x.mul key p)) (List.replicate 32 0) ps (cs 1)).bind fun qs => each (fun p => .ok (L.x.ser p)) [] qs (cs 2)
  | .fourq =>
    (each (fun b => check (L.fourqHash b)) f0 items (cs 0)).bind fun ps =>
      (each (fun p => check (L.f.mul key p)) f0 ps (cs 1)).bind fun qs => each (fun p => .ok (L.f.ser p)) [] qs (cs 2)
  | .openssl _ =>
    (each (fun b => check (L.smHash b)) s0 items (cs 0)).bind fun ps =>
      (each (fun p => check (L.s.mul key p)) s0 ps (cs 1)).bind fun qs => each (fun p => .ok (L.s.ser p)) [] qs (cs 2)

end

/-- `EcdhPsiContext::CheckConfig`: `psi/algorithm/ecdh/ecdh_psi.cc:46-58`: the target rank and `GetCurveType` of the cryptors. -/
def checkConfig (mine peer : Nat × Kind) : Bool := mine.1 = peer.1 ∧ mine.2.curveType = peer.2.curveType

/-! ## The oblivious function of the unbalanced PSI -/

/-- `Sm2Cryptor::GetEcGroupId`: `psi/cryptor/sm2_cryptor.h:51-61`. -/
def groupId : Curve → Res Group
  | .secp256k1 => .ok .secp256k1
  | .sm2 => .ok .sm2
  | _ => .throws

/-- `CreateEcdhOprfServer` with and without a key, `CreateEcdhOprfClient` with and without a key:
`psi/algorithm/ecdh/ub_psi/ecdh_oprf_selector.cc:24-66, 68-106, 108-143, 145-182`, with the constructors
`psi/algorithm/ecdh/ub_psi/basic_ecdh_oprf.h:55-64`, `basic_ecdh_oprf.cc:194-212`: the group that is used.  All four have the same cases. -/
def createOprf (c : Cpu) : Curve → Res Group
  | .fourq => if c.x86 then if c.avx2 then .ok .fourq else .throws else .ok .fourq
  | .secp256k1 => groupId .secp256k1
  | .sm2 => groupId .sm2
  | _ => .throws

end Psi.Cryptor
