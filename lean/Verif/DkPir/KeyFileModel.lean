import Verif.DkPir.Model

/-!
# DK-PIR: the file with the secret key

Models `Save` and `Load` of `psi/algorithm/dkpir/common.cc:49-82` with the message `SecretKeyProto`
(`psi/algorithm/dkpir/secret_key.proto:19-22`), and how the file comes about (`sender_cnt_db.cc:47-85`) and is used
(`sender.cc:195-209`).

The bytes are those of the protobuf wire format, as its documentation gives it: a field is a tag and a value; numbers
have seven bits in a byte, lowest first; repeated numbers are packed, and read in both forms; of a field that is not
repeated the last one counts; unknown fields are skipped.  Simplified: a group (an outdated kind of field) is refused.
The bytes of a big number (`MPInt::Serialize`, yacl) are a parameter.
-/

namespace Psi.DkPir

open Psi.Spiral (Res)

/-- A number, seven bits in a byte. -/
def varint (n : Nat) : List Nat := if n < 128 then [n] else (n % 128 + 128) :: varint (n / 128)

/-- A number of at most `k` bytes and what follows it. -/
def readVarint : Nat → List Nat → Option (Nat × List Nat)
  | 0, _ => none
  | _ + 1, [] => none
  | k + 1, x :: b => if x < 128 then some (x, b) else (readVarint k b).map fun r => (x - 128 + 128 * r.1, r.2)

/-- A length and the bytes it counts; lengths stop below `2 ^ 31 - 16`. -/
def readBlock (b : List Nat) : Option (List Nat × List Nat) :=
  (readVarint 5 b).bind fun r =>
    if r.1 ≤ 2 ^ 31 - 1 - 16 ∧ r.1 ≤ r.2.length then some (r.2.take r.1, r.2.drop r.1) else none

/-- The numbers of a packed field.  `k` bounds their number. -/
def readPacked : Nat → List Nat → Option (List Nat)
  | _, [] => some []
  | 0, _ => none
  | k + 1, b => (readVarint 10 b).bind fun r => (readPacked k r.2).map fun vs => r.1 % 2 ^ 64 :: vs

/-- `SecretKeyProto`: `secret_key.proto:19-22`. -/
structure KeyProto where
  polynomial : List Nat := []
  secretKey : List Nat := []
deriving DecidableEq, Repr

/-- One field is read into the message. -/
def readField (m : KeyProto) (b : List Nat) : Option (KeyProto × List Nat) :=
  (readVarint 5 b).bind fun t =>
    let tag := t.1 % 2 ^ 32
    if tag = 10 then
      (readBlock t.2).bind fun r => (readPacked r.1.length r.1).map fun vs =>
        ({ m with polynomial := m.polynomial ++ vs }, r.2)
    else if tag = 8 then
      (readVarint 10 t.2).map fun r => ({ m with polynomial := m.polynomial ++ [r.1 % 2 ^ 64] }, r.2)
    else if tag = 18 then (readBlock t.2).map fun r => ({ m with secretKey := r.1 }, r.2)
    else if tag / 8 = 0 then none
    else match tag % 8 with
      | 0 => (readVarint 10 t.2).map fun r => (m, r.2)
      | 1 => if 8 ≤ t.2.length then some (m, t.2.drop 8) else none
      | 2 => (readBlock t.2).map fun r => (m, r.2)
      | 5 => if 4 ≤ t.2.length then some (m, t.2.drop 4) else none
      | _ => none

/-- `ParsePartialFromIstream`: fields up to the end.  `k` bounds their number. -/
def readProto : Nat → KeyProto → List Nat → Option KeyProto
  | _, m, [] => some m
  | 0, _, _ => none
  | k + 1, m, b => (readField m b).bind fun r => readProto k r.1 r.2

/-- The packed numbers of the linear function. -/
def packed (poly : List Nat) : List Nat := poly.flatMap varint

/-- The first field; an empty list is not written. -/
def polyField (poly : List Nat) : List Nat :=
  if poly = [] then [] else 10 :: varint (packed poly).length ++ packed poly

/-- The second field; an empty string is not written. -/
def keyField (key : List Nat) : List Nat := if key = [] then [] else 18 :: varint key.length ++ key

/-- `Save`: `common.cc:49-65`.  `ser` is `MPInt::Serialize`. -/
def saveKey (ser : Nat → List Nat) (poly : List Nat) (x : Nat) : Res (List Nat) :=
  if poly.length ≠ 2 then .throws else .ok (polyField poly ++ keyField (ser x))

/-- `Load`: `common.cc:67-82`, into a vector of two numbers (`sender.cc:197`).  `des` is `MPInt::Deserialize`. -/
def loadKey (des : List Nat → Res Nat) (b : List Nat) : Res (List Nat × Nat) :=
  match readProto b.length {} b with
  | none => .throws
  | some m => if m.polynomial.length ≠ 2 then .throws else (des m.secretKey).bind fun x => .ok (m.polynomial, x)

/-- `LoadSecretKey`: `sender.cc:195-209`: what the sender checks with, after the file was read. -/
def Secrets.load {G : Type} (S : Secrets G) (des : List Nat → Res Nat) (b : List Nat) : Res (Secrets G) :=
  (loadKey des b).bind fun r => .ok { S with a := r.1.getD 0 0, b := r.1.getD 1 0, x := r.2 }

end Psi.DkPir
