import Verif.Cryptor.Lemmas

/-!
# What masking should compute

Stated for one item and one curve, without processors, batches or threads.
-/

namespace Psi.Cryptor

/-- The libraries agree on Curve25519: a lane of ippcp is a multiplication of libsodium; a message is a point if it has 32 bytes. -/
structure Laws {F S : Type} (L : Prims F S) : Prop where
  lane : ∀ key p, L.lane key p = L.x.mul key p
  de : ∀ b, L.x.de b = if b.length = 32 then some b else none
  ser : ∀ p, L.x.ser p = p

namespace Spec

variable {F S : Type}

/-- The own item, masked and written into a message, for the curve that was configured. -/
def item (L : Prims F S) (v : Curve) (key : Bytes) (a : Bytes) : Option Bytes :=
  match v with
  | .invalid => none
  | .c25519 => L.x.mul key (L.sha a)
  | .elligator2 => (L.elligator a).bind fun p => L.x.mul key p
  | .fourq => (L.fourqHash a).bind fun p => (L.f.mul key p).map L.f.ser
  | .sm2 => (L.smHash a).bind fun p => (L.s.mul key p).map L.s.ser
  | .secp256k1 => (L.secpHash a).bind fun p => (L.secp.mul key p).map L.secp.ser

/-- The message of the other party, masked once more. -/
def wire (L : Prims F S) (v : Curve) (key : Bytes) (m : Bytes) : Option Bytes :=
  match v with
  | .invalid => none
  | .c25519 | .elligator2 => if m.length = 32 then L.x.mul key m else none
  | .fourq => (L.f.de m).bind fun p => (L.f.mul key p).map L.f.ser
  | .sm2 => (L.s.de m).bind fun p => (L.s.mul key p).map L.s.ser
  | .secp256k1 => (L.secp.de m).bind fun p => (L.secp.mul key p).map L.secp.ser

/-- The group of a curve. -/
def group : Curve → Option Group
  | .invalid => none
  | .c25519 | .elligator2 => some .x25519
  | .fourq => some .fourq
  | .sm2 => some .sm2
  | .secp256k1 => some .secp256k1

/-- A library of a group where masks commute.  `R` says which points any key maps to the same point; on what a multiplication
returns it is equality (for Curve25519: the points differ by sign, by a part of small order or by a bit that is not read). -/
structure Good {P : Type} (l : Lib P) (R : P → P → Prop) : Prop where
  comm : ∀ a b p, (l.mul a p).bind (l.mul b) = (l.mul b p).bind (l.mul a)
  same : ∀ a p q r s, l.mul a p = some r → l.mul a q = some s → (r = s ↔ R p q)
  canon : ∀ a b p q r s, l.mul a p = some r → l.mul b q = some s → (R r s ↔ r = s)
  round : ∀ a p r, l.mul a p = some r → l.de (l.ser r) = some r

/-- The points of two items agree, for a curve. -/
def sameHash (L : Prims F S) (sx : Bytes → Bytes → Prop) (sf : F → F → Prop) (ss : S → S → Prop) (v : Curve) (a b : Bytes) : Prop :=
  match v with
  | .invalid => False
  | .c25519 => sx (L.sha a) (L.sha b)
  | .elligator2 => ∃ p q, L.elligator a = some p ∧ L.elligator b = some q ∧ sx p q
  | .fourq => ∃ p q, L.fourqHash a = some p ∧ L.fourqHash b = some q ∧ sf p q
  | .sm2 | .secp256k1 => ∃ p q, L.smHash a = some p ∧ L.smHash b = some q ∧ ss p q

end Spec

end Psi.Cryptor
