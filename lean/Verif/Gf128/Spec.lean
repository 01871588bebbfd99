import Mathlib.Algebra.Field.ZMod
import Mathlib.Algebra.Polynomial.Basic

/-!
# What multiplication in GF(2^128) means

Independent of the code: 128-bit words are polynomials over GF(2) of degree below 128, and the field
is their arithmetic modulo `x^128 + x^7 + x^2 + x + 1`.
-/

namespace Psi.Gf128.Spec
open Polynomial

/-- The polynomial of a 128-bit word: bit `i` is the coefficient of `x^i`. -/
noncomputable def word (a : Nat) : (ZMod 2)[X] :=
  ∑ i ∈ Finset.range 128, if a.testBit i then X ^ i else 0

/-- The field polynomial. -/
noncomputable def modulus : (ZMod 2)[X] := X ^ 128 + X ^ 7 + X ^ 2 + X + 1

/-- `z` is the word for the polynomial `p` reduced by the field polynomial. -/
def IsWordOf (z : Nat) (p : (ZMod 2)[X]) : Prop := z < 2 ^ 128 ∧ modulus ∣ word z - p

end Psi.Gf128.Spec
