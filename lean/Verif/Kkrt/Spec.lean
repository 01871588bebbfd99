import Verif.Common.Spec

/-!
# KKRT-PSI: what the properties assume and say

`enc b x` is the encoding of item `x` in bin `b`, `hash x k` the `k`-th bin hash of `x`.
-/

namespace Psi.Kkrt.Spec

/-- What must not collide: encodings of different (bin, item) pairs, one of them of a receiver item; and
the random bytes `fill` of slot `(pos, h)` with an encoding of a receiver item. -/
structure NoCollision (enc : Nat → Nat → List UInt8) (nb : Nat) (xs : List Nat) (ys : List (Nat × Nat))
    (fill : Nat → Nat → List UInt8) : Prop where
  inj : ∀ b b' x y, b < nb → b' < nb → x ∈ xs → y ∈ xs ++ ys.map Prod.fst → enc b x = enc b' y →
    b = b' ∧ x = y
  fill : ∀ pos h b x, pos < ys.length → h < 3 → b < nb → x ∈ xs → fill pos h ≠ enc b x

/-- Hash function `h` is the first of item `x` that leads to bin `b`. -/
def First (hash : Nat → Nat → Nat) (nb x h b : Nat) : Prop :=
  hash x h % nb = b ∧ ∀ k, k < h → hash x k % nb ≠ b

end Psi.Kkrt.Spec
