/-!
# RR22 intersection: what the pseudorandom values must satisfy
-/

namespace Psi.Rr22

variable {α : Type}

/-- Hypotheses on the values of both sides: they are 128-bit numbers, and after truncation to `m` bytes
they agree exactly on equal items.  No value of a common item truncates to zero. -/
structure Good (m : Nat) (vR vS : α → Nat) (xs ys : List (α × Nat)) : Prop where
  ltR : ∀ x ∈ xs, vR x.1 < 2 ^ 128
  ltS : ∀ y ∈ ys, vS y.1 < 2 ^ 128
  agree : ∀ x ∈ xs, ∀ y ∈ ys, vR x.1 % 256 ^ m = vS y.1 % 256 ^ m ↔ x.1 = y.1
  nonzero : ∀ x ∈ xs, ∀ y ∈ ys, x.1 = y.1 → vS y.1 % 256 ^ m ≠ 0

end Psi.Rr22
