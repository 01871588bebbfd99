import Verif.Elligator.FieldLemmas
import Mathlib.AlgebraicGeometry.EllipticCurve.Affine.Point

/-!
# Curve25519 as an elliptic curve

The curve and its group are those of Mathlib.  `IsX` and `IsXY` say which point a byte string
stands for.
-/

namespace Psi.Elligator

open WeierstrassCurve

/-- Curve25519: `y ^ 2 = x ^ 3 + 486662 x ^ 2 + x` over the field of `2 ^ 255 - 19` elements. -/
def curve : Affine Fp := { a₁ := 0, a₂ := 486662, a₃ := 0, a₄ := 1, a₆ := 0 }

/-- The right-hand side of the curve equation. -/
def rhs (x : Fp) : Fp := x ^ 3 + 486662 * x ^ 2 + x

/-- `b` is the `x` coordinate of the point `P`, as 32 bytes in big-endian order. -/
def IsX (b : Bytes) (P : curve.Point) : Prop :=
  b.length = 32 ∧ beVal b < kP ∧
    ∃ (x y : Fp) (h : curve.Nonsingular x y), P = .some x y h ∧ x = (beVal b : Fp)

/-- `a` and `b` are the coordinates of the point `P`. -/
def IsXY (b : Bytes × Bytes) (P : curve.Point) : Prop :=
  (b.1.length = 32 ∧ b.2.length = 32) ∧ (beVal b.1 < kP ∧ beVal b.2 < kP) ∧
    ∃ (x y : Fp) (h : curve.Nonsingular x y),
      P = .some x y h ∧ x = (beVal b.1 : Fp) ∧ y = (beVal b.2 : Fp)

theorem cast_J : ((kJ : Int) : Fp) = 486662 := by norm_num [kJ]

theorem J_sq_ne : (486662 : Fp) ^ 2 - 4 ≠ 0 := fun h => by
  have h' : ((486662 ^ 2 - 4 : Int) : Fp) = 0 := by rw [← h]; norm_num
  have := cast_zero_iff.mp h'
  revert this; decide +kernel

theorem curve_equation {x y : Fp} : curve.Equation x y ↔ y ^ 2 = rhs x := by
  rw [Affine.equation_iff]
  simp only [curve, rhs]
  constructor <;> intro h <;> linear_combination h

theorem nonsingular_of {x y : Fp} (h : y ^ 2 = rhs x) : curve.Nonsingular x y := by
  rw [Affine.nonsingular_iff]
  refine ⟨curve_equation.mpr h, ?_⟩
  simp only [curve]
  by_contra hc
  push Not at hc
  obtain ⟨h1, h2⟩ := hc
  have hy : y = 0 := by
    have : 2 * y = 0 := by linear_combination h2
    exact (mul_eq_zero.mp this).resolve_left two_ne
  subst hy
  have h3 : 3 * x ^ 2 + 2 * 486662 * x + 1 = 0 := by linear_combination -h1
  have h4 : x * (x ^ 2 + 486662 * x + 1) = 0 := by
    simp only [rhs] at h; linear_combination -h
  rcases mul_eq_zero.mp h4 with h5 | h5
  · subst h5; norm_num at h3
  · have h6 : x * (2 * x + 486662) = 0 := by linear_combination h3 - h5
    rcases mul_eq_zero.mp h6 with h7 | h7
    · subst h7; norm_num at h3
    · apply J_sq_ne
      linear_combination (2 * x + 486662) * h7 - 4 * h5

theorem nonsingular_eq {x y : Fp} (h : curve.Nonsingular x y) : y ^ 2 = rhs x :=
  curve_equation.mp h.1

theorem negY_eq (x y : Fp) : curve.negY x y = -y := by
  simp [Affine.negY, curve]

/-- The sum of two points with different `x`. -/
theorem add_ne {x₁ x₂ y₁ y₂ : Fp} {h₁ : curve.Nonsingular x₁ y₁} {h₂ : curve.Nonsingular x₂ y₂}
    (hx : x₁ ≠ x₂) : ∃ h, (.some x₁ y₁ h₁ + .some x₂ y₂ h₂ : curve.Point) =
      .some (((y₂ - y₁) / (x₂ - x₁)) ^ 2 - 486662 - x₁ - x₂)
        ((2 * x₁ + x₂ + 486662) * ((y₂ - y₁) / (x₂ - x₁)) - ((y₂ - y₁) / (x₂ - x₁)) ^ 3 - y₁) h := by
  have hs : curve.slope x₁ x₂ y₁ y₂ = (y₂ - y₁) / (x₂ - x₁) := by
    rw [Affine.slope_of_X_ne hx, ← neg_sub y₂ y₁, ← neg_sub x₂ x₁, neg_div_neg_eq]
  have hX : curve.addX x₁ x₂ (curve.slope x₁ x₂ y₁ y₂) =
      ((y₂ - y₁) / (x₂ - x₁)) ^ 2 - 486662 - x₁ - x₂ := by
    rw [hs]; simp [Affine.addX, curve]
  have hY : curve.addY x₁ x₂ y₁ (curve.slope x₁ x₂ y₁ y₂) =
      (2 * x₁ + x₂ + 486662) * ((y₂ - y₁) / (x₂ - x₁)) - ((y₂ - y₁) / (x₂ - x₁)) ^ 3 - y₁ := by
    rw [hs]
    generalize (y₂ - y₁) / (x₂ - x₁) = l
    simp only [Affine.addY, Affine.negAddY, Affine.negY, Affine.addX, curve]
    ring
  rw [Affine.Point.add_of_X_ne hx]
  have gen : ∀ (a b c d : Fp) (h : curve.Nonsingular a b), a = c → b = d →
      ∃ h', (Affine.Point.some a b h : curve.Point) = .some c d h' := by
    rintro a b c d h rfl rfl; exact ⟨h, rfl⟩
  exact gen _ _ _ _ _ hX hY

/-- The double of a point that is not of order two. -/
theorem add_self {x y : Fp} {h : curve.Nonsingular x y} (hy : y ≠ 0) :
    ∃ h', (.some x y h + .some x y h : curve.Point) =
      .some (((3 * x ^ 2 + 2 * 486662 * x + 1) / (2 * y)) ^ 2 - 486662 - 2 * x)
        ((3 * x + 486662) * ((3 * x ^ 2 + 2 * 486662 * x + 1) / (2 * y)) -
          ((3 * x ^ 2 + 2 * 486662 * x + 1) / (2 * y)) ^ 3 - y) h' := by
  have hn : y ≠ curve.negY x y := by
    rw [negY_eq]
    intro e
    have : 2 * y = 0 := by linear_combination e
    exact hy ((mul_eq_zero.mp this).resolve_left two_ne)
  have hs : curve.slope x x y y = (3 * x ^ 2 + 2 * 486662 * x + 1) / (2 * y) := by
    rw [Affine.slope_of_Y_ne rfl hn, negY_eq]
    simp only [curve]
    congr 1 <;> ring
  have hX : curve.addX x x (curve.slope x x y y) =
      ((3 * x ^ 2 + 2 * 486662 * x + 1) / (2 * y)) ^ 2 - 486662 - 2 * x := by
    rw [hs]; simp only [Affine.addX, curve]; ring
  have hY : curve.addY x x y (curve.slope x x y y) =
      (3 * x + 486662) * ((3 * x ^ 2 + 2 * 486662 * x + 1) / (2 * y)) -
          ((3 * x ^ 2 + 2 * 486662 * x + 1) / (2 * y)) ^ 3 - y := by
    rw [hs]
    generalize (3 * x ^ 2 + 2 * 486662 * x + 1) / (2 * y) = l
    simp only [Affine.addY, Affine.negAddY, Affine.negY, Affine.addX, curve]
    ring
  rw [Affine.Point.add_self_of_Y_ne hn]
  have gen : ∀ (a b c d : Fp) (h : curve.Nonsingular a b), a = c → b = d →
      ∃ h', (Affine.Point.some a b h : curve.Point) = .some c d h' := by
    rintro a b c d h rfl rfl; exact ⟨h, rfl⟩
  exact gen _ _ _ _ _ hX hY

theorem add_self_zero {x : Fp} {y : Fp} {h : curve.Nonsingular x y} (hy : y = 0) :
    (.some x y h + .some x y h : curve.Point) = 0 :=
  Affine.Point.add_self_of_Y_eq (by rw [negY_eq, hy, neg_zero])

/-- The `x` coordinate of a double, from `x` alone. -/
theorem dbl_x {x y : Fp} (h : y ^ 2 = rhs x) (hy : y ≠ 0) :
    ((3 * x ^ 2 + 2 * 486662 * x + 1) / (2 * y)) ^ 2 - 486662 - 2 * x =
      (x ^ 2 - 1) ^ 2 / (4 * (x * (x ^ 2 + 486662 * x + 1))) := by
  have hr : x * (x ^ 2 + 486662 * x + 1) = y ^ 2 := by rw [h, rhs]; ring
  rw [hr]
  have h4 := four_ne
  have h2 := two_ne
  have h' : y ^ 2 = x ^ 3 + 486662 * x ^ 2 + x := h
  have : (x ^ 2 - 1) ^ 2 = (3 * x ^ 2 + 2 * 486662 * x + 1) ^ 2 - (486662 + 2 * x) * (4 * y ^ 2) := by
    rw [h']; ring
  rw [this, div_pow, mul_pow, sub_div, mul_div_assoc, div_self (mul_ne_zero h4 (pow_ne_zero 2 hy))]
  norm_num
  ring

theorem X_eq {x₁ x₂ y₁ y₂ : Fp} (h₁ : y₁ ^ 2 = rhs x₁) (h₂ : y₂ ^ 2 = rhs x₂) (hx : x₁ = x₂) :
    y₁ = y₂ ∨ y₁ = -y₂ := by
  subst hx
  exact sq_eq_sq_iff_eq_or_eq_neg.mp (h₁.trans h₂.symm)

end Psi.Elligator
