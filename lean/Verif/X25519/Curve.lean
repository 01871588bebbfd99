import Verif.X25519.Model
import Verif.Elligator.MapProps

/-!
# Curve25519 and its twist

`E d` is the curve `d y ^ 2 = x ^ 3 + 486662 x ^ 2 + x` in the coordinates `(d x, d ^ 2 y)`.  For `d = 1` it is
Curve25519 (`E_one`), and for `d = 2`, which is not a square, it is the twist.  The formulas of the
ladder hold for each of them.
-/

namespace Psi.X25519

open Psi.Elligator WeierstrassCurve

/-- The curve `y ^ 2 = x ^ 3 + 486662 d x ^ 2 + d ^ 2 x`. -/
def E (d : Fp) : Affine Fp := { a₁ := 0, a₂ := 486662 * d, a₃ := 0, a₄ := d ^ 2, a₆ := 0 }

theorem E_one : E 1 = curve := by simp [E, curve]

/-- The right-hand side of the equation of `E d`. -/
def rhsE (d x : Fp) : Fp := x ^ 3 + 486662 * d * x ^ 2 + d ^ 2 * x

theorem rhsE_mul (d u : Fp) : rhsE d (d * u) = d ^ 3 * rhs u := by rw [rhsE, rhs]; ring

theorem E_equation {d x y : Fp} : (E d).Equation x y ↔ y ^ 2 = rhsE d x := by
  rw [Affine.equation_iff]
  simp only [E, rhsE]
  constructor <;> intro h <;> linear_combination h

/-- Only `x = 0` is a root of the right-hand side. -/
theorem rhsE_zero {d x : Fp} (hd : d ≠ 0) (h : rhsE d x = 0) : x = 0 := by
  have e : x = d * (x / d) := by field_simp
  rw [e, rhsE_mul] at h
  have h' := (mul_eq_zero.mp h).resolve_left (pow_ne_zero 3 hd)
  by_contra hx
  exact rhs_ne_zero (div_ne_zero hx hd) h'

theorem E_nonsingular {d x y : Fp} (hd : d ≠ 0) (h : y ^ 2 = rhsE d x) : (E d).Nonsingular x y := by
  rw [Affine.nonsingular_iff]
  refine ⟨E_equation.mpr h, ?_⟩
  simp only [E]
  by_contra hc
  push Not at hc
  obtain ⟨h1, h2⟩ := hc
  have hy : y = 0 := by
    have : 2 * y = 0 := by linear_combination h2
    exact (mul_eq_zero.mp this).resolve_left two_ne
  have hx : x = 0 := rhsE_zero hd (by rw [← h, hy]; ring)
  subst hy hx
  apply pow_ne_zero 2 hd
  linear_combination -h1

theorem E_negY (d x y : Fp) : (E d).negY x y = -y := by simp [Affine.negY, E]

theorem E_add_ne {d x₁ x₂ y₁ y₂ : Fp} {h₁ : (E d).Nonsingular x₁ y₁} {h₂ : (E d).Nonsingular x₂ y₂}
    (hx : x₁ ≠ x₂) : ∃ y h, (.some x₁ y₁ h₁ + .some x₂ y₂ h₂ : (E d).Point) =
      .some (((y₂ - y₁) / (x₂ - x₁)) ^ 2 - 486662 * d - x₁ - x₂) y h := by
  have hs : (E d).slope x₁ x₂ y₁ y₂ = (y₂ - y₁) / (x₂ - x₁) := by
    rw [Affine.slope_of_X_ne hx, ← neg_sub y₂ y₁, ← neg_sub x₂ x₁, neg_div_neg_eq]
  have hX : (E d).addX x₁ x₂ ((E d).slope x₁ x₂ y₁ y₂) =
      ((y₂ - y₁) / (x₂ - x₁)) ^ 2 - 486662 * d - x₁ - x₂ := by
    rw [hs]; simp [Affine.addX, E]
  rw [Affine.Point.add_of_X_ne hx]
  have gen : ∀ (a b c : Fp) (h : (E d).Nonsingular a b), a = c →
      ∃ y h', (Affine.Point.some a b h : (E d).Point) = .some c y h' := by
    rintro a b c h rfl; exact ⟨b, h, rfl⟩
  exact gen _ _ _ _ hX

theorem E_add_self {d x y : Fp} {h : (E d).Nonsingular x y} (hy : y ≠ 0) :
    ∃ y' h', (.some x y h + .some x y h : (E d).Point) =
      .some (((3 * x ^ 2 + 2 * 486662 * d * x + d ^ 2) / (2 * y)) ^ 2 - 486662 * d - 2 * x) y' h' := by
  have hn : y ≠ (E d).negY x y := by
    rw [E_negY]
    intro e
    have : 2 * y = 0 := by linear_combination e
    exact hy ((mul_eq_zero.mp this).resolve_left two_ne)
  have hs : (E d).slope x x y y = (3 * x ^ 2 + 2 * 486662 * d * x + d ^ 2) / (2 * y) := by
    rw [Affine.slope_of_Y_ne rfl hn, E_negY]
    simp only [E]
    congr 1 <;> ring
  have hX : (E d).addX x x ((E d).slope x x y y) =
      ((3 * x ^ 2 + 2 * 486662 * d * x + d ^ 2) / (2 * y)) ^ 2 - 486662 * d - 2 * x := by
    rw [hs]; simp only [Affine.addX, E]; ring
  rw [Affine.Point.add_self_of_Y_ne hn]
  have gen : ∀ (a b c : Fp) (h : (E d).Nonsingular a b), a = c →
      ∃ y h', (Affine.Point.some a b h : (E d).Point) = .some c y h' := by
    rintro a b c h rfl; exact ⟨b, h, rfl⟩
  exact gen _ _ _ _ hX

theorem E_add_self_zero {d x y : Fp} {h : (E d).Nonsingular x y} (hy : y = 0) :
    (.some x y h + .some x y h : (E d).Point) = 0 :=
  Affine.Point.add_self_of_Y_eq (by rw [E_negY, hy, neg_zero])

theorem E_neg {d x y : Fp} {h : (E d).Nonsingular x y} :
    ∃ h', -(.some x y h : (E d).Point) = .some x (-y) h' := by
  rw [Affine.Point.neg_some]
  have gen : ∀ (b c : Fp) (h : (E d).Nonsingular x b), b = c →
      ∃ h', (Affine.Point.some x b h : (E d).Point) = .some x c h' := by
    rintro b c h rfl; exact ⟨h, rfl⟩
  exact gen _ _ _ (E_negY d x y)

/-! ## Coordinates -/

/-- `u` is the coordinate of the point `P` of `E d`. -/
def HasX (d u : Fp) (P : (E d).Point) : Prop := ∃ y h, P = .some (d * u) y h

/-- The coordinate of a point; zero for the point at infinity. -/
noncomputable def xOf (d : Fp) : (E d).Point → Fp
  | .zero => 0
  | .some x _ _ => x / d

theorem xOf_of {d u : Fp} (hd : d ≠ 0) {P : (E d).Point} (h : HasX d u P) : xOf d P = u := by
  obtain ⟨y, hn, rfl⟩ := h
  simp only [xOf]; field_simp

theorem hasX_or (d : Fp) (hd : d ≠ 0) (P : (E d).Point) : P = 0 ∨ HasX d (xOf d P) P := by
  match P with
  | .zero => exact Or.inl rfl
  | .some x y h =>
    have e : x = d * (x / d) := by field_simp
    right
    rw [xOf]
    have gen : ∀ c, x = c → ∃ y' h', (Affine.Point.some x y h : (E d).Point) = .some c y' h' := by
      rintro c rfl; exact ⟨y, h, rfl⟩
    exact gen _ e

/-- Two points with the same coordinate are equal or opposite. -/
theorem HasX.unique {d u : Fp} {P Q : (E d).Point} (hP : HasX d u P) (hQ : HasX d u Q) :
    P = Q ∨ P = -Q := by
  obtain ⟨y, h, rfl⟩ := hP
  obtain ⟨z, h', rfl⟩ := hQ
  have e1 := E_equation.mp h.1
  have e2 := E_equation.mp h'.1
  rcases sq_eq_sq_iff_eq_or_eq_neg.mp (e1.trans e2.symm) with rfl | rfl
  · exact Or.inl rfl
  · right
    obtain ⟨h2, e⟩ := E_neg (h := h')
    rw [e]

theorem HasX.neg {d u : Fp} {P : (E d).Point} (hP : HasX d u P) : HasX d u (-P) := by
  obtain ⟨y, h, rfl⟩ := hP
  obtain ⟨h2, e⟩ := E_neg (h := h)
  exact ⟨-y, h2, e⟩

theorem xOf_neg {d : Fp} (hd : d ≠ 0) (P : (E d).Point) : xOf d (-P) = xOf d P := by
  rcases hasX_or d hd P with rfl | h
  · rw [neg_zero]
  · exact xOf_of hd h.neg

/-- `u` is on `E d` exactly if `d * rhs u` is a square. -/
theorem hasX_iff {d u : Fp} (hd : d ≠ 0) : (∃ P, HasX d u P) ↔ IsSquare (d * rhs u) := by
  constructor
  · rintro ⟨_, y, h, rfl⟩
    have e := E_equation.mp h.1
    rw [rhsE_mul] at e
    refine ⟨y / d, ?_⟩
    field_simp
    linear_combination -e
  · rintro ⟨y, hy⟩
    refine ⟨.some (d * u) (d * y) (E_nonsingular hd ?_), _, _, rfl⟩
    rw [rhsE_mul]
    linear_combination (-d ^ 2) * hy

theorem hasX_ne {d u : Fp} {P : (E d).Point} (h : HasX d u P) : P ≠ 0 := by
  obtain ⟨y, hn, rfl⟩ := h
  exact Affine.Point.some_ne_zero _

/-- The point of order two. -/
theorem hasX_zero {d : Fp} {P : (E d).Point} (hP : HasX d 0 P) : P + P = 0 := by
  obtain ⟨y, h, rfl⟩ := hP
  have e := E_equation.mp h.1
  apply E_add_self_zero
  rw [mul_zero, rhsE] at e
  have : y ^ 2 = 0 := by rw [e]; ring
  exact pow_eq_zero_iff (two_ne_zero) |>.mp this

theorem xOf_zero_two {d : Fp} (hd : d ≠ 0) {P : (E d).Point} (h : xOf d P = 0) : P + P = 0 := by
  rcases hasX_or d hd P with rfl | h'
  · exact add_zero 0
  · rw [h] at h'; exact hasX_zero h'

end Psi.X25519
