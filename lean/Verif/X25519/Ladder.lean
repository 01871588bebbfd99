import Verif.X25519.Curve

/-!
# The ladder computes multiples of a point

`ladder_spec`: the last state of the ladder holds the coordinates of `k • P` and of `(k + 1) • P`.
-/

namespace Psi.X25519

open Psi.Elligator WeierstrassCurve

/-- `X : Z` is the coordinate of `P`. -/
def Rep (d X Z : Fp) : (E d).Point → Prop
  | .zero => X ≠ 0 ∧ Z = 0
  | .some x _ _ => Z ≠ 0 ∧ d * X = x * Z

theorem rep_zero {d X Z : Fp} : Rep d X Z 0 ↔ X ≠ 0 ∧ Z = 0 := Iff.rfl

theorem rep_zero_iff {d X Z : Fp} {P : (E d).Point} (h : Rep d X Z P) : P = 0 ↔ Z = 0 := by
  match P, h with
  | .zero, h => exact ⟨fun _ => h.2, fun _ => rfl⟩
  | .some x y hn, h =>
    exact ⟨fun e => absurd e (Affine.Point.some_ne_zero _), fun e => absurd e h.1⟩

theorem rep_hasX {d u : Fp} {P : (E d).Point} (h : HasX d u P) : Rep d u 1 P := by
  obtain ⟨y, hn, rfl⟩ := h
  exact ⟨one_ne_zero, (mul_one _).symm⟩

/-- Doubling. -/
theorem rep_dbl {d X Z : Fp} (hd : d ≠ 0) {P : (E d).Point} (h : Rep d X Z P) :
    Rep d ((X ^ 2 - Z ^ 2) ^ 2) (4 * X * Z * (X ^ 2 + 486662 * X * Z + Z ^ 2)) (P + P) := by
  match P, h with
  | .zero, h =>
    have : (Affine.Point.zero + Affine.Point.zero : (E d).Point) = 0 := add_zero 0
    rw [this, rep_zero]
    obtain ⟨h1, rfl⟩ := h
    refine ⟨?_, by ring⟩
    have : (X ^ 2 - 0 ^ 2) ^ 2 = X ^ 4 := by ring
    rw [this]; exact pow_ne_zero 4 h1
  | .some x y hn, h =>
    obtain ⟨hz, hx⟩ := h
    have he := E_equation.mp hn.1
    have hX : X = x / d * Z := by field_simp; linear_combination hx
    by_cases hy : y = 0
    · rw [E_add_self_zero hy, rep_zero]
      have hx0 : x = 0 := rhsE_zero hd (by rw [← he, hy]; ring)
      rw [hx0, zero_div, zero_mul] at hX
      subst hX
      refine ⟨?_, by ring⟩
      have : ((0 : Fp) ^ 2 - Z ^ 2) ^ 2 = Z ^ 4 := by ring
      rw [this]; exact pow_ne_zero 4 hz
    · obtain ⟨y', h', e⟩ := E_add_self (h := hn) hy
      rw [e]
      have hy2 : y ^ 2 ≠ 0 := pow_ne_zero 2 hy
      have h4 := four_ne
      have h2 := two_ne
      have key : 4 * X * Z * (X ^ 2 + 486662 * X * Z + Z ^ 2) = 4 * y ^ 2 * (Z ^ 4 / d ^ 3) := by
        rw [he, rhsE, hX]; field_simp
      refine ⟨?_, ?_⟩
      · rw [key]
        exact mul_ne_zero (mul_ne_zero h4 hy2) (div_ne_zero (pow_ne_zero 4 hz) (pow_ne_zero 3 hd))
      · rw [key]
        have : ((3 * x ^ 2 + 2 * 486662 * d * x + d ^ 2) / (2 * y)) ^ 2 - 486662 * d - 2 * x =
            ((3 * x ^ 2 + 2 * 486662 * d * x + d ^ 2) ^ 2 - (486662 * d + 2 * x) * (4 * y ^ 2)) /
              (4 * y ^ 2) := by
          field_simp
          ring
        rw [this, he, hX]
        have hr : rhsE d x ≠ 0 := by rw [← he]; exact hy2
        field_simp
        rw [rhsE]
        ring

/-- The coordinates of a sum and of a difference. -/
theorem sum_diff {d x₁ x₂ y₁ y₂ : Fp} (h1 : y₁ ^ 2 = rhsE d x₁) (h2 : y₂ ^ 2 = rhsE d x₂) (hx : x₁ ≠ x₂) :
    (((y₂ - y₁) / (x₂ - x₁)) ^ 2 - 486662 * d - x₁ - x₂) *
      (((y₂ + y₁) / (x₂ - x₁)) ^ 2 - 486662 * d - x₁ - x₂) * (x₂ - x₁) ^ 2 = (x₁ * x₂ - d ^ 2) ^ 2 := by
  have hd : x₂ - x₁ ≠ 0 := sub_ne_zero.mpr (Ne.symm hx)
  have e1 : ((y₂ - y₁) / (x₂ - x₁)) ^ 2 - 486662 * d - x₁ - x₂ =
      ((y₂ - y₁) ^ 2 - (486662 * d + x₁ + x₂) * (x₂ - x₁) ^ 2) / (x₂ - x₁) ^ 2 := by
    field_simp; ring
  have e2 : ((y₂ + y₁) / (x₂ - x₁)) ^ 2 - 486662 * d - x₁ - x₂ =
      ((y₂ + y₁) ^ 2 - (486662 * d + x₁ + x₂) * (x₂ - x₁) ^ 2) / (x₂ - x₁) ^ 2 := by
    field_simp; ring
  rw [e1, e2]
  have e3 : ((y₂ - y₁) ^ 2 - (486662 * d + x₁ + x₂) * (x₂ - x₁) ^ 2) *
      ((y₂ + y₁) ^ 2 - (486662 * d + x₁ + x₂) * (x₂ - x₁) ^ 2) =
      (x₁ * x₂ - d ^ 2) ^ 2 * (x₂ - x₁) ^ 2 := by
    have : ((y₂ - y₁) ^ 2 - (486662 * d + x₁ + x₂) * (x₂ - x₁) ^ 2) *
      ((y₂ + y₁) ^ 2 - (486662 * d + x₁ + x₂) * (x₂ - x₁) ^ 2) =
      (y₂ ^ 2 - y₁ ^ 2) ^ 2 - 2 * (y₂ ^ 2 + y₁ ^ 2) * ((486662 * d + x₁ + x₂) * (x₂ - x₁) ^ 2) +
        ((486662 * d + x₁ + x₂) * (x₂ - x₁) ^ 2) ^ 2 := by ring
    rw [this, h1, h2, rhsE, rhsE]; ring
  rw [div_mul_div_comm, e3]
  field_simp

/-- Adding two points whose difference is known. -/
theorem rep_add {d u X2 Z2 X3 Z3 : Fp} (hd : d ≠ 0) (hu : u ≠ 0) {P Q D : (E d).Point}
    (hP : Rep d X2 Z2 P) (hQ : Rep d X3 Z3 Q) (hD : HasX d u D) (hs : Q = P + D) :
    Rep d (4 * (X2 * X3 - Z2 * Z3) ^ 2) (4 * u * (X2 * Z3 - Z2 * X3) ^ 2) (P + Q) := by
  have h4 := four_ne
  have hD0 := hasX_ne hD
  match P, Q, hP, hQ, hs with
  | .zero, Q, hP, hQ, hs =>
    have hz : (Affine.Point.zero : (E d).Point) = 0 := rfl
    rw [hz, zero_add] at hs ⊢
    subst hs
    obtain ⟨y, hn, rfl⟩ := hD
    obtain ⟨h1, rfl⟩ := hP
    obtain ⟨h2, h3⟩ := hQ
    have hX3 : X3 = u * Z3 := by
      apply mul_left_cancel₀ hd; linear_combination h3
    subst hX3
    refine ⟨?_, by ring⟩
    rw [zero_mul, sub_zero]
    exact mul_ne_zero (mul_ne_zero h4 hu) (pow_ne_zero 2 (mul_ne_zero h1 h2))
  | P, .zero, hP, hQ, hs =>
    have hz : (Affine.Point.zero : (E d).Point) = 0 := rfl
    rw [hz, add_zero]
    have : P = -D := eq_neg_of_add_eq_zero_left (hs.symm.trans hz)
    subst this
    obtain ⟨y, hn, hy⟩ := hD.neg
    rw [hy] at hP ⊢
    obtain ⟨h1, rfl⟩ := hQ
    obtain ⟨h2, h3⟩ := hP
    have hX2 : X2 = u * Z2 := by
      apply mul_left_cancel₀ hd; linear_combination h3
    subst hX2
    refine ⟨?_, by ring⟩
    rw [mul_zero, zero_sub, neg_sq]
    exact mul_ne_zero (mul_ne_zero h4 hu) (pow_ne_zero 2 (mul_ne_zero h2 h1))
  | .some x₁ y₁ n₁, .some x₂ y₂ n₂, hP, hQ, hs =>
    obtain ⟨z1, e1⟩ := hP
    obtain ⟨z2, e2⟩ := hQ
    have q1 := E_equation.mp n₁.1
    have q2 := E_equation.mp n₂.1
    have hX2 : X2 = x₁ / d * Z2 := by field_simp; linear_combination e1
    have hX3 : X3 = x₂ / d * Z3 := by field_simp; linear_combination e2
    have hDs : D = .some x₂ y₂ n₂ + -.some x₁ y₁ n₁ := by rw [hs]; abel
    obtain ⟨n₁', hneg⟩ := E_neg (h := n₁)
    by_cases hx : x₁ = x₂
    · subst hx
      rcases sq_eq_sq_iff_eq_or_eq_neg.mp (q1.trans q2.symm) with rfl | rfl
      · exfalso; apply hD0; rw [hDs]; exact add_neg_cancel _
      · obtain ⟨n₃, hneg2⟩ := E_neg (h := n₂)
        have hsum : (.some x₁ (-y₂) n₁ + .some x₁ y₂ n₂ : (E d).Point) = 0 := by
          rw [← hneg2]; exact neg_add_cancel _
        rw [hsum, rep_zero]
        refine ⟨?_, by rw [hX2, hX3]; ring⟩
        have hDD : D = .some x₁ y₂ n₂ + .some x₁ y₂ n₂ := by
          rw [hDs, hneg]
          congr 1
          have gen : ∀ (b c : Fp) (h : (E d).Nonsingular x₁ b) (h' : (E d).Nonsingular x₁ c), b = c →
              (Affine.Point.some x₁ b h : (E d).Point) = .some x₁ c h' := by
            rintro b c h h' rfl; rfl
          exact gen _ _ _ _ (neg_neg y₂)
        have hr2 : Rep d x₁ d (.some x₁ y₂ n₂ : (E d).Point) := ⟨hd, by ring⟩
        have hdbl := rep_dbl hd hr2
        rw [← hDD] at hdbl
        obtain ⟨y, hn, rfl⟩ := hD
        obtain ⟨g1, g2⟩ := hdbl
        refine mul_ne_zero h4 (pow_ne_zero 2 ?_)
        intro h0
        have h5 : x₁ ^ 2 - d ^ 2 = 0 := by
          have : X2 * X3 - Z2 * Z3 = (x₁ ^ 2 - d ^ 2) * (Z2 * Z3 / d ^ 2) := by
            rw [hX2, hX3]; field_simp
          rw [this] at h0
          exact (mul_eq_zero.mp h0).resolve_right
            (div_ne_zero (mul_ne_zero z1 z2) (pow_ne_zero 2 hd))
        rw [h5] at g2
        have : d * u * (4 * x₁ * d * (x₁ ^ 2 + 486662 * x₁ * d + d ^ 2)) = 0 := by
          rw [← g2]; ring
        rcases mul_eq_zero.mp this with g | g
        · exact (mul_ne_zero hd hu) g
        · exact g1 g
    · obtain ⟨ys, ns, es⟩ := E_add_ne (h₁ := n₁) (h₂ := n₂) hx
      obtain ⟨yd, nd, ed⟩ := E_add_ne (h₁ := n₁') (h₂ := n₂) hx
      have hDx : D = .some (((y₂ - -y₁) / (x₂ - x₁)) ^ 2 - 486662 * d - x₁ - x₂) yd nd := by
        rw [hDs, add_comm, hneg, ed]
      obtain ⟨y, hn, rfl⟩ := hD
      have hux : d * u = ((y₂ + y₁) / (x₂ - x₁)) ^ 2 - 486662 * d - x₁ - x₂ := by
        have := hDx
        rw [Affine.Point.some.injEq] at this
        rw [this.1, sub_neg_eq_add]
      have hsd := sum_diff q1 q2 hx
      rw [← hux] at hsd
      rw [es]
      generalize ((y₂ - y₁) / (x₂ - x₁)) ^ 2 - 486662 * d - x₁ - x₂ = xs at *
      have k1 : X2 * Z3 - Z2 * X3 = -(x₂ - x₁) * (Z2 * Z3 / d) := by
        rw [hX2, hX3]; field_simp; ring
      have k2 : X2 * X3 - Z2 * Z3 = (x₁ * x₂ - d ^ 2) * (Z2 * Z3 / d ^ 2) := by
        rw [hX2, hX3]; field_simp
      refine ⟨?_, ?_⟩
      · rw [k1]
        refine mul_ne_zero (mul_ne_zero h4 hu) (pow_ne_zero 2 (mul_ne_zero ?_
          (div_ne_zero (mul_ne_zero z1 z2) hd)))
        exact neg_ne_zero.mpr (sub_ne_zero.mpr (Ne.symm hx))
      · rw [k1, k2, mul_pow, mul_pow, ← hsd]
        field_simp

/-! ## The loop -/

theorem body_cast (u : Int) (s : St) :
    ((body u s).x2 : Fp) = ((s.x2 : Fp) ^ 2 - (s.z2 : Fp) ^ 2) ^ 2 ∧
    ((body u s).z2 : Fp) = 4 * (s.x2 : Fp) * s.z2 * ((s.x2 : Fp) ^ 2 + 486662 * s.x2 * s.z2 + (s.z2 : Fp) ^ 2) ∧
    ((body u s).x3 : Fp) = 4 * ((s.x2 : Fp) * s.x3 - s.z2 * s.z3) ^ 2 ∧
    ((body u s).z3 : Fp) = 4 * (u : Fp) * ((s.x2 : Fp) * s.z3 - s.z2 * s.x3) ^ 2 := by
  simp only [body, cast_mulMod, cast_addMod, cast_subMod]
  refine ⟨?_, ?_, ?_, ?_⟩
  · ring
  · push_cast; ring
  · ring
  · ring

/-- The state holds the coordinates of `P` and `Q`. -/
def Holds (d : Fp) (s : St) (P Q : (E d).Point) : Prop :=
  Rep d s.x2 s.z2 P ∧ Rep d s.x3 s.z3 Q

theorem body_holds {d : Fp} (hd : d ≠ 0) {u : Int} (hu : (u : Fp) ≠ 0) {s : St} {P Q D : (E d).Point}
    (h : Holds d s P Q) (hD : HasX d u D) (hs : Q = P + D) :
    Holds d (body u s) (P + P) (P + Q) := by
  obtain ⟨b1, b2, b3, b4⟩ := body_cast u s
  constructor
  · rw [b1, b2]; exact rep_dbl hd h.1
  · rw [b3, b4]; exact rep_add hd hu h.1 h.2 hD hs

theorem round_holds {d : Fp} (hd : d ≠ 0) {u : Int} (hu : (u : Fp) ≠ 0) {s : St} {P : (E d).Point}
    (hP : HasX d u P) {m : Nat} (b : Bool) (h : Holds d s (m • P) ((m + 1) • P)) :
    Holds d (cswap b (body u (cswap b s))) ((2 * m + b.toNat) • P) ((2 * m + b.toNat + 1) • P) := by
  cases b with
  | false =>
    have := body_holds hd hu h hP (succ_nsmul P m)
    simp only [cswap, Bool.toNat_false, add_zero, Bool.false_eq_true, if_false]
    rw [← add_nsmul, ← add_nsmul, show m + m = 2 * m by ring, show m + (m + 1) = 2 * m + 1 by ring] at this
    exact this
  | true =>
    have h' : Holds d (cswap true s) ((m + 1) • P) (m • P) := ⟨h.2, h.1⟩
    have hs : m • P = (m + 1) • P + -P := by rw [succ_nsmul]; abel
    have := body_holds hd hu h' hP.neg hs
    rw [← add_nsmul, ← add_nsmul, show m + 1 + (m + 1) = 2 * m + 1 + 1 by ring,
      show m + 1 + m = 2 * m + 1 by ring] at this
    exact ⟨this.2, this.1⟩

theorem loop_holds {d : Fp} (hd : d ≠ 0) {u : Int} (hu : (u : Fp) ≠ 0) {P : (E d).Point}
    (hP : HasX d u P) (k : Nat) : ∀ (n : Nat) (s : St),
    Holds d s ((k / 2 ^ n) • P) ((k / 2 ^ n + 1) • P) → Holds d (loop u k n s) (k • P) ((k + 1) • P) := by
  intro n
  induction n with
  | zero => intro s h; simpa [loop] using h
  | succ n ih =>
    intro s h
    apply ih
    have := round_holds hd hu hP (k.testBit n) h
    have e : 2 * (k / 2 ^ (n + 1)) + (k.testBit n).toNat = k / 2 ^ n := by
      rw [Nat.toNat_testBit, pow_succ, ← Nat.div_div_eq_div_mul]
      omega
    rw [e] at this
    exact this

/-- The ladder, for a coordinate that is not zero. -/
theorem ladder_holds {d : Fp} (hd : d ≠ 0) {u : Int} (hu : (u : Fp) ≠ 0) {P : (E d).Point}
    (hP : HasX d u P) {k : Nat} (hk : k < 2 ^ 255) : Holds d (ladder k u) (k • P) ((k + 1) • P) := by
  apply loop_holds hd hu hP
  rw [Nat.div_eq_of_lt hk, zero_nsmul, zero_add, one_nsmul]
  refine ⟨?_, ?_⟩
  · simp only [Int.cast_one, Int.cast_zero]; exact ⟨one_ne_zero, rfl⟩
  · simp only [Int.cast_one]; exact rep_hasX hP

/-! ## Zero -/

theorem round_zero {u : Int} (hu : (u : Fp) = 0) {s : St} (b : Bool)
    (h : (s.z2 : Fp) = 0 ∨ (s.x2 : Fp) = 0) (h' : (s.z3 : Fp) = 0 ∨ (s.x3 : Fp) = 0) :
    ((cswap b (body u (cswap b s))).z2 : Fp) = 0 ∧ ((cswap b (body u (cswap b s))).z3 : Fp) = 0 := by
  obtain ⟨-, b2, -, b4⟩ := body_cast u (cswap b s)
  cases b with
  | false =>
    simp only [cswap, Bool.false_eq_true, if_false] at *
    rw [b2, b4, hu]
    rcases h with h | h <;> rw [h] <;> constructor <;> ring
  | true =>
    simp only [cswap, if_true] at *
    rw [b2, b4, hu]
    rcases h' with h | h <;> rw [h] <;> constructor <;> ring

theorem loop_zero {u : Int} (hu : (u : Fp) = 0) (k : Nat) : ∀ (n : Nat) (s : St),
    ((s.z2 : Fp) = 0 ∨ (s.x2 : Fp) = 0) → ((s.z3 : Fp) = 0 ∨ (s.x3 : Fp) = 0) →
    (((loop u k n s).z2 : Fp) = 0 ∨ ((loop u k n s).x2 : Fp) = 0) := by
  intro n
  induction n with
  | zero => intro s h _; exact h
  | succ n ih =>
    intro s h h'
    obtain ⟨a, b⟩ := round_zero hu (k.testBit n) h h'
    exact ih _ (Or.inl a) (Or.inl b)

/-! ## The result -/

theorem mulX_cast (k : Nat) (u : Int) :
    (mulX k u : Fp) = ((ladder k u).x2 : Fp) / ((ladder k u).z2 : Fp) := by
  simp only [mulX, cast_mulMod, cast_powMod]
  have e : ((kP : Int) - 2).toNat = kP - 2 := by omega
  rw [e, div_eq_mul_inv]
  congr 1
  by_cases h : ((ladder k u).z2 : Fp) = 0
  · rw [h, inv_zero]
    exact zero_pow (by have : kP ≠ 2 := by decide +kernel
                       have := kP_prime.two_le; omega)
  · have h1 := ZMod.pow_card_sub_one_eq_one h
    apply eq_inv_of_mul_eq_one_left
    rw [← pow_succ, ← h1]
    congr 1
    have : kP ≠ 2 := by decide +kernel
    have := kP_prime.two_le; omega

theorem mulX_range (k : Nat) (u : Int) : 0 ≤ mulX k u ∧ mulX k u < kP := mulMod_range _ _

/-- X25519 computes the coordinate of `k • P`, where `P` is a point of the curve or of its twist with
the given coordinate. -/
theorem mulX_spec {d : Fp} (hd : d ≠ 0) {u : Int} {P : (E d).Point} (hP : HasX d u P) {k : Nat}
    (hk : k < 2 ^ 255) : (mulX k u : Fp) = xOf d (k • P) := by
  rw [mulX_cast]
  by_cases hu : (u : Fp) = 0
  · have h1 : ((ladder k u).z2 : Fp) = 0 ∨ ((ladder k u).x2 : Fp) = 0 :=
      loop_zero hu k 255 _ (Or.inl (by simp)) (Or.inr hu)
    have h2 : xOf d (k • P) = 0 := by
      rw [hu] at hP
      have hPP := hasX_zero hP
      rcases Nat.even_or_odd' k with ⟨m, rfl | rfl⟩
      · rw [mul_comm, mul_nsmul', two_nsmul, hPP, nsmul_zero]; rfl
      · rw [succ_nsmul, mul_comm, mul_nsmul', two_nsmul, hPP, nsmul_zero, zero_add]; exact xOf_of hd hP
    rw [h2]
    rcases h1 with h | h <;> rw [h] <;> simp
  · obtain ⟨h, -⟩ := ladder_holds hd hu hP hk
    revert h
    generalize k • P = Q
    match Q with
    | .zero => intro h; rw [h.2, div_zero]; rfl
    | .some x y hn =>
      intro h
      simp only [xOf]
      have := h.1
      rw [div_eq_div_iff h.1 hd]
      linear_combination h.2

end Psi.X25519
