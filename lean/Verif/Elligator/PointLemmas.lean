import Verif.Elligator.Curve

/-!
# Point arithmetic

Each of the functions on points against the group of the curve.
-/

namespace Psi.Elligator

open WeierstrassCurve
open Psi.Spiral (Res)

theorem res_bind_ok {α β : Type} (a : α) (f : α → Res β) : (Res.ok a >>= f) = f a := rfl
theorem res_bind_throws {α β : Type} (f : α → Res β) : ((Res.throws : Res α) >>= f) = .throws := rfl

theorem cast_nat (n : Nat) : (((n : Int)) : Fp) = (n : Fp) := Int.cast_natCast n

theorem nat_eq_of_cast {a b : Nat} (ha : a < kP) (hb : b < kP) (h : (a : Fp) = b) : a = b := by
  have := eq_of_cast (a := a) (b := b) ⟨by omega, by omega⟩ ⟨by omega, by omega⟩
    (by rw [cast_nat, cast_nat, h])
  omega

theorem setNonneg {t : Int} (h : 0 ≤ t ∧ t < kP) : (if t < 0 then addMod t kP else t) = t := by
  rw [if_neg (by omega)]

theorem toBytes_spec {a : Int} (h : 0 ≤ a ∧ a < kP) : ∃ b, toBytes a = .ok b ∧ b.length = 32 ∧
    beVal b < kP ∧ ((beVal b : Nat) : Fp) = ((a : Int) : Fp) := by
  obtain ⟨h1, h2⟩ := toBytes_ok h
  refine ⟨_, h1, be_length _ _, by omega, ?_⟩
  rw [← cast_nat, h2]

theorem pointAddX_throws {a b : Bytes × Bytes} (h : beVal a.1 = beVal b.1) :
    pointAddX a.1 a.2 b.1 b.2 = .throws := by
  unfold pointAddX
  split
  · rfl
  · dsimp only
    rw [invMod_throws (by rw [cast_subMod, h, sub_self])]
    rfl

theorem pointAdd_throws {a b : Bytes × Bytes} (h : beVal a.1 = beVal b.1) :
    pointAdd a.1 a.2 b.1 b.2 = .throws := by
  unfold pointAdd
  split
  · rfl
  · dsimp only
    rw [invMod_throws (by rw [cast_subMod, h, sub_self])]
    rfl

theorem pointAddX_ne {a b : Bytes × Bytes} (ha : beVal a.1 < kP) (hb : beVal b.1 < kP)
    (h : beVal a.1 ≠ beVal b.1) :
    ∃ r, pointAddX a.1 a.2 b.1 b.2 = .ok r ∧ r.length = 32 ∧ beVal r < kP ∧ (beVal r : Fp) =
      (((beVal b.2 : Fp) - beVal a.2) / ((beVal b.1 : Fp) - beVal a.1)) ^ 2 - 486662 - beVal a.1 -
        beVal b.1 := by
  have hne : ¬ ¬ (a.1 ≠ b.1 ∨ a.2 ≠ b.2) := by
    intro hc; apply hc; left; intro e; exact h (by rw [e])
  unfold pointAddX
  rw [if_neg hne]
  dsimp only
  have h0 : ((subMod (beVal b.1) (beVal a.1) : Int) : Fp) ≠ 0 := by
    rw [cast_subMod, cast_nat, cast_nat]
    intro e
    exact h (nat_eq_of_cast ha hb (sub_eq_zero.mp e).symm)
  obtain ⟨d, hd, hdc, _⟩ := invMod_ok h0
  rw [hd, res_bind_ok, setNonneg (subMod_range _ _)]
  obtain ⟨r, h1, h2, h3, h4⟩ := toBytes_spec (subMod_range (subMod (subMod (mulMod
    (mulMod (subMod (beVal b.2) (beVal a.2)) d) (mulMod (subMod (beVal b.2) (beVal a.2)) d)) kJ)
    (beVal a.1)) (beVal b.1))
  refine ⟨r, h1, h2, h3, ?_⟩
  rw [h4]
  simp only [cast_subMod, cast_mulMod, hdc, cast_nat, cast_J]
  ring

theorem pointAdd_ne {a b : Bytes × Bytes} (ha : beVal a.1 < kP) (hb : beVal b.1 < kP)
    (h : beVal a.1 ≠ beVal b.1) :
    ∃ r : Bytes × Bytes, pointAdd a.1 a.2 b.1 b.2 = .ok r ∧ (r.1.length = 32 ∧ r.2.length = 32) ∧
      (beVal r.1 < kP ∧ beVal r.2 < kP) ∧
      (beVal r.1 : Fp) =
      (((beVal b.2 : Fp) - beVal a.2) / ((beVal b.1 : Fp) - beVal a.1)) ^ 2 - 486662 - beVal a.1 -
        beVal b.1 ∧
      (beVal r.2 : Fp) = (2 * (beVal a.1 : Fp) + beVal b.1 + 486662) *
        (((beVal b.2 : Fp) - beVal a.2) / ((beVal b.1 : Fp) - beVal a.1)) -
        (((beVal b.2 : Fp) - beVal a.2) / ((beVal b.1 : Fp) - beVal a.1)) ^ 3 - beVal a.2 := by
  have hne : ¬ ¬ (a.1 ≠ b.1 ∨ a.2 ≠ b.2) := by
    intro hc; apply hc; left; intro e; exact h (by rw [e])
  unfold pointAdd
  rw [if_neg hne]
  dsimp only
  have h0 : ((subMod (beVal b.1) (beVal a.1) : Int) : Fp) ≠ 0 := by
    rw [cast_subMod, cast_nat, cast_nat]
    intro e
    exact h (nat_eq_of_cast ha hb (sub_eq_zero.mp e).symm)
  obtain ⟨d, hd, hdc, _⟩ := invMod_ok h0
  rw [hd, res_bind_ok, setNonneg (subMod_range _ _), setNonneg (subMod_range _ _)]
  obtain ⟨r, h1, h2, h3, h4⟩ := toBytes_spec (subMod_range (subMod (subMod (mulMod
    (mulMod (subMod (beVal b.2) (beVal a.2)) d) (mulMod (subMod (beVal b.2) (beVal a.2)) d)) kJ)
    (beVal a.1)) (beVal b.1))
  obtain ⟨s, g1, g2, g3, g4⟩ := toBytes_spec (subMod_range (subMod (mulMod (addMod
    (addMod (mulMod (beVal a.1) 2) (beVal b.1)) kJ) (mulMod (subMod (beVal b.2) (beVal a.2)) d))
    (mulMod (mulMod
    (mulMod (subMod (beVal b.2) (beVal a.2)) d) (mulMod (subMod (beVal b.2) (beVal a.2)) d))
    (mulMod (subMod (beVal b.2) (beVal a.2)) d))) (beVal a.2))
  rw [h1, res_bind_ok, g1, res_bind_ok]
  refine ⟨(r, s), rfl, ⟨h2, g2⟩, ⟨h3, g3⟩, ?_, ?_⟩
  · dsimp only
    rw [h4]
    simp only [cast_subMod, cast_mulMod, hdc, cast_nat, cast_J]
    ring
  · dsimp only
    rw [g4]
    simp only [cast_subMod, cast_addMod, cast_mulMod, hdc, cast_nat, cast_J, Int.cast_ofNat]
    ring

/-- Two points with the same `x`: equal or opposite, so there is no sum for the formula. -/
theorem val_eq_cases {a b : Bytes × Bytes} {P Q : curve.Point} (ha : IsXY a P) (hb : IsXY b Q) :
    (beVal a.1 = beVal b.1 ↔ P = Q ∨ P + Q = 0) := by
  obtain ⟨_, ⟨a1, a2⟩, x, y, hn, rfl, hx, hy⟩ := ha
  obtain ⟨_, ⟨b1, b2⟩, x', y', hn', rfl, hx', hy'⟩ := hb
  rw [add_eq_zero_iff_eq_neg, ← Affine.Point.X_eq_iff, hx, hx']
  exact ⟨fun h => by rw [h], fun h => nat_eq_of_cast a1 b1 h⟩

theorem sum_isX {a b : Bytes × Bytes} {P Q : curve.Point} (ha : IsXY a P) (hb : IsXY b Q)
    (h : P ≠ Q) (h0 : P + Q ≠ 0) :
    ∃ r, pointAddX a.1 a.2 b.1 b.2 = .ok r ∧ IsX r (P + Q) := by
  have hv : beVal a.1 ≠ beVal b.1 := fun e => ((val_eq_cases ha hb).mp e).elim h h0
  obtain ⟨r, e, r1, r2, r3⟩ := pointAddX_ne ha.2.1.1 hb.2.1.1 hv
  refine ⟨r, e, r1, r2, ?_⟩
  obtain ⟨_, ⟨a1, a2⟩, x, y, hn, rfl, rfl, rfl⟩ := ha
  obtain ⟨_, ⟨b1, b2⟩, x', y', hn', rfl, rfl, rfl⟩ := hb
  obtain ⟨hs, es⟩ := add_ne (h₁ := hn) (h₂ := hn') (fun e => hv (nat_eq_of_cast a1 b1 e))
  exact ⟨_, _, hs, es, r3.symm⟩

theorem sum_isXY {a b : Bytes × Bytes} {P Q : curve.Point} (ha : IsXY a P) (hb : IsXY b Q)
    (h : P ≠ Q) (h0 : P + Q ≠ 0) :
    ∃ r, pointAdd a.1 a.2 b.1 b.2 = .ok r ∧ IsXY r (P + Q) := by
  have hv : beVal a.1 ≠ beVal b.1 := fun e => ((val_eq_cases ha hb).mp e).elim h h0
  obtain ⟨r, e, r1, r2, r3, r4⟩ := pointAdd_ne ha.2.1.1 hb.2.1.1 hv
  refine ⟨r, e, r1, r2, ?_⟩
  obtain ⟨_, ⟨a1, a2⟩, x, y, hn, rfl, rfl, rfl⟩ := ha
  obtain ⟨_, ⟨b1, b2⟩, x', y', hn', rfl, rfl, rfl⟩ := hb
  obtain ⟨hs, es⟩ := add_ne (h₁ := hn) (h₂ := hn') (fun e => hv (nat_eq_of_cast a1 b1 e))
  exact ⟨_, _, hs, es, r3.symm, r4.symm⟩

/-! ## Doubling -/

theorem order_two {x y : Fp} {h : curve.Nonsingular x y} :
    (.some x y h + .some x y h : curve.Point) = 0 ↔ y = 0 := by
  constructor
  · intro e
    by_contra hy
    obtain ⟨h', e'⟩ := add_self (h := h) hy
    rw [e'] at e
    exact Affine.Point.some_ne_zero _ e
  · exact add_self_zero

theorem rhs_zero {x y : Fp} (h : y ^ 2 = rhs x) :
    y = 0 ↔ 4 * (x * (x ^ 2 + 486662 * x + 1)) = 0 := by
  have hr : x * (x ^ 2 + 486662 * x + 1) = y ^ 2 := by rw [h, rhs]; ring
  rw [hr]
  constructor
  · rintro rfl; simp
  · intro e
    exact pow_eq_zero_iff (two_ne_zero) |>.mp ((mul_eq_zero.mp e).resolve_left four_ne)

theorem dbl_isX {a : Bytes} {P : curve.Point} (ha : IsX a P) :
    (P + P = 0 → pointDblX a = .throws) ∧
    (P + P ≠ 0 → ∃ r, pointDblX a = .ok r ∧ IsX r (P + P)) := by
  obtain ⟨l, a1, x, y, hn, rfl, rfl⟩ := ha
  have hc : ((mulMod (mulMod (addMod (addMod (mulMod (beVal a) (beVal a)) (mulMod (beVal a) kJ)) 1)
      (beVal a)) 4 : Int) : Fp) = 4 * (beVal a * ((beVal a : Fp) ^ 2 + 486662 * beVal a + 1)) := by
    simp only [cast_addMod, cast_mulMod, cast_nat, cast_J, Int.cast_ofNat, Int.cast_one]
    ring
  constructor
  · intro h0
    have hz := (rhs_zero (nonsingular_eq hn)).mp (order_two.mp h0)
    unfold pointDblX
    dsimp only
    rw [invMod_throws (hc.trans hz)]
    rfl
  · intro h0
    have hy : y ≠ 0 := fun e => h0 (order_two.mpr e)
    have hz : ¬ _ := fun e => hy ((rhs_zero (nonsingular_eq hn)).mpr e)
    unfold pointDblX
    dsimp only
    obtain ⟨d, hd, hdc, _⟩ := invMod_ok (fun e => hz (hc.symm.trans e))
    rw [hd, res_bind_ok]
    obtain ⟨r, h1, h2, h3, h4⟩ := toBytes_spec (mulMod_range (mulMod (subMod (mulMod (beVal a)
      (beVal a)) 1) (subMod (mulMod (beVal a) (beVal a)) 1)) d)
    refine ⟨r, h1, h2, h3, ?_⟩
    obtain ⟨hs, es⟩ := add_self (h := hn) hy
    refine ⟨_, _, hs, es, ?_⟩
    rw [dbl_x (nonsingular_eq hn) hy, h4, cast_mulMod, hdc, hc, div_eq_mul_inv]
    simp only [cast_subMod, cast_mulMod, cast_nat, Int.cast_one]
    ring

theorem dbl_isXY {a : Bytes × Bytes} {P : curve.Point} (ha : IsXY a P) :
    (P + P = 0 → pointDbl a.1 a.2 = .throws) ∧
    (P + P ≠ 0 → ∃ r, pointDbl a.1 a.2 = .ok r ∧ IsXY r (P + P)) := by
  obtain ⟨l, ⟨a1, a2⟩, x, y, hn, rfl, rfl, rfl⟩ := ha
  have hc : ((mulMod (beVal a.2) 2 : Int) : Fp) = 2 * beVal a.2 := by
    simp only [cast_mulMod, cast_nat, Int.cast_ofNat]
    ring
  constructor
  · intro h0
    unfold pointDbl
    dsimp only
    rw [invMod_throws (by rw [hc, order_two.mp h0, mul_zero])]
    rfl
  · intro h0
    have hy : (beVal a.2 : Fp) ≠ 0 := fun e => h0 (order_two.mpr e)
    unfold pointDbl
    dsimp only
    obtain ⟨d, hd, hdc, _⟩ := invMod_ok (a := mulMod (beVal a.2) 2)
      (by rw [hc]; exact mul_ne_zero two_ne hy)
    rw [hd, res_bind_ok]
    generalize hl : mulMod (addMod (addMod (mulMod (mulMod (beVal a.1) (beVal a.1)) 3)
      (mulMod (mulMod (beVal a.1) kJ) 2)) 1) d = L
    have hL : (L : Fp) = (3 * (beVal a.1 : Fp) ^ 2 + 2 * 486662 * beVal a.1 + 1) / (2 * beVal a.2) := by
      rw [← hl, cast_mulMod, hdc, hc, div_eq_mul_inv]
      simp only [cast_addMod, cast_mulMod, cast_nat, cast_J, Int.cast_ofNat, Int.cast_one]
      ring
    obtain ⟨r, h1, h2, h3, h4⟩ := toBytes_spec (subMod_range (subMod (powMod L 2) kJ)
      (mulMod (beVal a.1) 2))
    obtain ⟨s, g1, g2, g3, g4⟩ := toBytes_spec (subMod_range (subMod (mulMod (addMod
      (mulMod (beVal a.1) 3) kJ) L) (powMod L 3)) (beVal a.2))
    rw [h1, res_bind_ok, g1, res_bind_ok]
    refine ⟨(r, s), rfl, ⟨h2, g2⟩, ⟨h3, g3⟩, ?_⟩
    obtain ⟨hs, es⟩ := add_self (h := hn) hy
    refine ⟨_, _, hs, es, ?_, ?_⟩
    · rw [← hL]
      dsimp only
      rw [h4]
      have e2 : (2 : Int).toNat = 2 := rfl
      simp only [cast_subMod, cast_mulMod, cast_powMod, cast_nat, cast_J, Int.cast_ofNat, e2]
      ring
    · rw [← hL]
      dsimp only
      rw [g4]
      have e2 : (3 : Int).toNat = 3 := rfl
      simp only [cast_subMod, cast_addMod, cast_mulMod, cast_powMod, cast_nat, cast_J,
        Int.cast_ofNat, e2]
      ring

theorem check_iff (xb yb : Bytes) :
    checkPoint xb yb = true ↔ (beVal yb : Fp) ^ 2 = rhs (beVal xb) := by
  unfold checkPoint
  dsimp only
  rw [beq_iff_eq, eq_iff_cast (addMod_range _ _) (powMod_range _ _)]
  have e2 : (2 : Int).toNat = 2 := rfl
  have e3 : (3 : Int).toNat = 3 := rfl
  simp only [cast_addMod, cast_mulMod, cast_powMod, cast_nat, cast_J, e2, e3, rhs]
  constructor <;> intro h <;> linear_combination -h

end Psi.Elligator
