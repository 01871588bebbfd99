import Verif.Elligator.MapLemmas

/-!
# Properties C100 and C101: the map to the curve and the arithmetic of points
-/

namespace Psi.Elligator

open WeierstrassCurve
open Psi.Spiral (Res)

/-! ## C100 -/

/-- The hash's map is the Elligator 2 map of RFC 9380 for every input of at least one byte: it never
throws, the coordinates are reduced and have 32 bytes, and the pair is a point of the curve, which
`CheckPoint` confirms. -/
theorem map_ok (ubuf : Bytes) (hl : 0 < ubuf.length) :
    ∃ (r : Bytes × Bytes) (P : curve.Point), mapG2 ubuf = .ok r ∧ IsXY r P ∧
      checkPoint r.1 r.2 = true ∧ Maps (beVal ubuf) (beVal r.1) (beVal r.2) := by
  obtain ⟨r, e, h1, h2, h3⟩ := mapG2_maps hl
  exact ⟨r, .some _ _ (nonsingular_of h3.2.2), e, ⟨h1, h2, _, _, nonsingular_of h3.2.2, rfl, rfl, rfl⟩,
    (check_iff _ _).mpr h3.2.2, h3⟩

/-- The two implementations of the map give the same bytes. -/
theorem map_variants (ubuf : Bytes) (hl : 0 < ubuf.length) : mapG2 ubuf = mapF3 ubuf := by
  obtain ⟨r, e, h1, h2, h3⟩ := mapG2_maps hl
  obtain ⟨r', e', h1', h2', h3'⟩ := mapF3_maps ubuf
  rw [e, e']
  congr 1
  obtain ⟨x, y⟩ := h3.unique h3'
  refine Prod.ext ?_ ?_
  · exact beVal_inj (h1.1.trans h1'.1.symm) (nat_eq_of_cast h2.1 h2'.1 x)
  · exact beVal_inj (h1.2.trans h1'.2.symm) (nat_eq_of_cast h2.2 h2'.2 y)

theorem disc_nonsquare : ¬ IsSquare ((486662 : Fp) ^ 2 - 4) := by
  rw [ZMod.euler_criterion kP J_sq_ne]
  have h : ((pw kP (486662 ^ 2 - 4) (kP / 2) : Nat) : Fp) = ((486662 : Fp) ^ 2 - 4) ^ (kP / 2) := by
    rw [pw_eq kP_prime.one_lt, ZMod.natCast_mod, Nat.cast_pow]
    norm_num
  rw [← h]
  have h1 : pw kP (486662 ^ 2 - 4) (kP / 2) = kP - 1 := by decide +kernel
  rw [h1]
  intro e
  have h2 : ((kP - 1 : Nat) : Fp) = ((1 : Nat) : Fp) := by rw [e, Nat.cast_one]
  have h3 := nat_eq_of_cast (by have := kP_pos; omega) kP_prime.one_lt h2
  have h4 : kP ≠ 2 := by decide +kernel
  omega

theorem J_ne' : (486662 : Fp) ≠ 0 := by rw [← cast_J]; exact J_ne

theorem first_ne_zero (u : Fp) : (-486662 / (1 + 2 * u ^ 2) : Fp) ≠ 0 :=
  div_ne_zero (neg_ne_zero.mpr J_ne') (one_add_ne u)

/-- Only `(0, 0)` has order two among the points over the field. -/
theorem rhs_ne_zero {x : Fp} (h : x ≠ 0) : rhs x ≠ 0 := by
  intro e
  apply disc_nonsquare
  refine ⟨2 * x + 486662, ?_⟩
  have h1 : x * (x ^ 2 + 486662 * x + 1) = 0 := by rw [← e, rhs]; ring
  have h2 := (mul_eq_zero.mp h1).resolve_left h
  linear_combination -4 * h2

theorem first_inj {u v : Fp} (h : (-486662 / (1 + 2 * u ^ 2) : Fp) = -486662 / (1 + 2 * v ^ 2)) :
    u ^ 2 = v ^ 2 := by
  rw [div_eq_div_iff (one_add_ne u) (one_add_ne v)] at h
  have h1 := mul_left_cancel₀ (neg_ne_zero.mpr J_ne') h
  have h2 : (2 : Fp) * u ^ 2 = 2 * v ^ 2 := by linear_combination -h1
  exact mul_left_cancel₀ two_ne h2

theorem first_second {u v : Fp} : (-486662 / (1 + 2 * u ^ 2) : Fp) =
    -(-486662 / (1 + 2 * v ^ 2)) - 486662 ↔ 4 * u ^ 2 * v ^ 2 = 1 := by
  rw [second_eq, div_eq_div_iff (one_add_ne u) (one_add_ne v)]
  constructor
  · intro h
    have : (486662 : Fp) * (4 * u ^ 2 * v ^ 2 - 1) = 0 := by linear_combination h
    linear_combination (mul_eq_zero.mp this).resolve_left J_ne'
  · intro h; linear_combination 486662 * h

theorem square_flip {u v : Fp} (h : 4 * u ^ 2 * v ^ 2 = 1) :
    IsSquare (rhs (-486662 / (1 + 2 * u ^ 2))) ↔ ¬ IsSquare (rhs (-486662 / (1 + 2 * v ^ 2))) := by
  have h' : 4 * v ^ 2 * u ^ 2 = 1 := by linear_combination h
  constructor
  · rintro ⟨a, ha⟩ ⟨b, hb⟩
    have e := first_second.mpr h
    have e2 := rhs_second v
    rw [← e, ha, hb] at e2
    have hb0 : b ≠ 0 := by
      rintro rfl
      exact rhs_ne_zero (first_ne_zero v) (by rw [hb, mul_zero])
    have hv : v ≠ 0 := by rintro rfl; norm_num at h
    have : IsSquare (2 : Fp) := ⟨a / (v * b), by field_simp; linear_combination -e2⟩
    rw [ZMod.exists_sq_eq_two_iff (by decide +kernel)] at this
    revert this; decide +kernel
  · intro hn
    have := second_square hn
    rwa [← first_second.mpr h] at this

/-- When two inputs give the same `x`. -/
theorem same_x {u v x y x' y' : Fp} (h : Maps u x y) (h' : Maps v x' y') :
    x = x' ↔ u ^ 2 = v ^ 2 ∨ 4 * u ^ 2 * v ^ 2 = 1 := by
  constructor
  · intro e
    by_cases hs : IsSquare (rhs (-486662 / (1 + 2 * u ^ 2))) <;>
      by_cases hs' : IsSquare (rhs (-486662 / (1 + 2 * v ^ 2)))
    · left; rw [(h.1 hs).1, (h'.1 hs').1] at e; exact first_inj e
    · right; rw [(h.1 hs).1, (h'.2.1 hs').1] at e; exact first_second.mp e
    · right
      rw [(h.2.1 hs).1, (h'.1 hs').1] at e
      have := first_second.mp e.symm
      linear_combination this
    · left
      rw [(h.2.1 hs).1, (h'.2.1 hs').1] at e
      apply first_inj
      linear_combination -e
  · rintro (e | e)
    · have hr : Maps v x y := by
        unfold Maps at h ⊢
        rw [← e]; exact h
      exact (hr.unique h').1
    · have e' : 4 * v ^ 2 * u ^ 2 = 1 := by linear_combination e
      have hf := square_flip e
      by_cases hs : IsSquare (rhs (-486662 / (1 + 2 * u ^ 2)))
      · rw [(h.1 hs).1, (h'.2.1 (hf.mp hs)).1]
        exact first_second.mpr e
      · have hs' : IsSquare (rhs (-486662 / (1 + 2 * v ^ 2))) := by
          by_contra hc; exact hs (hf.mpr hc)
        rw [(h.2.1 hs).1, (h'.1 hs').1]
        exact (first_second.mpr e').symm

/-- The map is two to one: inputs meet only when they are equal or opposite in the field. -/
theorem map_collides (a b : Bytes) (ha : 0 < a.length) (hb : 0 < b.length) :
    mapG2 a = mapG2 b ↔
      ((beVal a : Int) ≡ beVal b [ZMOD 2 ^ 255 - 19] ∨ (beVal a : Int) ≡ -beVal b [ZMOD 2 ^ 255 - 19]) := by
  have hp : ((2 : Int) ^ 255 - 19) = (kP : Int) := by rw [kP_eq]; norm_num
  rw [hp, ← ZMod.intCast_eq_intCast_iff, ← ZMod.intCast_eq_intCast_iff, Int.cast_neg, cast_nat, cast_nat,
    ← sq_eq_sq_iff_eq_or_eq_neg]
  obtain ⟨r, e, h1, h2, h3⟩ := mapG2_maps ha
  obtain ⟨r', e', h1', h2', h3'⟩ := mapG2_maps hb
  rw [e, e']
  constructor
  · intro he
    injection he with he
    subst he
    rcases (same_x h3 h3').mp rfl with hh | hh
    · exact hh
    · exfalso
      have hf := square_flip hh
      have hpar : ∀ {u v : Fp}, Maps u (beVal r.1) (beVal r.2) → Maps v (beVal r.1) (beVal r.2) →
          IsSquare (rhs (-486662 / (1 + 2 * u ^ 2))) →
          ¬ IsSquare (rhs (-486662 / (1 + 2 * v ^ 2))) → False := by
        intro u v m m' s s'
        obtain ⟨q1, q2⟩ := m.1 s
        have q3 := (m'.2.1 s').2
        rcases q2 with q2 | q2
        · have := m.2.2
          rw [q2, q1] at this
          exact rhs_ne_zero (first_ne_zero u) (by rw [← this]; norm_num)
        · omega
      by_cases hs : IsSquare (rhs (-486662 / (1 + 2 * (beVal a : Fp) ^ 2)))
      · exact hpar h3 h3' hs (hf.mp hs)
      · have hs' : IsSquare (rhs (-486662 / (1 + 2 * (beVal b : Fp) ^ 2))) := by
          by_contra hc; exact hs (hf.mpr hc)
        exact hpar h3' h3 hs' hs
  · intro he
    have hr : Maps (beVal b) (beVal r.1) (beVal r.2) := by
      unfold Maps at h3 ⊢
      rw [← he]; exact h3
    obtain ⟨x, y⟩ := hr.unique h3'
    congr 1
    refine Prod.ext ?_ ?_
    · exact beVal_inj (h1.1.trans h1'.1.symm) (nat_eq_of_cast h2.1 h2'.1 x)
    · exact beVal_inj (h1.2.trans h1'.2.symm) (nat_eq_of_cast h2.2 h2'.2 y)

/-! ## C101 -/

/-- `PointAdd` and `PointAddX` give the sum of the group; they throw when the points are equal or
opposite. -/
theorem add_spec {a b : Bytes × Bytes} {P Q : curve.Point} (ha : IsXY a P) (hb : IsXY b Q) :
    (P ≠ Q → P + Q ≠ 0 → ∃ r, pointAdd a.1 a.2 b.1 b.2 = .ok r ∧ IsXY r (P + Q) ∧
      pointAddX a.1 a.2 b.1 b.2 = .ok r.1) ∧
    (P = Q ∨ P + Q = 0 →
      pointAdd a.1 a.2 b.1 b.2 = .throws ∧ pointAddX a.1 a.2 b.1 b.2 = .throws) := by
  constructor
  · intro h h0
    obtain ⟨r, e, hr⟩ := sum_isXY ha hb h h0
    obtain ⟨s, e', hs⟩ := sum_isX ha hb h h0
    refine ⟨r, e, hr, ?_⟩
    rw [e']
    obtain ⟨⟨l, _⟩, ⟨v, _⟩, x, y, hn, hp, hx, _⟩ := hr
    obtain ⟨l', v', x', y', hn', hp', hx'⟩ := hs
    rw [hp] at hp'
    obtain ⟨rfl, _⟩ := Affine.Point.some.inj hp'
    congr 1
    exact beVal_inj (l'.trans l.symm) (nat_eq_of_cast v' v (hx'.symm.trans hx))
  · intro h
    have hv := (val_eq_cases ha hb).mpr h
    exact ⟨pointAdd_throws hv, pointAddX_throws hv⟩

/-- `PointDbl` and `PointDblProjective` give the double of the group; they throw when it is the point
at infinity. -/
theorem dbl_spec {a : Bytes × Bytes} {P : curve.Point} (ha : IsXY a P) :
    (P + P ≠ 0 → ∃ r, pointDbl a.1 a.2 = .ok r ∧ IsXY r (P + P) ∧ pointDblX a.1 = .ok r.1) ∧
    (P + P = 0 → pointDbl a.1 a.2 = .throws ∧ pointDblX a.1 = .throws) := by
  have hx : IsX a.1 P := by
    obtain ⟨⟨l, _⟩, ⟨v, _⟩, x, y, hn, hp, hx, _⟩ := ha
    exact ⟨l, v, x, y, hn, hp, hx⟩
  constructor
  · intro h0
    obtain ⟨r, e, hr⟩ := (dbl_isXY ha).2 h0
    obtain ⟨s, e', hs⟩ := (dbl_isX hx).2 h0
    refine ⟨r, e, hr, ?_⟩
    rw [e']
    obtain ⟨⟨l, _⟩, ⟨v, _⟩, x, y, hn, hp, hx, _⟩ := hr
    obtain ⟨l', v', x', y', hn', hp', hx'⟩ := hs
    rw [hp] at hp'
    obtain ⟨rfl, _⟩ := Affine.Point.some.inj hp'
    congr 1
    exact beVal_inj (l'.trans l.symm) (nat_eq_of_cast v' v (hx'.symm.trans hx))
  · intro h0
    exact ⟨(dbl_isXY ha).1 h0, (dbl_isX hx).1 h0⟩

/-- `PointClearCofactorProjective` multiplies by eight; it throws when the multiple is the point at
infinity. -/
theorem clear_x_spec {a : Bytes} {P : curve.Point} (ha : IsX a P) :
    (8 • P ≠ 0 → ∃ r, clearX a = .ok r ∧ IsX r (8 • P)) ∧
    (8 • P = 0 → clearX a = .throws) := by
  have e8 : 8 • P = (P + P + (P + P)) + (P + P + (P + P)) := by
    simp only [← two_nsmul, ← mul_nsmul]
  unfold clearX
  by_cases h2 : P + P = 0
  · rw [(dbl_isX ha).1 h2]
    refine ⟨fun h => absurd ?_ h, fun _ => rfl⟩
    rw [e8, h2]; simp
  · obtain ⟨r2, q2, i2⟩ := (dbl_isX ha).2 h2
    rw [q2, res_bind_ok]
    by_cases h4 : P + P + (P + P) = 0
    · rw [(dbl_isX i2).1 h4]
      refine ⟨fun h => absurd ?_ h, fun _ => rfl⟩
      rw [e8, h4]; simp
    · obtain ⟨r4, q4, i4⟩ := (dbl_isX i2).2 h4
      rw [q4, res_bind_ok, e8]
      obtain ⟨t1, t2⟩ := dbl_isX i4
      exact ⟨t2, t1⟩

/-- The same for `PointClearCofactor`, with both coordinates. -/
theorem clear_spec {a : Bytes × Bytes} {P : curve.Point} (ha : IsXY a P) :
    (8 • P ≠ 0 → ∃ r, clear a.1 a.2 = .ok r ∧ IsXY r (8 • P)) ∧
    (8 • P = 0 → clear a.1 a.2 = .throws) := by
  have e8 : 8 • P = (P + P + (P + P)) + (P + P + (P + P)) := by
    simp only [← two_nsmul, ← mul_nsmul]
  unfold clear
  by_cases h2 : P + P = 0
  · rw [(dbl_isXY ha).1 h2]
    refine ⟨fun h => absurd ?_ h, fun _ => rfl⟩
    rw [e8, h2]; simp
  · obtain ⟨r2, q2, i2⟩ := (dbl_isXY ha).2 h2
    rw [q2, res_bind_ok]
    by_cases h4 : P + P + (P + P) = 0
    · rw [(dbl_isXY i2).1 h4]
      refine ⟨fun h => absurd ?_ h, fun _ => rfl⟩
      rw [e8, h4]; simp
    · obtain ⟨r4, q4, i4⟩ := (dbl_isXY i2).2 h4
      rw [q4, res_bind_ok, e8]
      obtain ⟨t1, t2⟩ := dbl_isXY i4
      exact ⟨t2, t1⟩

/-- `CheckPoint` accepts exactly the points of the curve. -/
theorem check_spec (xb yb : Bytes) : checkPoint xb yb = true ↔
    (beVal yb ^ 2) ≡ beVal xb ^ 3 + 486662 * beVal xb ^ 2 + beVal xb [MOD 2 ^ 255 - 19] := by
  rw [check_iff, ← kP_eq, ← ZMod.natCast_eq_natCast_iff, rhs]
  push_cast
  rfl

end Psi.Elligator
