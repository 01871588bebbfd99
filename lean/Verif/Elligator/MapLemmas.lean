import Verif.Elligator.PointLemmas

/-!
# The Elligator 2 map

`Maps` is the map of RFC 9380, section 6.7.1, as a relation on the field.  Both functions of the code
compute it.
-/

namespace Psi.Elligator

open Psi.Spiral (Res)

/-- The map of RFC 9380, section 6.7.1, for Curve25519 (`J = 486662`, `K = 1`, `Z = 2`): `x1` is the
first candidate; the sign of `y` says which candidate was taken. -/
def Maps (u x y : Fp) : Prop :=
  (IsSquare (rhs (-486662 / (1 + 2 * u ^ 2))) →
    x = -486662 / (1 + 2 * u ^ 2) ∧ (y = 0 ∨ y.val % 2 = 1)) ∧
  (¬ IsSquare (rhs (-486662 / (1 + 2 * u ^ 2))) →
    x = -(-486662 / (1 + 2 * u ^ 2)) - 486662 ∧ y.val % 2 = 0) ∧
  y ^ 2 = rhs x

theorem val_neg_parity {y : Fp} (h : y ≠ 0) : (-y).val % 2 ≠ y.val % 2 := by
  have h1 : (-y).val = kP - y.val := by
    have : NeZero y := ⟨h⟩
    exact ZMod.val_neg_of_ne_zero y
  have h2 := ZMod.val_lt y
  have h3 : kP % 2 = 1 := by rw [kP_eq]; norm_num
  omega

/-- The map has one value. -/
theorem Maps.unique {u x y x' y' : Fp} (h : Maps u x y) (h' : Maps u x' y') : x = x' ∧ y = y' := by
  by_cases hs : IsSquare (rhs (-486662 / (1 + 2 * u ^ 2)))
  · obtain ⟨e, s⟩ := h.1 hs
    obtain ⟨e', s'⟩ := h'.1 hs
    have hx : x = x' := e.trans e'.symm
    refine ⟨hx, ?_⟩
    rcases X_eq h.2.2 h'.2.2 hx with r | r
    · exact r
    · by_cases h0 : y' = 0
      · rw [r, h0, neg_zero]
      · have := val_neg_parity h0
        rw [← r] at this
        have hy : y ≠ 0 := by rw [r]; exact neg_ne_zero.mpr h0
        have s1 := s.resolve_left hy
        have s2 := s'.resolve_left h0
        omega
  · obtain ⟨e, s⟩ := h.2.1 hs
    obtain ⟨e', s'⟩ := h'.2.1 hs
    have hx : x = x' := e.trans e'.symm
    refine ⟨hx, ?_⟩
    rcases X_eq h.2.2 h'.2.2 hx with r | r
    · exact r
    · by_cases h0 : y' = 0
      · rw [r, h0, neg_zero]
      · have := val_neg_parity h0
        rw [← r] at this
        omega

/-! ## Algebra of the candidates -/

/-- The second candidate. -/
theorem second_eq (u : Fp) : -(-486662 / (1 + 2 * u ^ 2)) - 486662 =
    -486662 * (2 * u ^ 2) / (1 + 2 * u ^ 2) := by
  have := one_add_ne u
  field_simp
  ring

/-- `g (x1)` as a fraction. -/
theorem rhs_first (u : Fp) : rhs (-486662 / (1 + 2 * u ^ 2)) =
    ((486662 * (2 * u ^ 2) * -486662 + (1 + 2 * u ^ 2) ^ 2) * -486662) / (1 + 2 * u ^ 2) ^ 3 := by
  have := one_add_ne u
  rw [rhs]
  field_simp
  ring

/-- `g (x2) = 2 u² g (x1)`. -/
theorem rhs_second (u : Fp) : rhs (-(-486662 / (1 + 2 * u ^ 2)) - 486662) =
    2 * u ^ 2 * rhs (-486662 / (1 + 2 * u ^ 2)) := by
  have := one_add_ne u
  rw [second_eq, rhs, rhs]
  field_simp
  ring

/-- One of the two candidates has a square. -/
theorem second_square {u : Fp} (h : ¬ IsSquare (rhs (-486662 / (1 + 2 * u ^ 2)))) :
    IsSquare (rhs (-(-486662 / (1 + 2 * u ^ 2)) - 486662)) := by
  rw [rhs_second]
  have h2 : ¬ IsSquare (2 : Fp) := by
    rw [ZMod.exists_sq_eq_two_iff (by decide +kernel)]
    decide +kernel
  have hm : ∀ a : Fp, ¬ IsSquare a → IsSquare (2 * a) := by
    intro a ha
    have ha0 : a ≠ 0 := by rintro rfl; exact ha (IsSquare.zero)
    rw [ZMod.euler_criterion kP (mul_ne_zero two_ne ha0), mul_pow]
    have e1 := (ZMod.pow_div_two_eq_neg_one_or_one kP two_ne).resolve_left
      (fun e => h2 ((ZMod.euler_criterion kP two_ne).mpr e))
    have e2 := (ZMod.pow_div_two_eq_neg_one_or_one kP ha0).resolve_left
      (fun e => ha ((ZMod.euler_criterion kP ha0).mpr e))
    rw [e1, e2]; norm_num
  have e : 2 * u ^ 2 * rhs (-486662 / (1 + 2 * u ^ 2)) =
      2 * rhs (-486662 / (1 + 2 * u ^ 2)) * (u * u) := by ring
  rw [e]
  exact (hm _ h).mul ⟨u, rfl⟩

/-! ## `MapToCurveG2` -/

theorem sq_one {w : Fp} (h : w ^ 2 = 1) : w = 1 ∨ w = -1 := by
  have : (w - 1) * (w + 1) = 0 := by linear_combination h
  rcases mul_eq_zero.mp this with e | e
  · left; linear_combination e
  · right; linear_combination e

theorem g2Start_cast (u : Int) :
    ((g2Start u).1 : Fp) = 2 * (u : Fp) ^ 2 ∧
    ((g2Start u).2.1 : Fp) = 1 + 2 * (u : Fp) ^ 2 ∧
    ((g2Start u).2.2.1 : Fp) = (1 + 2 * (u : Fp) ^ 2) ^ 3 ∧
    ((g2Start u).2.2.2 : Fp) =
      (486662 * (2 * (u : Fp) ^ 2) * -486662 + (1 + 2 * (u : Fp) ^ 2) ^ 2) * -486662 ∧
    (0 ≤ (g2Start u).2.2.2 ∧ (g2Start u).2.2.2 < kP) := by
  unfold g2Start
  dsimp only
  refine ⟨?_, ?_, ?_, ?_, mulMod_range _ _⟩ <;>
  · simp only [cast_mulMod, cast_addMod, Int.cast_neg, cast_J, Int.cast_ofNat, Int.cast_one]
    ring

theorem g2Y11_cast (gxd gx1 : Int) :
    ((g2Y11 gxd gx1 : Int) : Fp) =
      ((gx1 : Fp) * (gxd : Fp) ^ 7) ^ ((kP - 5) / 8) * ((gxd : Fp) ^ 3 * gx1) ∧
    (0 ≤ g2Y11 gxd gx1 ∧ g2Y11 gxd gx1 < kP) := by
  unfold g2Y11
  dsimp only
  refine ⟨?_, mulMod_range _ _⟩
  simp only [cast_mulMod, cast_powMod, c4_eq]
  have e : (gxd : Fp) * gxd * (gxd * gxd) * (gxd * gxd * gxd * gx1) =
      (gx1 : Fp) * (gxd : Fp) ^ 7 := by ring
  rw [e]
  generalize ((gx1 : Fp) * (gxd : Fp) ^ 7) ^ ((kP - 5) / 8) = t
  ring

theorem g2Pick_cast {y gxd g : Int} (hy : 0 ≤ y ∧ y < kP) (hg : 0 ≤ g ∧ g < kP) :
    ((g2Pick y gxd g : Int) : Fp) =
      (if (y : Fp) ^ 2 * gxd = g then (y : Fp) else y * kSqrtm1) ∧
    (0 ≤ g2Pick y gxd g ∧ g2Pick y gxd g < kP) := by
  unfold g2Pick
  dsimp only
  have hc : (mulMod (mulMod y y) gxd = g) ↔ (y : Fp) ^ 2 * gxd = g := by
    rw [eq_iff_cast (mulMod_range _ _) hg, cast_mulMod, cast_mulMod, pow_two]
  by_cases h : mulMod (mulMod y y) gxd = g
  · rw [if_pos h, if_pos (hc.mp h)]
    exact ⟨rfl, hy⟩
  · rw [if_neg h, if_neg (fun e => h (hc.mpr e)), cast_mulMod]
    exact ⟨rfl, mulMod_range _ _⟩

/-- The algebra of steps 11 to 36. -/
theorem pick_algebra {F : Type} [Field F] [DecidableEq F] {g d y w i c u y1 y2 : F}
    (hi : i ^ 2 = -1) (hc : c ^ 4 = -4) (hy : y ^ 2 * d = w * g) (hy0 : g = 0 → y = 0)
    (hw : g ≠ 0 → w ^ 2 = 1 ∨ w ^ 2 = -1)
    (h1 : y1 = if y ^ 2 * d = g then y else y * i)
    (h2 : y2 = if (y * u * c) ^ 2 * d = g * (2 * u ^ 2) then y * u * c else y * u * c * i) :
    ((g = 0 ∨ w ^ 2 = 1) → y1 ^ 2 * d = g) ∧
    (¬ (g = 0 ∨ w ^ 2 = 1) → y1 ^ 2 * d ≠ g ∧ y2 ^ 2 * d = g * (2 * u ^ 2)) := by
  constructor
  · intro h
    by_cases hg : y ^ 2 * d = g
    · rw [h1, if_pos hg, hg]
    · rw [h1, if_neg hg]
      rcases h with h | h
      · have := hy0 h
        rw [this, h]; ring
      · have hm : (w - 1) * (w + 1) = 0 := by linear_combination h
        rcases mul_eq_zero.mp hm with e | e
        · exact absurd (by linear_combination hy + g * e) hg
        · linear_combination i ^ 2 * hy + i ^ 2 * g * e - g * hi
  · intro h
    push Not at h
    obtain ⟨hg, hw1⟩ := h
    have hw2 := (hw hg).resolve_left hw1
    have w1 : w ≠ 1 := by rintro rfl; apply hw1; ring
    have w2 : w ≠ -1 := by rintro rfl; apply hw1; ring
    have hne : y ^ 2 * d ≠ g := by
      rw [hy]; intro e
      apply w1
      have : (w - 1) * g = 0 := by linear_combination e
      linear_combination (mul_eq_zero.mp this).resolve_right hg
    constructor
    · rw [h1, if_neg hne]
      intro e
      apply w2
      have : (w + 1) * g = 0 := by linear_combination -e + i ^ 2 * hy + w * g * hi
      linear_combination (mul_eq_zero.mp this).resolve_right hg
    · by_cases hg2 : (y * u * c) ^ 2 * d = g * (2 * u ^ 2)
      · rw [h2, if_pos hg2, hg2]
      · rw [h2, if_neg hg2]
        have hv : (w * c ^ 2 - 2) * (w * c ^ 2 + 2) = 0 := by
          linear_combination c ^ 4 * hw2 - hc
        have e21 : (y * u * c) ^ 2 * d = (w * c ^ 2) * (g * u ^ 2) := by
          linear_combination u ^ 2 * c ^ 2 * hy
        rcases mul_eq_zero.mp hv with e | e
        · exact absurd (by rw [e21]; linear_combination g * u ^ 2 * e) hg2
        · linear_combination i ^ 2 * e21 + (g * u ^ 2) * i ^ 2 * e - 2 * g * u ^ 2 * hi

theorem setSign_spec {e : Bool} {y : Int} (hy : 0 ≤ y ∧ y < kP) :
    (0 ≤ setSign (e != sgn0 y) y ∧ setSign (e != sgn0 y) y < kP) ∧
    ((setSign (e != sgn0 y) y : Int) : Fp) ^ 2 = (y : Fp) ^ 2 ∧
    (e = true → setSign (e != sgn0 y) y = 0 ∨ setSign (e != sgn0 y) y % 2 = 1) ∧
    (e = false → setSign (e != sgn0 y) y % 2 = 0) := by
  have hp : (kP : Int) % 2 = 1 := by
    have : kP % 2 = 1 := by rw [kP_eq]; norm_num
    omega
  have hs : sgn0 y = true ↔ y % 2 = 1 := by
    have : y.tmod 2 = y % 2 := Int.tmod_eq_emod_of_nonneg hy.1
    rw [sgn0, this]
    simp
  have hneg : y ≠ 0 → addMod (-y) kP = kP - y := by
    intro h0
    rw [addMod, Int.emod_eq_of_lt (by omega) (by omega)]; omega
  have hkeep : setSign false y = y := by
    simp only [setSign, Bool.false_eq_true, if_false]
    rw [if_neg (by omega)]
  have hflip : setSign true y = if y = 0 then 0 else kP - y := by
    simp only [setSign, if_true]
    split
    · rename_i h; rw [if_neg (by omega), hneg (by omega)]
    · rename_i h; rw [if_pos (by omega)]; omega
  have hcast : ((kP - y : Int) : Fp) ^ 2 = (y : Fp) ^ 2 := by
    rw [Int.cast_sub, cast_nat, ZMod.natCast_self]; ring
  cases e with
  | true =>
    by_cases hq : sgn0 y = true
    · rw [hq]
      simp only [bne_self_eq_false, hkeep]
      have := hs.mp hq
      exact ⟨hy, trivial, fun _ => Or.inr this, fun h => by simp at h⟩
    · have hq' : sgn0 y = false := by simpa using hq
      rw [hq']
      simp only [Bool.bne_false, hflip]
      have : y % 2 ≠ 1 := fun h => hq (hs.mpr h)
      by_cases h0 : y = 0
      · subst h0; simp [kP_pos]
      · simp only [h0, if_false]
        exact ⟨by omega, hcast, fun _ => Or.inr (by omega), fun h => by simp at h⟩
  | false =>
    by_cases hq : sgn0 y = true
    · rw [hq]
      simp only [Bool.bne_true, Bool.not_false, hflip]
      have := hs.mp hq
      by_cases h0 : y = 0
      · subst h0; simp [kP_pos]
      · simp only [h0, if_false]
        exact ⟨by omega, hcast, fun h => by simp at h, fun _ => by omega⟩
    · have hq' : sgn0 y = false := by simpa using hq
      rw [hq']
      simp only [bne_self_eq_false, hkeep]
      have : y % 2 ≠ 1 := fun h => hq (hs.mpr h)
      exact ⟨hy, trivial, fun h => by simp at h, fun _ => by omega⟩

theorem val_cast {y : Int} (h : 0 ≤ y ∧ y < kP) : ((y : Fp)).val = y.toNat := by
  have : ((y : Int) : Fp) = ((y.toNat : Nat) : Fp) := by
    rw [← cast_nat, Int.toNat_of_nonneg h.1]
  rw [this, ZMod.val_natCast, Nat.mod_eq_of_lt (by omega)]

theorem w_facts {g d : Fp} (hd : d ≠ 0) :
    ((g * d ^ 7) ^ ((kP - 5) / 8) * (d ^ 3 * g)) ^ 2 * d = (g * d ^ 7) ^ ((kP - 1) / 4) * g ∧
    (g ≠ 0 → ((g * d ^ 7) ^ ((kP - 1) / 4)) ^ 2 = 1 ∨ ((g * d ^ 7) ^ ((kP - 1) / 4)) ^ 2 = -1) ∧
    (g ≠ 0 → (((g * d ^ 7) ^ ((kP - 1) / 4)) ^ 2 = 1 ↔ IsSquare (g / d))) := by
  have h8 : kP % 8 = 5 := by decide +kernel
  have e1 : (kP - 1) / 4 = 2 * ((kP - 5) / 8) + 1 := by omega
  have e2 : (kP - 1) / 4 * 2 = kP / 2 := by omega
  have hz : g ≠ 0 → g * d ^ 7 ≠ 0 := fun h => mul_ne_zero h (pow_ne_zero 7 hd)
  refine ⟨?_, ?_, ?_⟩
  · rw [e1, pow_succ (g * d ^ 7), pow_mul']
    generalize (g * d ^ 7) ^ ((kP - 5) / 8) = t
    ring
  · intro h
    rw [← pow_mul, e2]
    exact ZMod.pow_div_two_eq_neg_one_or_one kP (hz h)
  · intro h
    rw [← pow_mul, e2, ← ZMod.euler_criterion kP (hz h)]
    have e : g * d ^ 7 = g / d * (d ^ 4 * d ^ 4) := by field_simp
    constructor
    · rintro ⟨r, hr⟩
      refine ⟨r / d ^ 4, ?_⟩
      rw [e] at hr
      have h4 : d ^ 4 ≠ 0 := pow_ne_zero 4 hd
      rw [div_mul_div_comm, ← hr, mul_div_assoc, div_self (mul_ne_zero h4 h4), mul_one]
    · intro hs
      rw [e]
      exact hs.mul ⟨_, rfl⟩

theorem mapG2_maps {ubuf : Bytes} (hl : 0 < ubuf.length) :
    ∃ r : Bytes × Bytes, mapG2 ubuf = .ok r ∧ (r.1.length = 32 ∧ r.2.length = 32) ∧
      (beVal r.1 < kP ∧ beVal r.2 < kP) ∧ Maps (beVal ubuf) (beVal r.1) (beVal r.2) := by
  obtain ⟨h1, h2, h3, h4, h5⟩ := g2Start_cast (beVal ubuf)
  unfold mapG2
  rw [if_neg (by omega)]
  dsimp only
  generalize hs : g2Start (beVal ubuf) = s at *
  obtain ⟨tv1, xd, gxd, gx1⟩ := s
  dsimp only at *
  rw [cast_nat] at h1 h2 h3 h4
  generalize hu : ((beVal ubuf : Nat) : Fp) = u at *
  have hx := one_add_ne u
  have hd : (gxd : Fp) ≠ 0 := by rw [h3]; exact pow_ne_zero 3 hx
  obtain ⟨y1, y2⟩ := g2Y11_cast gxd gx1
  generalize g2Y11 gxd gx1 = y11 at *
  obtain ⟨w1, w2, w3⟩ := w_facts (g := (gx1 : Fp)) hd
  rw [← y1] at w1
  have hy0 : (gx1 : Fp) = 0 → (y11 : Fp) = 0 := by
    intro e; rw [y1, e, mul_zero, mul_zero]
  generalize ((gx1 : Fp) * (gxd : Fp) ^ 7) ^ ((kP - 1) / 4) = w at *
  obtain ⟨p1, p2⟩ := g2Pick_cast (gxd := gxd) y2 h5
  obtain ⟨q1, q2⟩ := g2Pick_cast (gxd := gxd) (mulMod_range (mulMod y11 (beVal ubuf)) kC2)
    (mulMod_range gx1 tv1)
  simp only [cast_mulMod, cast_nat, hu, h1] at q1
  obtain ⟨a1, a2⟩ := pick_algebra sqrtm1_sq c2_four w1 hy0 w2 p1 q1
  generalize g2Pick y11 gxd gx1 = Y1 at *
  generalize g2Pick (mulMod (mulMod y11 (beVal ubuf)) kC2) gxd (mulMod gx1 tv1) = Y2 at *
  have he3 : (mulMod (mulMod Y1 Y1) gxd == gx1) = true ↔ (Y1 : Fp) ^ 2 * gxd = gx1 := by
    rw [beq_iff_eq, eq_iff_cast (mulMod_range _ _) h5, cast_mulMod, cast_mulMod, pow_two]
  have hgx : rhs (-486662 / (1 + 2 * u ^ 2)) = (gx1 : Fp) / gxd := by
    rw [rhs_first, h3, h4]
  have hsq : IsSquare (rhs (-486662 / (1 + 2 * u ^ 2))) ↔ ((gx1 : Fp) = 0 ∨ w ^ 2 = 1) := by
    rw [hgx]
    by_cases hg : (gx1 : Fp) = 0
    · simp [hg]
    · rw [← w3 hg]; simp [hg]
  have he : (mulMod (mulMod Y1 Y1) gxd == gx1) = true ↔
      IsSquare (rhs (-486662 / (1 + 2 * u ^ 2))) := by
    rw [he3, hsq]
    constructor
    · intro e
      by_contra hc
      exact (a2 hc).1 e
    · exact a1
  generalize (mulMod (mulMod Y1 Y1) gxd == gx1) = e3 at *
  obtain ⟨d, hdi, hdc, _⟩ := invMod_ok (a := xd) (by rw [h2]; exact hx)
  rw [hdi, res_bind_ok]
  generalize hY : (if e3 = true then Y1 else Y2) = Y
  have hYr : 0 ≤ Y ∧ Y < kP := by rw [← hY]; split <;> assumption
  obtain ⟨s1, s2, s3, s4⟩ := setSign_spec (e := e3) hYr
  generalize setSign (e3 != sgn0 Y) Y = Z at *
  obtain ⟨xb, x1, x2, x3, x4⟩ := toBytes_spec (mulMod_range (if e3 = true then -kJ else mulMod (-kJ) tv1) d)
  obtain ⟨yb, z1, z2, z3, z4⟩ := toBytes_spec s1
  rw [x1, res_bind_ok, z1, res_bind_ok]
  refine ⟨(xb, yb), rfl, ⟨x2, z2⟩, ⟨x3, z3⟩, ?_⟩
  dsimp only
  rw [x4, z4]
  have hzv := val_cast s1
  cases he3' : e3 with
  | true =>
    have hq := he.mp he3'
    subst he3'
    simp only [if_true] at hY ⊢
    have hX : ((mulMod (-kJ) d : Int) : Fp) = -486662 / (1 + 2 * u ^ 2) := by
      rw [cast_mulMod, hdc, h2, Int.cast_neg, cast_J, div_eq_mul_inv]
    rw [hX]
    refine ⟨fun _ => ⟨rfl, ?_⟩, fun h => absurd hq h, ?_⟩
    · rcases s3 rfl with e | e
      · left; rw [e, Int.cast_zero]
      · right; rw [hzv]; omega
    · rw [s2, hgx, ← hY, eq_div_iff hd]
      exact a1 (hsq.mp hq)
  | false =>
    have hq : ¬ IsSquare (rhs (-486662 / (1 + 2 * u ^ 2))) := fun h => by
      rw [he.mpr h] at he3'; cases he3'
    subst he3'
    simp only [Bool.false_eq_true, if_false] at hY ⊢
    have hX : ((mulMod (mulMod (-kJ) tv1) d : Int) : Fp) =
        -(-486662 / (1 + 2 * u ^ 2)) - 486662 := by
      rw [second_eq, cast_mulMod, cast_mulMod, hdc, h2, h1, Int.cast_neg, cast_J, div_eq_mul_inv]
    rw [hX]
    refine ⟨fun h => absurd h hq, fun _ => ⟨rfl, ?_⟩, ?_⟩
    · rw [hzv]; have := s4 rfl; omega
    · have hb := (a2 (fun h => hq (hsq.mpr h))).2
      rw [s2, rhs_second, hgx, ← hY, ← mul_div_assoc, eq_div_iff hd]
      linear_combination hb

/-! ## `MapToCurveElligator2` -/

theorem half_eq : (mulMod (subMod kP 1) (powMod 2 (kP - 2))).toNat = kP / 2 := by decide +kernel

theorem isSquare_spec {v : Int} :
    ∃ b, isSquare v = .ok b ∧ (b = true ↔ IsSquare (v : Fp)) := by
  have h2 : invMod 2 = .ok (powMod 2 (kP - 2)) := by
    rw [invMod, if_neg]
    intro e
    have := redMod_eq_zero.mp e
    exact two_ne (by exact_mod_cast this)
  unfold isSquare
  dsimp only
  rw [h2, res_bind_ok]
  refine ⟨_, rfl, ?_⟩
  have hr := powMod_range v (mulMod (subMod kP 1) (powMod 2 (kP - 2)))
  have hp : (1 : Int) < kP := by have := kP_prime.one_lt; omega
  rw [Bool.or_eq_true, beq_iff_eq, beq_iff_eq,
    eq_iff_cast hr (b := 1) ⟨by omega, by omega⟩, eq_iff_cast hr (b := 0) ⟨by omega, by omega⟩,
    cast_powMod, half_eq, Int.cast_one, Int.cast_zero]
  by_cases h0 : (v : Fp) = 0
  · have : kP / 2 ≠ 0 := by have := kP_prime.two_le; omega
    simp [h0, this]
  · rw [ZMod.euler_criterion kP h0]
    have : (v : Fp) ^ (kP / 2) ≠ 0 := pow_ne_zero _ h0
    simp [this]

theorem sqrt_spec {v : Int} (hv : 0 ≤ v ∧ v < kP) (h : IsSquare (v : Fp)) :
    (0 ≤ sqrt v ∧ sqrt v < kP) ∧ ((sqrt v : Int) : Fp) ^ 2 = v := by
  have h8 : kP % 8 = 5 := by decide +kernel
  have e0 : (((kP : Int) + 3) / 8).toNat = (kP + 3) / 8 := by omega
  have e1 : (kP + 3) / 8 * 2 = kP / 4 + 1 := by omega
  have e2 : kP / 4 * 2 = kP / 2 := by omega
  unfold sqrt
  dsimp only
  have hc : (mulMod (powMod v ((kP + 3) / 8)) (powMod v ((kP + 3) / 8)) = v) ↔
      ((v : Fp) ^ ((kP + 3) / 8)) ^ 2 = v := by
    rw [eq_iff_cast (mulMod_range _ _) hv, cast_mulMod, cast_powMod, e0, pow_two]
  by_cases hq : mulMod (powMod v ((kP + 3) / 8)) (powMod v ((kP + 3) / 8)) = v
  · rw [if_pos hq, cast_powMod, e0]
    exact ⟨powMod_range _ _, hc.mp hq⟩
  · rw [if_neg hq, cast_mulMod, cast_powMod, e0]
    refine ⟨mulMod_range _ _, ?_⟩
    have hq' := fun e => hq (hc.mpr e)
    have h0 : (v : Fp) ≠ 0 := by
      intro e
      apply hq'
      rw [e]
      have : (kP + 3) / 8 ≠ 0 := by omega
      simp [this]
    rw [← pow_mul, e1, pow_succ] at hq'
    have h1 := (ZMod.euler_criterion kP h0).mp h
    rw [← e2, pow_mul] at h1
    rcases sq_one h1 with e | e
    · exact absurd (by rw [e, one_mul]) hq'
    · rw [mul_pow, sqrtm1_sq, ← pow_mul, e1, pow_succ, e]
      ring

theorem mapF3_maps (ubuf : Bytes) :
    ∃ r : Bytes × Bytes, mapF3 ubuf = .ok r ∧ (r.1.length = 32 ∧ r.2.length = 32) ∧
      (beVal r.1 < kP ∧ beVal r.2 < kP) ∧ Maps (beVal ubuf) (beVal r.1) (beVal r.2) := by
  unfold mapF3
  dsimp only
  have htv : (if mulMod (mulMod (beVal ubuf) (beVal ubuf)) 2 = -1 then 0
      else mulMod (mulMod (beVal ubuf) (beVal ubuf)) 2) =
      mulMod (mulMod (beVal ubuf) (beVal ubuf)) 2 :=
    if_neg (by have := (mulMod_range (mulMod (beVal ubuf) (beVal ubuf)) 2).1; omega)
  rw [htv]
  have ht : ((mulMod (mulMod (beVal ubuf) (beVal ubuf)) 2 : Int) : Fp) =
      2 * (beVal ubuf : Fp) ^ 2 := by
    simp only [cast_mulMod, cast_nat, Int.cast_ofNat]; ring
  generalize mulMod (mulMod (beVal ubuf) (beVal ubuf)) 2 = tv1 at *
  generalize hu : ((beVal ubuf : Nat) : Fp) = u at *
  have hx := one_add_ne u
  have hd : ((addMod tv1 1 : Int) : Fp) = 1 + 2 * u ^ 2 := by
    rw [cast_addMod, ht, Int.cast_one]; ring
  obtain ⟨d, hdi, hdc, _⟩ := invMod_ok (a := addMod tv1 1) (by rw [hd]; exact hx)
  rw [hdi, res_bind_ok]
  have h1 : ((mulMod d (-kJ) : Int) : Fp) = -486662 / (1 + 2 * u ^ 2) := by
    rw [cast_mulMod, hdc, hd, Int.cast_neg, cast_J]
    rw [div_eq_mul_inv, mul_comm]
  have r1 := mulMod_range d (-kJ)
  generalize mulMod d (-kJ) = x1 at *
  have h2 : ((addMod (-x1) (-kJ) : Int) : Fp) = -(-486662 / (1 + 2 * u ^ 2)) - 486662 := by
    rw [cast_addMod, Int.cast_neg, Int.cast_neg, cast_J, h1]; ring
  have r2 := addMod_range (-x1) (-kJ)
  generalize addMod (-x1) (-kJ) = x2 at *
  have h3 : ((mulMod (addMod (mulMod (addMod x1 kJ) x1) 1) x1 : Int) : Fp) =
      rhs (-486662 / (1 + 2 * u ^ 2)) := by
    simp only [cast_mulMod, cast_addMod, cast_J, h1, Int.cast_one, rhs]
    ring
  have r3 := mulMod_range (addMod (mulMod (addMod x1 kJ) x1) 1) x1
  generalize mulMod (addMod (mulMod (addMod x1 kJ) x1) 1) x1 = gx1 at *
  have h4 : ((mulMod gx1 tv1 : Int) : Fp) = rhs (-(-486662 / (1 + 2 * u ^ 2)) - 486662) := by
    rw [cast_mulMod, h3, ht, rhs_second, mul_comm]
  have r4 := mulMod_range gx1 tv1
  generalize mulMod gx1 tv1 = gx2 at *
  obtain ⟨b, hb, hbs⟩ := isSquare_spec (v := gx1)
  rw [hb, res_bind_ok]
  rw [h3] at hbs
  generalize hv : (if b = true then gx1 else gx2) = v
  have hvr : 0 ≤ v ∧ v < kP := by rw [← hv]; split <;> assumption
  have hvs : IsSquare (v : Fp) := by
    rw [← hv]
    split
    · rename_i h; rw [h3]; exact hbs.mp h
    · rename_i h; rw [h4]; exact second_square (fun e => h (hbs.mpr e))
  obtain ⟨sr, ss⟩ := sqrt_spec hvr hvs
  generalize sqrt v = y at *
  have hset : (if (b != sgn0 y) = true then setSign true y else y) = setSign (b != sgn0 y) y := by
    cases hc : (b != sgn0 y)
    · simp only [Bool.false_eq_true, if_false, setSign]
      rw [if_neg (by omega)]
    · simp
  rw [hset]
  obtain ⟨s1, s2, s3, s4⟩ := setSign_spec (e := b) sr
  generalize setSign (b != sgn0 y) y = Z at *
  generalize hX : (if b = true then x1 else x2) = X
  have hXr : 0 ≤ X ∧ X < kP := by rw [← hX]; split <;> assumption
  obtain ⟨xb, e1, e2, e3, e4⟩ := toBytes_spec hXr
  obtain ⟨yb, z1, z2, z3, z4⟩ := toBytes_spec s1
  rw [e1, res_bind_ok, z1, res_bind_ok]
  refine ⟨(xb, yb), rfl, ⟨e2, z2⟩, ⟨e3, z3⟩, ?_⟩
  dsimp only
  rw [e4, z4]
  have hzv := val_cast s1
  cases hb' : b with
  | true =>
    have hq := hbs.mp hb'
    subst hb'
    simp only [if_true] at hv hX
    rw [← hX, h1]
    refine ⟨fun _ => ⟨rfl, ?_⟩, fun h => absurd hq h, ?_⟩
    · rcases s3 rfl with e | e
      · left; rw [e, Int.cast_zero]
      · right; rw [hzv]; omega
    · rw [s2, ss, ← hv, h3]
  | false =>
    have hq : ¬ IsSquare (rhs (-486662 / (1 + 2 * u ^ 2))) := fun h => by
      rw [hbs.mpr h] at hb'; cases hb'
    subst hb'
    simp only [Bool.false_eq_true, if_false] at hv hX
    rw [← hX, h2]
    refine ⟨fun h => absurd h hq, fun _ => ⟨rfl, ?_⟩, ?_⟩
    · rw [hzv]; have := s4 rfl; omega
    · rw [s2, ss, ← hv, h4]

end Psi.Elligator
