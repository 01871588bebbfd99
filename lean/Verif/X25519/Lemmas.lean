import Verif.X25519.Order

/-!
# Multiples by secret keys

Lemmas for the properties of the masks: what a multiple by a secret key loses of a point.
-/

namespace Psi.X25519

open Psi.Elligator WeierstrassCurve

/-! ## The two groups -/

/-- The curve or the twist. -/
def Side (d : Fp) : Prop := d = 1 ∨ d = 2

theorem Side.ne {d : Fp} (h : Side d) : d ≠ 0 := by
  rcases h with rfl | rfl
  · exact one_ne_zero
  · exact two_ne

open Classical in
/-- The prime in the order of `E d`. -/
noncomputable def ordOf (d : Fp) : Nat := if d = 1 then ordL else ordT

theorem ordOf_one : ordOf 1 = ordL := if_pos rfl

theorem two_ne_one : (2 : Fp) ≠ 1 := fun h => by
  have : (1 : Fp) = 0 := by linear_combination h
  exact one_ne_zero this

theorem ordOf_two : ordOf 2 = ordT := if_neg two_ne_one

theorem ordOf_prime (d : Fp) : (ordOf d).Prime := by
  unfold ordOf; split
  · exact ordL_prime
  · exact ordT_prime

theorem ordOf_ge (d : Fp) : 2 ^ 252 ≤ ordOf d := by
  unfold ordOf; split <;> decide +kernel

/-- Eight times a point is killed by the prime. -/
theorem prime_kills {d : Fp} (h : Side d) (P : (E d).Point) : ordOf d • (8 • P) = 0 := by
  rw [← mul_nsmul']
  rcases h with rfl | rfl
  · have : Nat.card (E 1).Point • P = 0 := card_nsmul_eq_zero'
    rw [card_curve] at this
    rw [ordOf_one, mul_comm]; exact this
  · have : Nat.card (E 2).Point • P = 0 := card_nsmul_eq_zero'
    rw [card_twist] at this
    rw [ordOf_two, show ordT * 8 = 2 * (4 * ordT) by ring, mul_nsmul', this, nsmul_zero]

/-- A number that the prime does not divide loses nothing of eight times a point. -/
theorem coprime_kills {d : Fp} (h : Side d) {m : Nat} (hm : m.Coprime (ordOf d)) {P : (E d).Point}
    (h0 : m • (8 • P) = 0) : 8 • P = 0 := by
  have h1 := addOrderOf_dvd_of_nsmul_eq_zero h0
  have h2 := addOrderOf_dvd_of_nsmul_eq_zero (prime_kills h P)
  have h3 : addOrderOf (8 • P) ∣ 1 := hm ▸ Nat.dvd_gcd h1 h2
  exact AddMonoid.addOrderOf_eq_one_iff.mp (Nat.dvd_one.mp h3)

theorem two_coprime (d : Fp) : Nat.Coprime 2 (ordOf d) := by
  unfold ordOf; split <;> decide +kernel

/-! ## Which side -/

theorem exists_side (u : Fp) : ∃ d, Side d ∧ ∃ P, HasX d u P := by
  by_cases h : IsSquare (rhs u)
  · exact ⟨1, Or.inl rfl, (hasX_iff one_ne_zero).mpr (by rwa [one_mul])⟩
  · refine ⟨2, Or.inr rfl, (hasX_iff two_ne).mpr ?_⟩
    have h0 : rhs u ≠ 0 := by
      intro e; apply h; rw [e]; exact IsSquare.zero
    have e1 : quadraticChar Fp 2 = -1 := quadraticChar_neg_one_iff_not_isSquare.mpr two_nonsquare
    have e2 : quadraticChar Fp (rhs u) = -1 := quadraticChar_neg_one_iff_not_isSquare.mpr h
    rw [← quadraticChar_one_iff_isSquare (mul_ne_zero two_ne h0), map_mul, e1, e2]; rfl

/-- A coordinate of both curves is zero. -/
theorem both_sides {u : Fp} {P : (E 1).Point} {Q : (E 2).Point} (hP : HasX 1 u P) (hQ : HasX 2 u Q) :
    u = 0 := by
  have h1 := (hasX_iff one_ne_zero).mp ⟨P, hP⟩
  have h2 := (hasX_iff two_ne).mp ⟨Q, hQ⟩
  rw [one_mul] at h1
  by_contra hu
  have h0 := rhs_ne_zero hu
  apply two_nonsquare
  obtain ⟨a, ha⟩ := h1
  obtain ⟨b, hb⟩ := h2
  refine ⟨b / a, ?_⟩
  have : a ≠ 0 := by rintro rfl; apply h0; rw [ha]; ring
  field_simp
  rw [ha] at hb
  linear_combination hb

/-! ## Points that keys send to infinity -/

/-- `u` is the coordinate of a point that eight kills. -/
def Small (u : Fp) : Prop := ∃ d, Side d ∧ ∃ P : (E d).Point, HasX d u P ∧ 8 • P = 0

theorem eight_of_two {d : Fp} {P : (E d).Point} (h : P + P = 0) : 8 • P = 0 := by
  rw [show 8 = 4 * 2 by rfl, mul_nsmul', two_nsmul, h, nsmul_zero]

theorem small_zero : Small 0 := by
  obtain ⟨d, hd, P, hP⟩ := exists_side 0
  exact ⟨d, hd, P, hP, eight_of_two (hasX_zero hP)⟩

theorem eight_neg {d : Fp} {P Q : (E d).Point} (h : P = Q ∨ P = -Q) : 8 • P = 0 ↔ 8 • Q = 0 := by
  rcases h with rfl | rfl
  · rfl
  · rw [neg_nsmul, neg_eq_zero]

/-- It does not matter which point. -/
theorem small_iff {d u : Fp} (hd : Side d) {P : (E d).Point} (hP : HasX d u P) : Small u ↔ 8 • P = 0 := by
  constructor
  · rintro ⟨d', hd', Q, hQ, h0⟩
    have key : ∀ {e : Fp} (_ : Side e) {P' : (E e).Point}, HasX e 0 P' → 8 • P' = 0 :=
      fun _ _ h => eight_of_two (hasX_zero h)
    rcases hd with rfl | rfl <;> rcases hd' with rfl | rfl
    · exact (eight_neg (hP.unique hQ)).mpr h0
    · have := both_sides hP hQ
      subst this; exact key (Or.inl rfl) hP
    · have := both_sides hQ hP
      subst this; exact key (Or.inr rfl) hP
    · exact (eight_neg (hP.unique hQ)).mpr h0
  · exact fun h => ⟨d, hd, P, hP, h⟩

/-! ## Coordinates that keys do not tell apart -/

/-- Eight times some point with coordinate `u` is eight times some point of the same curve with
coordinate `v`; or both give infinity. -/
def Alike (u v : Fp) : Prop :=
  (∃ d, Side d ∧ ∃ P Q : (E d).Point, HasX d u P ∧ HasX d v Q ∧ 8 • P = 8 • Q) ∨ Small u ∧ Small v

theorem xOf_mul_zero {d : Fp} (hd : Side d) (m : Nat) {P : (E d).Point} (h : xOf d ((8 * m) • P) = 0) :
    (8 * m) • P = 0 := by
  have h2 := xOf_zero_two hd.ne h
  have e : (8 * m) • P = 8 • (m • P) := by rw [mul_nsmul']
  rw [e] at h2 ⊢
  apply coprime_kills hd (two_coprime d)
  rw [two_nsmul]; exact h2

theorem kills_iff {d : Fp} (hd : Side d) {m : Nat} (hm : m.Coprime (ordOf d)) (P : (E d).Point) :
    (8 * m) • P = 0 ↔ 8 • P = 0 := by
  rw [mul_comm, mul_nsmul']
  exact ⟨coprime_kills hd hm, fun h => by rw [h, nsmul_zero]⟩

/-- Two multiples have the same coordinate exactly if the points are alike. -/
theorem meet_iff {m : Nat} (hL : m.Coprime ordL) (hT : m.Coprime ordT) {d d' u v : Fp} (hd : Side d)
    (hd' : Side d') {P : (E d).Point} {Q : (E d').Point} (hP : HasX d u P) (hQ : HasX d' v Q) :
    xOf d ((8 * m) • P) = xOf d' ((8 * m) • Q) ↔ Alike u v := by
  have hm : ∀ e : Fp, m.Coprime (ordOf e) := by intro e; unfold ordOf; split <;> assumption
  have same : ∀ {e : Fp} (_ : Side e) {P Q : (E e).Point}, HasX e u P → HasX e v Q →
      (xOf e ((8 * m) • P) = xOf e ((8 * m) • Q) ↔ 8 • P = 8 • Q ∨ 8 • P = -(8 • Q : (E e).Point)) := by
    intro e he P Q hP hQ
    have step : ∀ R : (E e).Point, (8 * m) • P = (8 * m) • R → 8 • P = 8 • R := by
      intro R h
      have : (8 * m) • (P - R) = 0 := by rw [nsmul_sub, h, sub_self]
      have := (kills_iff he (hm e) _).mp this
      rwa [nsmul_sub, sub_eq_zero] at this
    have back : ∀ R : (E e).Point, 8 • P = 8 • R → (8 * m) • P = (8 * m) • R := by
      intro R h
      rw [mul_comm, mul_nsmul', mul_nsmul', h]
    constructor
    · intro h
      by_cases h0 : (8 * m) • P = 0
      · have h1 : (8 * m) • Q = 0 := xOf_mul_zero he m (by rw [← h, h0]; rfl)
        left
        rw [(kills_iff he (hm e) _).mp h0, (kills_iff he (hm e) _).mp h1]
      · have h1 : (8 * m) • Q ≠ 0 := by
          intro e0; apply h0; apply xOf_mul_zero he m; rw [h, e0]; rfl
        have a := (hasX_or e he.ne ((8 * m) • P)).resolve_left h0
        have b := (hasX_or e he.ne ((8 * m) • Q)).resolve_left h1
        rw [h] at a
        rcases a.unique b with h2 | h2
        · exact Or.inl (step Q h2)
        · right
          rw [← neg_nsmul] at h2 ⊢
          exact step _ h2
    · rintro (h | h)
      · rw [back Q h]
      · rw [← neg_nsmul] at h
        rw [back _ h, neg_nsmul, xOf_neg he.ne]
  have cross : ∀ {P : (E 1).Point} {Q : (E 2).Point},
      xOf 1 ((8 * m) • P) = xOf 2 ((8 * m) • Q) → 8 • P = 0 ∧ 8 • Q = 0 := by
    intro P Q h
    have hz : xOf 1 ((8 * m) • P) = 0 := by
      rcases hasX_or 1 one_ne_zero ((8 * m) • P) with e | a
      · rw [e]; rfl
      · rcases hasX_or 2 two_ne ((8 * m) • Q) with e | b
        · rw [h, e]; rfl
        · rw [← h] at b; exact both_sides a b
    refine ⟨(kills_iff (Or.inl rfl) (hm 1) _).mp (xOf_mul_zero (Or.inl rfl) m hz),
      (kills_iff (Or.inr rfl) (hm 2) _).mp (xOf_mul_zero (Or.inr rfl) m (h ▸ hz))⟩
  have bothSmall : ∀ {e e' : Fp} (he : Side e) (he' : Side e') {P : (E e).Point} {Q : (E e').Point},
      8 • P = 0 → 8 • Q = 0 → xOf e ((8 * m) • P) = xOf e' ((8 * m) • Q) := by
    intro e e' he he' P Q h1 h2
    rw [(kills_iff he (hm e) P).mpr h1, (kills_iff he' (hm e') Q).mpr h2]; rfl
  constructor
  · intro h
    have fin : ∀ {e : Fp} (_ : Side e) {P Q : (E e).Point}, HasX e u P → HasX e v Q →
        xOf e ((8 * m) • P) = xOf e ((8 * m) • Q) → Alike u v := by
      intro e he P Q hP hQ h
      rcases (same he hP hQ).mp h with h | h
      · exact Or.inl ⟨e, he, P, Q, hP, hQ, h⟩
      · exact Or.inl ⟨e, he, P, -Q, hP, hQ.neg, by rw [neg_nsmul, h]⟩
    rcases hd with rfl | rfl <;> rcases hd' with rfl | rfl
    · exact fin (Or.inl rfl) hP hQ h
    · obtain ⟨a, b⟩ := cross h
      exact Or.inr ⟨⟨_, Or.inl rfl, P, hP, a⟩, ⟨_, Or.inr rfl, Q, hQ, b⟩⟩
    · obtain ⟨a, b⟩ := cross h.symm
      exact Or.inr ⟨⟨_, Or.inr rfl, P, hP, b⟩, ⟨_, Or.inl rfl, Q, hQ, a⟩⟩
    · exact fin (Or.inr rfl) hP hQ h
  · rintro (⟨e, he, P', Q', hP', hQ', h⟩ | ⟨h1, h2⟩)
    · have fin : ∀ {e : Fp} (_ : Side e) {P Q P' Q' : (E e).Point}, HasX e u P → HasX e v Q →
          HasX e u P' → HasX e v Q' → 8 • P' = 8 • Q' →
          xOf e ((8 * m) • P) = xOf e ((8 * m) • Q) := by
        intro e he P Q P' Q' hP hQ hP' hQ' h
        rw [same he hP hQ]
        rcases hP.unique hP' with rfl | rfl <;> rcases hQ.unique hQ' with rfl | rfl <;>
          simp only [neg_nsmul, h, true_or, or_true, neg_neg]
      have mixed : ∀ {e : Fp} (_ : Side e) {P' Q' : (E e).Point}, HasX e u P' → HasX e v Q' →
          8 • P' = 8 • Q' → (u = 0 ∨ v = 0) → 8 • P = 0 ∧ 8 • Q = 0 := by
        intro e he P' Q' hP' hQ' h h0
        have hs : Small u ∧ Small v := by
          rcases h0 with rfl | rfl
          · refine ⟨small_zero, (small_iff he hQ').mpr ?_⟩
            rw [← h]; exact (small_iff he hP').mp small_zero
          · refine ⟨(small_iff he hP').mpr ?_, small_zero⟩
            rw [h]; exact (small_iff he hQ').mp small_zero
        exact ⟨(small_iff hd hP).mp hs.1, (small_iff hd' hQ).mp hs.2⟩
      have hd2 := hd
      have hd2' := hd'
      rcases hd with rfl | rfl <;> rcases hd' with rfl | rfl <;> rcases he with rfl | rfl
      · exact fin (Or.inl rfl) hP hQ hP' hQ' h
      · obtain ⟨a, b⟩ := mixed (Or.inr rfl) hP' hQ' h (Or.inl (both_sides hP hP'))
        exact bothSmall hd2 hd2' a b
      · obtain ⟨a, b⟩ := mixed (Or.inl rfl) hP' hQ' h (Or.inr (both_sides hQ' hQ))
        exact bothSmall hd2 hd2' a b
      · obtain ⟨a, b⟩ := mixed (Or.inr rfl) hP' hQ' h (Or.inl (both_sides hP hP'))
        exact bothSmall hd2 hd2' a b
      · obtain ⟨a, b⟩ := mixed (Or.inl rfl) hP' hQ' h (Or.inl (both_sides hP' hP))
        exact bothSmall hd2 hd2' a b
      · obtain ⟨a, b⟩ := mixed (Or.inr rfl) hP' hQ' h (Or.inr (both_sides hQ hQ'))
        exact bothSmall hd2 hd2' a b
      · obtain ⟨a, b⟩ := mixed (Or.inl rfl) hP' hQ' h (Or.inl (both_sides hP' hP))
        exact bothSmall hd2 hd2' a b
      · exact fin (Or.inr rfl) hP hQ hP' hQ' h
    · exact bothSmall hd hd' ((small_iff hd hP).mp h1) ((small_iff hd' hQ).mp h2)

end Psi.X25519
