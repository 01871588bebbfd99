import Verif.X25519.Lemmas
import Mathlib.Data.Set.Card
import Mathlib.Algebra.Group.Subgroup.Ker

/-!
# The coordinates that every key sends to infinity

`small_list`: there are five of them.  `alike_few`: at most eight coordinates are alike.
-/

namespace Psi.X25519

open Psi.Elligator WeierstrassCurve

/-- The other coordinate of points of order 8. -/
def x8' : Int := 39382357235489614581723060781553021112529911719440698176882885853963445705823

theorem nonsquare_of {n : Nat} (h : pw kP n (kP / 2) = kP - 1) (h0 : ¬ kP ∣ n) : ¬ IsSquare (n : Fp) := by
  have hn : (n : Fp) ≠ 0 := by rwa [Ne, ZMod.natCast_eq_zero_iff]
  rw [ZMod.euler_criterion kP hn]
  have h1 : ((pw kP n (kP / 2) : Nat) : Fp) = (n : Fp) ^ (kP / 2) := by
    rw [pw_eq kP_prime.one_lt, ZMod.natCast_mod, Nat.cast_pow]
  rw [← h1, h]
  intro e
  have h2 : ((kP - 1 : Nat) : Fp) = ((1 : Nat) : Fp) := by rw [e, Nat.cast_one]
  have h3 := nat_eq_of_cast (by have := kP_pos; omega) kP_prime.one_lt h2
  have h4 : kP ≠ 2 := by decide +kernel
  omega

theorem rep_two {d X Z : Fp} (hd : d ≠ 0) {Q : (E d).Point} (h : Rep d X Z Q) (h2 : Q + Q = 0) :
    X = 0 ∨ Z = 0 := by
  have hq := rep_dbl hd h
  have h0 := (rep_zero_iff hq).mp h2
  by_cases hz : Z = 0
  · exact Or.inr hz
  left
  by_contra hx
  have e : 4 * X * Z * (X ^ 2 + 486662 * X * Z + Z ^ 2) = 4 * Z ^ 4 * rhs (X / Z) := by
    rw [rhs]; field_simp
  rw [e] at h0
  exact mul_ne_zero (mul_ne_zero four_ne (pow_ne_zero 4 hz)) (rhs_ne_zero (div_ne_zero hx hz)) h0

theorem x8_prod : (x8 : Fp) * (x8' : Fp) = 1 := by
  have h : ((x8 * x8' - 1 : Int) : Fp) = 0 := cast_zero_iff.mpr (by decide +kernel)
  push_cast at h
  linear_combination h

/-- The square of `x8 + x8' - 2`. -/
theorem x8_square : ((x8 : Fp) + (x8' : Fp) - 2) ^ 2 = 4 * 486662 + 8 := by
  have h : (((x8 + x8' - 2) ^ 2 - (4 * 486662 + 8) : Int) : Fp) = 0 :=
    cast_zero_iff.mpr (by decide +kernel)
  push_cast at h
  linear_combination h

/-- The other root gives no point. -/
theorem other_nonsquare : ¬ IsSquare ((4 - ((x8 : Fp) + (x8' : Fp))) ^ 2 - 4) := by
  have h := nonsquare_of (n := (((4 - (x8 + x8')) ^ 2 - 4) % (kP : Int)).toNat) (by decide +kernel) (by decide +kernel)
  have e : (((((4 - (x8 + x8')) ^ 2 - 4) % (kP : Int)).toNat : Nat) : Fp) =
      (4 - ((x8 : Fp) + (x8' : Fp))) ^ 2 - 4 := by
    rw [← cast_nat, Int.toNat_of_nonneg (Int.emod_nonneg _ (by have := kP_pos; omega)), ZMod.intCast_mod]
    push_cast; ring
  rwa [e] at h

theorem neg_nonsquare : ¬ IsSquare (486660 : Fp) := by
  have h := nonsquare_of (n := 486660) (by decide +kernel) (by decide +kernel)
  exact_mod_cast h

theorem small_only {u : Fp} (h : Small u) : u = 0 ∨ u = 1 ∨ u = -1 ∨ u = (x8 : Fp) ∨ u = (x8' : Fp) := by
  obtain ⟨d, hd, P, hP, h8⟩ := h
  have r1 := rep_hasX hP
  have r2 := rep_dbl hd.ne r1
  have r4 := rep_dbl hd.ne r2
  have e8 : P + P + (P + P) + (P + P + (P + P)) = 0 := by rw [← h8]; abel
  have key : ∀ {X Z : Fp} {Q : (E d).Point}, Rep d X Z Q → Q = 0 → Z = 0 :=
    fun r e => (rep_zero_iff r).mp e
  have two : ∀ {X Z : Fp} {Q : (E d).Point}, Rep d X Z Q → Z = 0 → Q = 0 :=
    fun r e => (rep_zero_iff r).mpr e
  by_cases h0 : u = 0
  · exact Or.inl h0
  by_cases hs : u ^ 2 = 1
  · rcases sq_one hs with e | e
    · exact Or.inr (Or.inl e)
    · exact Or.inr (Or.inr (Or.inl e))
  have hs' : u ^ 2 - 1 ^ 2 ≠ 0 := by rw [one_pow]; exact sub_ne_zero.mpr hs
  have hP2 : P + P ≠ 0 := by
    intro e
    rcases rep_two hd.ne r1 e with h | h
    · exact h0 h
    · exact one_ne_zero h
  have hP4 : P + P + (P + P) ≠ 0 := by
    intro e
    rcases rep_two hd.ne r2 e with h | h
    · exact hs' (pow_eq_zero_iff (two_ne_zero) |>.mp h)
    · exact hP2 (two r2 h)
  rcases rep_two hd.ne r4 e8 with h | h
  swap
  · exact absurd (two r4 h) hP4
  have h' := pow_eq_zero_iff (two_ne_zero) |>.mp h
  right; right; right
  have fac : ((u ^ 2 - 1 ^ 2) ^ 2 - 4 * u * 1 * (u ^ 2 + 486662 * u * 1 + 1 ^ 2)) *
      ((u ^ 2 - 1 ^ 2) ^ 2 + 4 * u * 1 * (u ^ 2 + 486662 * u * 1 + 1 ^ 2)) = 0 := by
    linear_combination h'
  rcases mul_eq_zero.mp fac with g | g
  · -- the double has coordinate 1
    have g1 : ((u - 1) ^ 2 - ((x8 : Fp) + (x8' : Fp) - 2) * u) *
        ((u - 1) ^ 2 + ((x8 : Fp) + (x8' : Fp) - 2) * u) = 0 := by
      linear_combination g - u ^ 2 * x8_square
    rcases mul_eq_zero.mp g1 with g2 | g2
    · have g3 : (u - (x8 : Fp)) * (u - (x8' : Fp)) = 0 := by linear_combination g2 + x8_prod
      rcases mul_eq_zero.mp g3 with g4 | g4
      · exact Or.inl (sub_eq_zero.mp g4)
      · exact Or.inr (sub_eq_zero.mp g4)
    · exfalso
      apply other_nonsquare
      refine ⟨2 * u - (4 - ((x8 : Fp) + (x8' : Fp))), ?_⟩
      linear_combination -4 * g2
  · -- the double has coordinate -1
    exfalso
    apply neg_nonsquare
    refine ⟨((kSqrtm1 : Int) : Fp) * (u + 1) ^ 2 / (2 * u), ?_⟩
    have h2 := two_ne
    have hi := sqrtm1_sq
    field_simp
    linear_combination g - (u + 1) ^ 4 * hi

theorem small_of {d : Fp} (hd : Side d) {u : Int} (hu : (u : Fp) ≠ 0) (hon : ∃ P, HasX d (u : Fp) P)
    (h : (kP : Int) ∣ (ladder 8 u).z2) : Small (u : Fp) := by
  obtain ⟨P, hP⟩ := hon
  exact ⟨d, hd, P, hP, (smul_zero_of hd.ne hu hP (by norm_num)).mpr (cast_zero_iff.mpr h)⟩

theorem on_of {d : Fp} (hd : d ≠ 0) {u e y : Int} (he : (e : Fp) = d)
    (h : (kP : Int) ∣ e * (u ^ 3 + 486662 * u ^ 2 + u) - y ^ 2) : ∃ P, HasX d (u : Fp) P := by
  rw [hasX_iff hd]
  refine ⟨(y : Fp), ?_⟩
  have h := cast_zero_iff.mpr h
  push_cast at h
  rw [he] at h
  rw [rhs]
  linear_combination h

theorem small_one : Small 1 := by
  have := small_of (d := 1) (Or.inl rfl) (u := 1) (cast_ne (by decide +kernel))
    (on_of one_ne_zero (e := 1) (y := 48802004052532134862652268456126542835229456083994414501085850622543968879637)
      (by simp) (by decide +kernel)) (by decide +kernel)
  rwa [Int.cast_one] at this

theorem small_neg_one : Small (-1) := by
  have := small_of (d := 2) (Or.inr rfl) (u := -1) (cast_ne (by decide +kernel))
    (on_of two_ne (e := 2) (y := 44970462306382902816640303297177282883791838276082352993382974450585087329033)
      (by simp) (by decide +kernel)) (by decide +kernel)
  rwa [Int.cast_neg, Int.cast_one] at this

theorem small_x8 : Small (x8 : Fp) :=
  small_of (d := 1) (Or.inl rfl) (cast_ne (by decide +kernel))
    (on_of one_ne_zero (e := 1) (y := 32026303591712962751241307547882981359278212717910236697706316503764922500307)
      (by simp) (by decide +kernel)) (by decide +kernel)

theorem small_x8' : Small (x8' : Fp) :=
  small_of (d := 1) (Or.inl rfl) (cast_ne (by decide +kernel))
    (on_of one_ne_zero (e := 1) (y := 47389623381099381275796781267935282128369626952426857267179501978497824351671)
      (by simp) (by decide +kernel)) (by decide +kernel)

theorem small_list (u : Fp) :
    Small u ↔ u = 0 ∨ u = 1 ∨ u = -1 ∨ u = (x8 : Fp) ∨ u = (x8' : Fp) := by
  refine ⟨small_only, ?_⟩
  rintro (rfl | rfl | rfl | rfl | rfl)
  · exact small_zero
  · exact small_one
  · exact small_neg_one
  · exact small_x8
  · exact small_x8'

/-! ## Counting -/

/-- The points that eight kills. -/
def kernel8 (d : Fp) : Set (E d).Point := {R | 8 • R = 0}

theorem kernel8_card {d : Fp} (hd : Side d) : (kernel8 d).ncard ≤ 8 := by
  have := finite_point hd.ne
  have hk : (kernel8 d).ncard = Nat.card (nsmulAddMonoidHom (α := (E d).Point) 8).ker := rfl
  rw [hk]
  have h1 : Nat.card (nsmulAddMonoidHom (α := (E d).Point) 8).ker ∣ 8 * ordOf d := by
    refine (AddSubgroup.card_addSubgroup_dvd_card _).trans ?_
    rcases hd with rfl | rfl
    · rw [card_curve, ordOf_one]
    · rw [card_twist, ordOf_two]; exact ⟨2, by ring⟩
  have h2 : ¬ ordOf d ∣ Nat.card (nsmulAddMonoidHom (α := (E d).Point) 8).ker := by
    intro h
    have : Fact (ordOf d).Prime := ⟨ordOf_prime d⟩
    obtain ⟨R, hR⟩ := exists_prime_addOrderOf_dvd_card' (ordOf d) h
    have h8 : 8 • R = 0 := Subtype.ext (R.2)
    have := addOrderOf_dvd_of_nsmul_eq_zero h8
    rw [hR] at this
    have := Nat.le_of_dvd (by norm_num) this
    have h3 := ordOf_ge d
    have : (8 : Nat) < 2 ^ 252 := by norm_num
    omega
  have h3 : Nat.card (nsmulAddMonoidHom (α := (E d).Point) 8).ker ∣ 8 :=
    Nat.Coprime.dvd_of_dvd_mul_right (((Nat.Prime.coprime_iff_not_dvd (ordOf_prime d)).mpr h2).symm) h1
  exact Nat.le_of_dvd (by norm_num) h3

theorem alike_small {u v : Fp} (h : Alike u v) (hv : Small v) : Small u := by
  rcases h with ⟨d, hd, P, Q, hP, hQ, e⟩ | ⟨h, -⟩
  · rw [small_iff hd hP, e]; exact (small_iff hd hQ).mp hv
  · exact h

theorem alike_few (v : Fp) : {u | Alike u v}.ncard ≤ 8 := by
  by_cases hv : Small v
  · have hsub : {u | Alike u v} ⊆ {0, 1, -1, (x8 : Fp), (x8' : Fp)} := by
      intro u hu
      simpa using small_only (alike_small hu hv)
    refine (Set.ncard_le_ncard hsub (Set.toFinite _)).trans ?_
    refine (Set.ncard_insert_le _ _).trans ?_
    have := Set.ncard_insert_le (1 : Fp) {-1, (x8 : Fp), (x8' : Fp)}
    have := Set.ncard_insert_le (-1 : Fp) {(x8 : Fp), (x8' : Fp)}
    have := Set.ncard_insert_le (x8 : Fp) {(x8' : Fp)}
    rw [Set.ncard_singleton] at this
    omega
  · obtain ⟨d, hd, Q, hQ⟩ := exists_side v
    have := finite_point hd.ne
    have hsub : {u | Alike u v} ⊆ (fun R => xOf d (Q + R)) '' kernel8 d := by
      intro u hu
      rcases hu with ⟨e, he, P, Q', hP, hQ', h⟩ | ⟨-, h⟩
      · have fin : ∀ {P Q' : (E d).Point}, HasX d u P → HasX d v Q' → 8 • P = 8 • Q' →
            u ∈ (fun R => xOf d (Q + R)) '' kernel8 d := by
          intro P Q' hP hQ' h
          have fin' : ∀ {P : (E d).Point}, HasX d u P → 8 • P = 8 • Q →
              u ∈ (fun R => xOf d (Q + R)) '' kernel8 d := by
            intro P hP h
            refine ⟨P - Q, ?_, ?_⟩
            · change 8 • (P - Q) = 0
              rw [nsmul_sub, h, sub_self]
            · change xOf d (Q + (P - Q)) = u
              rw [add_sub_cancel]; exact xOf_of hd.ne hP
          rcases hQ'.unique hQ with rfl | rfl
          · exact fin' hP h
          · apply fin' hP.neg
            rw [neg_nsmul, h, neg_nsmul, neg_neg]
        have hne : ∀ {P' : (E 1).Point} {Q' : (E 2).Point}, HasX 1 v P' → HasX 2 v Q' → False := by
          intro P' Q' h1 h2
          exact hv (both_sides h1 h2 ▸ small_zero)
        rcases hd with rfl | rfl <;> rcases he with rfl | rfl
        · exact fin hP hQ' h
        · exact (hne hQ hQ').elim
        · exact (hne hQ' hQ).elim
        · exact fin hP hQ' h
      · exact absurd h hv
    exact (Set.ncard_le_ncard hsub (Set.toFinite _)).trans
      ((Set.ncard_image_le (Set.toFinite _)).trans (kernel8_card hd))

end Psi.X25519
