import Verif.Elligator.HashProps

/-!
# Where the hash falls short, and examples

The test vector is the first of RFC 9380, appendix J.4.1, which the project's own test uses.
-/

namespace Psi.Elligator

open WeierstrassCurve
open Psi.Spiral (Res)

/-! ## C102: equal field elements -/

/-- A hash function with one value, and the field element that comes of it. -/
def oneHash : Bytes → Bytes := fun _ => List.replicate 64 1
def oneU : Nat := beVal (List.replicate 48 1) % (2 ^ 255 - 19)

theorem oneHash_block (msg dst : Bytes) (len : Nat) :
    ∀ i, rfcBlock oneHash msg dst len i = List.replicate 64 1
  | 0 => rfl
  | 1 => rfl
  | _ + 2 => rfl

theorem oneHash_field (msg dst : Bytes) (i : Nat) (hi : i < 2) :
    rfcField oneHash msg dst i = oneU := by
  have he : rfcExpand oneHash msg dst 96 = List.replicate 96 1 := by
    unfold rfcExpand
    simp only [oneHash_block]
    rfl
  rw [rfcField, he, oneU]
  have : i = 0 ∨ i = 1 := by omega
  rcases this with rfl | rfl
  · have e : (List.drop (48 * 0) (List.replicate 96 (1 : UInt8))).take 48 = List.replicate 48 1 := by decide
    rw [e]
  · have e : (List.drop (48 * 1) (List.replicate 96 (1 : UInt8))).take 48 = List.replicate 48 1 := by decide
    rw [e]

/-- With equal field elements the RFC has a result, but the code throws. -/
theorem equal_elements_refused (msg dst : Bytes) (h1 : 16 ≤ dst.length) (h2 : dst.length ≤ 255) :
    ∃ (H : Bytes → Bytes) (P Q : curve.Point), (∀ x, (H x).length = 64) ∧
      MapsTo (rfcField H msg dst 0) P ∧ MapsTo (rfcField H msg dst 1) Q ∧ 8 • (P + Q) ≠ 0 ∧
      hashToCurve H msg dst = .throws := by
  have hH : ∀ x, (oneHash x).length = 64 := fun x => by simp [oneHash]
  obtain ⟨P, hP, _⟩ := image_unique oneU
  have e0 := oneHash_field msg dst 0 (by omega)
  have e1 := oneHash_field msg dst 1 (by omega)
  refine ⟨oneHash, P, P, hH, by rw [e0]; exact hP, by rw [e1]; exact hP, ?_,
    (hash_point_partial hH h1 h2 (by rw [e0]; exact hP) (by rw [e1]; exact hP)).2 (.inl rfl)⟩
  have hlt : oneU < 256 ^ 32 := by decide +kernel
  obtain ⟨a, ea, ha⟩ := mapsTo_isXY hP (b := be 32 oneU) (by rw [be_length]; omega)
    (beVal_be_of_lt hlt)
  have hx : IsX a.1 P := by
    obtain ⟨⟨l, _⟩, ⟨v, _⟩, x, y, hn, hp, hx, _⟩ := ha
    exact ⟨l, v, x, y, hn, hp, hx⟩
  have hrun : (mapG2 (be 32 oneU) >>= fun a => pointDblX a.1 >>= clearX) ≠ .throws := by
    decide +kernel
  rw [ea, res_bind_ok] at hrun
  intro h8
  by_cases h0 : P + P = 0
  · rw [(dbl_isX hx).1 h0] at hrun
    exact hrun rfl
  · obtain ⟨r, er, hr⟩ := (dbl_isX hx).2 h0
    rw [er, res_bind_ok] at hrun
    exact hrun ((clear_x_spec hr).2 h8)

/-! ## The test vector -/

/-- Field elements of the test vector. -/
def vecU0 : Nat := 0x005fe8a7b8fef0a16c105e6cadf5a6740b3365e18692a9c05bfbb4d97f645a6a
def vecU1 : Nat := 0x1347edbec6a2b5d8c02e058819819bee177077c9d10a4ce165aab0fd0252261a

/-- Its result. -/
def vecX : Nat := 0x2de3780abb67e861289f5749d16d3e217ffa722192d16bbd9d1bfb9d112b98c0

/-- A hash function of 64 bytes that leads to these field elements.  It goes by the counter byte. -/
def vecHash (x : Bytes) : Bytes :=
  let all := be 48 vecU0 ++ be 48 vecU1 ++ List.replicate 32 0
  if x.getD 64 0 = 1 then all.take 64
  else if x.getD 64 0 = 2 then all.drop 64
  else List.replicate 64 0

theorem vecHash_length (x : Bytes) : (vecHash x).length = 64 := by
  unfold vecHash
  dsimp only
  split
  · rw [List.length_take, List.length_append, List.length_append, be_length, be_length]; simp
  · split
    · rw [List.length_drop, List.length_append, List.length_append, be_length, be_length]; simp
    · simp

/-- The tag of the test. -/
def vecDst : Bytes := (List.range 50).map fun i => UInt8.ofNat ("QUUX-V01-CS02-with-curve25519_XMD:SHA-512_ELL2_RO_".toList.getD i 'x').toNat

theorem vec_result : hashToCurve vecHash [] vecDst = .ok (be 32 vecX) := by decide +kernel

theorem vec_fields : rfcField vecHash [] vecDst 0 = vecU0 ∧ rfcField vecHash [] vecDst 1 = vecU1 := by
  decide +kernel

/-! ## C104: the order of the bytes -/

/-- X25519 reads the bytes of the hash in the opposite order.  The coordinate it takes need not be on
the curve at all: here the hash is a point of the curve, but no point has the coordinate that is
multiplied. -/
theorem masked_elsewhere : ∃ (H : Bytes → Bytes) (msg dst r : Bytes) (P : curve.Point),
    (∀ x, (H x).length = 64) ∧ hashToCurve H msg dst = .ok r ∧ IsX r P ∧
    ∀ (x y : Fp) (_h : curve.Nonsingular x y), (x25519Coord r : Fp) ≠ x := by
  have hd : vecDst.length = 50 := by decide
  obtain ⟨P, hP, _⟩ := image_unique (rfcField vecHash [] vecDst 0)
  obtain ⟨Q, hQ, _⟩ := image_unique (rfcField vecHash [] vecDst 1)
  obtain ⟨s1, s2⟩ := hash_point_partial vecHash_length (by omega) (by omega) hP hQ
  have hne : P ≠ Q := fun e => by
    have := s2 (.inl e); rw [vec_result] at this; cases this
  have h8 : 8 • (P + Q) ≠ 0 := fun e => by
    have := s2 (.inr e); rw [vec_result] at this; cases this
  obtain ⟨r, er, hr⟩ := s1 hne h8
  rw [vec_result] at er
  injection er with er
  subst er
  refine ⟨vecHash, [], vecDst, _, _, vecHash_length, vec_result, hr, ?_⟩
  intro x y h e
  have hq := nonsingular_eq h
  rw [← e] at hq
  have hs : IsSquare (rhs (x25519Coord (be 32 vecX) : Fp)) := ⟨y, by rw [← hq, pow_two]⟩
  generalize hn : x25519Coord (be 32 vecX) = n at hs
  have hc : ((n ^ 3 + 486662 * n ^ 2 + n : Nat) : Fp) = rhs (n : Fp) := by
    rw [rhs]; push_cast; rfl
  rw [← hc] at hs
  have hpw : pw kP (n ^ 3 + 486662 * n ^ 2 + n) (kP / 2) = kP - 1 := by
    rw [← hn]; decide +kernel
  have hpw' : ((n ^ 3 + 486662 * n ^ 2 + n : Nat) : Fp) ^ (kP / 2) = ((kP - 1 : Nat) : Fp) := by
    rw [← hpw, pw_eq kP_prime.one_lt, ZMod.natCast_mod, Nat.cast_pow]
  have h4 : 2 < kP := by decide +kernel
  have h0 : ((n ^ 3 + 486662 * n ^ 2 + n : Nat) : Fp) ≠ 0 := by
    intro z
    rw [z, zero_pow (by omega)] at hpw'
    have := nat_eq_of_cast (a := 0) (b := kP - 1) (by omega) (by omega) (by rw [Nat.cast_zero]; exact hpw')
    omega
  have h1 := (ZMod.euler_criterion kP h0).mp hs
  rw [h1] at hpw'
  have := nat_eq_of_cast (a := 1) (b := kP - 1) (by omega) (by omega) (by rw [Nat.cast_one]; exact hpw')
  omega

/-! ## Examples -/

example := map_ok (be 32 vecU0) (by rw [be_length]; omega)
example := map_variants (be 32 vecU0) (by rw [be_length]; omega)
example : mapG2 (be 32 vecU0) = mapG2 (be 32 (2 ^ 255 - 19 - vecU0)) := by decide +kernel
example : mapG2 (be 32 1) ≠ mapG2 (be 32 2) := by decide +kernel
example := map_collides (be 32 vecU0) (be 32 vecU1) (by rw [be_length]; omega) (by rw [be_length]; omega)

/-- The input zero is sent to the point of order two. -/
example : mapG2 (be 32 0) = .ok (be 32 0, be 32 0) := by decide +kernel

/-- The points of the test vector, and their sum. -/
example : ∃ (a b : Bytes × Bytes) (P Q : curve.Point), IsXY a P ∧ IsXY b Q ∧ P ≠ Q ∧
    ∃ r, pointAdd a.1 a.2 b.1 b.2 = .ok r ∧ IsXY r (P + Q) ∧
      ∃ s, clear r.1 r.2 = .ok s ∧ s.1 = be 32 vecX ∧ IsXY s (8 • (P + Q)) := by
  obtain ⟨a, P, ea, ha, _⟩ := map_ok (be 32 vecU0) (by rw [be_length]; omega)
  obtain ⟨b, Q, eb, hb, _⟩ := map_ok (be 32 vecU1) (by rw [be_length]; omega)
  have hrun : (mapG2 (be 32 vecU0) >>= fun a => mapG2 (be 32 vecU1) >>= fun b =>
      pointAdd a.1 a.2 b.1 b.2 >>= fun r => clear r.1 r.2 >>= fun s => Res.ok s.1) =
      .ok (be 32 vecX) := by decide +kernel
  rw [ea, res_bind_ok, eb, res_bind_ok] at hrun
  have hmeet : ¬ (P = Q ∨ P + Q = 0) := fun e => by
    rw [((add_spec ha hb).2 e).1] at hrun; cases hrun
  push Not at hmeet
  obtain ⟨r, er, hr, _⟩ := (add_spec ha hb).1 hmeet.1 hmeet.2
  rw [er, res_bind_ok] at hrun
  by_cases h8 : 8 • (P + Q) = 0
  · rw [(clear_spec hr).2 h8] at hrun; cases hrun
  · obtain ⟨s, es, hs⟩ := (clear_spec hr).1 h8
    rw [es, res_bind_ok] at hrun
    injection hrun with hrun
    exact ⟨a, b, P, Q, ha, hb, hmeet.1, r, er, hr, s, es, hrun, hs⟩

/-- A point of order two: its double is refused. -/
example : ∃ (P : curve.Point), IsXY (be 32 0, be 32 0) P ∧ P + P = 0 ∧
    pointDbl (be 32 0) (be 32 0) = .throws ∧ pointDblX (be 32 0) = .throws := by
  have hz : beVal (be 32 0) = 0 := by decide +kernel
  have hn : curve.Nonsingular (0 : Fp) 0 := nonsingular_of (by simp [rhs])
  have hP : IsXY (be 32 0, be 32 0) (.some 0 0 hn) :=
    ⟨⟨be_length _ _, be_length _ _⟩, ⟨by rw [hz]; exact kP_pos, by rw [hz]; exact kP_pos⟩, 0, 0, hn, rfl,
      by rw [hz, Nat.cast_zero], by rw [hz, Nat.cast_zero]⟩
  have h2 : (Affine.Point.some 0 0 hn : curve.Point) + .some 0 0 hn = 0 := add_self_zero rfl
  exact ⟨_, hP, h2, (dbl_spec hP).2 h2⟩

example := check_spec (be 32 vecU0) (be 32 vecU1)
example : checkPoint (be 32 9) (be 32 14781619447589544791020593568409986887264606134616475288964881837755586237401) = true := by
  decide +kernel
example : checkPoint (be 32 9) (be 32 1) = false := by decide +kernel

/-- The hash of the test vector, through the theorem. -/
example : ∃ P Q : curve.Point, MapsTo vecU0 P ∧ MapsTo vecU1 Q ∧ IsX (be 32 vecX) (8 • (P + Q)) := by
  have hd : vecDst.length = 50 := by decide
  obtain ⟨P, hP, _⟩ := image_unique (rfcField vecHash [] vecDst 0)
  obtain ⟨Q, hQ, _⟩ := image_unique (rfcField vecHash [] vecDst 1)
  obtain ⟨s1, s2⟩ := hash_point_partial vecHash_length (by omega) (by omega) hP hQ
  have hne : P ≠ Q := fun e => by
    have := s2 (.inl e); rw [vec_result] at this; cases this
  have h8 : 8 • (P + Q) ≠ 0 := fun e => by
    have := s2 (.inr e); rw [vec_result] at this; cases this
  obtain ⟨r, er, hr⟩ := s1 hne h8
  rw [vec_result] at er
  injection er with er
  subst er
  rw [vec_fields.1] at hP
  rw [vec_fields.2] at hQ
  exact ⟨P, Q, hP, hQ, hr⟩

example : ∃ P Q : curve.Point, MapsTo 3 P ∧ MapsTo 5 Q ∧ ¬ (P = Q ∨ P + Q = 0) := by
  obtain ⟨P, hP, _⟩ := image_unique 3
  obtain ⟨Q, hQ, _⟩ := image_unique 5
  refine ⟨P, Q, hP, hQ, ?_⟩
  rw [images_meet hP hQ]
  decide +kernel

example := equal_elements_refused [1, 2, 3] vecDst (by decide) (by decide)
example := (expand_spec vecHash_length [7] vecDst 96).1 (by decide)
example := (expand_spec vecHash_length [7] [1, 2] 96).2 (by decide)
example := field_spec vecHash_length (msg := [7]) (dst := vecDst) (by decide) (by decide)
example := field_balanced 5 (by norm_num)
example := tag_refused vecHash [7] [1, 2] (.inl (by decide))

/-- The default tag is long enough. -/
example (H : Bytes → Bytes) (hH : ∀ x, (H x).length = 64) :=
  field_spec hH (msg := [7]) (dst := defaultDst) (by decide +kernel) (by decide +kernel)

/-- A tag that ends like the length of another: the two are kept apart. -/
example (h : ∀ H : Bytes → Bytes, (∀ x, (H x).length = 64) →
    expand H [1, 2] (List.replicate 16 5) 96 = expand H [1] (List.replicate 17 5) 96) : False := by
  have := (tag_separates (by decide) (by decide) (by decide) (by decide) h).1
  revert this; decide

end Psi.Elligator
