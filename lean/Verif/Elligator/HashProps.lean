import Verif.Elligator.HashLemmas
import Verif.Elligator.MapProps

/-!
# Properties C102 to C104: the hash
-/

namespace Psi.Elligator

open WeierstrassCurve
open Psi.Spiral (Res)

/-! ## C102 -/

/-- `P` is the image of `u` under the Elligator 2 map. -/
def MapsTo (u : Nat) (P : curve.Point) : Prop :=
  ∃ (x y : Fp) (h : curve.Nonsingular x y), P = .some x y h ∧ Maps u x y

/-- Every number has exactly one image. -/
theorem image_unique (u : Nat) : ∃! P, MapsTo u P := by
  obtain ⟨r, e, h1, h2, h3⟩ : ∃ r : Bytes × Bytes, mapF3 (be (u + 1) u) = .ok r ∧
      (r.1.length = 32 ∧ r.2.length = 32) ∧ (beVal r.1 < kP ∧ beVal r.2 < kP) ∧
      Maps (beVal (be (u + 1) u)) (beVal r.1) (beVal r.2) := mapF3_maps _
  rw [beVal_be_of_lt (lt_trans (Nat.lt_pow_self (by norm_num : 1 < 256))
    (Nat.pow_lt_pow_right (by norm_num) (Nat.lt_succ_self u)))] at h3
  refine ⟨.some _ _ (nonsingular_of h3.2.2), ⟨_, _, _, rfl, h3⟩, ?_⟩
  rintro P ⟨x, y, h, rfl, hm⟩
  obtain ⟨rfl, rfl⟩ := hm.unique h3
  rfl

theorem mapsTo_isXY {u : Nat} {P : curve.Point} (h : MapsTo u P) {b : Bytes} (hl : 0 < b.length)
    (hb : beVal b = u) : ∃ r, mapG2 b = .ok r ∧ IsXY r P := by
  obtain ⟨x, y, hn, rfl, hm⟩ := h
  obtain ⟨r, e, h1, h2, h3⟩ := mapG2_maps hl
  rw [hb] at h3
  obtain ⟨rfl, rfl⟩ := hm.unique h3
  exact ⟨r, e, h1, h2, _, _, hn, rfl, rfl, rfl⟩

theorem rfcField_lt (H : Bytes → Bytes) (msg dst : Bytes) (i : Nat) : rfcField H msg dst i < kP := by
  rw [rfcField, ← kP_eq]; exact Nat.mod_lt _ kP_pos

/-- The hash of RFC 9380 for Curve25519: eight times the sum of the images of the two field elements.
The code gives its `x` coordinate.  It throws when the result is the point at infinity, and also when
the two images are equal; in that case the RFC has a result. -/
theorem hash_point_partial {H : Bytes → Bytes} (hH : ∀ x, (H x).length = 64) {msg dst : Bytes}
    (h1 : 16 ≤ dst.length) (h2 : dst.length ≤ 255) {P Q : curve.Point}
    (hP : MapsTo (rfcField H msg dst 0) P) (hQ : MapsTo (rfcField H msg dst 1) Q) :
    (P ≠ Q → 8 • (P + Q) ≠ 0 → ∃ r, hashToCurve H msg dst = .ok r ∧ IsX r (8 • (P + Q))) ∧
    (P = Q ∨ 8 • (P + Q) = 0 → hashToCurve H msg dst = .throws) := by
  have hlt : ∀ i, rfcField H msg dst i < 256 ^ 32 := fun i => lt_trans (rfcField_lt H msg dst i) kP_lt
  obtain ⟨a, ea, ha⟩ := mapsTo_isXY hP (b := be 32 (rfcField H msg dst 0))
    (by rw [be_length]; omega) (beVal_be_of_lt (hlt 0))
  obtain ⟨b, eb, hb⟩ := mapsTo_isXY hQ (b := be 32 (rfcField H msg dst 1))
    (by rw [be_length]; omega) (beVal_be_of_lt (hlt 1))
  have hrun : hashToCurve H msg dst = (pointAddX a.1 a.2 b.1 b.2 >>= clearX) := by
    unfold hashToCurve
    rw [if_neg (by omega), field_ok hH h1 h2, res_bind_ok]
    have g0 : [be 32 (rfcField H msg dst 0), be 32 (rfcField H msg dst 1)].getD 0 [] =
      be 32 (rfcField H msg dst 0) := rfl
    have g1 : [be 32 (rfcField H msg dst 0), be 32 (rfcField H msg dst 1)].getD 1 [] =
      be 32 (rfcField H msg dst 1) := rfl
    rw [g0, g1, ea, res_bind_ok, eb, res_bind_ok]
  rw [hrun]
  constructor
  · intro hne h8
    have h0 : P + Q ≠ 0 := by intro e; apply h8; rw [e]; simp
    obtain ⟨r, er, hr⟩ := sum_isX ha hb hne h0
    rw [er, res_bind_ok]
    exact (clear_x_spec hr).1 h8
  · intro h
    by_cases hne : P = Q
    · rw [pointAddX_throws ((val_eq_cases ha hb).mpr (.inl hne))]; rfl
    · by_cases h0 : P + Q = 0
      · rw [pointAddX_throws ((val_eq_cases ha hb).mpr (.inr h0))]; rfl
      · obtain ⟨r, er, hr⟩ := sum_isX ha hb hne h0
        rw [er, res_bind_ok]
        exact (clear_x_spec hr).2 (h.resolve_left hne)

/-- When the two images are equal or opposite, in terms of the field elements. -/
theorem images_meet {u v : Nat} {P Q : curve.Point} (hP : MapsTo u P) (hQ : MapsTo v Q) :
    (P = Q ∨ P + Q = 0) ↔
      ((u : Int) ^ 2 ≡ v ^ 2 [ZMOD 2 ^ 255 - 19] ∨ 4 * (u : Int) ^ 2 * v ^ 2 ≡ 1 [ZMOD 2 ^ 255 - 19]) := by
  obtain ⟨x, y, hn, rfl, hm⟩ := hP
  obtain ⟨x', y', hn', rfl, hm'⟩ := hQ
  have hp : ((2 : Int) ^ 255 - 19) = (kP : Int) := by rw [kP_eq]; norm_num
  rw [add_eq_zero_iff_eq_neg, ← Affine.Point.X_eq_iff, same_x hm hm', hp,
    ← ZMod.intCast_eq_intCast_iff, ← ZMod.intCast_eq_intCast_iff]
  push_cast
  rfl

/-! ## C103 -/

/-- The code's expansion is `expand_message_xmd`, for every message, tag and length that the RFC
allows, and is refused for all others.  (The RFC also allows tags of 1 to 15 bytes.) -/
theorem expand_spec {H : Bytes → Bytes} (hH : ∀ x, (H x).length = 64) (msg dst : Bytes) (len : Nat) :
    (len ≤ 255 * 64 ∧ 16 ≤ dst.length ∧ dst.length ≤ 255 →
      expand H msg dst len = .ok (rfcExpand H msg dst len) ∧
      (rfcExpand H msg dst len).length = len) ∧
    (¬ (len ≤ 255 * 64 ∧ 16 ≤ dst.length ∧ dst.length ≤ 255) → expand H msg dst len = .throws) := by
  constructor
  · rintro ⟨h0, h1, h2⟩
    refine ⟨expand_ok hH h0 h1 h2, ?_⟩
    rw [rfcExpand, List.length_take, blocks_length hH]
    omega
  · intro h
    exact expand_refuses (by omega)

/-- The two field elements of the hash are those of `hash_to_field`. -/
theorem field_spec {H : Bytes → Bytes} (hH : ∀ x, (H x).length = 64) {msg dst : Bytes}
    (h1 : 16 ≤ dst.length) (h2 : dst.length ≤ 255) :
    ∃ a b, hashToField H msg 2 dst = .ok [a, b] ∧ a.length = 32 ∧ b.length = 32 ∧
      beVal a = rfcField H msg dst 0 ∧ beVal b = rfcField H msg dst 1 := by
  have hlt : ∀ i, rfcField H msg dst i < 256 ^ 32 := fun i => lt_trans (rfcField_lt H msg dst i) kP_lt
  exact ⟨_, _, field_ok hH h1 h2, be_length _ _, be_length _ _, beVal_be_of_lt (hlt 0),
    beVal_be_of_lt (hlt 1)⟩

/-- The 48 bytes of an element leave next to no bias: all residues are hit by the same number of byte
strings, give or take one. -/
theorem field_balanced (r : Nat) (hr : r < 2 ^ 255 - 19) :
    256 ^ 48 / (2 ^ 255 - 19) ≤
      ((List.range (256 ^ 48)).filter (fun k => beVal (be 48 k) % (2 ^ 255 - 19) = r)).length ∧
    ((List.range (256 ^ 48)).filter (fun k => beVal (be 48 k) % (2 ^ 255 - 19) = r)).length ≤
      256 ^ 48 / (2 ^ 255 - 19) + 1 := by
  have h := balanced (256 ^ 48) (2 ^ 255 - 19) r (by norm_num) hr
  have e : (List.range (256 ^ 48)).filter (fun k => decide (beVal (be 48 k) % (2 ^ 255 - 19) = r)) =
      (List.range (256 ^ 48)).filter (fun k => decide (k % (2 ^ 255 - 19) = r)) := by
    apply List.filter_congr
    intro k hk
    rw [beVal_be_of_lt (List.mem_range.mp hk)]
  rw [e]
  exact h

theorem input_inj {msg dst msg' dst' : Bytes} {len : Nat} (h : dst.length ≤ 255)
    (h' : dst'.length ≤ 255) (e : rfcInput msg dst len = rfcInput msg' dst' len) :
    msg = msg' ∧ dst = dst' := by
  unfold rfcInput rfcTag at e
  rw [← List.append_assoc, ← List.append_assoc] at e
  obtain ⟨e1, e2⟩ := List.append_inj' e rfl
  have hl : dst.length = dst'.length := by
    have e3 : UInt8.ofNat dst.length = UInt8.ofNat dst'.length := List.cons.inj e2 |>.1
    have e4 := congrArg UInt8.toNat e3
    simp only [UInt8.toNat_ofNat'] at e4
    omega
  obtain ⟨e5, e6⟩ := List.append_inj' e1 hl
  obtain ⟨e7, _⟩ := List.append_inj' e5 rfl
  obtain ⟨e8, _⟩ := List.append_inj' e7 rfl
  exact ⟨List.append_cancel_left e8, e6⟩

theorem expand_first {H : Bytes → Bytes} (hH : ∀ x, (H x).length = 64) (msg dst : Bytes) :
    (rfcExpand H msg dst 96).take 64 = rfcBlock H msg dst 96 1 := by
  have hr : (List.range ((96 + 63) / 64)).flatMap (fun i => rfcBlock H msg dst 96 (i + 1)) =
      rfcBlock H msg dst 96 1 ++ rfcBlock H msg dst 96 2 := by
    have : List.range ((96 + 63) / 64) = [0, 1] := rfl
    rw [this]; simp
  rw [rfcExpand, hr, List.take_take]
  have hl : (rfcBlock H msg dst 96 1).length = 64 := hH _
  exact List.take_left' (by omega)

/-- Nothing in the encoding lets one message under one tag pass for another: for any two different
pairs of message and tag there is a hash function that tells them apart. -/
theorem tag_separates {msg dst msg' dst' : Bytes} (h1 : 16 ≤ dst.length) (h2 : dst.length ≤ 255)
    (h1' : 16 ≤ dst'.length) (h2' : dst'.length ≤ 255)
    (h : ∀ H : Bytes → Bytes, (∀ x, (H x).length = 64) →
      expand H msg dst 96 = expand H msg' dst' 96) : msg = msg' ∧ dst = dst' := by
  by_contra hc
  have hne : rfcInput msg' dst' 96 ≠ rfcInput msg dst 96 :=
    fun e => hc (input_inj h2 h2' e.symm)
  let ones : Bytes := List.replicate 64 1
  let zeros : Bytes := List.replicate 64 0
  let H : Bytes → Bytes := fun x =>
    if x = rfcInput msg dst 96 ∨ x.take 64 = ones then ones else zeros
  have hH : ∀ x, (H x).length = 64 := by
    intro x
    simp only [H]
    split <;> simp [ones, zeros]
  have hoz : zeros ≠ ones := by decide
  have e := h H hH
  rw [expand_ok hH (by omega) h1 h2, expand_ok hH (by omega) h1' h2'] at e
  injection e with e
  have e' := congrArg (List.take 64) e
  rw [expand_first hH, expand_first hH] at e'
  have b0 : H (rfcInput msg dst 96) = ones := if_pos (.inl rfl)
  have b1 : rfcBlock H msg dst 96 1 = ones := by
    rw [rfcBlock, b0]
    exact if_pos (.inr (by rw [List.append_assoc]; exact List.take_left' rfl))
  have b0' : H (rfcInput msg' dst' 96) = zeros := by
    refine if_neg ?_
    rintro (q | q)
    · exact hne q
    · apply hoz
      rw [← q, rfcInput]
      simp only [List.append_assoc]
      rw [List.take_append_of_le_length (by rw [List.length_replicate]; omega)]
      rfl
  have b1' : rfcBlock H msg' dst' 96 1 = zeros := by
    rw [rfcBlock, b0']
    refine if_neg ?_
    rintro (q | q)
    · have q' := congrArg (fun l => (l.drop 64).take 1) q
      simp [rfcInput, zeros] at q'
    · have : List.take 64 (zeros ++ ([1] ++ rfcTag dst')) = zeros := List.take_left' rfl
      rw [List.append_assoc, this] at q
      exact hoz q
  rw [b1, b1'] at e'
  exact hoz e'.symm

/-- A tag of a wrong length is refused. -/
theorem tag_refused (H : Bytes → Bytes) (msg dst : Bytes) (h : dst.length < 16 ∨ 255 < dst.length) :
    hashToCurve H msg dst = .throws := if_pos (by omega)

/-! ## C104 -/

/-- X25519 would work on the hashed point if it got the bytes in the opposite order. -/
theorem masked_point_partial {r : Bytes} {P : curve.Point} (h : IsX r P) :
    ∃ (x y : Fp) (hn : curve.Nonsingular x y), P = .some x y hn ∧ (x25519Coord r.reverse : Fp) = x := by
  obtain ⟨l, v, x, y, hn, hp, hx⟩ := h
  refine ⟨x, y, hn, hp, ?_⟩
  have hlt : beVal r < 2 ^ 255 := lt_trans v (by rw [kP_eq]; norm_num)
  rw [x25519Coord, leVal, List.reverse_reverse, Nat.mod_eq_of_lt hlt, hx]

end Psi.Elligator
