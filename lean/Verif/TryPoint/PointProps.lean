import Verif.TryPoint.PointModel
import Verif.TryPoint.Props
import Verif.TryPoint.Primes
import Mathlib.AlgebraicGeometry.EllipticCurve.Affine.Point
import Mathlib.Data.ZMod.Basic
import Mathlib.FieldTheory.Finite.Basic

/-!
# C130: a point comes back from its 33 bytes, and other bytes are refused
-/

namespace Psi.TryPoint

open Psi.Spiral (Res)
open Psi.Ecdh (Bytes)

/-! ### Bytes -/

theorem toBytes_ofBytes (s : Bytes) : toBytes s.length (ofBytes s) = s := by
  induction s using List.reverseRecOn with
  | nil => rfl
  | append_singleton s c ih =>
    have hc := c.toNat_lt
    rw [List.length_append, List.length_singleton, toBytes, ofBytes_append,
      show (256 * ofBytes s + c.toNat) / 256 = ofBytes s by omega, ih]
    congr 2
    apply UInt8.toNat_inj.1
    rw [UInt8.toNat_ofNat']
    omega

theorem root_some {C : Curve} {bit x y : Nat} (h : C.root bit x = some y) : y < C.p ∧ y % 2 = bit ∧ C.On x y := by
  have h1 := List.find?_some h
  have h2 := List.mem_of_find?_eq_some h
  simp only [decide_eq_true_eq] at h1
  exact ⟨List.mem_range.1 h2, h1⟩

/-- Two square roots below an odd prime with the same parity are the same. -/
theorem root_unique {p y z : Nat} (hp : p.Prime) (h2 : p ≠ 2) (hy : y < p) (hz : z < p) (hpar : y % 2 = z % 2)
    (h : y * y % p = z * z % p) : y = z := by
  have hodd : p % 2 = 1 := hp.eq_two_or_odd.resolve_left h2
  have : Fact p.Prime := ⟨hp⟩
  have h' : (y : ZMod p) * y = z * z := by
    have := (ZMod.natCast_eq_natCast_iff' (y * y) (z * z) p).2 h
    push_cast at this
    exact this
  rcases mul_self_eq_mul_self_iff.1 h' with e | e
  · have := (ZMod.natCast_eq_natCast_iff' y z p).1 e
    rwa [Nat.mod_eq_of_lt hy, Nat.mod_eq_of_lt hz] at this
  · have h0 : ((y + z : ℕ) : ZMod p) = 0 := by push_cast; rw [e]; ring
    have hd := (ZMod.natCast_eq_zero_iff _ _).1 h0
    obtain ⟨q, hq⟩ := hd
    have hq2 : q < 2 := by
      by_contra hcon
      have : p * 2 ≤ p * q := Nat.mul_le_mul_left _ (by omega)
      omega
    interval_cases q <;> omega

theorem root_eq {C : Curve} (hp : C.p.Prime) (h2 : C.p ≠ 2) {x y : Nat} (hy : y < C.p) (hon : C.On x y) :
    C.root (y % 2) x = some y := by
  cases h : C.root (y % 2) x with
  | none => exact absurd (by simpa using hon) (List.find?_eq_none.1 h y (List.mem_range.2 hy))
  | some z =>
    obtain ⟨a, b, c⟩ := root_some h
    rw [root_unique hp h2 a hy b (c.trans hon.symm)]

/-- **C130** (round trip) A point of the curve is read back from its 33 bytes. -/
theorem C130_round_trip (C : Curve) (hp : C.p.Prime) (h2 : C.p ≠ 2) (hp' : C.p ≤ 256 ^ 32) (x y : Nat) (hx : x < C.p)
    (hy : y < C.p) (hon : C.On x y) :
    ∃ b, encode (some (x, y)) = .ok b ∧ b.length = 33 ∧ C.decode b = some (x, y) := by
  refine ⟨_, rfl, by simp [compress, numBytes, toBytes_length], ?_⟩
  have hlen : (numBytes x).length = 32 := toBytes_length _ _
  have hof : ofBytes (numBytes x) = x := by
    rw [numBytes, ofBytes_toBytes, Nat.mod_eq_of_lt (lt_of_lt_of_le hx hp')]
  have hr := root_eq hp h2 hy hon
  rw [compress, Curve.decode]
  simp only [hlen, hof, hx, true_and, and_true]
  rcases Nat.mod_two_eq_zero_or_one y with e | e
  · rw [e] at hr ⊢
    rw [if_pos (by decide), show (UInt8.ofNat (2 + 0)).toNat % 2 = 0 by decide, hr]
    rfl
  · rw [e] at hr ⊢
    rw [if_pos (by decide), show (UInt8.ofNat (2 + 1)).toNat % 2 = 1 by decide, hr]
    rfl

/-- **C130** (one form) Bytes that are read as a point are the bytes which that point is written with, so that points
are equal exactly if their bytes are; the point is on the curve, with reduced coordinates. -/
theorem C130_one_form (C : Curve) (b : Bytes) (P : Nat × Nat) (h : C.decode b = some P) :
    encode (some P) = .ok b ∧ P.1 < C.p ∧ P.2 < C.p ∧ C.On P.1 P.2 := by
  cases b with
  | nil => cases h
  | cons c t =>
    rw [Curve.decode] at h
    split at h
    · rename_i hc
      obtain ⟨h1, h2, h3⟩ := hc
      cases hr : C.root (c.toNat % 2) (ofBytes t) with
      | none => rw [hr] at h; cases h
      | some y =>
        rw [hr] at h
        obtain rfl : (ofBytes t, y) = P := Option.some.inj h
        obtain ⟨a, b, d⟩ := root_some hr
        refine ⟨?_, h3, a, d⟩
        have hn : numBytes (ofBytes t) = t := by rw [numBytes, ← h1, toBytes_ofBytes]
        rw [encode, compress]
        simp only [hn, b]
        rcases h2 with rfl | rfl <;> rfl
    · cases h

/-- **C130** (other bytes are refused) Bytes that are not the form of a point of the curve are refused, whatever the key,
although the failure to read them is not looked at: the point stays the one at infinity, whose form is too short. -/
theorem C130_invalid_refused (C : Curve)
    (mul : Nat → Option (Nat × Nat) → Option (Nat × Nat)) (hmul : ∀ k, mul k none = none) (n : Nat) (key b : Bytes)
    (hb : ¬ ∃ x < C.p, ∃ y < C.p, C.On x y ∧ encode (some (x, y)) = .ok b) :
    C.pointMul mul n key b = .throws := by
  have hd : C.decode b = none := by
    cases h : C.decode b with
    | none => rfl
    | some P =>
      obtain ⟨h1, hx, hy, hon⟩ := C130_one_form C b P h
      exact absurd ⟨P.1, hx, P.2, hy, hon, h1⟩ hb
  rw [Curve.pointMul, hd, hmul]
  split <;> rfl

/-! ### The group of the curve -/

/-- The curve as one of Mathlib. -/
def Curve.W (C : Curve) : WeierstrassCurve.Affine (ZMod C.p) := ⟨0, 0, 0, C.a, C.b⟩

theorem on_iff (C : Curve) (x y : Nat) : C.On x y ↔ C.W.Equation (x : ZMod C.p) (y : ZMod C.p) := by
  rw [WeierstrassCurve.Affine.equation_iff, Curve.On, ← ZMod.natCast_eq_natCast_iff']
  simp only [Curve.W]
  push_cast
  constructor <;> intro h <;> linear_combination h

/-- The curve has no singular point. -/
def Curve.Smooth (C : Curve) : Prop := (4 * C.a ^ 3 + 27 * C.b ^ 2) % C.p ≠ 0

theorem nonsingular_of_on {C : Curve} (hp : C.p.Prime) (h2 : C.p ≠ 2) (hs : C.Smooth) {x y : ZMod C.p}
    (h : C.W.Equation x y) : C.W.Nonsingular x y := by
  have : Fact C.p.Prime := ⟨hp⟩
  refine (WeierstrassCurve.Affine.equation_iff_nonsingular_of_Δ_ne_zero (W := C.W) ?_).1 h
  have h2' : (2 : ZMod C.p) ≠ 0 := by
    intro e
    have : ((2 : ℕ) : ZMod C.p) = 0 := by exact_mod_cast e
    have := (ZMod.natCast_eq_zero_iff 2 C.p).1 this
    exact h2 ((Nat.prime_dvd_prime_iff_eq hp Nat.prime_two).1 this)
  have h16 : (-16 : ZMod C.p) ≠ 0 := by
    rw [show (-16 : ZMod C.p) = -(2 ^ 4) by norm_num]
    exact neg_ne_zero.2 (pow_ne_zero _ h2')
  have hd : ((4 * C.a ^ 3 + 27 * C.b ^ 2 : ℕ) : ZMod C.p) ≠ 0 := by
    intro e
    exact hs (Nat.mod_eq_zero_of_dvd ((ZMod.natCast_eq_zero_iff _ _).1 e))
  have : C.W.Δ = -16 * ((4 * C.a ^ 3 + 27 * C.b ^ 2 : ℕ) : ZMod C.p) := by
    simp only [Curve.W, WeierstrassCurve.Δ, WeierstrassCurve.b₂, WeierstrassCurve.b₄, WeierstrassCurve.b₆,
      WeierstrassCurve.b₈]
    push_cast
    ring
  rw [this]
  exact mul_ne_zero h16 hd

open Classical in
/-- The point with these coordinates. -/
noncomputable def Curve.toPoint (C : Curve) : Option (Nat × Nat) → C.W.Point
  | none => .zero
  | some P => if h : C.W.Nonsingular (P.1 : ZMod C.p) (P.2 : ZMod C.p) then .some _ _ h else .zero

/-- The coordinates of a point. -/
def Curve.ofPoint (C : Curve) : C.W.Point → Option (Nat × Nat)
  | .zero => none
  | .some x y _ => some (x.val, y.val)

theorem toPoint_some {C : Curve} (hp : C.p.Prime) (h2 : C.p ≠ 2) (hs : C.Smooth) {P : Nat × Nat} (hx : P.1 < C.p)
    (hy : P.2 < C.p) (hon : C.On P.1 P.2) : C.ofPoint (C.toPoint (some P)) = some P := by
  have h := nonsingular_of_on hp h2 hs ((on_iff C P.1 P.2).1 hon)
  rw [Curve.toPoint, dif_pos h, Curve.ofPoint, ZMod.val_natCast_of_lt hx, ZMod.val_natCast_of_lt hy]

theorem toPoint_ofPoint {C : Curve} (hp : C.p.Prime) (g : C.W.Point) : C.toPoint (C.ofPoint g) = g := by
  have : NeZero C.p := ⟨hp.ne_zero⟩
  cases g with
  | zero => rfl
  | some x y h =>
    have hx : ((x.val : ℕ) : ZMod C.p) = x := ZMod.natCast_zmod_val x
    have hy : ((y.val : ℕ) : ZMod C.p) = y := ZMod.natCast_zmod_val y
    rw [Curve.ofPoint, Curve.toPoint, dif_pos (by simpa only [hx, hy] using h)]
    simp only [hx, hy]

theorem ofPoint_some {C : Curve} (hp : C.p.Prime) {g : C.W.Point} {P : Nat × Nat} (h : C.ofPoint g = some P) :
    P.1 < C.p ∧ P.2 < C.p ∧ C.On P.1 P.2 := by
  have : NeZero C.p := ⟨hp.ne_zero⟩
  cases g with
  | zero => cases h
  | some x y hn =>
    obtain rfl : (x.val, y.val) = P := Option.some.inj h
    refine ⟨ZMod.val_lt x, ZMod.val_lt y, (on_iff C _ _).2 ?_⟩
    simp only [ZMod.natCast_zmod_val]
    exact hn.1

/-- The items for which a point is found. -/
abbrev Curve.Item (C : Curve) (sha : Bytes → Bytes) : Type := {m : Bytes // ∃ P, C.hash sha m = .ok P}

/-- `EC_POINT_mul`, as the group of the curve does it. -/
noncomputable def Curve.mul (C : Curve) [Fact C.p.Prime] (k : Nat) (P : Option (Nat × Nat)) : Option (Nat × Nat) :=
  C.ofPoint (k • C.toPoint P)

/-- The model of the OPRF of `Verif/UbPsi/Model.lean`, with the curve, its forms of points and the hash to the curve put
in. -/
noncomputable def Curve.oprf (C : Curve) [Fact C.p.Prime] (sha digest : Bytes → Bytes) (n compareLength : Nat) :
    Psi.UbPsi.Curve (C.Item sha) C.W.Point where
  order := n
  scalar := fun key => ofBytes key % n
  inverse := fun k => ((k : ZMod n)⁻¹).val
  point := fun m => C.toPoint (some m.2.choose)
  enc := fun g =>
    match C.ofPoint g with
    | none => List.replicate 33 0
    | some P => compress P
  dec := fun b => (C.decode b).map fun P => C.toPoint (some P)
  bytes := fun m => m.1
  digest := digest
  pointLen := 33
  compareLength := compareLength

theorem item_point {C : Curve} (sha : Bytes → Bytes) (m : C.Item sha) : C.hash sha m.1 = .ok m.2.choose := m.2.choose_spec

/-- **C130** (the assumptions of C28 hold) The OPRF on a smooth curve over an odd prime of up to 256 bits meets all that
was assumed of it in C28 and C29, for the items for which a point is found: `n` is a multiple of the order of every
point, the hash function gives enough bytes. -/
theorem C130_lawful (C : Curve) [hp : Fact C.p.Prime] (h2 : C.p ≠ 2) (hp' : C.p ≤ 256 ^ 32) (hs : C.Smooth)
    (sha digest : Bytes → Bytes) (n compareLength : Nat) (hn : 0 < n) (hord : ∀ g : C.W.Point, n • g = 0)
    (hlen : ∀ b, 32 ≤ (digest b).length) (hcmp : compareLength < 32) :
    (C.oprf sha digest n compareLength).Lawful where
  order := hord
  inverse := by
    intro k hk
    have : NeZero n := ⟨hn.ne'⟩
    refine (ZMod.natCast_eq_natCast_iff' _ 1 n).1 ?_
    show ((k * ((k : ZMod n)⁻¹).val : ℕ) : ZMod n) = ((1 : ℕ) : ZMod n)
    rw [Nat.cast_mul, ZMod.natCast_zmod_val, ZMod.coe_mul_inv_eq_one k (show Nat.Coprime k n from hk), Nat.cast_one]
  point := by
    intro m h0
    obtain ⟨a, b, -, d⟩ := C129_on_curve C sha hp.out.pos m.1 (item_point sha m)
    have := toPoint_some hp.out h2 hs a b d
    rw [show C.toPoint (some m.2.choose) = 0 from h0] at this
    cases this
  round := by
    intro g hg
    cases ho : C.ofPoint g with
    | none =>
      have := toPoint_ofPoint hp.out g
      rw [ho] at this
      exact absurd this.symm hg
    | some P =>
      obtain ⟨a, b, c⟩ := ofPoint_some hp.out ho
      obtain ⟨s, e1, -, e3⟩ := C130_round_trip C hp.out h2 hp' P.1 P.2 a b c
      obtain rfl : compress P = s := Res.ok.inj e1
      show (C.decode (match C.ofPoint g with | none => List.replicate 33 0 | some P => compress P)).map _ = some g
      rw [ho]
      show (C.decode (compress P)).map _ = some g
      rw [e3, Option.map_some, ← ho, toPoint_ofPoint hp.out]
  encLen := by
    intro g
    show (match C.ofPoint g with | none => List.replicate 33 0 | some P => compress P).length = 33
    cases C.ofPoint g with
    | none => simp
    | some P => simp [compress, numBytes, toBytes_length]
  lenPos := by show 0 < 33; omega
  digestLen := by
    intro b
    refine le_trans ?_ (hlen b)
    unfold Psi.UbPsi.Curve.cmpLen
    show (if compareLength ≠ 0 then compareLength else 12) ≤ 32
    split <;> omega
  cmpLt := by
    unfold Psi.UbPsi.Curve.cmpLen
    show (if compareLength ≠ 0 then compareLength else 12) < Psi.UbPsi.maxCipher
    have : Psi.UbPsi.maxCipher = 32 := rfl
    split <;> omega

/-! ### The OPRF on the curve -/

section Group

variable {C : Curve} [hp : Fact C.p.Prime] {n : Nat}

theorem smul_ne_zero' (hord : ∀ g : C.W.Point, n • g = 0) {k : Nat} (hk : Nat.Coprime k n) {g : C.W.Point} (hg : g ≠ 0) :
    k • g ≠ 0 := by
  intro h
  apply hg
  have h1 : addOrderOf g ∣ k := addOrderOf_dvd_of_nsmul_eq_zero h
  have h2 : addOrderOf g ∣ n := addOrderOf_dvd_of_nsmul_eq_zero (hord g)
  have h3 : addOrderOf g = 1 := Nat.dvd_one.1 (by rw [← hk]; exact Nat.dvd_gcd h1 h2)
  exact AddMonoid.addOrderOf_eq_one_iff.1 h3

theorem nsmul_mod' (hord : ∀ g : C.W.Point, n • g = 0) (k : Nat) (g : C.W.Point) : k • g = (k % n) • g := by
  conv_lhs => rw [← Nat.mod_add_div k n, add_nsmul, mul_nsmul, hord]
  simp

/-- Writing and reading a point other than the one at infinity. -/
theorem written (h2 : C.p ≠ 2) (hp' : C.p ≤ 256 ^ 32) {g : C.W.Point} (hg : g ≠ 0) :
    ∃ P, C.ofPoint g = some P ∧ encode (C.ofPoint g) = .ok (compress P) ∧ C.decode (compress P) = C.ofPoint g := by
  cases ho : C.ofPoint g with
  | none =>
    have := toPoint_ofPoint hp.out g
    rw [ho] at this
    exact absurd this.symm hg
  | some P =>
    obtain ⟨a, b, c⟩ := ofPoint_some hp.out ho
    obtain ⟨s, e1, -, e3⟩ := C130_round_trip C hp.out h2 hp' P.1 P.2 a b c
    obtain rfl : compress P = s := Res.ok.inj e1
    exact ⟨P, rfl, rfl, e3⟩

theorem found_ne_zero (h2 : C.p ≠ 2) (hs : C.Smooth) {P : Nat × Nat} (a : P.1 < C.p) (b : P.2 < C.p)
    (d : C.On P.1 P.2) : C.toPoint (some P) ≠ 0 := by
  intro h0
  have := toPoint_some hp.out h2 hs a b d
  rw [h0] at this
  cases this

end Group

/-- **C130** (refinement) With a key that has an inverse, what the code does with bytes from the peer and with an item is
what the model of C28 does on this curve; with bytes that are no point both refuse. -/
theorem C130_refines (C : Curve) [hp : Fact C.p.Prime] (h2 : C.p ≠ 2) (hp' : C.p ≤ 256 ^ 32) (hs : C.Smooth)
    (sha digest : Bytes → Bytes) (n compareLength : Nat) (hord : ∀ g : C.W.Point, n • g = 0) (key : Bytes)
    (hkey : key.length = 32) (hk : Nat.Coprime (ofBytes key % n) n) :
    (∀ b r, C.pointMul C.mul n key b = .ok r ↔
      Psi.UbPsi.evaluate (C.oprf sha digest n compareLength) key b = .ok r) ∧
    ∀ m : C.Item sha, C.itemMul sha C.mul n key m.1 = .ok (Psi.UbPsi.blind (C.oprf sha digest n compareLength) key m) := by
  have henc : ∀ g : C.W.Point, g ≠ 0 → encode (C.ofPoint g) = .ok ((C.oprf sha digest n compareLength).enc g) := by
    intro g hg
    obtain ⟨P, h1, h3, -⟩ := written (C := C) h2 hp' hg
    rw [h3]
    show _ = Res.ok (match C.ofPoint g with | none => List.replicate 33 0 | some P => compress P)
    rw [h1]
  constructor
  · intro b r
    rw [Curve.pointMul, if_neg (by omega), Curve.mul]
    cases hd : C.decode b with
    | none =>
      have e1 : (C.oprf sha digest n compareLength).dec b = none := by
        show (C.decode b).map _ = none
        rw [hd]; rfl
      rw [Psi.UbPsi.evaluate, Psi.UbPsi.pointMul, e1, show C.toPoint none = 0 from rfl, nsmul_zero,
        show C.ofPoint 0 = none from rfl, encode]
      simp
    | some P =>
      obtain ⟨-, a, b', d⟩ := C130_one_form C b P hd
      have e1 : (C.oprf sha digest n compareLength).dec b = some (C.toPoint (some P)) := by
        show (C.decode b).map _ = _
        rw [hd]; rfl
      have hne := smul_ne_zero' hord hk (found_ne_zero h2 hs a b' d)
      rw [Psi.UbPsi.evaluate, Psi.UbPsi.pointMul, e1, henc _ hne]
      simp only [Res.ok.injEq, Except.ok.injEq]
      rfl
  · intro m
    obtain ⟨a, b, -, d⟩ := C129_on_curve C sha hp.out.pos m.1 (item_point sha m)
    rw [Curve.itemMul, if_neg (by omega), item_point sha m]
    exact henc _ (smul_ne_zero' hord hk (found_ne_zero h2 hs a b d))

/-- **C130** (the OPRF on the curve) The client masks an item with its key, the server multiplies by its own, the client
takes its key off with the inverse, written and read again with 32 bytes: all these steps succeed and give the bytes
which the server computes alone. -/
theorem C130_oprf (C : Curve) [hp : Fact C.p.Prime] (h2 : C.p ≠ 2) (hp' : C.p ≤ 256 ^ 32) (hs : C.Smooth)
    (sha : Bytes → Bytes) (n : Nat) (hn' : n ≤ 256 ^ 32) (hord : ∀ g : C.W.Point, n • g = 0)
    (inv : Nat → Nat) (hinv : ∀ k, Nat.Coprime k n → inv k < n ∧ k * inv k % n = 1 % n) (r key : Bytes)
    (hr : r.length = 32) (hkey : key.length = 32) (hrc : Nat.Coprime (ofBytes r % n) n)
    (hkc : Nat.Coprime (ofBytes key % n) n) (m : Bytes) (P : Nat × Nat) (hm : C.hash sha m = .ok P) :
    ∃ b1 b2 b3, C.itemMul sha C.mul n r m = .ok b1 ∧ C.pointMul C.mul n key b1 = .ok b2 ∧
      C.pointMul C.mul n (keyInv inv n r) b2 = .ok b3 ∧ C.itemMul sha C.mul n key m = .ok b3 := by
  obtain ⟨a, b, -, d⟩ := C129_on_curve C sha hp.out.pos m hm
  have hg := found_ne_zero h2 hs a b d
  obtain ⟨hil, hie⟩ := hinv _ hrc
  set k := ofBytes key % n
  set s := ofBytes r % n
  set g := C.toPoint (some P)
  have h1 := smul_ne_zero' hord hrc hg
  have h3 := smul_ne_zero' hord hkc h1
  have h4 := smul_ne_zero' hord hkc hg
  have hinv' : ofBytes (keyInv inv n r) % n = inv s := by
    rw [keyInv, numBytes, ofBytes_toBytes, Nat.mod_eq_of_lt (lt_of_lt_of_le hil hn'), Nat.mod_eq_of_lt hil]
  have hcancel : inv s • k • s • g = k • g := by
    rw [nsmul_left_comm g s k, ← mul_nsmul, nsmul_mod' hord, hie, ← nsmul_mod' hord, one_nsmul]
  obtain ⟨P1, p1, q1, r1⟩ := written (C := C) h2 hp' h1
  obtain ⟨P2, p2, q2, r2⟩ := written (C := C) h2 hp' h3
  obtain ⟨P3, p3, q3, -⟩ := written (C := C) h2 hp' h4
  refine ⟨compress P1, compress P2, compress P3, ?_, ?_, ?_, ?_⟩
  · rw [Curve.itemMul, if_neg (by omega), hm]; exact q1
  · rw [Curve.pointMul, if_neg (by omega), Curve.mul, r1, toPoint_ofPoint hp.out]; exact q2
  · rw [Curve.pointMul, if_neg (by simp [keyInv, numBytes, toBytes_length]), Curve.mul, r2, toPoint_ofPoint hp.out,
      hinv', hcancel]
    exact q3
  · rw [Curve.itemMul, if_neg (by omega), hm]; exact q3

/-! ### Instances -/

namespace Ex

theorem prime11 : Nat.Prime 11 := by decide

instance : Fact small.p.Prime := ⟨prime11⟩

theorem smooth : small.Smooth := by unfold Curve.Smooth; decide

theorem equation11 (x y : ZMod 11) : y ^ 2 + 0 * x * y + 0 * y
    = x ^ 3 + 0 * x ^ 2 + ((1 : ℕ) : ZMod 11) * x + ((6 : ℕ) : ZMod 11) ↔ y ^ 2 = x ^ 3 + x + 6 := by
  simp

theorem equation (x y : ZMod 11) : small.W.Equation x y ↔ y ^ 2 = x ^ 3 + x + 6 :=
  (WeierstrassCurve.Affine.equation_iff (W := small.W) x y).trans (equation11 x y)

/-- The points as the pairs that solve the equation, and one more. -/
def points : small.W.Point ≃ Option {q : ZMod 11 × ZMod 11 // q.2 ^ 2 = q.1 ^ 3 + q.1 + 6} where
  toFun
    | .zero => none
    | .some x y h => some ⟨(x, y), (equation x y).1 h.1⟩
  invFun
    | none => .zero
    | some q => .some q.1.1 q.1.2 (nonsingular_of_on prime11 (by decide) smooth ((equation _ _).2 q.2))
  left_inv g := by cases g <;> rfl
  right_inv q := by cases q <;> rfl

/-- The group has 13 elements. -/
theorem order13 (g : small.W.Point) : 13 • g = 0 := by
  have : Nat.card small.W.Point = 13 := by
    rw [Nat.card_congr points, Nat.card_eq_fintype_card]
    decide +kernel
  rw [← this]
  exact card_nsmul_eq_zero'

/-- A key of 32 bytes. -/
def key (b : UInt8) : Bytes := List.replicate 31 0 ++ [b]

/-- A hash of 32 bytes. -/
def digest (b : Bytes) : Bytes := b ++ List.replicate 32 7

theorem inv13 (k : Nat) (hk : Nat.Coprime k 13) : k ^ 11 % 13 < 13 ∧ k * (k ^ 11 % 13) % 13 = 1 % 13 :=
  ⟨Nat.mod_lt _ (by decide), lawful.inverse k hk⟩

end Ex

example := C130_round_trip Ex.small Ex.prime11 (by decide) (by decide) 5 9 (by decide) (by decide) (by decide)

example := C130_one_form Ex.small (3 :: numBytes 5) (5, 9) (by decide +kernel)

/-- 4 is no first coordinate of a point, 13 is not reduced, 5 is no first byte. -/
example : Ex.small.decode (2 :: numBytes 4) = none ∧ Ex.small.decode (2 :: numBytes 13) = none ∧
    Ex.small.decode (2 :: numBytes 2) = some (2, 4) ∧ Ex.small.decode (5 :: numBytes 2) = none := by decide +kernel

example := C130_invalid_refused Ex.small Ex.small.mul
  (fun k => by rw [Curve.mul, show Ex.small.toPoint none = 0 from rfl, nsmul_zero]; rfl) 13 (Ex.key 5)
  (2 :: numBytes 4) (by
    rintro ⟨x, hx, y, hy, hon, h⟩
    have hx' : x < 11 := hx
    obtain rfl := numBytes_inj (by omega) (by omega) (List.cons.inj (Res.ok.inj h)).2
    have : ∀ y < 11, ¬ Ex.small.On 4 y := by decide
    exact this y hy hon)

example := C130_lawful Ex.small (by decide) (by decide) Ex.smooth Ex.sha Ex.digest 13 0 (by decide) Ex.order13
  (fun b => by simp [Ex.digest]) (by decide)

example := C130_refines Ex.small (by decide) (by decide) Ex.smooth Ex.sha Ex.digest 13 0 Ex.order13 (Ex.key 5) (by decide)
  (by decide)

example := C130_oprf Ex.small (by decide) (by decide) Ex.smooth Ex.sha 13 (by decide) Ex.order13
  (fun k => k ^ 11 % 13) Ex.inv13 (Ex.key 3) (Ex.key 5) (by decide) (by decide) (by decide) (by decide) [3] (5, 2)
  (by decide +kernel)

/-! ### The two curves of the code -/

theorem real_conditions {C : Curve} (hC : C = sm2 ∨ C = secp256k1) :
    C.p.Prime ∧ C.p ≠ 2 ∧ C.p ≤ 256 ^ 32 ∧ C.Smooth := by
  rcases hC with rfl | rfl
  · exact ⟨prime_sm2, by decide, by decide +kernel, by unfold Curve.Smooth; decide +kernel⟩
  · exact ⟨prime_secp256k1, by decide, by decide +kernel, by unfold Curve.Smooth; decide +kernel⟩

/-- **C130** (SM2 and secp256k1) On the two curves of the code, without further assumptions: every point is read back
from its 33 bytes. -/
theorem C130_real_round_trip (C : Curve) (hC : C = sm2 ∨ C = secp256k1) (x y : Nat) (hx : x < C.p) (hy : y < C.p)
    (hon : C.On x y) : ∃ b, encode (some (x, y)) = .ok b ∧ b.length = 33 ∧ C.decode b = some (x, y) :=
  have h := real_conditions hC
  C130_round_trip C h.1 h.2.1 h.2.2.1 x y hx hy hon

theorem points_finite (C : Curve) (hp : C.p ≠ 0) : Finite C.W.Point := by
  have : NeZero C.p := ⟨hp⟩
  refine Finite.of_injective (β := Option (ZMod C.p × ZMod C.p))
    (fun | .zero => none | .some x y _ => some (x, y)) ?_
  intro g g' h
  cases g <;> cases g' <;> simp_all

/-- **C130** (SM2 and secp256k1) On the two curves of the code, with the number of points as the order of the group and
a hash function of at least 32 bytes, all that C28 and C29 assume of the curve holds for the items for which a point is
found, without further assumptions. -/
theorem C130_real_lawful (C : Curve) [hp : Fact C.p.Prime] (hC : C = sm2 ∨ C = secp256k1) (sha digest : Bytes → Bytes)
    (compareLength : Nat) (hlen : ∀ b, 32 ≤ (digest b).length) (hcmp : compareLength < 32) :
    (C.oprf sha digest (Nat.card C.W.Point) compareLength).Lawful := by
  have h := real_conditions hC
  have := points_finite C hp.out.ne_zero
  exact C130_lawful C h.2.1 h.2.2.1 h.2.2.2 sha digest _ compareLength Nat.card_pos (fun _ => card_nsmul_eq_zero') hlen hcmp

/-- The base points of the two curves. -/
example := C130_real_round_trip secp256k1 (.inr rfl)
  0x79BE667EF9DCBBAC55A06295CE870B07029BFCDB2DCE28D959F2815B16F81798
  0x483ADA7726A3C4655DA4FBFC0E1108A8FD17B448A68554199C47D08FFB10D4B8
  (by decide +kernel) (by decide +kernel) (by decide +kernel)

example := C130_real_round_trip sm2 (.inl rfl)
  0x32C4AE2C1F1981195F9904466A39C9948FE30BBFF2660BE1715A4589334C74C7
  0xBC3736A2F4F6779C59BDCEE36B692153D0A9877CC62A474002DF32E52139F0A0
  (by decide +kernel) (by decide +kernel) (by decide +kernel)

example := @C130_real_lawful secp256k1 ⟨prime_secp256k1⟩ (.inr rfl) Ex.sha Ex.digest 16
  (fun b => by simp [Ex.digest]) (by decide)

end Psi.TryPoint
