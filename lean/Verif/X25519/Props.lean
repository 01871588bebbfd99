import Verif.X25519.Torsion
import Verif.Elligator.HashProps

/-!
# C114: the masks of Curve25519 find the common items, whatever the keys
-/

namespace Psi.X25519

open Psi.Elligator WeierstrassCurve
open Psi.Spiral (Res)

/-! ## Keys and strings as numbers -/

/-- The number by which X25519 multiplies. -/
def scalar (k : Bytes) : Nat := leVal (clampKey k)

/-- The coordinate that a string stands for. -/
def coord (s : Bytes) : Fp := (x25519Coord s : Fp)

theorem leVal_cons (a : UInt8) (t : Bytes) : leVal (a :: t) = leVal t * 256 + a.toNat := by
  rw [leVal, List.reverse_cons, beVal_append, beVal_single]; simp [leVal]

theorem leVal_snoc (t : Bytes) (b : UInt8) : leVal (t ++ [b]) = b.toNat * 256 ^ t.length + leVal t := by
  rw [leVal, List.reverse_append, List.reverse_singleton, beVal_append, beVal_single, List.length_reverse]
  rfl

theorem leVal_lt (t : Bytes) : leVal t < 256 ^ t.length := by
  have := beVal_lt t.reverse
  rwa [List.length_reverse] at this

theorem low_bits (x : UInt8) : (x &&& 248).toNat % 8 = 0 := by
  have h : ∀ n : Fin 256, ((n : Nat) &&& 248) % 8 = 0 := by decide +kernel
  rw [UInt8.toNat_and]
  exact h ⟨x.toNat, x.toNat_lt⟩

theorem top_bits (x : UInt8) : 64 ≤ ((x &&& 127) ||| 64).toNat ∧ ((x &&& 127) ||| 64).toNat < 128 := by
  have h : ∀ n : Fin 256, 64 ≤ (((n : Nat) &&& 127) ||| 64) ∧ (((n : Nat) &&& 127) ||| 64) < 128 := by
    decide +kernel
  rw [UInt8.toNat_or, UInt8.toNat_and]
  exact h ⟨x.toNat, x.toNat_lt⟩

theorem split_key {k : Bytes} (h : k.length = 32) :
    ∃ (a b : UInt8) (t : Bytes), t.length = 30 ∧ k = a :: (t ++ [b]) := by
  obtain ⟨a, r, rfl⟩ : ∃ a r, k = a :: r := by
    cases k with
    | nil => simp at h
    | cons a r => exact ⟨a, r, rfl⟩
  have hr : r ≠ [] := by rintro rfl; simp at h
  refine ⟨a, r.getLast hr, r.dropLast, ?_, ?_⟩
  · rw [List.length_dropLast]; simp at h; omega
  · rw [List.dropLast_append_getLast]

theorem clamp_split (a b : UInt8) {t : Bytes} (ht : t.length = 30) :
    clampKey (a :: (t ++ [b])) = (a &&& 248) :: (t ++ [(b &&& 127) ||| 64]) := by
  have h31 : (a :: (t ++ [b])).getD 31 0 = b := by
    rw [List.getD_eq_getElem?_getD, List.getElem?_cons_succ, List.getElem?_append_right (by omega), ht]
    rfl
  unfold clampKey
  rw [h31, List.getD_cons_zero, List.set_cons_zero, List.set_cons_succ, List.set_append_right _ _ (by omega), ht]
  rfl

/-- A secret key is eight times a number of 252 bits. -/
theorem scalar_spec {k : Bytes} (h : k.length = 32) :
    ∃ j, scalar k = 8 * j ∧ 2 ^ 251 ≤ j ∧ j < 2 ^ 252 := by
  obtain ⟨a, b, t, ht, rfl⟩ := split_key h
  have hv : scalar (a :: (t ++ [b])) =
      (((b &&& 127) ||| 64).toNat * 256 ^ 30 + leVal t) * 256 + (a &&& 248).toNat := by
    rw [scalar, clamp_split a b ht, leVal_cons, leVal_snoc, ht]
  have h1 := low_bits a
  have h2 := top_bits b
  have h3 := leVal_lt t
  rw [ht] at h3
  have h4 := (a &&& 248).toNat_lt
  generalize (a &&& 248).toNat = x at *
  generalize ((b &&& 127) ||| 64).toNat = y at *
  refine ⟨scalar (a :: (t ++ [b])) / 8, ?_, ?_, ?_⟩
  all_goals rw [hv]
  all_goals norm_num at h3 h4 ⊢
  all_goals omega

theorem scalar_lt {k : Bytes} (h : k.length = 32) : scalar k < 2 ^ 255 := by
  obtain ⟨j, e, -, h2⟩ := scalar_spec h
  rw [e]; norm_num at h2 ⊢; omega

theorem x25519_length (k s : Bytes) : (x25519 k s).length = 32 := by
  rw [x25519, List.length_reverse, be_length]

theorem x25519_val (k s : Bytes) : leVal (x25519 k s) = (mulX (scalar k) (x25519Coord s)).toNat ∧
    leVal (x25519 k s) < kP := by
  have h := mulX_range (scalar k) (x25519Coord s)
  have hlt : (mulX (scalar k) (x25519Coord s)).toNat < kP := by omega
  have e : leVal (x25519 k s) = (mulX (scalar k) (x25519Coord s)).toNat := by
    rw [x25519, leVal, List.reverse_reverse, ← scalar]
    exact beVal_be_of_lt (lt_trans hlt kP_lt)
  exact ⟨e, e ▸ hlt⟩

theorem kP_lt_255 : kP < 2 ^ 255 := by decide +kernel

theorem coord_val (k s : Bytes) : coord (x25519 k s) = (mulX (scalar k) (x25519Coord s) : Fp) := by
  obtain ⟨e, hlt⟩ := x25519_val k s
  rw [coord, x25519Coord, Nat.mod_eq_of_lt (lt_trans hlt kP_lt_255), e, ← cast_nat,
    Int.toNat_of_nonneg (mulX_range _ _).1]

theorem x25519_eq_iff (k k' s s' : Bytes) : x25519 k s = x25519 k' s' ↔ coord (x25519 k s) = coord (x25519 k' s') := by
  refine ⟨fun h => by rw [h], fun h => ?_⟩
  obtain ⟨e, hlt⟩ := x25519_val k s
  obtain ⟨e', hlt'⟩ := x25519_val k' s'
  rw [coord, coord, x25519Coord, x25519Coord, Nat.mod_eq_of_lt (lt_trans hlt kP_lt_255),
    Nat.mod_eq_of_lt (lt_trans hlt' kP_lt_255)] at h
  have hv := nat_eq_of_cast hlt hlt' h
  have := beVal_inj (a := (x25519 k s).reverse) (b := (x25519 k' s').reverse)
    (by rw [List.length_reverse, List.length_reverse, x25519_length, x25519_length]) hv
  exact List.reverse_injective this

theorem mask_coord {d : Fp} (hd : Side d) {k s : Bytes} (hk : k.length = 32) {P : (E d).Point}
    (hP : HasX d (coord s) P) : coord (x25519 k s) = xOf d (scalar k • P) := by
  rw [coord_val]
  exact mulX_spec hd.ne (by simpa [coord] using hP) (scalar_lt hk)

theorem scalar_even {d : Fp} {k : Bytes} (hk : k.length = 32) {P : (E d).Point} (h : P + P = 0) :
    scalar k • P = 0 := by
  obtain ⟨j, e, -, -⟩ := scalar_spec hk
  rw [e, show 8 * j = 4 * j * 2 by ring, mul_nsmul', two_nsmul, h, nsmul_zero]

/-- Both masks, one after the other. -/
theorem dual_coord {d : Fp} (hd : Side d) {a b s : Bytes} (ha : a.length = 32) (hb : b.length = 32)
    {P : (E d).Point} (hP : HasX d (coord s) P) :
    coord (x25519 b (x25519 a s)) = xOf d ((scalar b * scalar a) • P) := by
  have h1 := mask_coord hd ha hP
  rw [mul_nsmul']
  rcases hasX_or d hd.ne (scalar a • P) with h0 | hQ
  · rw [h0, nsmul_zero]
    rw [h0] at h1
    have h1 : coord (x25519 a s) = 0 := h1
    obtain ⟨T, hT⟩ : ∃ T, HasX d 0 T := (hasX_iff hd.ne).mpr (by simp [rhs])
    rw [mask_coord hd hb (P := T) (by rw [h1]; exact hT), scalar_even hb (hasX_zero hT)]
  · rw [mask_coord hd hb (P := scalar a • P) (by rw [h1]; exact hQ)]

theorem small_coprime {j q : Nat} (hq : q.Prime) (h0 : 2 ^ 251 ≤ j) (h1 : j < 2 ^ 252) (h2 : 2 ^ 252 ≤ q) :
    j.Coprime q :=
  (Nat.coprime_of_lt_prime (by have : 0 < 2 ^ 251 := by norm_num
                               omega) (by omega) hq).symm

theorem ordL_ge : 2 ^ 252 ≤ ordL := by decide +kernel
theorem ordT_ge : 2 ^ 252 ≤ ordT := by decide +kernel

/-! ## C114 -/

/-- The order of Curve25519 is eight times the prime of RFC 7748, and that of the twist four times
another prime. -/
theorem C114_orders :
    Nat.card curve.Point = 8 * (2 ^ 252 + 27742317777372353535851937790883648493) ∧
    Nat.card (E 2).Point = 4 * (2 ^ 253 - 55484635554744707071703875581767296995) ∧
    Nat.Prime (2 ^ 252 + 27742317777372353535851937790883648493) ∧
    Nat.Prime (2 ^ 253 - 55484635554744707071703875581767296995) := by
  refine ⟨?_, card_twist, ordL_prime, ordT_prime⟩
  have := card_curve
  rw [E_one] at this
  exact this

/-- X25519, as the RFC computes it, gives the coordinate of the multiple of the point that the string
stands for, on the curve or on the twist. -/
theorem C114_multiple {d : Fp} (hd : d = 1 ∨ d = 2) {k s : Bytes} (hk : k.length = 32) {P : (E d).Point}
    (hP : HasX d (coord s) P) : coord (x25519 k s) = xOf d (scalar k • P) := mask_coord hd hk hP

/-- Every string stands for a point of the curve or of the twist. -/
theorem C114_on_a_curve (s : Bytes) : ∃ d, (d = 1 ∨ d = 2) ∧ ∃ P, HasX d (coord s) P := exists_side _

/-- The order in which two parties mask a string does not matter. -/
theorem C114_commute {a b : Bytes} (ha : a.length = 32) (hb : b.length = 32) (s : Bytes) :
    x25519 b (x25519 a s) = x25519 a (x25519 b s) := by
  rw [x25519_eq_iff]
  obtain ⟨d, hd, P, hP⟩ := exists_side (coord s)
  rw [dual_coord hd ha hb hP, dual_coord hd hb ha hP, mul_comm]

/-- Two strings get the same mask exactly if they are alike.  This does not depend on the key. -/
theorem C114_meet {k : Bytes} (hk : k.length = 32) (s t : Bytes) :
    x25519 k s = x25519 k t ↔ Alike (coord s) (coord t) := by
  rw [x25519_eq_iff]
  obtain ⟨d, hd, P, hP⟩ := exists_side (coord s)
  obtain ⟨d', hd', Q, hQ⟩ := exists_side (coord t)
  obtain ⟨j, e, h1, h2⟩ := scalar_spec hk
  rw [mask_coord hd hk hP, mask_coord hd' hk hQ, e]
  exact meet_iff (small_coprime ordL_prime h1 h2 ordL_ge) (small_coprime ordT_prime h1 h2 ordT_ge) hd hd' hP hQ

/-- The same for two strings that both parties masked, each starting with its own. -/
theorem C114_meet_both {a b : Bytes} (ha : a.length = 32) (hb : b.length = 32) (s t : Bytes) :
    x25519 b (x25519 a s) = x25519 a (x25519 b t) ↔ Alike (coord s) (coord t) := by
  rw [x25519_eq_iff]
  obtain ⟨d, hd, P, hP⟩ := exists_side (coord s)
  obtain ⟨d', hd', Q, hQ⟩ := exists_side (coord t)
  obtain ⟨i, e, h1, h2⟩ := scalar_spec ha
  obtain ⟨j, e', h1', h2'⟩ := scalar_spec hb
  rw [dual_coord hd ha hb hP, dual_coord hd' hb ha hQ, mul_comm (scalar a), e, e',
    show 8 * j * (8 * i) = 8 * (8 * j * i) by ring]
  refine meet_iff ?_ ?_ hd hd' hP hQ
  · exact Nat.Coprime.mul_left (Nat.Coprime.mul_left (by decide +kernel)
      (small_coprime ordL_prime h1' h2' ordL_ge)) (small_coprime ordL_prime h1 h2 ordL_ge)
  · exact Nat.Coprime.mul_left (Nat.Coprime.mul_left (by decide +kernel)
      (small_coprime ordT_prime h1' h2' ordT_ge)) (small_coprime ordT_prime h1 h2 ordT_ge)

theorem zip_filter {α β : Type} (f : α → β) (p : β → Bool) : ∀ l : List α,
    ((l.zip (l.map f)).filter fun q => p q.2).map (·.1) = l.filter fun x => p (f x)
  | [] => rfl
  | a :: l => by
    rw [List.map_cons, List.zip_cons_cons, List.filter_cons, List.filter_cons]
    split <;> simp [zip_filter f p l]

open Classical in
/-- What a party finds: its items whose hash is alike to that of an item of the peer.  The keys do not
matter. -/
theorem C114_found (h : Bytes → Bytes) {a b : Bytes} (ha : a.length = 32) (hb : b.length = 32)
    (mine theirs : List Bytes) : found h a b mine theirs =
      mine.filter fun x => decide (∃ y ∈ theirs, Alike (coord (h x)) (coord (h y))) := by
  unfold found eccMask hashInputs
  dsimp only
  simp only [List.map_map]
  rw [zip_filter]
  apply List.filter_congr
  intro x _
  rw [Bool.eq_iff_iff, decide_eq_true_iff, List.contains_iff_mem, List.mem_map]
  refine exists_congr fun y => and_congr_right fun _ => ?_
  simp only [Function.comp_apply]
  rw [eq_comm]
  exact C114_meet_both ha hb _ _

/-- If no two hashes of different items are alike, then a party finds exactly the common items. -/
theorem C114_exact (h : Bytes → Bytes) {a b : Bytes} (ha : a.length = 32) (hb : b.length = 32)
    (mine theirs : List Bytes)
    (hh : ∀ x ∈ mine, ∀ y ∈ theirs, x ≠ y → ¬ Alike (coord (h x)) (coord (h y))) :
    found h a b mine theirs = mine.filter fun x => theirs.contains x := by
  classical
  rw [C114_found h ha hb]
  apply List.filter_congr
  intro x hx
  rw [Bool.eq_iff_iff, decide_eq_true_iff, List.contains_iff_mem]
  constructor
  · rintro ⟨y, hy, e⟩
    by_contra hc
    exact hh x hx y hy (fun q => hc (q ▸ hy)) e
  · intro hm
    refine ⟨x, hm, ?_⟩
    rw [← C114_meet ha]

/-- At most 32 of the strings of 32 bytes have the mask of a given string. -/
theorem C114_few {k : Bytes} (hk : k.length = 32) (t : Bytes) :
    {s : Bytes | s.length = 32 ∧ x25519 k s = x25519 k t}.Finite ∧
    {s : Bytes | s.length = 32 ∧ x25519 k s = x25519 k t}.ncard ≤ 32 := by
  have hA : ({u | Alike u (coord t)} : Set Fp).Finite := Set.toFinite _
  let f : Bytes → Fp × Fin 2 × Fin 2 := fun s =>
    (coord s, ⟨leVal s / 2 ^ 255 % 2, Nat.mod_lt _ (by norm_num)⟩,
      ⟨x25519Coord s / kP % 2, Nat.mod_lt _ (by norm_num)⟩)
  have hf : Set.InjOn f {s : Bytes | s.length = 32 ∧ x25519 k s = x25519 k t} := by
    rintro s ⟨hs, -⟩ s' ⟨hs', -⟩ e
    simp only [f, Prod.mk.injEq, Fin.mk.injEq] at e
    obtain ⟨e1, e2, e3⟩ := e
    have l1 : leVal s < 2 ^ 256 := by have := leVal_lt s; rw [hs] at this; norm_num at this ⊢; exact this
    have l2 : leVal s' < 2 ^ 256 := by have := leVal_lt s'; rw [hs'] at this; norm_num at this ⊢; exact this
    have c1 : x25519Coord s < 2 * kP := lt_trans (Nat.mod_lt _ (by norm_num)) (by decide +kernel)
    have c2 : x25519Coord s' < 2 * kP := lt_trans (Nat.mod_lt _ (by norm_num)) (by decide +kernel)
    have m : x25519Coord s % kP = x25519Coord s' % kP := by
      have := (ZMod.natCast_eq_natCast_iff _ _ _).mp e1
      exact this
    have d1 : x25519Coord s / kP < 2 := Nat.div_lt_of_lt_mul (by rwa [mul_comm])
    have d2 : x25519Coord s' / kP < 2 := Nat.div_lt_of_lt_mul (by rwa [mul_comm])
    rw [Nat.mod_eq_of_lt d1, Nat.mod_eq_of_lt d2] at e3
    have q : x25519Coord s = x25519Coord s' := by
      rw [← Nat.div_add_mod (x25519Coord s) kP, ← Nat.div_add_mod (x25519Coord s') kP, e3, m]
    have d3 : leVal s / 2 ^ 255 < 2 := Nat.div_lt_of_lt_mul (by norm_num at l1 ⊢; exact l1)
    have d4 : leVal s' / 2 ^ 255 < 2 := Nat.div_lt_of_lt_mul (by norm_num at l2 ⊢; exact l2)
    rw [Nat.mod_eq_of_lt d3, Nat.mod_eq_of_lt d4] at e2
    have r : leVal s = leVal s' := by
      have q' : leVal s % 2 ^ 255 = leVal s' % 2 ^ 255 := q
      rw [← Nat.div_add_mod (leVal s) (2 ^ 255), ← Nat.div_add_mod (leVal s') (2 ^ 255), e2, q']
    exact List.reverse_injective (beVal_inj (by simp [hs, hs']) r)
  have hm : Set.MapsTo f {s : Bytes | s.length = 32 ∧ x25519 k s = x25519 k t}
      ({u | Alike u (coord t)} ×ˢ (Set.univ : Set (Fin 2 × Fin 2))) := by
    rintro s ⟨-, hs⟩
    exact ⟨(C114_meet hk s t).mp hs, Set.mem_univ _⟩
  have hfin : ({u | Alike u (coord t)} ×ˢ (Set.univ : Set (Fin 2 × Fin 2))).Finite := hA.prod Set.finite_univ
  refine ⟨Set.Finite.of_injOn hm hf hfin, ?_⟩
  refine (Set.ncard_le_ncard_of_injOn f hm hf hfin).trans ?_
  rw [Set.ncard_prod, Set.ncard_univ, Nat.card_prod, Nat.card_fin]
  have := alike_few (coord t)
  omega

/-- A mask is zero, under every key, exactly for five coordinates. -/
theorem C114_vanish {k : Bytes} (hk : k.length = 32) (s : Bytes) :
    x25519 k s = List.replicate 32 0 ↔
      coord s = 0 ∨ coord s = 1 ∨ coord s = -1 ∨
      coord s = 325606250916557431795983626356110631294008115727848805560023387167927233504 ∨
      coord s = 39382357235489614581723060781553021112529911719440698176882885853963445705823 := by
  have hz : x25519 k (List.replicate 32 0) = List.replicate 32 0 := by
    have h0 : coord (List.replicate 32 0) = 0 := by
      have : x25519Coord (List.replicate 32 0) = 0 := by decide +kernel
      rw [coord, this, Nat.cast_zero]
    obtain ⟨P, hP⟩ : ∃ P, HasX 1 (coord (List.replicate 32 0)) P := by
      rw [h0]; exact (hasX_iff one_ne_zero).mpr (by simp [rhs])
    have h1 := mask_coord (Or.inl rfl) hk hP
    rw [h0] at hP
    rw [scalar_even hk (hasX_zero hP)] at h1
    obtain ⟨e, hlt⟩ := x25519_val k (List.replicate 32 0)
    have h2 : ((leVal (x25519 k (List.replicate 32 0)) : Nat) : Fp) = ((0 : Nat) : Fp) := by
      rw [coord, x25519Coord, Nat.mod_eq_of_lt (lt_trans hlt kP_lt_255)] at h1
      rw [h1, Nat.cast_zero]; rfl
    have h3 := nat_eq_of_cast hlt kP_pos h2
    have h4 : beVal (x25519 k (List.replicate 32 0)).reverse = beVal (List.replicate 32 0).reverse := by
      rw [leVal] at h3; rw [h3]; decide +kernel
    exact List.reverse_injective (beVal_inj (by simp [x25519_length]) h4)
  have h0 : coord (List.replicate 32 0) = 0 := by
    have : x25519Coord (List.replicate 32 0) = 0 := by decide +kernel
    rw [coord, this, Nat.cast_zero]
  have hs := small_list (coord s)
  simp only [x8, x8', Int.cast_ofNat] at hs
  rw [← hs]
  conv_lhs => rw [← hz]
  rw [C114_meet hk, h0]
  exact ⟨fun h => alike_small h small_zero, fun h => Or.inr ⟨h, small_zero⟩⟩

/-- Strings whose coordinates are inverse to each other have the same mask under every key, so items
with such hashes count as equal. -/
theorem C114_reciprocal {k : Bytes} (hk : k.length = 32) {s t : Bytes} (h : coord s * coord t = 1) :
    x25519 k s = x25519 k t := by
  rw [C114_meet hk]
  have hs : coord s ≠ 0 := left_ne_zero_of_mul_eq_one h
  obtain ⟨d, hd, P, hP⟩ := exists_side (coord s)
  have hd0 := hd.ne
  left
  obtain ⟨T, hT⟩ : ∃ T, HasX d 0 T := (hasX_iff hd.ne).mpr (by simp [rhs])
  refine ⟨d, hd, P, P + T, hP, ?_, ?_⟩
  · obtain ⟨y, hn, rfl⟩ := hP
    obtain ⟨z, hz, rfl⟩ := hT
    have ez := E_equation.mp hz.1
    have ey := E_equation.mp hn.1
    have hz0 : z = 0 := by
      rw [mul_zero, rhsE] at ez
      have : z ^ 2 = 0 := by rw [ez]; ring
      exact pow_eq_zero_iff (two_ne_zero) |>.mp this
    subst hz0
    have hne : d * coord s ≠ d * 0 := by rw [mul_zero]; exact mul_ne_zero hd0 hs
    obtain ⟨y', hn', e⟩ := E_add_ne (h₁ := hn) (h₂ := hz) hne
    have ex : ((0 - y) / (d * 0 - d * coord s)) ^ 2 - 486662 * d - d * coord s - d * 0 = d * coord t := by
      have ht : coord t = 1 / coord s := by field_simp; linear_combination h
      rw [ht]
      have : ((0 - y) / (d * 0 - d * coord s)) ^ 2 = y ^ 2 / (d * coord s) ^ 2 := by
        rw [div_pow]; congr 1 <;> ring
      rw [this, ey, rhsE]
      field_simp
      ring
    rw [e]
    have gen : ∀ (a c : Fp) (h : (E d).Nonsingular a y'), a = c →
        ∃ y h', (Affine.Point.some a y' h : (E d).Point) = .some c y h' := by
      rintro a c h rfl; exact ⟨y', h, rfl⟩
    exact gen _ _ _ ex
  · rw [nsmul_add, eight_of_two (hasX_zero hT), add_zero]

/-- Nor does the top bit of a string matter. -/
theorem C114_top_bit (k : Bytes) {t : Bytes} (ht : t.length = 31) (b : UInt8) :
    x25519 k (t ++ [b ^^^ 128]) = x25519 k (t ++ [b]) := by
  have h : ∀ n : Fin 256, ((n : Nat) ^^^ 128) % 128 = n % 128 := by decide +kernel
  have hb := h ⟨b.toNat, b.toNat_lt⟩
  simp only at hb
  have e : x25519Coord (t ++ [b ^^^ 128]) = x25519Coord (t ++ [b]) := by
    rw [x25519Coord, x25519Coord, leVal_snoc, leVal_snoc, ht, UInt8.toNat_xor]
    change ((b.toNat ^^^ 128) * _ + _) % _ = _
    generalize (b.toNat ^^^ 128) = x at *
    generalize b.toNat = y at *
    norm_num
    omega
  rw [x25519, x25519, e]

/-- When two keys give the same mask of a string: if they are the same number, or if they add up to a
multiple of the order.  So a key acts like at most one other, on the curve and on the twist. -/
theorem C114_keys {k k' : Bytes} (hk : k.length = 32) (hk' : k'.length = 32) {s : Bytes}
    (hs : x25519 k s ≠ List.replicate 32 0) {d : Fp} (hd : d = 1 ∨ d = 2) {P : (E d).Point}
    (hP : HasX d (coord s) P) :
    x25519 k s = x25519 k' s ↔ scalar k = scalar k' ∨ scalar k + scalar k' =
      8 * (if d = 1 then 2 ^ 252 + 27742317777372353535851937790883648493
        else 2 ^ 253 - 55484635554744707071703875581767296995) := by
  have hq : (if d = 1 then 2 ^ 252 + 27742317777372353535851937790883648493
        else 2 ^ 253 - 55484635554744707071703875581767296995) = ordOf d := by
    rcases hd with rfl | rfl
    · rw [if_pos rfl, ordOf_one, ordL]
    · rw [if_neg two_ne_one, ordOf_two, ordT]
  rw [hq]
  have hS : 8 • P ≠ 0 := by
    intro h0
    apply hs
    have h1 : Small (coord s) := ⟨d, hd, P, hP, h0⟩
    rw [C114_vanish hk]
    have := small_only h1
    simpa only [x8, x8', Int.cast_ofNat] using this
  obtain ⟨i, ei, i1, i2⟩ := scalar_spec hk
  obtain ⟨j, ej, j1, j2⟩ := scalar_spec hk'
  have hpr := ordOf_prime d
  have hge := ordOf_ge d
  have hord : addOrderOf (8 • P) = ordOf d := by
    have : Fact (ordOf d).Prime := ⟨hpr⟩
    exact addOrderOf_eq_prime (prime_kills hd P) hS
  have hne : ∀ {n : Nat}, 2 ^ 251 ≤ n → n < 2 ^ 252 → n • (8 • P) ≠ 0 := by
    intro n n1 n2 h0
    exact hS (coprime_kills hd (small_coprime hpr n1 n2 hge) h0)
  have hi : scalar k • P = i • (8 • P) := by rw [ei, mul_comm, mul_nsmul']
  have hj : scalar k' • P = j • (8 • P) := by rw [ej, mul_comm, mul_nsmul']
  rw [x25519_eq_iff, mask_coord hd hk hP, mask_coord hd hk' hP, hi, hj]
  have a := (hasX_or d (Side.ne hd) (i • (8 • P))).resolve_left (hne i1 i2)
  have b := (hasX_or d (Side.ne hd) (j • (8 • P))).resolve_left (hne j1 j2)
  have hx : xOf d (i • (8 • P)) = xOf d (j • (8 • P)) ↔
      i • (8 • P) = j • (8 • P) ∨ i • (8 • P) = -(j • (8 • P) : (E d).Point) := by
    constructor
    · intro e
      rw [e] at a
      exact a.unique b
    · rintro (e | e)
      · rw [e]
      · rw [e, xOf_neg (Side.ne hd)]
  rw [hx, ei, ej]
  apply or_congr
  · rw [nsmul_eq_nsmul_iff_modEq, hord]
    constructor
    · intro h
      have := Nat.ModEq.eq_of_lt_of_lt h (by omega) (by omega)
      omega
    · intro h
      have : i = j := by omega
      rw [this]
  · have e1 : i • (8 • P) = -(j • (8 • P) : (E d).Point) ↔ (i + j) • (8 • P) = 0 := by
      rw [add_nsmul, eq_neg_iff_add_eq_zero]
    rw [e1, ← addOrderOf_dvd_iff_nsmul_eq_zero, hord]
    constructor
    · rintro ⟨c, hc⟩
      have c0 : c ≠ 0 := by
        rintro rfl
        have : (0 : Nat) < 2 ^ 251 := by norm_num
        omega
      have c2 : c < 2 := by
        by_contra hge2
        have : ordOf d * 2 ≤ ordOf d * c := Nat.mul_le_mul_left _ (by omega)
        omega
      have : c = 1 := by omega
      rw [this] at hc
      omega
    · intro h
      exact ⟨1, by omega⟩

/-- A key that `SetPrivateKey` copies as it is (`ecc_cryptor.h:47-50`) acts like the same key adjusted by
the constructor. -/
theorem C114_raw_key {k : Bytes} (hk : k.length = 32) (s : Bytes) :
    (clampKey k).length = 32 ∧ x25519 (clampKey k) s = x25519 k s := by
  obtain ⟨a, b, t, ht, rfl⟩ := split_key hk
  have h1 : ∀ x : UInt8, x &&& 248 &&& 248 = x &&& 248 := by
    intro x; rw [UInt8.and_assoc]; rfl
  have h2 : ∀ x : UInt8, ((x &&& 127 ||| 64) &&& 127) ||| 64 = x &&& 127 ||| 64 := by
    intro x
    have h : ∀ n : Fin 256, (((((n : Nat) &&& 127) ||| 64) &&& 127) ||| 64) = (((n : Nat) &&& 127) ||| 64) := by
      decide +kernel
    apply UInt8.toNat_inj.mp
    rw [UInt8.toNat_or, UInt8.toNat_and, UInt8.toNat_or, UInt8.toNat_and]
    exact h ⟨x.toNat, x.toNat_lt⟩
  have hc := clamp_split a b ht
  refine ⟨by rw [hc]; simp [ht], ?_⟩
  have : clampKey (clampKey (a :: (t ++ [b]))) = clampKey (a :: (t ++ [b])) := by
    rw [hc, clamp_split _ _ ht, h1, h2]
  rw [x25519, this, x25519]

/-- Both parties of a key exchange derive the same key, and it is never made of the point at
infinity. -/
theorem C114_exchange (blake : Bytes → Bytes) {a b : Bytes} (ha : a.length = 32) (hb : b.length = 32) :
    exchangeKey blake a (exchangeSend b) = exchangeKey blake b (exchangeSend a) ∧
    x25519 a (exchangeSend b) ≠ List.replicate 32 0 := by
  refine ⟨by rw [exchangeKey, exchangeKey, exchangeSend, exchangeSend, C114_commute hb ha], ?_⟩
  intro h
  rw [C114_vanish ha] at h
  have hs : Small (coord (exchangeSend b)) := by
    rw [small_list]; simpa only [x8, x8', Int.cast_ofNat] using h
  have h9 : coord basePoint = ((9 : Int) : Fp) := by
    have : x25519Coord basePoint = 9 := by decide +kernel
    rw [coord, this]; simp
  obtain ⟨P, hP, ho⟩ := base_order
  have hc := mask_coord (k := b) (s := basePoint) (Or.inl rfl) hb (P := P) (by rw [h9]; exact hP)
  obtain ⟨j, ej, j1, j2⟩ := scalar_spec hb
  have hne : 8 • (scalar b • P) ≠ 0 := by
    rw [← mul_nsmul', ej, ← mul_assoc, mul_comm, mul_nsmul']
    intro h0
    have h1 := addOrderOf_dvd_of_nsmul_eq_zero h0
    have h2 : addOrderOf ((8 * 8) • P) ∣ ordL := by
      apply addOrderOf_dvd_of_nsmul_eq_zero
      rw [← mul_nsmul', mul_comm, mul_nsmul', ← ho, addOrderOf_nsmul_eq_zero, nsmul_zero]
    have h3 : addOrderOf ((8 * 8) • P) ∣ 1 :=
      (small_coprime ordL_prime j1 j2 ordL_ge) ▸ Nat.dvd_gcd h1 h2
    have h4 : (8 * 8) • P = 0 := AddMonoid.addOrderOf_eq_one_iff.mp (Nat.dvd_one.mp h3)
    have h5 := addOrderOf_dvd_of_nsmul_eq_zero h4
    rw [ho] at h5
    have := Nat.le_of_dvd (by norm_num) h5
    have h6 := ordL_ge
    have : (64 : Nat) < 2 ^ 252 := by norm_num
    omega
  have h0 : scalar b • P ≠ 0 := by intro e; apply hne; rw [e, nsmul_zero]
  have hX := (hasX_or 1 one_ne_zero (scalar b • P)).resolve_left h0
  rw [← hc] at hX
  exact hne ((small_iff (Or.inl rfl) hX).mp hs)

/-- The hash of RFC 9380, where it gives a point, gives one of the subgroup of prime order (the part of C102
that the order of the group settles). -/
theorem hash_order {H : Bytes → Bytes} (hH : ∀ x, (H x).length = 64) {msg dst r : Bytes}
    (h : hashToCurve H msg dst = .ok r) :
    ∃ P, IsX r P ∧ addOrderOf P = 2 ^ 252 + 27742317777372353535851937790883648493 := by
  have hl : 16 ≤ dst.length ∧ dst.length ≤ 255 := by
    by_contra hc
    rw [tag_refused H msg dst (by omega)] at h
    simp at h
  obtain ⟨P, hP, -⟩ := image_unique (rfcField H msg dst 0)
  obtain ⟨Q, hQ, -⟩ := image_unique (rfcField H msg dst 1)
  obtain ⟨h1, h2⟩ := hash_point_partial hH hl.1 hl.2 hP hQ
  by_cases hc : P = Q ∨ 8 • (P + Q) = 0
  · rw [h2 hc] at h; simp at h
  · push Not at hc
    obtain ⟨r', e, hr⟩ := h1 hc.1 hc.2
    rw [e] at h
    have : r' = r := by simpa using h
    subst this
    refine ⟨_, hr, ?_⟩
    have : Fact (Nat.Prime ordL) := ⟨ordL_prime⟩
    change _ = ordL
    apply addOrderOf_eq_prime _ hc.2
    have hcard : Nat.card curve.Point = 8 * ordL := C114_orders.1
    have hz : Nat.card curve.Point • (P + Q) = 0 := card_nsmul_eq_zero'
    rw [hcard] at hz
    rw [← mul_nsmul', mul_comm]; exact hz

end Psi.X25519
