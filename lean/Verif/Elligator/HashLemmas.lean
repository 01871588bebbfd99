import Verif.Elligator.MapLemmas
import Mathlib.Data.Int.CardIntervalMod

/-!
# Expanding the message and hashing to the field

`rfcExpand` and `rfcField` are `expand_message_xmd` and `hash_to_field` of RFC 9380, written down from
the RFC.
-/

namespace Psi.Elligator

open Psi.Spiral (Res mapRes)

/-! ## RFC 9380 -/

/-- `DST_prime = DST || I2OSP(len(DST), 1)`. -/
def rfcTag (dst : Bytes) : Bytes := dst ++ [UInt8.ofNat dst.length]

/-- `msg_prime = Z_pad || msg || l_i_b_str || I2OSP(0, 1) || DST_prime`. -/
def rfcInput (msg dst : Bytes) (len : Nat) : Bytes :=
  List.replicate 128 0 ++ msg ++ [UInt8.ofNat (len / 256), UInt8.ofNat len] ++ [0] ++ rfcTag dst

/-- The blocks `b_0`, `b_1`, `b_2`, …. -/
def rfcBlock (H : Bytes → Bytes) (msg dst : Bytes) (len : Nat) : Nat → Bytes
  | 0 => H (rfcInput msg dst len)
  | 1 => H (H (rfcInput msg dst len) ++ [1] ++ rfcTag dst)
  | i + 2 => H (List.zipWith (· ^^^ ·) (H (rfcInput msg dst len)) (rfcBlock H msg dst len (i + 1)) ++
      [UInt8.ofNat (i + 2)] ++ rfcTag dst)

/-- `expand_message_xmd` (RFC 9380, section 5.3.1) with a hash of 64 bytes. -/
def rfcExpand (H : Bytes → Bytes) (msg dst : Bytes) (len : Nat) : Bytes :=
  ((List.range ((len + 63) / 64)).flatMap fun i => rfcBlock H msg dst len (i + 1)).take len

/-- Element `i` of `hash_to_field` (RFC 9380, section 5.2) for two elements of the field of
`2 ^ 255 - 19`, from 48 bytes each. -/
def rfcField (H : Bytes → Bytes) (msg dst : Bytes) (i : Nat) : Nat :=
  beVal (((rfcExpand H msg dst 96).drop (48 * i)).take 48) % (2 ^ 255 - 19)

/-! ## The code -/

theorem be_one (n : Nat) : be 1 n = [UInt8.ofNat n] := rfl

theorem be_two (n : Nat) : be 2 n = [UInt8.ofNat (n / 256), UInt8.ofNat n] := rfl

theorem i2osp_ok {x k : Nat} (h : x < 256 ^ k) : i2osp x k = .ok (be k x) := if_pos h

theorem xor_comm_list : ∀ a b : Bytes,
    List.zipWith (· ^^^ ·) a b = List.zipWith (· ^^^ ·) b a := by
  intro a b
  rw [List.zipWith_comm]
  congr 1
  funext x y
  exact UInt8.xor_comm _ _

theorem loop_spec (H : Bytes → Bytes) (msg dst : Bytes) (len : Nat) : ∀ (n k : Nat) (ret : Bytes),
    expandLoop H (H (rfcInput msg dst len)) (rfcTag dst) n (k + 2) (rfcBlock H msg dst len (k + 1)) ret =
      ret ++ (List.range n).flatMap (fun i => rfcBlock H msg dst len (k + 2 + i)) := by
  intro n
  induction n with
  | zero => intro k ret; simp [expandLoop]
  | succ n ih =>
    intro k ret
    have hb : H (List.zipWith (· ^^^ ·) (rfcBlock H msg dst len (k + 1)) (H (rfcInput msg dst len)) ++
        [UInt8.ofNat (k + 2)] ++ rfcTag dst) = rfcBlock H msg dst len (k + 2) := by
      rw [xor_comm_list, rfcBlock]
    rw [expandLoop, hb, ih (k + 1), List.append_assoc, List.range_succ_eq_map, List.flatMap_cons,
      List.flatMap_map]
    congr 2
    apply List.flatMap_congr
    intro i _
    congr 1; omega

theorem blocks_length {H : Bytes → Bytes} (hH : ∀ x, (H x).length = 64) (msg dst : Bytes) (len : Nat) :
    ∀ n, ((List.range n).flatMap fun i => rfcBlock H msg dst len (i + 1)).length = 64 * n := by
  intro n
  induction n with
  | zero => rfl
  | succ n ih =>
    rw [List.range_succ, List.flatMap_append, List.length_append, ih]
    simp only [List.flatMap_cons, List.flatMap_nil, List.append_nil]
    have : (rfcBlock H msg dst len (n + 1)).length = 64 := by
      cases n with
      | zero => exact hH _
      | succ m => exact hH _
    omega

theorem expand_ok {H : Bytes → Bytes} (hH : ∀ x, (H x).length = 64) {msg dst : Bytes} {len : Nat}
    (hl : len ≤ 255 * 64) (h1 : 16 ≤ dst.length) (h2 : dst.length ≤ 255) :
    expand H msg dst len = .ok (rfcExpand H msg dst len) := by
  unfold expand
  dsimp only
  rw [if_neg (by omega), if_neg (by omega), if_neg (by omega), if_neg (by omega),
    i2osp_ok (by omega), res_bind_ok, i2osp_ok (by omega), res_bind_ok, be_one, be_two]
  have ht : dst ++ [UInt8.ofNat dst.length] = rfcTag dst := rfl
  have hi : List.replicate 128 0 ++ msg ++ [UInt8.ofNat (len / 256), UInt8.ofNat len] ++ [0] ++
      rfcTag dst = rfcInput msg dst len := rfl
  have hb : H (H (rfcInput msg dst len) ++ [1] ++ rfcTag dst) = rfcBlock H msg dst len (0 + 1) := rfl
  rw [ht, hi, hb, loop_spec, resize, rfcExpand]
  congr 1
  generalize he : (len + 63) / 64 = ell
  cases ell with
  | zero =>
    have : len = 0 := by omega
    subst this
    simp
  | succ m =>
    have hr : (rfcBlock H msg dst len (0 + 1) ++
        (List.range (m + 1 - 1)).flatMap fun i => rfcBlock H msg dst len (0 + 2 + i)) =
        (List.range (m + 1)).flatMap fun i => rfcBlock H msg dst len (i + 1) := by
      rw [List.range_succ_eq_map, List.flatMap_cons, List.flatMap_map]
      congr 1
      apply List.flatMap_congr
      intro i _
      congr 1; omega
    rw [hr, blocks_length hH]
    have : len - 64 * (m + 1) = 0 := by omega
    rw [this]
    simp

theorem expand_refuses {H : Bytes → Bytes} {msg dst : Bytes} {len : Nat}
    (h : len > 255 * 64 ∨ dst.length < 16 ∨ 255 < dst.length) : expand H msg dst len = .throws := by
  unfold expand
  dsimp only
  by_cases h1 : (len + 63) / 64 ≤ 255
  · rw [if_neg (by omega), if_neg (by omega)]
    by_cases h2 : 16 ≤ dst.length
    · rw [if_neg (by omega), if_pos (by omega)]
    · rw [if_pos (by omega)]
  · rw [if_pos h1]

theorem field_ok {H : Bytes → Bytes} (hH : ∀ x, (H x).length = 64) {msg dst : Bytes}
    (h1 : 16 ≤ dst.length) (h2 : dst.length ≤ 255) :
    hashToField H msg 2 dst = .ok [be 32 (rfcField H msg dst 0), be 32 (rfcField H msg dst 1)] := by
  have hone : ∀ i, toBytes (redMod (beVal (((rfcExpand H msg dst (2 * fieldLen)).drop
      (fieldLen * i)).take fieldLen))) = .ok (be 32 (rfcField H msg dst i)) := by
    intro i
    obtain ⟨e, _⟩ := toBytes_ok (redMod_range (beVal (((rfcExpand H msg dst (2 * fieldLen)).drop
      (fieldLen * i)).take fieldLen)))
    rw [e]
    congr 2
    rw [rfcField, ← kP_eq]
    rw [redMod]
    have : ∀ a b : Nat, ((a : Int) % (b : Int)).toNat = a % b := by intro a b; omega
    exact this _ _
  unfold hashToField
  rw [expand_ok hH (by simp only [fieldLen]; omega) h1 h2, res_bind_ok]
  have hr : List.range 2 = [0, 1] := rfl
  rw [hr]
  simp only [mapRes, hone]
  rfl

/-- How many of the numbers below `n` leave the remainder `r`. -/
theorem balanced (n p r : Nat) (hp : 0 < p) (hr : r < p) :
    n / p ≤ ((List.range n).filter (fun k => k % p = r)).length ∧
    ((List.range n).filter (fun k => k % p = r)).length ≤ n / p + 1 := by
  have h := Nat.count_modEq_card n hp r
  have e : Nat.count (· ≡ r [MOD p]) n = ((List.range n).filter (fun k => k % p = r)).length := by
    rw [Nat.count, ← List.countP_eq_length_filter]
    congr 1
    funext k
    simp only [Nat.ModEq, Nat.mod_eq_of_lt hr]
  rw [← e, h]
  split <;> omega

end Psi.Elligator
