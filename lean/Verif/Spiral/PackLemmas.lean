import Verif.Spiral.PackModel
import Verif.Spiral.ArithLemmas
import Mathlib.Data.Nat.Bitwise
import Mathlib.Algebra.Order.Ring.Nat

/-!
# Bit streams

`bitsVal b a l` is the number written by the `l` bits from position `a`, most significant bit first.
-/

namespace Psi.Spiral

/-- The number written by `l` bits from position `a`. -/
def bitsVal (b : Nat → Bool) (a : Nat) : Nat → Nat
  | 0 => 0
  | l + 1 => 2 * bitsVal b a l + (b (a + l)).toNat

theorem bitsVal_succ (b : Nat → Bool) (a l : Nat) : bitsVal b a (l + 1) = 2 * bitsVal b a l + (b (a + l)).toNat := rfl

theorem bitsVal_lt (b : Nat → Bool) (a l : Nat) : bitsVal b a l < 2 ^ l := by
  induction l with
  | zero => simp [bitsVal]
  | succ l ih =>
    unfold bitsVal
    have := Bool.toNat_le (b (a + l))
    rw [pow_succ]
    omega

theorem bitsVal_add (b : Nat → Bool) (a l m : Nat) :
    bitsVal b a (l + m) = bitsVal b a l * 2 ^ m + bitsVal b (a + l) m := by
  induction m with
  | zero => simp [bitsVal]
  | succ m ih =>
    rw [← Nat.add_assoc, bitsVal_succ, bitsVal_succ, ih, pow_succ, Nat.add_assoc a l m]
    ring

theorem bitsVal_congr {b c : Nat → Bool} {a d l : Nat} (h : ∀ k, k < l → b (a + k) = c (d + k)) :
    bitsVal b a l = bitsVal c d l := by
  induction l with
  | zero => rfl
  | succ l ih =>
    unfold bitsVal
    rw [ih fun k hk => h k (by omega), h l (by omega)]

theorem bitsVal_false (a l : Nat) : bitsVal (fun _ => false) a l = 0 := by
  induction l with
  | zero => rfl
  | succ l ih => rw [bitsVal_succ, ih]; rfl

theorem bitsVal_testBit (b : Nat → Bool) (a l : Nat) {k : Nat} (hk : k < l) :
    (bitsVal b a l).testBit (l - 1 - k) = b (a + k) := by
  induction l with
  | zero => omega
  | succ l ih =>
    unfold bitsVal
    by_cases h : k = l
    · subst h
      rw [show k + 1 - 1 - k = 0 by omega, Nat.testBit_zero]
      cases b (a + k) <;> simp [Nat.add_mod]
    · rw [show l + 1 - 1 - k = (l - 1 - k) + 1 by omega, Nat.testBit_succ]
      have : (2 * bitsVal b a l + (b (a + l)).toNat) / 2 = bitsVal b a l := by
        have := Bool.toNat_le (b (a + l))
        omega
      rw [this]
      exact ih (by omega)

/-- Leading bits of a word. -/
theorem bitsVal_word_div {b : Nat → Bool} {a w x : Nat} (hx : x < 2 ^ w)
    (h : ∀ k, k < w → b (a + k) = x.testBit (w - 1 - k)) {l : Nat} (hl : l ≤ w) :
    bitsVal b a l = x / 2 ^ (w - l) := by
  induction l with
  | zero => rw [Nat.sub_zero, Nat.div_eq_of_lt hx]; rfl
  | succ l ih =>
    unfold bitsVal
    rw [ih (by omega), h l (by omega), show w - l = (w - 1 - l) + 1 by omega, show w - (l + 1) = w - 1 - l by omega,
      pow_succ, ← Nat.div_div_eq_div_mul, Nat.testBit_eq_decide_div_mod_eq]
    generalize x / 2 ^ (w - 1 - l) = y
    have := Nat.mod_two_eq_zero_or_one y
    rcases this with h | h <;> simp [h] <;> omega

theorem bitsVal_word {b : Nat → Bool} {a w x : Nat} (hx : x < 2 ^ w)
    (h : ∀ k, k < w → b (a + k) = x.testBit (w - 1 - k)) : bitsVal b a w = x := by
  rw [bitsVal_word_div hx h (le_refl _), Nat.sub_self, pow_zero, Nat.div_one]

/-- Trailing bits of a word. -/
theorem bitsVal_word_mod {b : Nat → Bool} {a w x : Nat} (hx : x < 2 ^ w)
    (h : ∀ k, k < w → b (a + k) = x.testBit (w - 1 - k)) {r : Nat} (hr : r ≤ w) :
    bitsVal b (a + (w - r)) r = x % 2 ^ r := by
  have h1 := bitsVal_word hx h
  have h2 := bitsVal_add b a (w - r) r
  rw [Nat.sub_add_cancel hr, h1] at h2
  have h3 := bitsVal_lt b (a + (w - r)) r
  conv_rhs => rw [h2, Nat.add_comm, Nat.add_mul_mod_self_right, Nat.mod_eq_of_lt h3]

/-- `s` bits after position `a` from a word whose last `r` bits start at `a`. -/
theorem bitsVal_prefix (b : Nat → Bool) (a : Nat) {s r : Nat} (h : s ≤ r) :
    bitsVal b a s = bitsVal b a r / 2 ^ (r - s) := by
  have := bitsVal_add b a s (r - s)
  rw [Nat.add_sub_cancel' h] at this
  have hl := bitsVal_lt b (a + s) (r - s)
  rw [this, Nat.add_comm, Nat.add_mul_div_right _ _ (Nat.pow_pos (by norm_num)), Nat.div_eq_of_lt hl, Nat.zero_add]

theorem bitsVal_suffix (b : Nat → Bool) (a : Nat) {s r : Nat} (h : s ≤ r) :
    bitsVal b (a + s) (r - s) = bitsVal b a r % 2 ^ (r - s) := by
  have := bitsVal_add b a s (r - s)
  rw [Nat.add_sub_cancel' h] at this
  have hl := bitsVal_lt b (a + s) (r - s)
  rw [this, Nat.add_comm (_ * _), Nat.add_mul_mod_self_right, Nat.mod_eq_of_lt hl]

theorem bitsVal_cut (b : Nat → Bool) {a l m : Nat} (h : a + l = m) (s : Nat) :
    bitsVal b a (l + s) = bitsVal b a l * 2 ^ s + bitsVal b m s := by
  rw [bitsVal_add, h]

/-! ### The two streams -/

/-- Bit `i` of a byte string, most significant bit of a byte first. -/
def byteBit (bytes : List Nat) (i : Nat) : Bool := (bytes.getD (i / 8) 0).testBit (7 - i % 8)

/-- Bit `i` of a string of `logt`-bit coefficients. -/
def coeffBit (logt : Nat) (cs : List Nat) (i : Nat) : Bool := (cs.getD (i / logt) 0).testBit (logt - 1 - i % logt)

/-! ### Packing -/

/-- After `m` bits. -/
structure PackInv (b : Nat → Bool) (logt m : Nat) (s : PackState) : Prop where
  pos : s.flag * logt + (logt - s.room) = m
  room : s.room ≤ logt
  done : ∀ c, c < s.flag → s.arr c = bitsVal b (c * logt) logt
  cur : s.arr s.flag = bitsVal b (s.flag * logt) (logt - s.room)
  later : ∀ c, s.flag < c → s.arr c = 0

theorem PackInv.next {b : Nat → Bool} {logt m : Nat} {s : PackState} (h : PackInv b logt m s) :
    PackInv b logt m ⟨if s.room = 0 then s.flag + 1 else s.flag, if s.room = 0 then logt else s.room, s.arr⟩ := by
  by_cases h0 : s.room = 0
  · rw [if_pos h0, if_pos h0]
    have hp := h.pos
    refine ⟨?_, le_refl _, fun c hc => ?_, ?_, fun c hc => h.later c (by simp only at hc; omega)⟩
    · simp only
      rw [Nat.succ_mul]
      omega
    · simp only at hc ⊢
      by_cases hcf : c = s.flag
      · rw [hcf, h.cur, h0, Nat.sub_zero]
      · exact h.done c (by omega)
    · simp only
      rw [Nat.sub_self, h.later _ (by omega)]
      rfl
  · rw [if_neg h0, if_neg h0]
    exact ⟨h.pos, h.room, h.done, h.cur, h.later⟩

theorem packByte_zero (wd n logt fuel src : Nat) (s : PackState) : packByte wd n logt fuel src 0 s = .ok s := by
  cases fuel <;> simp [packByte]

theorem packByte_spec {b : Nat → Bool} {wd n logt : Nat} (hwd : wd ≤ 64) (hl : 0 < logt) (hlw : logt ≤ wd) (fuel : Nat) :
    ∀ (rest : Nat) (src m : Nat) (s : PackState), rest ≤ fuel → rest ≤ 8 → PackInv b logt m s →
      src = bitsVal b m rest * 2 ^ (8 - rest) → m + rest ≤ n * logt →
      ∃ s', packByte wd n logt fuel src rest s = .ok s' ∧ PackInv b logt (m + rest) s' ∧ (0 < rest → s'.room < logt) := by
  induction fuel with
  | zero =>
    intro rest src m s hr _ hi _ _
    have : rest = 0 := by omega
    subst this
    exact ⟨s, packByte_zero .., hi, fun h => absurd h (by omega)⟩
  | succ fuel ih =>
    intro rest src m s hr h8 hi hs hn
    obtain _ | rest := rest
    · exact ⟨s, packByte_zero .., hi, fun h => absurd h (by omega)⟩
    · have hi' := hi.next
      generalize hf : (if s.room = 0 then s.flag + 1 else s.flag) = flag at hi'
      generalize hro : (if s.room = 0 then logt else s.room) = room at hi'
      have hroom : 0 < room := by rw [← hro]; split_ifs <;> omega
      have hpos := hi'.pos
      have hroom2 := hi'.room
      simp only at hpos hroom2
      have hflag : flag < n := by
        by_contra hc
        have : n * logt ≤ flag * logt := Nat.mul_le_mul_right _ (by omega)
        omega
      unfold packByte
      simp only [hf, hro]
      rw [if_neg (by omega)]
      generalize hsh : min room (rest + 1) = shift
      have h1 : shift ≤ room := by rw [← hsh]; exact Nat.min_le_left _ _
      have h2 : shift ≤ rest + 1 := by rw [← hsh]; exact Nat.min_le_right _ _
      have h3 : 0 < shift := by rw [← hsh]; exact Nat.lt_min.2 ⟨hroom, by omega⟩
      have hcur := hi'.cur
      simp only at hcur
      have hlt := bitsVal_lt b (flag * logt) (logt - room)
      have hm : m = flag * logt + (logt - room) := hpos.symm
      -- the bits taken
      have hsrc : src >>> (8 - shift) = bitsVal b m shift := by
        rw [hs, Nat.shiftRight_eq_div_pow, show 8 - shift = (8 - (rest + 1)) + (rest + 1 - shift) by omega, pow_add,
          ← Nat.div_div_eq_div_mul, Nat.mul_div_cancel _ (Nat.pow_pos (by norm_num))]
        exact (bitsVal_prefix b m h2).symm
      have hnew : (w64 (s.arr flag <<< shift) ||| src >>> (8 - shift)) % 2 ^ wd =
          bitsVal b (flag * logt) (logt - (room - shift)) := by
        have e1 : bitsVal b (flag * logt) (logt - (room - shift)) =
            bitsVal b (flag * logt) (logt - room) * 2 ^ shift + bitsVal b m shift := by
          rw [show logt - (room - shift) = (logt - room) + shift by omega, bitsVal_add, ← hm]
        have e2 := bitsVal_lt b (flag * logt) (logt - (room - shift))
        have e3 : 2 ^ (logt - (room - shift)) ≤ 2 ^ wd := Nat.pow_le_pow_right (by norm_num) (by omega)
        have e4 : 2 ^ (logt - (room - shift)) ≤ 2 ^ 64 := Nat.pow_le_pow_right (by norm_num) (by omega)
        have e5 : w64 (s.arr flag <<< shift) = s.arr flag <<< shift := by
          refine w64_of_lt ?_
          rw [Nat.shiftLeft_eq, hcur]
          omega
        rw [e5, hsrc, ← Nat.shiftLeft_add_eq_or_of_lt (bitsVal_lt b m shift), Nat.shiftLeft_eq, hcur, ← e1,
          Nat.mod_eq_of_lt (by omega)]
      have hnext : w32 ((src &&& (2 ^ (8 - shift) - 1)) <<< shift) =
          bitsVal b (m + shift) (rest + 1 - shift) * 2 ^ (8 - (rest + 1 - shift)) := by
        have e1 : (src &&& (2 ^ (8 - shift) - 1)) = bitsVal b (m + shift) (rest + 1 - shift) * 2 ^ (8 - (rest + 1)) := by
          rw [Nat.and_two_pow_sub_one_eq_mod, hs, show 8 - shift = (rest + 1 - shift) + (8 - (rest + 1)) by omega,
            pow_add, Nat.mul_mod_mul_right, bitsVal_suffix b m h2]
        rw [e1, Nat.shiftLeft_eq, Nat.mul_assoc, ← pow_add, show 8 - (rest + 1) + shift = 8 - (rest + 1 - shift) by omega]
        refine Nat.mod_eq_of_lt ?_
        have e2 := bitsVal_lt b (m + shift) (rest + 1 - shift)
        calc bitsVal b (m + shift) (rest + 1 - shift) * 2 ^ (8 - (rest + 1 - shift))
            < 2 ^ (rest + 1 - shift) * 2 ^ (8 - (rest + 1 - shift)) :=
              Nat.mul_lt_mul_of_pos_right e2 (Nat.pow_pos (by norm_num))
          _ = 2 ^ 8 := by rw [← pow_add]; congr 1; omega
          _ < 2 ^ 32 := by norm_num
      have hinv : PackInv b logt (m + shift) ⟨flag, room - shift,
          upd s.arr flag ((w64 (s.arr flag <<< shift) ||| src >>> (8 - shift)) % 2 ^ wd)⟩ := by
        rw [hnew]
        refine ⟨?_, ?_, fun c hc => ?_, ?_, fun c hc => ?_⟩
        · simp only; omega
        · simp only; omega
        · simp only at hc ⊢
          unfold upd
          rw [if_neg (by omega)]
          exact hi'.done c hc
        · simp only
          unfold upd
          rw [if_pos rfl]
        · simp only at hc ⊢
          unfold upd
          rw [if_neg (by omega)]
          exact hi'.later c hc
      obtain ⟨s', h4, h5, h6⟩ := ih (rest + 1 - shift) _ (m + shift) _ (by omega) (by omega) hinv hnext (by omega)
      rw [show m + shift + (rest + 1 - shift) = m + (rest + 1) by omega] at h5
      refine ⟨s', h4, h5, fun _ => ?_⟩
      by_cases h7 : 0 < rest + 1 - shift
      · exact h6 h7
      · rw [show rest + 1 - shift = 0 by omega, packByte_zero] at h4
        injection h4 with h4
        rw [← h4]
        simp only
        omega

theorem packBytes_spec {wd n logt : Nat} (hwd : wd ≤ 64) (hl : 0 < logt) (hlw : logt ≤ wd) (bytes : List Nat)
    (offset : Nat) (hb : ∀ x ∈ bytes, x < 256) (k : Nat) : ∀ (i : Nat) (s : PackState),
      PackInv (fun j => byteBit bytes (8 * offset + j)) logt (8 * i) s → offset + i + k ≤ bytes.length →
      8 * (i + k) ≤ n * logt → ∃ s', packBytes wd n logt bytes offset k i s = .ok s' ∧
        PackInv (fun j => byteBit bytes (8 * offset + j)) logt (8 * (i + k)) s' ∧ (0 < k → s'.room < logt) := by
  induction k with
  | zero => exact fun i s hi _ _ => ⟨s, by unfold packBytes; rfl, hi, fun h => absurd h (by omega)⟩
  | succ k ih =>
    intro i s hi hlen hn
    have hlt : i + offset < bytes.length := by omega
    unfold packBytes
    rw [List.getElem?_eq_getElem hlt]
    simp only
    have hx : bytes[i + offset] < 2 ^ 8 := hb _ (List.getElem_mem hlt)
    have hbits : ∀ j, j < 8 → (fun j => byteBit bytes (8 * offset + j)) (8 * i + j) =
        (bytes[i + offset]).testBit (8 - 1 - j) := by
      intro j hj
      simp only
      unfold byteBit
      rw [show (8 * offset + (8 * i + j)) / 8 = i + offset by omega,
        show (8 * offset + (8 * i + j)) % 8 = j by omega, List.getD_eq_getElem _ _ hlt]
    obtain ⟨s', h1, h2, h2'⟩ := packByte_spec (n := n) hwd hl hlw 8 8 (bytes[i + offset]) (8 * i) s (le_refl _) (le_refl _) hi
      (by rw [bitsVal_word hx hbits]; simp) (by omega)
    rw [h1]
    obtain ⟨s'', h3, h4, h5⟩ := ih (i + 1) s' (by rw [show 8 * (i + 1) = 8 * i + 8 by omega]; exact h2) (by omega) (by omega)
    rw [show i + (k + 1) = i + 1 + k by omega]
    refine ⟨s'', h3, h4, fun _ => ?_⟩
    by_cases hk : 0 < k
    · exact h5 hk
    · have : k = 0 := by omega
      subst this
      have h3' : Res.ok s' = .ok s'' := h3
      injection h3' with h3'
      rw [← h3']
      exact h2' (by omega)

theorem uintNum_bounds (a : Nat) {b : Nat} (hb : 0 < b) : a ≤ uintNum a b * b ∧ (0 < a → (uintNum a b - 1) * b < a) := by
  unfold uintNum
  have h1 := Nat.div_add_mod (a + b - 1) b
  have h2 := Nat.mod_lt (a + b - 1) hb
  rw [Nat.mul_comm] at h1
  refine ⟨by omega, fun h => ?_⟩
  rw [Nat.sub_mul, Nat.one_mul]
  omega

/-- The coefficients are the chunks of `logt` bits; behind the last byte come zeros. -/
theorem bytesToCoeffs_spec {wd logt offset size : Nat} (hwd : wd ≤ 64) (hl : 0 < logt) (hlw : logt ≤ wd)
    (bytes : List Nat) (hb : ∀ x ∈ bytes, x < 256) (hs : 0 < size) (hlen : offset + size ≤ bytes.length) :
    ∃ cs, bytesToCoeffs wd logt offset size bytes = .ok cs ∧ cs.length = uintNum (8 * size) logt ∧
      ∀ c, c < cs.length → cs.getD c 0 =
        bitsVal (fun j => if j < 8 * size then byteBit bytes (8 * offset + j) else false) (c * logt) logt := by
  obtain ⟨u1, u2⟩ := uintNum_bounds (8 * size) hl
  have u3 := u2 (by omega)
  have h0 : PackInv (fun j => byteBit bytes (8 * offset + j)) logt (8 * 0) ⟨0, logt, fun _ => 0⟩ := by
    refine ⟨?_, le_refl _, fun c hc => by simp only at hc; omega, ?_, fun c _ => rfl⟩
    · simp
    · simp only
      rw [Nat.sub_self]
      rfl
  obtain ⟨s, h1, h2, h3⟩ := packBytes_spec (n := uintNum (8 * size) logt) hwd hl hlw bytes offset hb size 0 _ h0
    (by omega) (by omega)
  rw [Nat.zero_add] at h2
  have hp := h2.pos
  have hr := h3 hs
  have hflag : s.flag < uintNum (8 * size) logt := by
    by_contra hc
    have := Nat.mul_le_mul_right logt (show uintNum (8 * size) logt ≤ s.flag by omega)
    omega
  have hlast : uintNum (8 * size) logt = s.flag + 1 := by
    by_contra hc
    have := Nat.mul_le_mul_right logt (show s.flag + 1 ≤ uintNum (8 * size) logt - 1 by omega)
    rw [Nat.succ_mul] at this
    omega
  refine ⟨(List.range (uintNum (8 * size) logt)).map (upd s.arr s.flag ((s.arr s.flag <<< s.room) % 2 ^ wd)), ?_, by simp,
    fun c hc => ?_⟩
  · unfold bytesToCoeffs
    simp only
    rw [h1]
    show (if uintNum (8 * size) logt ≤ s.flag then Res.undefined else _) = _
    rw [if_neg (by omega)]
  · have hc' : c < uintNum (8 * size) logt := by simpa using hc
    rw [List.getD_eq_getElem _ _ hc, List.getElem_map, List.getElem_range]
    unfold upd
    have hmul : (c + 1) * logt ≤ (s.flag + 1) * logt := Nat.mul_le_mul_right _ (by omega)
    by_cases hcf : c = s.flag
    · rw [if_pos hcf, hcf, h2.cur, Nat.shiftLeft_eq]
      have e1 : bitsVal (fun j => if j < 8 * size then byteBit bytes (8 * offset + j) else false) (s.flag * logt)
          logt = bitsVal (fun j => byteBit bytes (8 * offset + j)) (s.flag * logt) (logt - s.room) * 2 ^ s.room := by
        conv_lhs => rw [show logt = (logt - s.room) + s.room by omega, bitsVal_add]
        rw [show logt - s.room + s.room = logt by omega]
        have z : bitsVal (fun j => if j < 8 * size then byteBit bytes (8 * offset + j) else false)
            (s.flag * logt + (logt - s.room)) s.room = 0 := by
          rw [bitsVal_congr (c := fun _ => false) (d := 0)
            fun k _ => if_neg (by omega), bitsVal_false]
        rw [z, Nat.add_zero]
        congr 1
        exact bitsVal_congr fun k hk => if_pos (by omega)
      have e2 := bitsVal_lt (fun j => if j < 8 * size then byteBit bytes (8 * offset + j) else false)
        (s.flag * logt) logt
      have e3 : 2 ^ logt ≤ 2 ^ wd := Nat.pow_le_pow_right (by norm_num) hlw
      rw [← e1, Nat.mod_eq_of_lt (by omega)]
    · rw [if_neg hcf, h2.done c (by omega)]
      have : (c + 1) * logt ≤ s.flag * logt := Nat.mul_le_mul_right _ (by omega)
      rw [Nat.succ_mul] at this
      exact bitsVal_congr fun k hk => (if_pos (by omega)).symm

/-! ### Unpacking -/

/-- After `m` bits. -/
structure UnpackInv (b : Nat → Bool) (m : Nat) (s : UnpackState) : Prop where
  pos : 8 * s.j + (8 - s.room) = m
  room : 0 < s.room ∧ s.room ≤ 8
  done : ∀ j, j < s.j → s.arr j = bitsVal b (8 * j) 8
  cur : s.arr s.j % 2 ^ (8 - s.room) = bitsVal b (8 * s.j) (8 - s.room)

theorem unpackCoeff_zero (logt len fuel src : Nat) (s : UnpackState) : unpackCoeff logt len fuel src 0 s = .ok s := by
  cases fuel <;> simp [unpackCoeff]

/-- New bits behind old ones: either nothing but the new bits is kept of the byte, or the new bits are alone in their
word. -/
theorem push_bits {o x k shift v w : Nat} (ho : o % 2 ^ k = v) (hx : x % 2 ^ shift = w)
    (h : x < 2 ^ shift ∨ k = 0) (hk : k + shift ≤ 8) :
    ((((o <<< shift) % 256) ||| x) % 256) % 2 ^ (k + shift) = v * 2 ^ shift + w := by
  have e : (256 : Nat) = 2 ^ (k + shift) * 2 ^ (8 - (k + shift)) := by
    rw [← pow_add, show k + shift + (8 - (k + shift)) = 8 by omega]
    norm_num
  rw [e, Nat.mod_mul_right_mod, Nat.or_mod_two_pow, Nat.mod_mul_right_mod, Nat.shiftLeft_eq]
  rcases h with h | h
  · rw [Nat.mod_eq_of_lt h] at hx
    subst hx
    rw [pow_add, Nat.mul_mod_mul_right, ho, ← Nat.shiftLeft_eq, Nat.mod_eq_of_lt (a := x),
      Nat.shiftLeft_add_eq_or_of_lt h]
    calc x < 2 ^ shift := h
      _ = 1 * 2 ^ shift := (Nat.one_mul _).symm
      _ ≤ 2 ^ k * 2 ^ shift := Nat.mul_le_mul_right _ (Nat.one_le_two_pow)
  · subst h
    rw [Nat.zero_add, Nat.mul_mod_left, Nat.zero_or, hx]
    simp only [pow_zero, Nat.mod_one] at ho
    rw [← ho, Nat.zero_mul, Nat.zero_add]

theorem unpackCoeff_spec {b : Nat → Bool} {len logt : Nat} (hl : 0 < logt) (h64 : logt ≤ 64) (fuel : Nat) :
    ∀ (rest : Nat) (src m : Nat) (s : UnpackState), rest ≤ fuel → rest ≤ logt → UnpackInv b m s →
      src % 2 ^ logt = bitsVal b m rest * 2 ^ (logt - rest) → (rest = 0 ∨ rest = logt ∧ src < 2 ^ logt ∨ s.room = 8) →
      m + rest ≤ 8 * len →
      ∃ s', unpackCoeff logt len fuel src rest s = .ok s' ∧ UnpackInv b (m + rest) s' := by
  induction fuel with
  | zero =>
    intro rest src m s hr _ hi _ _ _
    have : rest = 0 := by omega
    subst this
    exact ⟨s, unpackCoeff_zero .., hi⟩
  | succ fuel ih =>
    intro rest src m s hr hrl hi hs hfirst hn
    obtain _ | rest := rest
    · exact ⟨s, unpackCoeff_zero .., hi⟩
    · have hpos := hi.pos
      obtain ⟨hroom0, hroom8⟩ := hi.room
      have hj : s.j < len := by omega
      unfold unpackCoeff
      simp only
      rw [if_pos hj]
      generalize hsh : min s.room (rest + 1) = shift
      have h1 : shift ≤ s.room := by rw [← hsh]; exact Nat.min_le_left _ _
      have h2 : shift ≤ rest + 1 := by rw [← hsh]; exact Nat.min_le_right _ _
      have h2' : shift = s.room ∨ shift = rest + 1 := by omega
      have h3 : 0 < shift := by omega
      -- the bits taken
      have hx : (src >>> (logt - shift)) % 2 ^ shift = bitsVal b m shift := by
        have e : src >>> (logt - shift) % 2 ^ shift = (src % 2 ^ logt) / 2 ^ (logt - shift) := by
          rw [Nat.shiftRight_eq_div_pow]
          have e' : (2 : Nat) ^ logt = 2 ^ (logt - shift) * 2 ^ shift := by rw [← pow_add]; congr 1; omega
          rw [e', Nat.mod_mul_right_div_self]
        rw [e, hs, show logt - shift = (logt - (rest + 1)) + (rest + 1 - shift) by omega, pow_add,
          ← Nat.div_div_eq_div_mul, Nat.mul_div_cancel _ (Nat.pow_pos (by norm_num))]
        exact (bitsVal_prefix b m h2).symm
      have hxs : src >>> (logt - shift) < 2 ^ shift ∨ 8 - s.room = 0 := by
        rcases hfirst with h | ⟨_, h⟩ | h
        · omega
        · left
          rw [Nat.shiftRight_eq_div_pow, Nat.div_lt_iff_lt_mul (Nat.pow_pos (by norm_num)), ← pow_add,
            show shift + (logt - shift) = logt by omega]
          exact h
        · right; omega
      have hb := push_bits hi.cur hx hxs (by omega)
      rw [← bitsVal_cut b hpos shift] at hb
      have hnext : w64 (src <<< shift) % 2 ^ logt =
          bitsVal b (m + shift) (rest + 1 - shift) * 2 ^ (logt - (rest + 1 - shift)) := by
        unfold w64
        rw [show (2 : Nat) ^ 64 = 2 ^ logt * 2 ^ (64 - logt) by rw [← pow_add, Nat.add_sub_cancel' h64],
          Nat.mod_mul_right_mod, Nat.shiftLeft_eq, ← Nat.mod_mul_mod, hs, Nat.mul_assoc, ← pow_add,
          show logt - (rest + 1) + shift = logt - (rest + 1 - shift) by omega]
        conv_lhs => rw [show (2 : Nat) ^ logt = 2 ^ (rest + 1 - shift) * 2 ^ (logt - (rest + 1 - shift)) by
          rw [← pow_add]; congr 1; omega]
        rw [Nat.mul_mod_mul_right, bitsVal_suffix b m h2]
      generalize hbv : (s.arr s.j <<< shift % 256 ||| src >>> (logt - shift)) % 256 = bv at hb ⊢
      have hbv8 : bv < 2 ^ 8 := by rw [← hbv]; exact Nat.mod_lt _ (by norm_num)
      have hinv : UnpackInv b (m + shift) ⟨if s.room - shift = 0 then s.j + 1 else s.j,
          if s.room - shift = 0 then 8 else s.room - shift, upd s.arr s.j bv⟩ := by
        by_cases h0 : s.room - shift = 0
        · rw [if_pos h0, if_pos h0]
          have h0' : 8 - s.room + shift = 8 := by omega
          refine ⟨by simp only; omega, by simp only; omega, fun j hj => ?_, by simp [bitsVal, Nat.mod_one]⟩
          simp only at hj ⊢
          unfold upd
          by_cases hjj : j = s.j
          · rw [if_pos hjj, hjj]
            rw [h0', Nat.mod_eq_of_lt hbv8] at hb
            exact hb
          · rw [if_neg hjj]
            exact hi.done j (by omega)
        · rw [if_neg h0, if_neg h0]
          refine ⟨by simp only; omega, by simp only; omega, fun j hj => ?_, ?_⟩
          · simp only at hj ⊢
            unfold upd
            rw [if_neg (by omega)]
            exact hi.done j hj
          · simp only
            unfold upd
            rw [if_pos rfl, show 8 - (s.room - shift) = 8 - s.room + shift by omega]
            exact hb
      obtain ⟨s', h4, h5⟩ := ih (rest + 1 - shift) _ (m + shift) _ (by omega) (by omega) hinv hnext
        (by
          simp only
          rcases h2' with h | h
          · right; right; rw [if_pos (by omega)]
          · left; omega) (by omega)
      rw [show m + shift + (rest + 1 - shift) = m + (rest + 1) by omega] at h5
      exact ⟨s', h4, h5⟩

theorem unpackCoeffs_spec {len logt : Nat} (hl : 0 < logt) (h64 : logt ≤ 64) (all : List Nat)
    (hc : ∀ c ∈ all, c < 2 ^ logt) (hlen : all.length * logt ≤ 8 * len) :
    ∀ (cs done : List Nat) (s : UnpackState), all = done ++ cs →
      UnpackInv (coeffBit logt all) (done.length * logt) s →
      ∃ s', unpackCoeffs logt len cs s = .ok s' ∧ UnpackInv (coeffBit logt all) (all.length * logt) s' := by
  intro cs
  induction cs with
  | nil =>
    intro done s h hi
    rw [List.append_nil] at h
    subst h
    exact ⟨s, rfl, hi⟩
  | cons c cs ih =>
    intro done s h hi
    unfold unpackCoeffs
    have hcl : c < 2 ^ logt := hc c (by rw [h]; simp)
    have hbits : ∀ k, k < logt → coeffBit logt all (done.length * logt + k) = c.testBit (logt - 1 - k) := by
      intro k hk
      unfold coeffBit
      rw [Nat.add_comm, Nat.add_mul_div_right _ _ hl, Nat.div_eq_of_lt hk, Nat.add_mul_mod_self_right,
        Nat.mod_eq_of_lt hk, Nat.zero_add, h]
      simp
    have hall : all.length = done.length + (cs.length + 1) := by rw [h]; simp
    have hm : (done.length + 1) * logt ≤ all.length * logt := Nat.mul_le_mul_right _ (by omega)
    rw [Nat.succ_mul] at hm
    obtain ⟨s', h1, h2⟩ := unpackCoeff_spec (len := len) hl h64 logt logt c (done.length * logt) s (le_refl _)
      (le_refl _) hi (by rw [bitsVal_word hcl hbits, Nat.mod_eq_of_lt hcl]; simp) (Or.inr (Or.inl ⟨rfl, hcl⟩)) (by omega)
    rw [h1]
    refine ih (done ++ [c]) s' (by rw [h]; simp) ?_
    rw [List.length_append, List.length_singleton, Nat.succ_mul]
    exact h2

/-- Every complete byte is the chunk of 8 bits. -/
theorem coeffsToBytes_spec {logt : Nat} (hl : 0 < logt) (h64 : logt ≤ 64) (cs : List Nat) (hc : ∀ c ∈ cs, c < 2 ^ logt) :
    ∃ bytes, coeffsToBytes cs logt = .ok bytes ∧ bytes.length = uintNum (cs.length * logt) 8 ∧
      ∀ j, 8 * (j + 1) ≤ cs.length * logt → bytes.getD j 0 = bitsVal (coeffBit logt cs) (8 * j) 8 := by
  obtain ⟨u1, -⟩ := uintNum_bounds (cs.length * logt) (show 0 < 8 by norm_num)
  obtain ⟨s, h1, h2⟩ := unpackCoeffs_spec (len := uintNum (cs.length * logt) 8) hl h64 cs hc (by omega) cs [] ⟨0, 8, fun _ => 0⟩ rfl
    ⟨by simp, by simp, by simp, by simp [bitsVal]⟩
  refine ⟨(List.range (uintNum (cs.length * logt) 8)).map s.arr, ?_, by simp, fun j hj => ?_⟩
  · unfold coeffsToBytes
    simp only
    rw [h1]
    rfl
  · have := h2.pos
    have := h2.room
    rw [List.getD_eq_getElem _ _ (by simp; omega), List.getElem_map, List.getElem_range]
    exact h2.done j (by omega)

end Psi.Spiral
