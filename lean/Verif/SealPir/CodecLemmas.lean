import Verif.SealPir.CodecModel
import Verif.Spiral.PackProps

/-!
# Bit streams of SealPIR
-/

namespace Psi.SealPir

open Psi.Spiral (Res w64 w32 upd Words uintNum PackState UnpackState bitsVal byteBit coeffBit UnpackInv bitsVal_lt
  bitsVal_prefix bitsVal_suffix bitsVal_cut bitsVal_word bitsVal_congr push_bits uintNum_bounds)

/-! ### Packing is that of Spiral PIR -/

theorem packByte_eq (n logt fuel : Nat) : ∀ (rest src : Nat) (s : PackState), src < 256 → rest ≤ 8 →
    packByte n logt fuel src rest s = Psi.Spiral.packByte 64 n logt fuel src rest s := by
  induction fuel with
  | zero => intro rest src s _ _; cases rest <;> rfl
  | succ fuel ih =>
    intro rest src s hs hr
    obtain _ | rest := rest
    · rfl
    · unfold packByte Psi.Spiral.packByte
      simp only
      generalize (if s.room = 0 then s.flag + 1 else s.flag) = flag
      generalize (if s.room = 0 then logt else s.room) = room
      by_cases hf : n ≤ flag
      · rw [if_pos hf, if_pos hf]
      · rw [if_neg hf, if_neg hf, Nat.min_comm]
        have h2 : min room (rest + 1) ≤ rest + 1 := Nat.min_le_right _ _
        generalize min room (rest + 1) = shift at h2 ⊢
        have e1 : (w64 (s.arr flag <<< shift) ||| src >>> (8 - shift)) % 2 ^ 64 =
            w64 (s.arr flag <<< shift) ||| src >>> (8 - shift) := by
          refine Nat.mod_eq_of_lt (Nat.or_lt_two_pow (Nat.mod_lt _ (by norm_num)) ?_)
          have : src >>> (8 - shift) ≤ src := by rw [Nat.shiftRight_eq_div_pow]; exact Nat.div_le_self _ _
          omega
        have e2 : w32 ((src &&& (2 ^ (8 - shift) - 1)) <<< shift) = (src <<< shift) % 256 := by
          have e3 : (256 : Nat) = 2 ^ (8 - shift) * 2 ^ shift := by
            rw [← pow_add, show 8 - shift + shift = 8 by omega]; norm_num
          have e4 : ((src &&& (2 ^ (8 - shift) - 1)) <<< shift) = (src <<< shift) % 256 := by
            rw [Nat.and_two_pow_sub_one_eq_mod, Nat.shiftLeft_eq, Nat.shiftLeft_eq, e3, Nat.mul_mod_mul_right]
          rw [e4]
          have : (src <<< shift) % 256 < 256 := Nat.mod_lt _ (by norm_num)
          exact Nat.mod_eq_of_lt (by omega)
        rw [e1, e2]
        exact ih _ _ _ (Nat.mod_lt _ (by norm_num)) (by omega)

theorem packBytes_eq (n logt : Nat) (all : List Nat) (hb : ∀ x ∈ all, x < 256) :
    ∀ (bs done : List Nat) (s : PackState), all = done ++ bs →
      packBytes n logt bs s = Psi.Spiral.packBytes 64 n logt all 0 bs.length done.length s := by
  intro bs
  induction bs with
  | nil => intro done s _; rfl
  | cons b bs ih =>
    intro done s h
    rw [List.length_cons]
    unfold packBytes Psi.Spiral.packBytes
    have hg : all[done.length + 0]? = some b := by rw [h]; simp
    rw [hg]
    simp only
    rw [packByte_eq n logt 8 8 b s (hb b (by rw [h]; simp)) (le_refl _)]
    congr 1
    funext s'
    have := ih (done ++ [b]) s' (by rw [h]; simp)
    rw [this, List.length_append, List.length_singleton]

theorem bytesToCoeffs_eq (logt : Nat) (bytes : List Nat) (hb : ∀ x ∈ bytes, x < 256) :
    bytesToCoeffs logt bytes = Psi.Spiral.bytesToCoeffs 64 logt 0 bytes.length bytes := by
  unfold bytesToCoeffs Psi.Spiral.bytesToCoeffs coefficientsPerElement
  simp only
  rw [packBytes_eq _ logt bytes hb bytes [] _ rfl]
  rfl

/-- The bits of a byte string, followed by zeros. -/
def streamBit (bytes : List Nat) (i : Nat) : Bool := if i < 8 * bytes.length then byteBit bytes i else false

theorem bytesToCoeffs_spec {logt : Nat} (hl : 0 < logt) (h64 : logt ≤ 64) (bytes : List Nat)
    (hb : ∀ x ∈ bytes, x < 256) (hs : 0 < bytes.length) :
    ∃ cs, bytesToCoeffs logt bytes = .ok cs ∧ cs.length = coefficientsPerElement logt bytes.length ∧
      ∀ c, c < cs.length → cs.getD c 0 = bitsVal (streamBit bytes) (c * logt) logt := by
  rw [bytesToCoeffs_eq logt bytes hb]
  obtain ⟨cs, h1, h2, h3⟩ := Psi.Spiral.bytesToCoeffs_spec (wd := 64) (offset := 0) (le_refl _) hl h64 bytes hb hs
    (by omega)
  refine ⟨cs, h1, h2, fun c hc => ?_⟩
  rw [h3 c hc]
  refine bitsVal_congr fun k _ => ?_
  unfold streamBit
  simp

/-! ### Unpacking -/

theorem unpackCoeff_zero (logt len fuel src : Nat) (s : UnpackState) (left : Nat) :
    unpackCoeff logt len fuel src 0 s left = .ok (s, left) := by
  cases fuel <;> simp [unpackCoeff]

theorem unpackCoeff_done {logt len fuel src rest left : Nat} {s : UnpackState} (h : len ≤ s.j) :
    unpackCoeff logt len fuel src rest s left = .ok (s, left) := by
  cases fuel <;> cases rest <;> simp [unpackCoeff, Nat.not_lt.2 h]

/-- The bits of one coefficient are appended. -/
theorem unpackCoeff_spec {b : Nat → Bool} {len logt : Nat} (h64 : logt ≤ 64) (fuel : Nat) :
    ∀ (rest : Nat) (src m left : Nat) (s : UnpackState), rest ≤ fuel → rest ≤ logt → UnpackInv b m s →
      src % 2 ^ logt = bitsVal b m rest * 2 ^ (logt - rest) → (rest = 0 ∨ src < 2 ^ logt ∨ s.room = 8) →
      m + rest ≤ 8 * len →
      ∃ s', unpackCoeff logt len fuel src rest s left = .ok (s', left - rest) ∧ UnpackInv b (m + rest) s' := by
  induction fuel with
  | zero =>
    intro rest src m left s hr _ hi _ _ _
    have : rest = 0 := by omega
    subst this
    exact ⟨s, unpackCoeff_zero .., hi⟩
  | succ fuel ih =>
    intro rest src m left s hr hrl hi hs hfirst hn
    obtain _ | rest := rest
    · exact ⟨s, unpackCoeff_zero .., hi⟩
    · have hpos := hi.pos
      obtain ⟨hroom0, hroom8⟩ := hi.room
      have hj : s.j < len := by omega
      unfold unpackCoeff
      simp only
      rw [if_pos hj]
      generalize hsh : min (rest + 1) s.room = shift
      have h1 : shift ≤ s.room := by rw [← hsh]; exact Nat.min_le_right _ _
      have h2 : shift ≤ rest + 1 := by rw [← hsh]; exact Nat.min_le_left _ _
      have h2' : shift = s.room ∨ shift = rest + 1 := by omega
      have h3 : 0 < shift := by omega
      have hx : (src >>> (logt - shift)) % 2 ^ shift = bitsVal b m shift := by
        have e : src >>> (logt - shift) % 2 ^ shift = (src % 2 ^ logt) / 2 ^ (logt - shift) := by
          rw [Nat.shiftRight_eq_div_pow]
          have e' : (2 : Nat) ^ logt = 2 ^ (logt - shift) * 2 ^ shift := by rw [← pow_add]; congr 1; omega
          rw [e', Nat.mod_mul_right_div_self]
        rw [e, hs, show logt - shift = (logt - (rest + 1)) + (rest + 1 - shift) by omega, pow_add,
          ← Nat.div_div_eq_div_mul, Nat.mul_div_cancel _ (Nat.pow_pos (by norm_num))]
        exact (bitsVal_prefix b m h2).symm
      have hxs : src >>> (logt - shift) < 2 ^ shift ∨ 8 - s.room = 0 := by
        rcases hfirst with h | h | h
        · omega
        · left
          rw [Nat.shiftRight_eq_div_pow, Nat.div_lt_iff_lt_mul (Nat.pow_pos (by norm_num)), ← pow_add,
            show shift + (logt - shift) = logt by omega]
          exact h
        · right; omega
      have hb := push_bits hi.cur hx hxs (by omega)
      rw [← bitsVal_cut b hpos shift] at hb
      have hnext : w64 (src <<< shift) % 2 ^ logt =
          bitsVal b (m + shift) (rest + 1 - shift) * 2 ^ (logt - (rest + 1 - shift)) := by
        unfold w64
        rw [show (2 : Nat) ^ 64 = 2 ^ logt * 2 ^ (64 - logt) by rw [← pow_add, Nat.add_sub_cancel' h64],
          Nat.mod_mul_right_mod, Nat.shiftLeft_eq, ← Nat.mod_mul_mod, hs, Nat.mul_assoc, ← pow_add,
          show logt - (rest + 1) + shift = logt - (rest + 1 - shift) by omega]
        conv_lhs => rw [show (2 : Nat) ^ logt = 2 ^ (rest + 1 - shift) * 2 ^ (logt - (rest + 1 - shift)) by
          rw [← pow_add]; congr 1; omega]
        rw [Nat.mul_mod_mul_right, bitsVal_suffix b m h2]
      generalize hbv : (s.arr s.j <<< shift % 256 ||| src >>> (logt - shift)) % 256 = bv at hb ⊢
      have hbv8 : bv < 2 ^ 8 := by rw [← hbv]; exact Nat.mod_lt _ (by norm_num)
      have hinv : UnpackInv b (m + shift) ⟨if s.room - shift = 0 then s.j + 1 else s.j,
          if s.room - shift = 0 then 8 else s.room - shift, upd s.arr s.j bv⟩ := by
        by_cases h0 : s.room - shift = 0
        · rw [if_pos h0, if_pos h0]
          have h0' : 8 - s.room + shift = 8 := by omega
          refine ⟨by simp only; omega, by simp only; omega, fun j hj => ?_, by simp [bitsVal, Nat.mod_one]⟩
          simp only at hj ⊢
          unfold upd
          by_cases hjj : j = s.j
          · rw [if_pos hjj, hjj]
            rw [h0', Nat.mod_eq_of_lt hbv8] at hb
            exact hb
          · rw [if_neg hjj]
            exact hi.done j (by omega)
        · rw [if_neg h0, if_neg h0]
          refine ⟨by simp only; omega, by simp only; omega, fun j hj => ?_, ?_⟩
          · simp only at hj ⊢
            unfold upd
            rw [if_neg (by omega)]
            exact hi.done j hj
          · simp only
            unfold upd
            rw [if_pos rfl, show 8 - (s.room - shift) = 8 - s.room + shift by omega]
            exact hb
      obtain ⟨s', h4, h5⟩ := ih (rest + 1 - shift) _ (m + shift) (left - shift) _ (by omega) (by omega) hinv hnext
        (by
          simp only
          rcases h2' with h | h
          · right; right; rw [if_pos (by omega)]
          · left; omega) (by omega)
      rw [show m + shift + (rest + 1 - shift) = m + (rest + 1) by omega] at h5
      rw [show left - shift - (rest + 1 - shift) = left - (rest + 1) by omega] at h4
      exact ⟨s', h4, h5⟩

theorem unpackCoeffs_done {logt len bits : Nat} {cs : List Nat} : ∀ {s : UnpackState} {left : Nat}, len ≤ s.j →
    unpackCoeffs logt len bits cs s left = .ok s := by
  induction cs with
  | nil => intro s left _; rfl
  | cons c cs ih =>
    intro s left h
    unfold unpackCoeffs
    simp only
    rw [unpackCoeff_done h]
    exact ih h

/-- The value coefficient `i` of an element must have, when the element starts at bit `m` and has `B` bits. -/
def cell (b : Nat → Bool) (logt m B i : Nat) : Nat :=
  bitsVal b (m + i * logt) (min logt (B - i * logt)) * 2 ^ (logt - min logt (B - i * logt))

theorem cell_lt (b : Nat → Bool) (logt m B i : Nat) : cell b logt m B i < 2 ^ logt := by
  unfold cell
  have h := bitsVal_lt b (m + i * logt) (min logt (B - i * logt))
  calc _ < 2 ^ min logt (B - i * logt) * 2 ^ (logt - min logt (B - i * logt)) :=
        Nat.mul_lt_mul_of_pos_right h (Nat.pow_pos (by norm_num))
    _ = 2 ^ logt := by rw [← pow_add]; congr 1; omega

/-- The coefficients of one element, from coefficient `i` on. -/
theorem unpackCoeffs_segment {b : Nat → Bool} {logt len bits m B : Nat} (hl : 0 < logt) (h64 : logt ≤ 64)
    (hB : 0 < B) (hbits : bits = B) (rest : List Nat) :
    ∀ (cs : List Nat) (i : Nat) (s : UnpackState) (left : Nat),
      UnpackInv b (m + i * logt) s → (∀ k, k < cs.length → cs.getD k 0 = cell b logt m B (i + k)) →
      (left = B - i * logt ∨ i = 0 ∧ left = 0) → (cs ≠ [] → (i + cs.length - 1) * logt < B) →
      m + min B ((i + cs.length) * logt) ≤ 8 * len → i * logt ≤ B →
      ∃ s' left', unpackCoeffs logt len bits (cs ++ rest) s left = unpackCoeffs logt len bits rest s' left' ∧
        UnpackInv b (m + min B ((i + cs.length) * logt)) s' ∧
        (cs ≠ [] → left' = B - (i + cs.length) * logt) := by
  intro cs
  induction cs with
  | nil =>
    intro i s left hi _ _ _ _ hiB
    refine ⟨s, left, rfl, ?_, fun h => absurd rfl h⟩
    rw [List.length_nil, Nat.add_zero, Nat.min_eq_right hiB]
    exact hi
  | cons c cs ih =>
    intro i s left hi hc hleft hlast hlen hiB
    have hlast' : (i + cs.length) * logt < B := by
      have := hlast (by simp)
      rwa [List.length_cons, show i + (cs.length + 1) - 1 = i + cs.length by omega] at this
    have hilt : i * logt < B := lt_of_le_of_lt (Nat.mul_le_mul_right _ (by omega)) hlast'
    have hl0 : (if left = 0 then bits else left) = B - i * logt := by
      rcases hleft with h | ⟨h1, h2⟩
      · rw [if_neg (by omega), h]
      · rw [if_pos h2, hbits, h1]; omega
    have hc0 : c = cell b logt m B i := by
      have := hc 0 (by simp)
      simpa using this
    rw [List.cons_append]
    rw [unpackCoeffs, hl0]
    have hmono : min B ((i + 1) * logt) ≤ min B ((i + (c :: cs).length) * logt) := by
      have : (i + 1) * logt ≤ (i + (c :: cs).length) * logt := Nat.mul_le_mul_right _ (by rw [List.length_cons]; omega)
      omega
    have hstep : i * logt + min logt (B - i * logt) = min B ((i + 1) * logt) := by
      rw [Nat.succ_mul]; omega
    obtain ⟨s', h1, h2⟩ := unpackCoeff_spec (b := b) (len := len) h64 logt (min logt (B - i * logt)) c (m + i * logt)
      (B - i * logt) s (by omega) (by omega) hi
      (by rw [hc0, Nat.mod_eq_of_lt (cell_lt ..)]; rfl)
      (Or.inr (Or.inl (by rw [hc0]; exact cell_lt ..))) (by omega)
    rw [h1]
    show ∃ s'' left'', unpackCoeffs logt len bits (cs ++ rest) s' _ = _ ∧ _
    by_cases hcs : cs = []
    · subst hcs
      refine ⟨s', _, rfl, ?_, fun _ => ?_⟩
      · rw [List.length_singleton, ← hstep, ← Nat.add_assoc]
        exact h2
      · rw [List.length_singleton, Nat.succ_mul]
        omega
    · have hlen1 : 1 ≤ cs.length := by
        cases cs with
        | nil => exact absurd rfl hcs
        | cons _ _ => simp
      have hi1 : (i + 1) * logt < B := lt_of_le_of_lt (Nat.mul_le_mul_right _ (by omega)) hlast'
      have hm1 : min B ((i + 1) * logt) = (i + 1) * logt := by omega
      have hleft1 : B - i * logt - min logt (B - i * logt) = B - (i + 1) * logt := by
        rw [Nat.succ_mul] at hi1 ⊢; omega
      rw [hleft1]
      obtain ⟨s'', left'', g1, g2, g3⟩ := ih (i + 1) s' (B - (i + 1) * logt)
        (by rw [← hm1, ← hstep, ← Nat.add_assoc]; exact h2)
        (fun k hk => by
          have := hc (k + 1) (by rw [List.length_cons]; omega)
          rw [List.getD_cons_succ] at this
          rw [this]
          congr 1
          omega)
        (Or.inl rfl)
        (fun _ => by rwa [show i + 1 + cs.length - 1 = i + cs.length by omega])
        (by rw [List.length_cons] at hlen; rwa [show i + 1 + cs.length = i + (cs.length + 1) by omega])
        (by omega)
      rw [show i + 1 + cs.length = i + (c :: cs).length by rw [List.length_cons]; omega] at g2 g3
      exact ⟨s'', left'', g1, g2, fun _ => g3 hcs⟩

theorem getD_flatten {rows : List (List Nat)} {len : Nat} (h : ∀ r ∈ rows, r.length = len) {i t : Nat} (ht : t < len) :
    rows.flatten.getD (i * len + t) 0 = (rows.getD i []).getD t 0 := by
  induction rows generalizing i with
  | nil => simp
  | cons r rows ih =>
    rw [List.flatten_cons]
    have hr : r.length = len := h r (by simp)
    cases i with
    | zero => rw [List.getD_append _ _ _ _ (by omega)]; simp
    | succ i =>
      rw [List.getD_append_right _ _ _ _ (by rw [Nat.succ_mul]; omega), List.getD_cons_succ,
        ← ih fun x hx => h x (by simp [hx])]
      congr 1
      rw [Nat.succ_mul]
      omega

theorem length_flatten {rows : List (List Nat)} {len : Nat} (h : ∀ r ∈ rows, r.length = len) :
    rows.flatten.length = rows.length * len := by
  induction rows with
  | nil => simp
  | cons r rows ih =>
    rw [List.flatten_cons, List.length_append, h r (by simp), ih fun x hx => h x (by simp [hx]), List.length_cons,
      Nat.succ_mul]
    omega

/-- The bits of a row are those of the concatenation of all rows. -/
theorem byteBit_flatten {rows : List (List Nat)} {len : Nat} (h : ∀ r ∈ rows, r.length = len) {e i : Nat}
    (hi : i < 8 * len) : byteBit rows.flatten (e * (8 * len) + i) = byteBit (rows.getD e []) i := by
  unfold byteBit
  have e1 : (e * (8 * len) + i) / 8 = e * len + i / 8 := by
    rw [show e * (8 * len) = e * len * 8 by ring, Nat.add_comm, Nat.add_mul_div_right _ _ (by norm_num), Nat.add_comm]
  have e2 : (e * (8 * len) + i) % 8 = i % 8 := by
    rw [show e * (8 * len) = e * len * 8 by ring, Nat.add_comm, Nat.add_mul_mod_self_right]
  rw [e1, e2, getD_flatten h (by omega)]

theorem cell_of_row {rows : List (List Nat)} {len logt : Nat} (h : ∀ r ∈ rows, r.length = len) {e : Nat}
    (he : e < rows.length) {i : Nat} (hi : i * logt < 8 * len) :
    bitsVal (streamBit (rows.getD e [])) (i * logt) logt = cell (byteBit rows.flatten) logt (e * (8 * len)) (8 * len) i := by
  have hr : (rows.getD e []).length = len := by
    rw [List.getD_eq_getElem _ _ he]; exact h _ (List.getElem_mem _)
  unfold cell
  have hmin : min logt (8 * len - i * logt) ≤ logt := Nat.min_le_left _ _
  have hmin2 : min logt (8 * len - i * logt) ≤ 8 * len - i * logt := Nat.min_le_right _ _
  have hcase : min logt (8 * len - i * logt) = logt ∨ min logt (8 * len - i * logt) = 8 * len - i * logt := by omega
  generalize min logt (8 * len - i * logt) = l at hmin hmin2 hcase
  conv_lhs => rw [show logt = l + (logt - l) by omega, Psi.Spiral.bitsVal_add]
  rw [show l + (logt - l) = logt by omega]
  have z : bitsVal (streamBit (rows.getD e [])) (i * logt + l) (logt - l) = 0 := by
    rcases hcase with hc | hc
    · rw [hc, Nat.sub_self]; rfl
    · rw [bitsVal_congr (c := fun _ => false) (d := 0) fun k _ => by
        unfold streamBit
        rw [if_neg (by rw [hr]; omega)], Psi.Spiral.bitsVal_false]
  rw [z, Nat.add_zero]
  congr 1
  refine bitsVal_congr fun k hk => ?_
  unfold streamBit
  rw [if_pos (by rw [hr]; omega), Nat.add_assoc, byteBit_flatten h (by omega)]

/-- All elements of a plaintext, from element `e` on. -/
theorem unpackCoeffs_rows {rows : List (List Nat)} {len logt outLen : Nat} (h : ∀ r ∈ rows, r.length = len)
    (hlen : 0 < len) (hl : 0 < logt) (h64 : logt ≤ 64) (hout : rows.length * len ≤ outLen) (tail : List Nat) :
    ∀ (css : List (List Nat)) (e : Nat) (s : UnpackState), e + css.length = rows.length →
      (∀ k, k < css.length → (css.getD k []).length = coefficientsPerElement logt len ∧
        ∀ c, c < (css.getD k []).length →
          (css.getD k []).getD c 0 = bitsVal (streamBit (rows.getD (e + k) [])) (c * logt) logt) →
      UnpackInv (byteBit rows.flatten) (e * (8 * len)) s → ∀ left, left = 0 ∨ left = 8 * len →
      ∃ s' left', unpackCoeffs logt outLen (8 * len) (css.flatten ++ tail) s left =
          unpackCoeffs logt outLen (8 * len) tail s' left' ∧
        UnpackInv (byteBit rows.flatten) (rows.length * (8 * len)) s' := by
  intro css
  induction css with
  | nil =>
    intro e s he _ hi left _
    refine ⟨s, left, rfl, ?_⟩
    rw [← he, List.length_nil, Nat.add_zero]
    exact hi
  | cons cs css ih =>
    intro e s he hc hi left hleft
    rw [List.length_cons] at he
    obtain ⟨u1, u2⟩ := uintNum_bounds (8 * len) hl
    have u3 := u2 (by omega)
    have hcs := hc 0 (by simp)
    rw [List.getD_cons_zero] at hcs
    obtain ⟨c1, c2⟩ := hcs
    change cs.length = uintNum (8 * len) logt at c1
    have hpos : 0 < cs.length := by
      rw [c1]
      by_contra hcon
      rw [show uintNum (8 * len) logt = 0 by omega, Nat.zero_mul] at u1
      omega
    have hne : cs ≠ [] := by rintro rfl; simp at hpos
    have hmin : min (8 * len) ((0 + cs.length) * logt) = 8 * len := by rw [Nat.zero_add, c1]; omega
    have hrl : (e + 1) * (8 * len) ≤ 8 * outLen := by
      have : (e + 1) * len ≤ rows.length * len := Nat.mul_le_mul_right _ (by omega)
      calc (e + 1) * (8 * len) = 8 * ((e + 1) * len) := by ring
        _ ≤ 8 * outLen := by omega
    rw [List.flatten_cons, List.append_assoc]
    obtain ⟨s', left', h1, h2, h3⟩ := unpackCoeffs_segment (b := byteBit rows.flatten) (logt := logt) (len := outLen)
      (bits := 8 * len) (m := e * (8 * len)) (B := 8 * len) hl h64 (by omega) rfl (css.flatten ++ tail) cs 0 s left
      (by rwa [Nat.zero_mul, Nat.add_zero])
      (fun k hk => by
        have hk2 : k * logt < 8 * len :=
          lt_of_le_of_lt (Nat.mul_le_mul_right _ (by omega : k ≤ uintNum (8 * len) logt - 1)) u3
        rw [c2 k hk, Nat.add_zero, cell_of_row h (by omega) hk2, Nat.zero_add])
      (by rw [Nat.zero_mul, Nat.sub_zero]; rcases hleft with h | h
          · right; exact ⟨rfl, h⟩
          · left; exact h)
      (fun _ => by rw [Nat.zero_add, c1]; exact u3)
      (by rw [hmin]; rw [Nat.succ_mul] at hrl; exact hrl)
      (by omega)
    rw [hmin] at h2
    have hleft' := h3 hne
    obtain ⟨s'', left'', g1, g2⟩ := ih (e + 1) s' (by omega)
      (fun k hk => by
        have := hc (k + 1) (by rw [List.length_cons]; omega)
        rw [List.getD_cons_succ, show e + (k + 1) = e + 1 + k by omega] at this
        exact this)
      (by rw [Nat.succ_mul]; exact h2) left' (Or.inl (by rw [hleft', Nat.zero_add, c1]; omega))
    exact ⟨s'', left'', h1.trans g1, g2⟩

end Psi.SealPir
