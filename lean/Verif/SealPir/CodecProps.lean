import Verif.SealPir.CodecLemmas

/-!
# C75: rows of a SealPIR database survive the coefficients of a plaintext
-/

namespace Psi.SealPir

open Psi.Spiral (Res w32 uintNum byteBit coeffBit bitsVal mapRes)

/-- The coefficients of an element: as few as hold it, each of at most `logt` bits, with the bits of the bytes in
order, followed by zeros. -/
theorem coeffs_exact {logt : Nat} (hl : 0 < logt) (h64 : logt ≤ 64) (bytes : List Nat) (hb : ∀ x ∈ bytes, x < 256)
    (hs : 0 < bytes.length) :
    ∃ cs, bytesToCoeffs logt bytes = .ok cs ∧ 8 * bytes.length ≤ cs.length * logt ∧
      (cs.length - 1) * logt < 8 * bytes.length ∧ (∀ c ∈ cs, c < 2 ^ logt) ∧
      ∀ i, i < cs.length * logt → coeffBit logt cs i = if i < 8 * bytes.length then byteBit bytes i else false := by
  obtain ⟨cs, h1, h2, h3⟩ := bytesToCoeffs_spec hl h64 bytes hb hs
  obtain ⟨u1, u2⟩ := Psi.Spiral.uintNum_bounds (8 * bytes.length) hl
  unfold coefficientsPerElement at h2
  rw [← h2] at u1 u2
  refine ⟨cs, h1, u1, u2 (by omega), fun c hc => ?_, fun i hi => ?_⟩
  · obtain ⟨k, hk, rfl⟩ := List.getElem_of_mem hc
    have := h3 k hk
    rw [List.getD_eq_getElem _ _ hk] at this
    rw [this]
    exact Psi.Spiral.bitsVal_lt _ _ _
  · have hk : i / logt < cs.length := by rwa [Nat.div_lt_iff_lt_mul hl]
    unfold coeffBit
    rw [h3 _ hk, Psi.Spiral.bitsVal_testBit _ _ _ (Nat.mod_lt _ hl), Nat.mul_comm, Nat.div_add_mod]
    rfl

example := coeffs_exact (logt := 20) (by norm_num) (by norm_num) [1, 2, 3, 255, 17] (by decide) (by norm_num)

/-- Packing many elements, each into coefficients of its own. -/
theorem packRows_ok {logt len : Nat} (hl : 0 < logt) (h64 : logt ≤ 64) (hlen : 0 < len) (rows : List (List Nat)) :
    (∀ r ∈ rows, r.length = len ∧ ∀ x ∈ r, x < 256) →
    ∃ css, mapRes (bytesToCoeffs logt) rows = .ok css ∧ css.length = rows.length ∧
      ∀ k, k < css.length → (css.getD k []).length = coefficientsPerElement logt len ∧
        ∀ c, c < (css.getD k []).length →
          (css.getD k []).getD c 0 = bitsVal (streamBit (rows.getD k [])) (c * logt) logt := by
  induction rows with
  | nil => exact fun _ => ⟨[], rfl, rfl, fun k hk => by simp at hk⟩
  | cons r rows ih =>
    intro h
    obtain ⟨css, h1, h2, h3⟩ := ih fun x hx => h x (by simp [hx])
    obtain ⟨hr1, hr2⟩ := h r (by simp)
    obtain ⟨cs, g1, g2, g3⟩ := bytesToCoeffs_spec hl h64 r hr2 (by omega)
    refine ⟨cs :: css, ?_, by simp [h2], fun k hk => ?_⟩
    · unfold mapRes
      rw [g1]
      show (mapRes (bytesToCoeffs logt) rows).bind _ = _
      rw [h1]
      rfl
    · cases k with
      | zero => rw [List.getD_cons_zero, List.getD_cons_zero, ← hr1]; exact ⟨g2, g3⟩
      | succ k =>
        rw [List.getD_cons_succ, List.getD_cons_succ]
        exact h3 k (by simpa using hk)

/-- Many elements in one plaintext: whatever follows them, they all come back. -/
theorem elements_round_trip {logt len : Nat} (hl : 0 < logt) (h64 : logt ≤ 64) (hlen : 0 < len) (h32 : 8 * len < 2 ^ 32)
    (rows : List (List Nat)) (hr : ∀ r ∈ rows, r.length = len ∧ ∀ x ∈ r, x < 256) (tail : List Nat) :
    ((mapRes (bytesToCoeffs logt) rows).bind fun css =>
      coeffsToBytes logt (css.flatten ++ tail) (rows.length * len) len) = .ok rows.flatten := by
  obtain ⟨css, h1, h2, h3⟩ := packRows_ok hl h64 hlen rows hr
  rw [h1]
  show coeffsToBytes logt (css.flatten ++ tail) (rows.length * len) len = _
  unfold coeffsToBytes
  have hw : w32 (len * 8) = 8 * len := by unfold w32; rw [Nat.mul_comm]; exact Nat.mod_eq_of_lt h32
  simp only [hw]
  obtain ⟨s, left, g1, g2⟩ := unpackCoeffs_rows (fun r hx => (hr r hx).1) hlen hl h64 (le_refl _) tail css 0
    ⟨0, 8, fun _ => 0⟩ (by omega) (fun k hk => by rw [Nat.zero_add]; exact h3 k hk)
    ⟨by simp, by simp, by simp, by simp [bitsVal]⟩ (8 * len) (Or.inr rfl)
  have hp := g2.pos
  have hroom := g2.room
  have he : rows.length * (8 * len) = 8 * (rows.length * len) := by ring
  rw [he] at hp
  rw [g1, unpackCoeffs_done (by omega)]
  show Res.ok _ = _
  congr 1
  have hfl := length_flatten fun r hx => (hr r hx).1
  refine List.ext_getElem (by simp [hfl]) fun t t1 t2 => ?_
  rw [List.getElem_map, List.getElem_range, g2.done t (by omega)]
  have hx : rows.flatten[t] < 2 ^ 8 := by
    obtain ⟨r, hr1, hr2⟩ := List.mem_flatten.1 (List.getElem_mem t2)
    exact (hr r hr1).2 _ hr2
  refine Psi.Spiral.bitsVal_word hx fun k hk => ?_
  unfold byteBit
  rw [show (8 * t + k) / 8 = t by omega, show (8 * t + k) % 8 = k by omega, List.getD_eq_getElem _ _ t2]

example := elements_round_trip (logt := 20) (len := 5) (by norm_num) (by norm_num) (by norm_num) (by norm_num)
  [[1, 2, 3, 4, 5], [255, 0, 17, 9, 200]] (by decide) [1, 1, 1]

/-- One element that needs more than the plaintext at hand: the bits of the coefficients come back as the first bytes. -/
theorem coefficients_as_bytes {logt eleSize : Nat} (hl : 0 < logt) (h64 : logt ≤ 64) (h32 : 8 * eleSize < 2 ^ 32)
    (cs : List Nat) (hc : ∀ c ∈ cs, c < 2 ^ logt) (hlen : cs.length * logt ≤ 8 * eleSize) :
    ∃ bytes, coeffsToBytes logt cs eleSize eleSize = .ok bytes ∧ bytes.length = eleSize ∧
      ∀ t, 8 * (t + 1) ≤ cs.length * logt → bytes.getD t 0 = bitsVal (coeffBit logt cs) (8 * t) 8 := by
  unfold coeffsToBytes
  have hw : w32 (eleSize * 8) = 8 * eleSize := by unfold w32; rw [Nat.mul_comm]; exact Nat.mod_eq_of_lt h32
  simp only [hw]
  have h0 : Psi.Spiral.UnpackInv (coeffBit logt cs) 0 ⟨0, 8, fun _ => 0⟩ := ⟨by simp, by simp, by simp, by simp [bitsVal]⟩
  by_cases hcs : cs = []
  · subst hcs
    refine ⟨_, rfl, by simp, fun t ht => ?_⟩
    rw [List.length_nil, Nat.zero_mul] at ht
    omega
  · have hpos : 0 < cs.length := List.length_pos_iff.2 hcs
    have hlast : (cs.length - 1) * logt < 8 * eleSize := by
      refine lt_of_lt_of_le ?_ hlen
      exact Nat.mul_lt_mul_of_pos_right (by omega) hl
    obtain ⟨s, left, g1, g2, -⟩ := unpackCoeffs_segment (b := coeffBit logt cs) (logt := logt) (len := eleSize)
      (bits := 8 * eleSize) (m := 0) (B := 8 * eleSize) hl h64 (by omega) rfl [] cs 0 ⟨0, 8, fun _ => 0⟩ (8 * eleSize)
      (by simpa using h0)
      (fun k hk => by
        have hk1 : (k + 1) * logt ≤ cs.length * logt := Nat.mul_le_mul_right _ (by omega)
        rw [Nat.succ_mul] at hk1
        unfold cell
        simp only [Nat.zero_add]
        rw [Nat.min_eq_left (by omega), Nat.sub_self, pow_zero, Nat.mul_one]
        have hx : cs.getD k 0 < 2 ^ logt := by
          rw [List.getD_eq_getElem _ _ hk]; exact hc _ (List.getElem_mem _)
        refine (Psi.Spiral.bitsVal_word hx fun i hi => ?_).symm
        unfold coeffBit
        rw [Nat.add_comm, Nat.add_mul_div_right _ _ hl, Nat.div_eq_of_lt hi, Nat.add_mul_mod_self_right,
          Nat.mod_eq_of_lt hi, Nat.zero_add])
      (by simp) (fun _ => by rwa [Nat.zero_add]) (by omega) (by omega)
    rw [List.append_nil] at g1
    rw [Nat.zero_add, Nat.zero_add, Nat.min_eq_right hlen] at g2
    rw [g1]
    refine ⟨_, rfl, by simp, fun t ht => ?_⟩
    have := g2.pos
    have := g2.room
    rw [List.getD_eq_getElem _ _ (by simp; omega), List.getElem_map, List.getElem_range]
    exact g2.done t (by omega)

example := coefficients_as_bytes (logt := 20) (eleSize := 9) (by norm_num) (by norm_num) (by norm_num) [1048575, 1, 77]
  (by decide) (by norm_num)

/-- A part of a long row, alone in its plaintext, behind which come other coefficients. -/
theorem part_round_trip {logt eleSize : Nat} (hl : 0 < logt) (h64 : logt ≤ 64) (h32 : 8 * eleSize < 2 ^ 32)
    (part tail : List Nat) (hp : ∀ x ∈ part, x < 256) (hpos : 0 < part.length) (ht : ∀ c ∈ tail, c < 2 ^ logt)
    (hlen : (coefficientsPerElement logt part.length + tail.length) * logt ≤ 8 * eleSize) :
    ((bytesToCoeffs logt part).bind fun cs => (coeffsToBytes logt (cs ++ tail) eleSize eleSize).bind fun bs =>
      .ok (bs.take part.length)) = .ok part := by
  obtain ⟨cs, h1, h2, h3, h4, h5⟩ := coeffs_exact hl h64 part hp hpos
  obtain ⟨cs', h1', h6, -⟩ := bytesToCoeffs_spec hl h64 part hp hpos
  have : cs = cs' := by rw [h1] at h1'; injection h1'
  subst this
  obtain ⟨bs, b1, b2, b3⟩ := coefficients_as_bytes hl h64 h32 (cs ++ tail)
    (fun c hc => (List.mem_append.1 hc).elim (h4 c) (ht c)) (by rw [List.length_append, h6]; exact hlen)
  rw [h1]
  show (coeffsToBytes logt (cs ++ tail) eleSize eleSize).bind _ = _
  rw [b1]
  show Res.ok _ = _
  have hmul : cs.length * logt ≤ (cs ++ tail).length * logt := Nat.mul_le_mul_right _ (by simp)
  have hle : part.length ≤ bs.length := by
    rw [List.length_append, h6] at hmul
    rw [h6] at h2
    omega
  congr 1
  refine List.ext_getElem (by rw [List.length_take]; omega) fun t t1 t2 => ?_
  rw [List.getElem_take]
  have h3 := b3 t (by omega)
  rw [List.getD_eq_getElem _ _ (by omega)] at h3
  rw [h3]
  have hx : part[t] < 2 ^ 8 := hp _ (List.getElem_mem _)
  refine Psi.Spiral.bitsVal_word hx fun k hk => ?_
  have hcb : coeffBit logt (cs ++ tail) (8 * t + k) = coeffBit logt cs (8 * t + k) := by
    unfold coeffBit
    have : (8 * t + k) / logt < cs.length := by rw [Nat.div_lt_iff_lt_mul hl]; omega
    rw [List.getD_append _ _ _ _ this]
  rw [hcb, h5 _ (by omega), if_pos (by omega)]
  unfold byteBit
  rw [show (8 * t + k) / 8 = t by omega, show (8 * t + k) % 8 = k by omega, List.getD_eq_getElem _ _ (by omega)]

example := part_round_trip (logt := 20) (eleSize := 9) (by norm_num) (by norm_num) (by norm_num) [9, 8, 7, 6] [1]
  (by decide) (by norm_num) (by decide) (by decide)

/-- **Violated for rows of `2 ^ 29` bytes and their multiples**: the number of bits of a row is computed in 32 bits and
is 0, and nothing is read: the row comes back as zeros. -/
theorem huge_row_lost (logt k : Nat) (cs : List Nat) (len : Nat) :
    coeffsToBytes logt cs len (2 ^ 29 * k) = .ok (List.replicate len 0) := by
  have hw : w32 (2 ^ 29 * k * 8) = 0 := by
    unfold w32
    rw [show 2 ^ 29 * k * 8 = 2 ^ 32 * k by ring]
    exact Nat.mul_mod_right _ _
  unfold coeffsToBytes
  simp only [hw]
  have : ∀ (cs : List Nat) (s : Psi.Spiral.UnpackState), unpackCoeffs logt len 0 cs s 0 = .ok s := by
    intro cs
    induction cs with
    | nil => intro s; rfl
    | cons c cs ih =>
      intro s
      unfold unpackCoeffs
      simp only [if_true, Nat.min_zero]
      rw [unpackCoeff_zero]
      exact ih s
  rw [this]
  show Res.ok _ = _
  congr 1
  exact List.ext_getElem (by simp) fun t t1 t2 => by simp

example := huge_row_lost 20 1 [5, 6] (2 ^ 29)

example := packRows_ok (logt := 20) (len := 5) (by norm_num) (by norm_num) (by norm_num)
  [[1, 2, 3, 4, 5], [255, 0, 17, 9, 200]] (by decide)

end Psi.SealPir
