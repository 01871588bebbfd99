import Verif.Spiral.PackRows
import Mathlib.Data.List.Forall2

/-!
# C64: every row of the database is read back from its plaintext

The specification is the bit string of a list of bytes (`byteBit`) and of a list of coefficients (`coeffBit`), most
significant bit first, and the rows themselves.
-/

namespace Psi.Spiral

/-- Packing writes the bits of the bytes, followed by zeros, into as few coefficients as possible. -/
theorem packing_exact {wd logt offset size : Nat} (hwd : wd ≤ 64) (hl : 0 < logt) (hlw : logt ≤ wd) (bytes : List Nat)
    (hb : ∀ x ∈ bytes, x < 256) (hs : 0 < size) (hlen : offset + size ≤ bytes.length) :
    ∃ cs, bytesToCoeffs wd logt offset size bytes = .ok cs ∧
      8 * size ≤ cs.length * logt ∧ (cs.length - 1) * logt < 8 * size ∧ (∀ c ∈ cs, c < 2 ^ logt) ∧
      ∀ i, i < cs.length * logt → coeffBit logt cs i = if i < 8 * size then byteBit bytes (8 * offset + i) else false := by
  obtain ⟨cs, h1, h2, h3⟩ := bytesToCoeffs_spec hwd hl hlw bytes hb hs hlen
  obtain ⟨u1, u2⟩ := uintNum_bounds (8 * size) hl
  rw [← h2] at u1 u2
  refine ⟨cs, h1, u1, u2 (by omega), fun c hc => ?_, fun i hi => ?_⟩
  · obtain ⟨k, hk, rfl⟩ := List.getElem_of_mem hc
    have := h3 k hk
    rw [List.getD_eq_getElem _ _ hk] at this
    rw [this]
    exact bitsVal_lt _ _ _
  · have hk : i / logt < cs.length := by rwa [Nat.div_lt_iff_lt_mul hl]
    unfold coeffBit
    rw [h3 _ hk, bitsVal_testBit _ _ _ (Nat.mod_lt _ hl), Nat.mul_comm, Nat.div_add_mod]

example := packing_exact (wd := 64) (logt := 12) (offset := 1) (size := 2) (by norm_num) (by norm_num) (by norm_num)
  [1, 2, 3, 255] (by decide) (by norm_num) (by norm_num)

/-- Unpacking writes the bits of the coefficients into bytes; only an incomplete last byte is not determined. -/
theorem unpacking_exact {logt : Nat} (hl : 0 < logt) (h64 : logt ≤ 64) (cs : List Nat) (hc : ∀ c ∈ cs, c < 2 ^ logt) :
    ∃ bytes, coeffsToBytes cs logt = .ok bytes ∧ cs.length * logt ≤ bytes.length * 8 ∧
      ∀ i, i < cs.length * logt / 8 * 8 → byteBit bytes i = coeffBit logt cs i := by
  obtain ⟨bytes, h1, h2, h3⟩ := coeffsToBytes_spec hl h64 cs hc
  obtain ⟨u1, -⟩ := uintNum_bounds (cs.length * logt) (show 0 < 8 by norm_num)
  refine ⟨bytes, h1, by omega, fun i hi => ?_⟩
  unfold byteBit
  rw [h3 (i / 8) (by omega), show 7 - i % 8 = 8 - 1 - i % 8 by omega, bitsVal_testBit _ _ _ (Nat.mod_lt _ (by norm_num)),
    Nat.div_add_mod]

example := unpacking_exact (logt := 12) (by norm_num) (by norm_num) [4095, 1, 77] (by decide)

/-- What was packed comes back. -/
theorem bytes_round_trip {wd logt offset size : Nat} (hwd : wd ≤ 64) (hl : 0 < logt) (hlw : logt ≤ wd) (bytes : List Nat)
    (hb : ∀ x ∈ bytes, x < 256) (hs : 0 < size) (hlen : offset + size ≤ bytes.length) :
    ((bytesToCoeffs wd logt offset size bytes).bind fun cs => (coeffsToBytes cs logt).bind fun r => .ok (r.take size)) =
      .ok ((bytes.drop offset).take size) := by
  obtain ⟨cs, h1, h2, _, h4, h5⟩ := packing_exact hwd hl hlw bytes hb hs hlen
  obtain ⟨r, r1, r2, r3⟩ := coeffsToBytes_spec hl (by omega) cs h4
  obtain ⟨u1, -⟩ := uintNum_bounds (cs.length * logt) (show 0 < 8 by norm_num)
  rw [h1]
  show (coeffsToBytes cs logt).bind _ = _
  rw [r1]
  show Res.ok _ = _
  congr 1
  refine List.ext_getElem (by rw [List.length_take, List.length_take, List.length_drop]; omega) fun t t1 t2 => ?_
  rw [List.length_take] at t1
  have h3 := r3 t (by omega)
  rw [List.getD_eq_getElem _ _ (by omega)] at h3
  rw [List.getElem_take, List.getElem_take, List.getElem_drop, h3]
  have hx : bytes[offset + t] < 2 ^ 8 := hb _ (List.getElem_mem _)
  refine bitsVal_word hx fun k hk => ?_
  rw [h5 _ (by omega), if_pos (by omega)]
  unfold byteBit
  rw [show (8 * offset + (8 * t + k)) / 8 = offset + t by omega, show (8 * offset + (8 * t + k)) % 8 = k by omega,
    List.getD_eq_getElem _ _ (by omega)]

example := bytes_round_trip (wd := 64) (logt := 12) (offset := 1) (size := 2) (by norm_num) (by norm_num) (by norm_num)
  [1, 2, 3, 255] (by decide) (by norm_num) (by norm_num)

/-- The cells of the packed words may have any width that holds a coefficient: the 8-bit version gives the same
coefficients as the 64-bit version. -/
theorem widths_agree {logt offset size : Nat} (hl : 0 < logt) (hl8 : logt ≤ 8) (bytes : List Nat)
    (hb : ∀ x ∈ bytes, x < 256) (hs : 0 < size) (hlen : offset + size ≤ bytes.length) :
    bytesToCoeffs 8 logt offset size bytes = bytesToCoeffs 64 logt offset size bytes := by
  obtain ⟨c1, h1, h2, h3⟩ := bytesToCoeffs_spec (wd := 8) (by norm_num) hl hl8 bytes hb hs hlen
  obtain ⟨c2, g1, g2, g3⟩ := bytesToCoeffs_spec (wd := 64) (by norm_num) hl (by omega) bytes hb hs hlen
  rw [h1, g1]
  congr 1
  refine List.ext_getElem (by omega) fun t t1 t2 => ?_
  have e1 := h3 t t1
  have e2 := g3 t t2
  rw [List.getD_eq_getElem _ _ t1] at e1
  rw [List.getD_eq_getElem _ _ t2] at e2
  rw [e1, e2]

example := widths_agree (logt := 5) (offset := 1) (size := 2) (by norm_num) (by norm_num) [1, 2, 3, 255] (by decide)
  (by norm_num) (by norm_num)

/-- The number of plaintexts that hold `rows` rows. -/
def plaintextsFor (P : PackPar) (rows rowLen : Nat) : Nat := uintNum rows (P.elementSize (P.elementLen rowLen))

/-- The conversion of a database succeeds: as many partitions as a row needs, each with `prod` plaintexts of valid
coefficients; and every row is read back from its plaintexts. -/
theorem row_round_trip {wd : Nat} {P : PackPar} {rowLen prod : Nat} {raw : List (List Nat)} (hwd : wd ≤ 64)
    (hl : 0 < P.logt) (hlw : P.logt ≤ wd) (hm : 0 < P.maxBytes) (hlen : 0 < rowLen) (h0 : raw ≠ [])
    (hr : ∀ r ∈ raw, r.length = rowLen) (hb : ∀ r ∈ raw, ∀ x ∈ r, x < 256)
    (hprod : plaintextsFor P raw.length rowLen ≤ prod) :
    ∃ parts, databasePts wd P rowLen prod raw = .ok parts ∧ parts.length = (rowLen + P.maxBytes - 1) / P.maxBytes ∧
      (∀ pts ∈ parts, pts.length = prod ∧ ∀ pt ∈ pts, pt.length = P.coeffs ∧ ∀ c ∈ pt, c < 2 ^ P.logt) ∧
      ∀ idx (hi : idx < raw.length), ptIndex P rowLen idx < prod ∧
        decodeRow P rowLen idx (parts.map fun pts => pts.getD (ptIndex P rowLen idx) []) = .ok raw[idx] := by
  have hs : SizeOk P (P.elementLen rowLen) := ⟨hl, by unfold PackPar.elementLen; omega, by
    unfold PackPar.elementLen; omega⟩
  unfold plaintextsFor at hprod
  obtain ⟨e1, -⟩ := hs.elements
  obtain ⟨n1, -⟩ := uintNum_bounds raw.length e1
  have hpt : ∀ idx, idx < raw.length → ptIndex P rowLen idx < prod := by
    intro idx hi
    unfold ptIndex
    rw [Nat.div_lt_iff_lt_mul e1]
    have := Nat.mul_le_mul_right (P.elementSize (P.elementLen rowLen)) hprod
    omega
  unfold databasePts
  by_cases hle : rowLen ≤ P.maxBytes
  · have hel : P.elementLen rowLen = rowLen := Nat.min_eq_left hle
    have hone : (rowLen + P.maxBytes - 1) / P.maxBytes = 1 := by
      rw [show rowLen + P.maxBytes - 1 = (rowLen - 1) + P.maxBytes by omega, Nat.add_div_right _ hm,
        Nat.div_eq_of_lt (by omega)]
    obtain ⟨pts, p1, p2, p3, p4⟩ := rawToPts_spec (wd := wd) hwd hlw hs (by rw [hel]; exact hr) hb h0 hprod
    refine ⟨[pts], ?_, by rw [hone]; rfl, ?_, fun idx hi => ⟨hpt idx hi, ?_⟩⟩
    · rw [if_pos hle, p1]
      rfl
    · intro x hx
      rw [List.mem_singleton] at hx
      subst hx
      exact ⟨p2, p3⟩
    · unfold decodeRow
      rw [if_neg (by rw [hone]; simp)]
      have e : mapRes (extractRow P rowLen idx) ([pts].map fun pts => pts.getD (ptIndex P rowLen idx) []) =
          .ok [raw[idx]] := by
        unfold mapRes
        simp only [List.map_cons, List.map_nil]
        rw [p4 idx hi]
        rfl
      rw [e]
      show (if (raw[idx]).length = rowLen then Res.ok raw[idx] else Res.throws) = _
      rw [if_pos (hr _ (List.getElem_mem hi))]
  · have hlt : P.maxBytes < rowLen := by omega
    have hel : P.elementLen rowLen = P.maxBytes := Nat.min_eq_right (by omega)
    have hmem := fun part hp => partitionRows_mem (rows := raw) hm hlt hr hb (part := part) hp
    obtain ⟨parts, q1, q2⟩ := mapRes_ok (l := partitionRows raw rowLen P.maxBytes)
      (f := rawToPts wd P raw.length rowLen prod) (Q := fun part pts => pts.length = prod ∧
        (∀ pt ∈ pts, pt.length = P.coeffs ∧ ∀ c ∈ pt, c < 2 ^ P.logt) ∧
        ∀ idx, idx < raw.length → extractRow P rowLen idx (pts.getD (ptIndex P rowLen idx) []) = .ok (part.getD idx []))
      fun part hp => by
        obtain ⟨m1, m2, m3⟩ := hmem part hp
        obtain ⟨pts, p1, p2, p3, p4⟩ := rawToPts_spec (wd := wd) (rows := part) (rowLen := rowLen) (prod := prod) hwd hlw
          hs (by rw [hel]; exact m2) m3 (fun h => h0 (List.length_eq_zero_iff.1 (by rw [← m1, h]; rfl)))
          (by rw [m1]; exact hprod)
        rw [m1] at p1
        refine ⟨pts, p1, p2, p3, fun idx hi => ?_⟩
        rw [p4 idx (by omega), List.getD_eq_getElem _ _ (by omega)]
    have hnum : (partitionRows raw rowLen P.maxBytes).length = (rowLen + P.maxBytes - 1) / P.maxBytes := by
      unfold partitionRows
      rw [if_neg hle]
      simp only [List.length_append, List.length_map, List.length_range, List.length_singleton]
      have : (rowLen + P.maxBytes - 1) / P.maxBytes ≠ 0 := by
        rw [Nat.div_ne_zero_iff]
        omega
      exact Nat.sub_add_cancel (Nat.pos_of_ne_zero this)
    refine ⟨parts, ?_, by rw [← hnum]; exact q2.length_eq.symm, ?_, fun idx hi => ⟨hpt idx hi, ?_⟩⟩
    · rw [if_neg hle]
      exact q1
    · intro pts hp
      obtain ⟨i, hi, rfl⟩ := List.getElem_of_mem hp
      have := q2.get (i := i) (by rw [q2.length_eq]; exact hi) hi
      exact ⟨this.1, this.2.1⟩
    · unfold decodeRow
      rw [if_neg (by rw [List.length_map, ← q2.length_eq, hnum]; simp)]
      have e : mapRes (extractRow P rowLen idx) (parts.map fun pts => pts.getD (ptIndex P rowLen idx) []) =
          .ok ((partitionRows raw rowLen P.maxBytes).map fun p => p.getD idx []) := by
        clear q1 hnum hmem
        generalize partitionRows raw rowLen P.maxBytes = l at q2 ⊢
        induction q2 with
        | nil => rfl
        | cons h _ ih =>
          rw [List.map_cons, List.map_cons]
          unfold mapRes
          rw [h.2.2 idx hi]
          show (mapRes _ _).bind _ = _
          rw [ih]
          rfl
      rw [e]
      exact combineRow_partition hm hlt hr hb hi

/-- Two plaintext coefficients of 8 bits, rows of 5 bytes: three partitions, one row per plaintext. -/
example := row_round_trip (wd := 8) (P := ⟨8, 2⟩) (rowLen := 5) (prod := 4) (raw := [[1, 2, 3, 4, 5], [255, 0, 7, 8, 9]])
  (by norm_num) (by norm_num) (by norm_num) (by decide) (by norm_num) (by simp) (by decide) (by decide) (by decide)

/-- Seven coefficients of 12 bits, rows of 4 bytes: two rows in a plaintext. -/
example := row_round_trip (wd := 64) (P := ⟨12, 7⟩) (rowLen := 4) (prod := 4) (raw := [[1, 2, 3, 4], [5, 0, 7, 8], [0, 0, 0, 1]])
  (by norm_num) (by norm_num) (by norm_num) (by decide) (by norm_num) (by simp) (by decide) (by decide) (by decide)

/-- The stored database keeps every coefficient. -/
theorem stored_exact {P : PackPar} {prod : Nat} {parts : List (List (List Nat))}
    (h : ∀ pts ∈ parts, pts.length = prod ∧ ∀ pt ∈ pts, pt.length = P.coeffs) {i j k : Nat}
    (hi : i < parts.length) (hj : j < prod) (hk : k < P.coeffs) :
    storedCoeff P prod parts i j k = some (((parts.getD i []).getD j []).getD k 0) := by
  have h1 : ∀ p ∈ parts.map List.flatten, p.length = prod * P.coeffs := by
    intro p hp
    obtain ⟨q, hq, rfl⟩ := List.mem_map.1 hp
    rw [flatten_length (h q hq).2, (h q hq).1]
  have hin : j * P.coeffs + k < prod * P.coeffs := by
    have := Nat.mul_le_mul_right P.coeffs (show j + 1 ≤ prod from hj)
    rw [Nat.succ_mul] at this
    omega
  have hlen := flatten_length h1
  have e := flatten_getD h1 (i := i) (t := j * P.coeffs + k) (by simpa using hi) hin
  have hpos : i * (prod * P.coeffs) + (j * P.coeffs + k) < (parts.map List.flatten).flatten.length := by
    rw [hlen, List.length_map]
    have := Nat.mul_le_mul_right (prod * P.coeffs) (show i + 1 ≤ parts.length from hi)
    rw [Nat.succ_mul] at this
    omega
  have hp := h _ (List.getElem_mem hi)
  unfold storedCoeff
  rw [Nat.add_assoc, List.getElem?_eq_getElem hpos]
  rw [List.getD_eq_getElem _ _ hpos] at e
  rw [e, List.getElem_map, flatten_getD hp.2 (by rw [hp.1]; exact hj) hk, List.getD_eq_getElem parts _ hi,
    List.getD_eq_getElem parts[i] _ (by rw [hp.1]; exact hj)]

example := stored_exact (P := ⟨8, 2⟩) (prod := 2) (parts := [[[1, 2], [3, 4]], [[5, 6], [7, 8]]]) (by decide) (i := 1)
  (j := 0) (k := 1) (by decide) (by decide) (by decide)

/-- Limit: packing no bytes writes behind the end of an empty array (`util.cc:155`, `util.cc:176`). -/
theorem packing_nothing (wd logt offset : Nat) (bytes : List Nat) (hl : 0 < logt) :
    bytesToCoeffs wd logt offset 0 bytes = .undefined := by
  have : uintNum (8 * 0) logt = 0 := by
    unfold uintNum
    rw [Nat.div_eq_of_lt (by omega)]
  unfold bytesToCoeffs
  simp only [this]
  rfl

example := packing_nothing 64 12 0 [] (by norm_num)

/-- Limit: an incomplete last byte is neither left- nor right-aligned bits of the last coefficient; it keeps bits of
the coefficient that were already written (`util.cc:107-117`). -/
theorem unpacking_incomplete : coeffsToBytes [0xABC] 12 = .ok [0xAB, 0xBC] ∧
    coeffsToBytes [0xABC, 0xDEF] 12 = .ok [0xAB, 0xCD, 0xEF] := by decide +kernel

end Psi.Spiral
