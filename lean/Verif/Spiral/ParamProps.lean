import Verif.Spiral.ParamModel
import Verif.Spiral.PackProps

/-!
# C65: the dimensions chosen for a database hold it

`Fits` says what the rest of the protocol needs; it is stated without the functions of the model.
-/

namespace Psi.Spiral

/-- All plaintexts have a place, the query polynomial has a coefficient for every bit to expand, and each kind of bits
fits into half of the expanded ciphertexts. -/
structure Fits (polyLog size : Nat) (d : Dims) : Prop where
  holds : size ≤ 2 ^ (d.v1 + d.v2)
  half : ∃ g, g < polyLog ∧ 2 ^ d.v1 ≤ 2 ^ g ∧ d.tgsw * d.v2 ≤ 2 ^ g ∧ 2 ^ g < 2 ^ d.v1 + d.tgsw * d.v2
  small : d.v1 ≤ 11 ∧ d.v2 ≤ 11
  pos : 0 < d.v1 ∧ 0 < d.v2

theorem log2Ceil_bounds {n : Nat} (h : 1 < n) : n ≤ 2 ^ log2Ceil n ∧ 2 ^ (log2Ceil n - 1) < n ∧ 0 < log2Ceil n := by
  unfold log2Ceil
  exact ⟨Nat.le_pow_clog (by norm_num) _, Nat.pow_pred_clog_lt_self (by norm_num) h, Nat.clog_pos (by norm_num) h⟩

theorem validCheck_ok {polyLog : Nat} {d : Dims} (h : validCheck polyLog d = .ok ()) :
    d.v1 ≤ 11 ∧ d.v2 ≤ 11 ∧ d.g ≤ polyLog ∧ 2 ^ d.v1 ≤ 2 ^ (d.g - 1) ∧ d.v2 * d.tgsw ≤ 2 ^ (d.g - 1) := by
  unfold validCheck maxDbDim at h
  split_ifs at h
  omega

/-- The dimensions of a database with more than four plaintexts. -/
theorem growV2_eq {size l : Nat} (h4 : 4 < size) (hl : l = log2Ceil size) (hs : size ≤ 2 ^ 30) :
    growV2 (3 * l / 5) size 64 (2 * l / 5) = .ok (l - 3 * l / 5) := by
  obtain ⟨h1, h2, h3⟩ := log2Ceil_bounds (n := size) (by omega)
  rw [← hl] at h1 h2 h3
  have h30 : l ≤ 30 := by
    by_contra hc
    have : (2 : Nat) ^ 30 ≤ 2 ^ (l - 1) := Nat.pow_le_pow_right (by norm_num) (by omega)
    omega
  have hsum : 3 * l / 5 + 2 * l / 5 = l ∨ 3 * l / 5 + 2 * l / 5 = l - 1 := by omega
  unfold growV2
  rcases hsum with hsum | hsum
  · rw [hsum]
    unfold intShift
    rw [if_pos (by omega)]
    show (if 2 ^ l < size then _ else _) = _
    rw [if_neg (by omega)]
    congr 1
    omega
  · rw [hsum]
    unfold intShift
    rw [if_pos (by omega)]
    show (if 2 ^ (l - 1) < size then _ else _) = _
    rw [if_pos h2]
    unfold growV2 intShift
    rw [if_pos (by omega)]
    show (if 2 ^ (3 * l / 5 + (2 * l / 5 + 1)) < size then _ else _) = _
    rw [show 3 * l / 5 + (2 * l / 5 + 1) = l by omega, if_neg (by omega)]
    congr 1
    omega

theorem updateDims_ok {polyLog tgsw size : Nat} {d : Dims} (h4 : 4 < size) (h : updateDims polyLog tgsw size = .ok d) :
    ∃ v2, growV2 (3 * log2Ceil size / 5) size 64 (2 * log2Ceil size / 5) = .ok v2 ∧
      d = ⟨tgsw, 3 * log2Ceil size / 5, v2⟩ ∧ validCheck polyLog d = .ok () := by
  unfold updateDims at h
  rw [if_neg (by omega)] at h
  simp only at h
  cases hg : growV2 (3 * log2Ceil size / 5) size 64 (2 * log2Ceil size / 5) with
  | ok v2 =>
    rw [hg] at h
    cases hv : validCheck polyLog ⟨tgsw, 3 * log2Ceil size / 5, v2⟩ with
    | ok u =>
      simp only [Res.bind, hv] at h
      injection h with h
      exact ⟨v2, rfl, h.symm, by rw [← h]; exact hv⟩
    | throws => simp only [Res.bind, hv] at h; cases h
    | undefined => simp only [Res.bind, hv] at h; cases h
  | throws => rw [hg] at h; cases h
  | undefined => rw [hg] at h; cases h

theorem updateDims_dims {polyLog tgsw size : Nat} {d : Dims} (h4 : 4 < size) (h : updateDims polyLog tgsw size = .ok d) :
    size ≤ 2 ^ 19 ∧ d = ⟨tgsw, 3 * log2Ceil size / 5, log2Ceil size - 3 * log2Ceil size / 5⟩ ∧
      validCheck polyLog d = .ok () := by
  obtain ⟨v2, h1, h2, h3⟩ := updateDims_ok h4 h
  obtain ⟨c1, -⟩ := validCheck_ok h3
  rw [h2] at c1
  simp only at c1
  obtain ⟨b1, b2, b3⟩ := log2Ceil_bounds (n := size) (by omega)
  have hs : size ≤ 2 ^ 19 := b1.trans (Nat.pow_le_pow_right (by norm_num) (by omega))
  rw [growV2_eq h4 rfl (by omega)] at h1
  injection h1 with h1
  exact ⟨hs, by rw [h2, h1], h3⟩

/-- Whenever dimensions are accepted, the database fits, the query has room, and less than half of the places are
empty. -/
theorem update_fits_partial {polyLog tgsw size : Nat} {d : Dims} (h : updateDims polyLog tgsw size = .ok d) :
    Fits polyLog size d ∧ (4 < size → 2 ^ (d.v1 + d.v2) < 2 * size ∧ d.tgsw = tgsw) := by
  have key : ∀ {d : Dims}, validCheck polyLog d = .ok () → 0 < d.v1 → 0 < d.v2 → size ≤ 2 ^ (d.v1 + d.v2) →
      Fits polyLog size d := by
    intro d hv p1 p2 hsz
    obtain ⟨c1, c2, c3, c4, c5⟩ := validCheck_ok hv
    have hx : 1 < d.tgsw * d.v2 + 2 ^ d.v1 := by
      have : 2 ^ 1 ≤ 2 ^ d.v1 := Nat.pow_le_pow_right (by norm_num) p1
      omega
    obtain ⟨b1, b2, b3⟩ := log2Ceil_bounds hx
    refine ⟨hsz, ⟨d.g - 1, ?_, c4, by rw [Nat.mul_comm]; exact c5, ?_⟩, ⟨c1, c2⟩, ⟨p1, p2⟩⟩
    · unfold Dims.g at c3 ⊢
      omega
    · unfold Dims.g
      omega
  by_cases h4 : 4 < size
  · obtain ⟨hs, hd, hv⟩ := updateDims_dims h4 h
    obtain ⟨b1, b2, b3⟩ := log2Ceil_bounds (n := size) (by omega)
    have hl : 3 ≤ log2Ceil size := by
      by_contra hc
      have : 2 ^ log2Ceil size ≤ 2 ^ 2 := Nat.pow_le_pow_right (by norm_num) (by omega)
      omega
    have e : d.v1 + d.v2 = log2Ceil size := by rw [hd]; simp only; omega
    refine ⟨key hv (by rw [hd]; simp only; omega) (by rw [hd]; simp only; omega) (by rw [e]; exact b1), fun _ => ⟨?_, by rw [hd]⟩⟩
    rw [e]
    have : 2 ^ log2Ceil size = 2 * 2 ^ (log2Ceil size - 1) := by
      rw [← pow_succ', Nat.sub_add_cancel b3]
    omega
  · unfold updateDims at h
    rw [if_pos (by omega)] at h
    cases hv : validCheck polyLog ⟨4, 2, 1⟩ with
    | ok u =>
      rw [hv] at h
      simp only [Res.bind] at h
      injection h with h
      subst h
      exact ⟨key hv (by norm_num) (by norm_num) (by simp only; omega), fun hc => absurd hc h4⟩
    | throws => rw [hv] at h; cases h
    | undefined => rw [hv] at h; cases h

/-- With the default parameters (2048 coefficients, `t_gsw = 6`) exactly these numbers of plaintexts are accepted. -/
theorem update_default (size : Nat) :
    (∃ d, updateDims 11 6 size = .ok d) ↔ size ≤ 4 ∨ (17 ≤ size ∧ size ≤ 32) ∨ (65 ≤ size ∧ size ≤ 2 ^ 18) := by
  by_cases h4 : 4 < size
  · obtain ⟨b1, b2, b3⟩ := log2Ceil_bounds (n := size) (by omega)
    have hl : 3 ≤ log2Ceil size := by
      by_contra hc
      have : 2 ^ log2Ceil size ≤ 2 ^ 2 := Nat.pow_le_pow_right (by norm_num) (by omega)
      omega
    by_cases h19 : size ≤ 2 ^ 19
    · have hu : updateDims 11 6 size =
          (validCheck 11 ⟨6, 3 * log2Ceil size / 5, log2Ceil size - 3 * log2Ceil size / 5⟩).bind fun _ =>
            .ok ⟨6, 3 * log2Ceil size / 5, log2Ceil size - 3 * log2Ceil size / 5⟩ := by
        unfold updateDims
        rw [if_neg (by omega)]
        simp only
        rw [growV2_eq h4 rfl (by omega)]
        rfl
      have hl19 : log2Ceil size ≤ 19 := by
        by_contra hc
        have : 2 ^ 19 ≤ 2 ^ (log2Ceil size - 1) := Nat.pow_le_pow_right (by norm_num) (by omega)
        omega
      rw [hu]
      generalize log2Ceil size = l at *
      have hdec : ∀ l : Fin 20, 3 ≤ l.val →
          ((validCheck 11 ⟨6, 3 * l.val / 5, l.val - 3 * l.val / 5⟩ = .ok ()) ↔
            (l.val = 5 ∨ (7 ≤ l.val ∧ l.val ≤ 18))) := by decide +kernel
      have hd := hdec ⟨l, by omega⟩ hl
      simp only at hd
      constructor
      · rintro ⟨d, h⟩
        have hv : validCheck 11 ⟨6, 3 * l / 5, l - 3 * l / 5⟩ = .ok () := by
          cases hv : validCheck 11 ⟨6, 3 * l / 5, l - 3 * l / 5⟩ with
          | ok u => rfl
          | throws => rw [hv] at h; cases h
          | undefined => rw [hv] at h; cases h
        rcases hd.1 hv with h5 | ⟨h7, h18⟩
        · subst h5; norm_num at b1 b2; omega
        · have x1 : 2 ^ 6 ≤ 2 ^ (l - 1) := Nat.pow_le_pow_right (by norm_num) (by omega)
          have x2 : 2 ^ l ≤ 2 ^ 18 := Nat.pow_le_pow_right (by norm_num) (by omega)
          omega
      · intro h
        have : l = 5 ∨ (7 ≤ l ∧ l ≤ 18) := by
          rcases h with h | ⟨h, h'⟩ | ⟨h, h'⟩
          · omega
          · left
            by_contra hc
            rcases Nat.lt_or_gt_of_ne hc with hc | hc
            · have : 2 ^ l ≤ 2 ^ 4 := Nat.pow_le_pow_right (by norm_num) (by omega)
              omega
            · have : 2 ^ 5 ≤ 2 ^ (l - 1) := Nat.pow_le_pow_right (by norm_num) (by omega)
              omega
          · right
            constructor
            · by_contra hc
              have : 2 ^ l ≤ 2 ^ 6 := Nat.pow_le_pow_right (by norm_num) (by omega)
              omega
            · by_contra hc
              have : 2 ^ 18 ≤ 2 ^ (l - 1) := Nat.pow_le_pow_right (by norm_num) (by omega)
              omega
        rw [hd.2 this]
        exact ⟨_, rfl⟩
    · constructor
      · rintro ⟨d, h⟩
        exact absurd (updateDims_dims h4 h).1 h19
      · intro h
        omega
  · constructor
    · intro _
      omega
    · intro _
      unfold updateDims
      rw [if_pos (by omega)]
      have : validCheck 11 ⟨4, 2, 1⟩ = .ok () := by decide +kernel
      rw [this]
      exact ⟨_, rfl⟩

/-- A database of the default parameters with accepted dimensions: every row comes back from its plaintext. -/
theorem update_rows {wd : Nat} {P : PackPar} {polyLog tgsw rowLen size : Nat} {d : Dims} {raw : List (List Nat)}
    (hu : updateByDatabaseInfo P polyLog tgsw raw.length rowLen = .ok (d, size)) (hwd : wd ≤ 64)
    (hl : 0 < P.logt) (hlw : P.logt ≤ wd) (hm : 0 < P.maxBytes) (hlen : 0 < rowLen) (h0 : raw ≠ [])
    (hr : ∀ r ∈ raw, r.length = rowLen) (hb : ∀ r ∈ raw, ∀ x ∈ r, x < 256) :
    ∃ parts, databasePts wd P rowLen (2 ^ (d.v1 + d.v2)) raw = .ok parts ∧
      ∀ idx (hi : idx < raw.length), ptIndex P rowLen idx < size ∧
        decodeRow P rowLen idx (parts.map fun pts => pts.getD (ptIndex P rowLen idx) []) = .ok raw[idx] := by
  have hd : updateDims polyLog tgsw (plaintextsFor P raw.length rowLen) = .ok d ∧
      plaintextsFor P raw.length rowLen = size := by
    unfold updateByDatabaseInfo at hu
    unfold plaintextsFor
    simp only at hu
    cases hd : updateDims polyLog tgsw (uintNum raw.length (P.elementSize (P.elementLen rowLen))) with
    | ok d' =>
      rw [hd] at hu
      simp only [Res.bind] at hu
      injection hu with hu
      injection hu with h1 h2
      exact ⟨by rw [h1], h2⟩
    | throws => rw [hd] at hu; cases hu
    | undefined => rw [hd] at hu; cases hu
  have hf := (update_fits_partial hd.1).1.holds
  obtain ⟨parts, p1, -, -, p4⟩ := row_round_trip hwd hl hlw hm hlen h0 hr hb hf
  refine ⟨parts, p1, fun idx hi => ⟨?_, (p4 idx hi).2⟩⟩
  obtain ⟨parts', q1, -, -, q4⟩ := row_round_trip (prod := size) hwd hl hlw hm hlen h0 hr hb (by omega)
  exact (q4 idx hi).1

/-- 20000 rows of 256 bytes need 625 plaintexts of the default parameters: 2^6 · 2^4 places. -/
theorem update_example : updateByDatabaseInfo ⟨8, 8192⟩ 11 6 20000 256 = .ok (⟨6, 6, 4⟩, 625) := by decide +kernel

example := update_fits_partial (polyLog := 11) (tgsw := 6) (size := 625) (d := ⟨6, 6, 4⟩) (by decide +kernel)

example := update_rows (wd := 8) (P := ⟨8, 8192⟩) (polyLog := 11) (tgsw := 6) (rowLen := 3) (size := 1) (d := ⟨4, 2, 1⟩)
  (raw := [[1, 2, 3], [4, 5, 6]]) (by decide +kernel) (by norm_num) (by norm_num) (by norm_num) (by decide) (by norm_num)
  (by simp) (by decide) (by decide)

/-- Limit: databases of 5 to 16 and of 33 to 64 plaintexts are refused with the default parameters. -/
theorem update_refused {size : Nat} (h : (5 ≤ size ∧ size ≤ 16) ∨ (33 ≤ size ∧ size ≤ 64)) :
    ¬ ∃ d, updateDims 11 6 size = .ok d := by
  rw [update_default]
  omega

example := update_refused (size := 5) (by omega)

/-- Limit: a small database lowers `t_gsw` for good, so what happens to the next one depends on the last. -/
theorem update_history : updateDims 11 6 5 = .throws ∧ ∃ d, updateDims 11 6 4 = .ok d ∧
    updateDims 11 d.tgsw 5 = .ok ⟨4, 1, 2⟩ := by
  exact ⟨by decide +kernel, ⟨4, 2, 1⟩, by decide +kernel, by decide +kernel⟩

end Psi.Spiral
