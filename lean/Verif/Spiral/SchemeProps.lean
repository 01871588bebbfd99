import Verif.Spiral.SchemeNoise

/-!
# Spiral PIR from end to end (C68)
-/

namespace Psi.Spiral

open Finset

variable {P Q : Par} {D : Scheme}

theorem resMat_size {n rows cols : Nat} {f : Nat → Nat → Nat → Res Nat} {M : Mat} (h : resMat n rows cols f = .ok M) :
    M.rows = rows ∧ M.cols = cols := by
  unfold resMat at h
  generalize resWords (rows * cols * n) (fun i => f (i / n / cols) (i / n % cols) (i % n)) = x at h
  cases x with
  | ok w =>
    rw [Res.ok_bind] at h
    rw [← Res.ok.inj h]
    exact ⟨Mat.build_rows _ _ _, Mat.build_cols _ _ _⟩
  | throws => cases h
  | undefined => cases h

theorem decodeResponse_size {p q2 n : Nat} {sk resp out : Mat} (h : decodeResponse P Q p q2 n sk resp = .ok out) :
    out.rows = n ∧ out.cols = n := by
  unfold decodeResponse at h
  generalize resMat P.n n 1 (fun r c z => recenter (sk.poly r c z) P.modulus q2) = x at h
  cases x with
  | ok w =>
    rw [Res.ok_bind] at h
    exact resMat_size h
  | throws => cases h
  | undefined => cases h

/-- Parameters the service runs with: the ring `P`, the ring `Q` of the switched modulus, the scheme `D`, the plaintexts
`pk`, the inverses of the powers of two, a bound `W` on the weight of a secret polynomial. -/
structure SetupOk (P Q : Par) (D : Scheme) (pk : PackPar) (W invFirst invRest : Nat) : Prop where
  ring : ParOk P
  two : P.tables.length = 2
  ring2 : ParOk Q
  same : Q.L = P.L
  scheme : SchemeOk P D
  pt : D.p = 2 ^ pk.logt
  coeffs : pk.coeffs = D.n * D.n * P.n
  bits : 0 < pk.logt
  bytes : 0 < pk.maxBytes
  pt_le : D.p ≤ P.modulus
  middle : D.p ∣ 4 * Q.modulus / D.p
  le : Q.modulus ≤ P.modulus
  fits : D.p * Q.modulus < 2 ^ 57
  weight : 2 * W + 1 < P.modulus
  first_lt : invFirst < P.modulus
  rest_lt : invRest < P.modulus
  first : 2 ^ D.dims.g * invFirst % P.modulus = 1
  rest : 2 ^ (D.dims.stopRound + 1) * invRest % P.modulus = 1

/-- Secret keys and the randomness of the public keys. -/
structure KeysOk (P : Par) (D : Scheme) (W : Nat) (skReg skGsw : Mat) (C : KeyCoins) : Prop where
  reg : KeyOk P 1 skReg
  gsw : KeyOk P D.n skGsw
  coins : CoinsOk P D C
  reg_lt : RawLe P skReg (P.modulus - 1)
  gsw_lt : RawLe P skGsw (P.modulus - 1)
  light_reg : ∑ i ∈ range P.n, |keyCoeff P skReg 0 i| ≤ W
  light : ∀ r, r < D.n → ∑ i ∈ range P.n, |keyCoeff P skGsw r i| ≤ W

/-- A database of rows of `rowLen` bytes that fits the dimensions. -/
structure RowsOk (D : Scheme) (pk : PackPar) (wd rowLen : Nat) (raw : List (List Nat)) : Prop where
  width : wd ≤ 64
  bits : pk.logt ≤ wd
  len : 0 < rowLen
  rows : ∀ r ∈ raw, r.length = rowLen
  bytes : ∀ r ∈ raw, ∀ x ∈ r, x < 256
  room : plaintextsFor pk raw.length rowLen ≤ 2 ^ D.dims.v1 * 2 ^ D.dims.v2

variable {pk : PackPar} {W invFirst invRest wd rowLen : Nat} {skReg skGsw : Mat} {C : KeyCoins} {raw : List (List Nat)}

/-- The run for one row. -/
noncomputable def theRun (P : Par) (D : Scheme) (pk : PackPar) (skReg : Mat) (K : PublicKeys) (C : KeyCoins) (s : Nat → Sample)
    (rowLen idx : Nat) (parts : List (List (List Nat))) (vs : List Words) (query : Mat) : Run P where
  keys := K
  coins := C
  sample := s
  secret := toA P.L (keyCoeff P skReg 0)
  idx := ptIndex pk rowLen idx
  query := query
  parts := parts
  dbs := concatDbs (D.n * D.n * (2 ^ D.dims.v1 * 2 ^ D.dims.v2) * P.n) vs
  size := D.n * D.n * (2 ^ D.dims.v1 * 2 ^ D.dims.v2) * P.n

/-- With keys and a query that have the values of those the client made. -/
theorem retrieves_sent (hp : SetupOk P Q D pk W invFirst invRest) (hk : KeysOk P D W skReg skGsw C)
    (hr : RowsOk D pk wd rowLen raw) {idx : Nat} (hi : idx < raw.length) {s : Nat → Sample} (hs : SampleOk P 1 1 (s 0))
    {K : PublicKeys} (hK : KeysFor P D skReg skGsw C K) {query : Mat}
    (hsent : SentQuery P D skReg (ptIndex pk rowLen idx) invFirst invRest s query) :
    ∃ parts vs, databasePts wd pk rowLen (2 ^ D.dims.v1 * 2 ^ D.dims.v2) raw = .ok parts ∧
      mapRes (reorientDatabase P D.p (D.n * D.n) (2 ^ D.dims.v2) (2 ^ D.dims.v1)) parts = .ok vs ∧
      ((∀ part r c z, part < parts.length → r < D.n → c < D.n → z < P.n →
        4 * (Q.modulus : ℤ) * ((P.modulus % D.p : Nat) * D.p) + 8 * Q.modulus * (D.p *
            |coeff (respNoise P D (theRun P D pk skReg K C s rowLen idx parts vs query) part r c) z|) +
          4 * P.modulus * D.p * W < 3 * P.modulus * Q.modulus) →
      ∃ resp, processQuery P D Q.modulus K
          (concatDbs (D.n * D.n * (2 ^ D.dims.v1 * 2 ^ D.dims.v2) * P.n) vs)
          (D.n * D.n * (2 ^ D.dims.v1 * 2 ^ D.dims.v2) * P.n) parts.length query = .ok resp ∧
        decodeAnswer P Q D Q.modulus pk skGsw rowLen idx resp = .ok raw[idx]) := by
  have ok := hp.ring
  have so := hp.scheme
  have hD0 : 0 < D.p := by rw [hp.pt]; positivity
  obtain ⟨parts, p1, p2, p3, p4⟩ := row_round_trip hr.width hp.bits hr.bits hp.bytes hr.len
    (by rintro rfl; simp at hi) hr.rows hr.bytes hr.room
  obtain ⟨p5, p6⟩ := p4 idx hi
  have hlens : ∀ db ∈ parts, db.length = 2 ^ D.dims.v1 * 2 ^ D.dims.v2 := fun db hd => (p3 db hd).1
  have hcoeffs : ∀ db ∈ parts, ∀ c ∈ db, D.n * D.n * P.n ≤ c.length ∧ ∀ x ∈ c, x < D.p := fun db hd c hc => by
    obtain ⟨-, h2⟩ := p3 db hd
    obtain ⟨h3, h4⟩ := h2 c hc
    rw [hp.coeffs] at h3
    rw [hp.pt]
    exact ⟨h3.ge, h4⟩
  have hQ : QueryOk P D skReg (ptIndex pk rowLen idx) invFirst invRest s :=
    ⟨hk.reg, p5, hp.first_lt, hp.rest_lt, hp.first, hp.rest, hs⟩
  have hreg := fun j (hj : j < 2 ^ D.dims.v1) => expandQuery_even ok so hQ hk.coins hK hsent hj
  obtain ⟨vs, v1, -⟩ := first_dimension_ring ok hp.two (p := D.p) (trials := D.n * D.n) (numPer := 2 ^ D.dims.v2)
    (dim0 := 2 ^ D.dims.v1) hp.pt_le (Nat.pow_le_pow_right (by norm_num) (by have := so.checks; omega)) hlens
    (fun db hd c hc => (hcoeffs db hd c hc).1) (fun db hd c hc => (hcoeffs db hd c hc).2)
    (reg := fun j => expandQuery P D K query (2 * j))
    (fun j hj => ⟨(hreg j hj).1.ok, (hreg j hj).1.rows, (hreg j hj).1.cols⟩)
  refine ⟨parts, vs, p1, v1, fun hnoise => ?_⟩
  set R := theRun P D pk skReg K C s rowLen idx parts vs query with hR
  have hrun : RunOk P D skReg skGsw invFirst invRest R :=
    ⟨so, hp.two, hp.pt_le, hQ, hk.gsw, hk.coins, keyCoeff_red ok hk.reg_lt hk.reg.rows hk.reg.cols (by omega), hK, hsent, rfl,
      hlens, hcoeffs, vs, v1, rfl⟩
  -- the answer of every partition decodes to its plaintext
  have hpart : ∀ part, part < parts.length → ∃ resp, switchModulus P D.p Q.modulus
      (fromNtt P (packCts P D R.keys.packing (answerCt P D R.keys R.dbs R.size R.query part))) = .ok resp ∧
      (decodeResponse P Q D.p Q.modulus D.n skGsw resp).bind (fun M => .ok (matWords P M)) =
        .ok ((parts.getD part []).getD (ptIndex pk rowLen idx) []) := by
    intro part hpt
    obtain ⟨c1, c2, c3⟩ := packed_spec ok hrun (part := part) hpt
    have hdb : parts.getD part [] ∈ parts := by
      rw [List.getD_eq_getElem _ _ hpt]
      exact List.getElem_mem _
    have hct : (parts.getD part []).getD (ptIndex pk rowLen idx) [] ∈ parts.getD part [] := by
      rw [List.getD_eq_getElem (parts.getD part []) _ (by rw [hlens _ hdb]; exact p5)]
      exact List.getElem_mem _
    obtain ⟨h3, h4⟩ := (p3 _ hdb).2 _ hct
    generalize hcl : (parts.getD part []).getD (ptIndex pk rowLen idx) [] = cl at *
    have hasked : ∀ t, askedPoly P D R part t = ptPoly P D.p cl t := fun t => by
      unfold askedPoly
      rw [hR]
      simp only [theRun]
      rw [hcl]
    have hlt : ∀ x, cl.getD x 0 < D.p := fun x => by
      by_cases hx : x < cl.length
      · rw [List.getD_eq_getElem _ _ hx, hp.pt]
        exact h4 _ (List.getElem_mem _)
      · rw [List.getD_eq_default _ _ (by omega)]
        exact hD0
    obtain ⟨resp, out, d1, d2, d3⟩ := decode_exact ok hp.ring2 hp.same hD0 hp.middle hp.le hp.fits c1 c2 hk.gsw.rows
      hk.gsw.cols hk.gsw_lt (S := keyCoeff P skGsw) (fun r hr => keyCoeff_red ok hk.gsw_lt hk.gsw.rows hk.gsw.cols hr)
      hk.light hp.weight (m := fun r c => askedPoly P D R part (r * D.n + c)) (e := respNoise P D R part) c3 (by
        intro r c z hr hc hz
        refine lt_of_le_of_lt ?_ (hnoise part r c z hpt hr hc hz)
        rw [hasked]
        unfold ptPoly
        rw [coeff_toA _ hz]
        have hb := (ptCentre_bounds (hlt ((r * D.n + c) * P.n + z))).2
        generalize |ptCentre D.p (cl.getD ((r * D.n + c) * P.n + z) 0)| = x at *
        generalize |coeff (respNoise P D R part r c) z| = y
        have h5 : (0 : ℤ) ≤ Q.modulus * (P.modulus % D.p : Nat) := by positivity
        nlinarith [mul_le_mul_of_nonneg_left hb h5])
    refine ⟨resp, d1, ?_⟩
    obtain ⟨o1, o2⟩ := decodeResponse_size d2
    rw [d2, Res.ok_bind]
    congr 1
    unfold matWords
    refine List.ext_getElem (by simp [o1, o2, h3, hp.coeffs]) fun i h5 h6 => ?_
    rw [List.getElem_map, List.getElem_range]
    rw [h3, hp.coeffs] at h6
    have hn := ok.n_pos
    have hDn : 0 < D.n := Nat.pos_of_ne_zero fun e => by simp [e] at h6
    have g1 : i / P.n < D.n * D.n := (Nat.div_lt_iff_lt_mul hn).2 h6
    have g2 : i / P.n / D.n < D.n := (Nat.div_lt_iff_lt_mul hDn).2 g1
    have g3 : i / P.n % D.n < D.n := Nat.mod_lt _ hDn
    have g4 : i % P.n < P.n := Nat.mod_lt _ hn
    have g5 : i / P.n / D.n * D.n + i / P.n % D.n = i / P.n := by
      rw [Nat.mul_comm]
      exact Nat.div_add_mod _ _
    have key := d3 _ _ _ g2 g3 g4
    rw [hasked, g5] at key
    unfold ptPoly at key
    have g6 : i / P.n * P.n + i % P.n = i := by
      rw [Nat.mul_comm]
      exact Nat.div_add_mod _ _
    rw [coeff_toA _ g4, g6, (ptCentre_bounds (hlt i)).1, List.getD_eq_getElem _ _ (by rw [h3, hp.coeffs]; exact h6)] at key
    have hpoly : out.poly (i / P.n / D.n) (i / P.n % D.n) (i % P.n) = out.data (i / P.n) (i % P.n) := by
      unfold Mat.poly
      rw [o2, g5]
    rw [hpoly] at key
    exact_mod_cast key
  have : Inhabited Mat := ⟨.zero 0 0⟩
  choose! resp r1 r2 using hpart
  refine ⟨(List.range parts.length).map resp, ?_, ?_⟩
  · unfold processQuery
    have hok : expandOk D = true := by
      obtain ⟨c1, c2, c3, -, -⟩ := so.checks
      obtain ⟨-, -, -, r4⟩ := so.right_bounds
      have hg : 2 ^ D.dims.g / 2 = 2 ^ (D.dims.g - 1) := by
        have : 2 ^ D.dims.g = 2 * 2 ^ (D.dims.g - 1) := by
          rw [← Nat.pow_succ']
          congr 1
          omega
        omega
      unfold expandOk
      rw [hg]
      refine decide_eq_true ⟨c2, ?_⟩
      rw [Nat.mul_comm]
      exact c3
    rw [if_pos hok]
    have := mapRes_map (f := fun part => switchModulus P D.p Q.modulus (fromNtt P (packCts P D R.keys.packing
      (answerCt P D R.keys R.dbs R.size R.query part)))) (g := id) (h := resp) (l := List.range parts.length)
      fun part hm => r1 part (List.mem_range.1 hm)
    rwa [List.map_id] at this
  · unfold decodeAnswer
    have h1 : mapRes (fun r => (decodeResponse P Q D.p Q.modulus D.n skGsw r).bind fun M => .ok (matWords P M))
        ((List.range parts.length).map resp) =
        .ok ((List.range parts.length).map fun part => (parts.getD part []).getD (ptIndex pk rowLen idx) []) :=
      mapRes_map fun part hm => r2 part (List.mem_range.1 hm)
    have h2 : (List.range parts.length).map (fun part => (parts.getD part []).getD (ptIndex pk rowLen idx) []) =
        parts.map fun pts => pts.getD (ptIndex pk rowLen idx) [] := by
      refine List.ext_getElem (by simp) fun i h5 h6 => ?_
      rw [List.getElem_map, List.getElem_map, List.getElem_range, List.getD_eq_getElem parts _ (by simpa using h6)]
    rw [h1, Res.ok_bind, h2]
    exact p6

/-- **C68** for every database, every row, all keys and all randomness, building the database, sending a query and answering
it succeed, and the client decodes the row it asked for whenever the accumulated error is below the threshold. -/
theorem spiral_retrieves (hp : SetupOk P Q D pk W invFirst invRest) (hk : KeysOk P D W skReg skGsw C)
    (hr : RowsOk D pk wd rowLen raw) {idx : Nat} (hi : idx < raw.length) {s : Nat → Sample} (hs : SampleOk P 1 1 (s 0)) :
    ∃ parts vs query, databasePts wd pk rowLen (2 ^ D.dims.v1 * 2 ^ D.dims.v2) raw = .ok parts ∧
      mapRes (reorientDatabase P D.p (D.n * D.n) (2 ^ D.dims.v2) (2 ^ D.dims.v1)) parts = .ok vs ∧
      genQuery P D skReg (ptIndex pk rowLen idx) invFirst invRest s = .ok query ∧
      ((∀ part r c z, part < parts.length → r < D.n → c < D.n → z < P.n →
        4 * (Q.modulus : ℤ) * ((P.modulus % D.p : Nat) * D.p) + 8 * Q.modulus * (D.p *
            |coeff (respNoise P D (theRun P D pk skReg (genPublicKeys P D skReg skGsw C) C s rowLen idx parts vs query) part r c) z|) +
          4 * P.modulus * D.p * W < 3 * P.modulus * Q.modulus) →
      ∃ resp, processQuery P D Q.modulus (genPublicKeys P D skReg skGsw C)
          (concatDbs (D.n * D.n * (2 ^ D.dims.v1 * 2 ^ D.dims.v2) * P.n) vs)
          (D.n * D.n * (2 ^ D.dims.v1 * 2 ^ D.dims.v2) * P.n) parts.length query = .ok resp ∧
        decodeAnswer P Q D Q.modulus pk skGsw rowLen idx resp = .ok raw[idx]) := by
  have ok := hp.ring
  obtain ⟨parts, p1, -, p3, p4⟩ := row_round_trip hr.width hp.bits hr.bits hp.bytes hr.len
    (by rintro rfl; simp at hi) hr.rows hr.bytes hr.room
  obtain ⟨query, q1, q2, -⟩ := genQuery_spec ok hp.scheme (⟨hk.reg, (p4 idx hi).1, hp.first_lt, hp.rest_lt, hp.first, hp.rest, hs⟩ :
    QueryOk P D skReg (ptIndex pk rowLen idx) invFirst invRest s)
  obtain ⟨parts, vs, h1, h2, h3⟩ := retrieves_sent hp hk hr hi hs (keysFor_gen ok hk.reg hk.gsw hp.scheme hk.coins)
    ⟨query, q1, rfl, rfl, q2.le.mono (Nat.sub_le _ _), fun _ _ => rfl⟩
  exact ⟨parts, vs, query, h1, h2, q1, h3⟩

/-- The same with keys and a query that have the values of those the client made. -/
theorem bounded_sent (hp : SetupOk P Q D pk W invFirst invRest) (hk : KeysOk P D W skReg skGsw C)
    (hr : RowsOk D pk wd rowLen raw) {idx : Nat} (hi : idx < raw.length) {s : Nat → Sample} (hs : SampleOk P 1 1 (s 0))
    {K : PublicKeys} (hK : KeysFor P D skReg skGsw C K) {query : Mat}
    (hsent : SentQuery P D skReg (ptIndex pk rowLen idx) invFirst invRest s query)
    {b : Nat} (hC : C.Le b) (hsb : (s 0).Le b)
    (hb : 4 * Q.modulus * (P.modulus % D.p * D.p) + 8 * Q.modulus * (D.p * respBound P D W b) + 4 * P.modulus * D.p * W <
      3 * P.modulus * Q.modulus) :
    ∃ parts vs resp, databasePts wd pk rowLen (2 ^ D.dims.v1 * 2 ^ D.dims.v2) raw = .ok parts ∧
      mapRes (reorientDatabase P D.p (D.n * D.n) (2 ^ D.dims.v2) (2 ^ D.dims.v1)) parts = .ok vs ∧
      processQuery P D Q.modulus K
        (concatDbs (D.n * D.n * (2 ^ D.dims.v1 * 2 ^ D.dims.v2) * P.n) vs)
        (D.n * D.n * (2 ^ D.dims.v1 * 2 ^ D.dims.v2) * P.n) parts.length query = .ok resp ∧
      decodeAnswer P Q D Q.modulus pk skGsw rowLen idx resp = .ok raw[idx] := by
  obtain ⟨parts, vs, h1, h2, h4⟩ := retrieves_sent hp hk hr hi hs hK hsent
  have hD0 : 0 < D.p := by rw [hp.pt]; positivity
  have hparts : ∀ db ∈ parts, ∀ c ∈ db, ∀ x ∈ c, x < D.p := by
    obtain ⟨parts', p1, -, p3, -⟩ := row_round_trip hr.width hp.bits hr.bits hp.bytes hr.len
      (by rintro rfl; simp at hi) hr.rows hr.bytes hr.room
    rw [h1] at p1
    obtain rfl : parts = parts' := Res.ok.inj p1
    intro db hd c hc
    rw [hp.pt]
    exact ((p3 db hd).2 c hc).2
  obtain ⟨resp, h5, h6⟩ := h4 (by
    intro part r c z _ _ _ hz
    have hsm := respNoise_small (P := P) (D := D) (R := theRun P D pk skReg K C s rowLen idx parts vs query) hD0 hparts hC
      hsb (W := W) (by
        refine le_trans (le_of_eq (sum_congr rfl fun i hi => ?_)) hk.light_reg
        simp only [theRun]
        rw [coeff_toA _ (mem_range.1 hi)]) part r c z hz
    generalize |coeff (respNoise P D (theRun P D pk skReg K C s rowLen idx parts vs query) part r c) z| = e at *
    have hb' : (4 * (Q.modulus : ℤ) * ((P.modulus % D.p : Nat) * D.p) + 8 * Q.modulus * (D.p * respBound P D W b) +
        4 * P.modulus * D.p * W) < 3 * P.modulus * Q.modulus := by exact_mod_cast hb
    have h0 : (0 : ℤ) ≤ 8 * Q.modulus * D.p := by positivity
    nlinarith [mul_le_mul_of_nonneg_left hsm h0])
  exact ⟨parts, vs, resp, h1, h2, h5, h6⟩

/-- **C68** with errors of at most `b` the client always gets the row, provided that the worst case stays below the
threshold. -/
theorem spiral_bounded (hp : SetupOk P Q D pk W invFirst invRest) (hk : KeysOk P D W skReg skGsw C)
    (hr : RowsOk D pk wd rowLen raw) {idx : Nat} (hi : idx < raw.length) {s : Nat → Sample} (hs : SampleOk P 1 1 (s 0))
    {b : Nat} (hC : C.Le b) (hsb : (s 0).Le b)
    (hb : 4 * Q.modulus * (P.modulus % D.p * D.p) + 8 * Q.modulus * (D.p * respBound P D W b) + 4 * P.modulus * D.p * W <
      3 * P.modulus * Q.modulus) :
    ∃ parts vs query resp, databasePts wd pk rowLen (2 ^ D.dims.v1 * 2 ^ D.dims.v2) raw = .ok parts ∧
      mapRes (reorientDatabase P D.p (D.n * D.n) (2 ^ D.dims.v2) (2 ^ D.dims.v1)) parts = .ok vs ∧
      genQuery P D skReg (ptIndex pk rowLen idx) invFirst invRest s = .ok query ∧
      processQuery P D Q.modulus (genPublicKeys P D skReg skGsw C)
        (concatDbs (D.n * D.n * (2 ^ D.dims.v1 * 2 ^ D.dims.v2) * P.n) vs)
        (D.n * D.n * (2 ^ D.dims.v1 * 2 ^ D.dims.v2) * P.n) parts.length query = .ok resp ∧
      decodeAnswer P Q D Q.modulus pk skGsw rowLen idx resp = .ok raw[idx] := by
  have ok := hp.ring
  obtain ⟨parts, p1, -, p3, p4⟩ := row_round_trip hr.width hp.bits hr.bits hp.bytes hr.len
    (by rintro rfl; simp at hi) hr.rows hr.bytes hr.room
  obtain ⟨query, q1, q2, -⟩ := genQuery_spec ok hp.scheme (⟨hk.reg, (p4 idx hi).1, hp.first_lt, hp.rest_lt, hp.first, hp.rest, hs⟩ :
    QueryOk P D skReg (ptIndex pk rowLen idx) invFirst invRest s)
  obtain ⟨parts, vs, resp, h1, h2, h3, h4⟩ := bounded_sent hp hk hr hi hs (keysFor_gen ok hk.reg hk.gsw hp.scheme hk.coins)
    ⟨query, q1, rfl, rfl, q2.le.mono (Nat.sub_le _ _), fun _ _ => rfl⟩ hC hsb hb
  exact ⟨parts, vs, query, resp, h1, h2, q1, h3, h4⟩

/-! ### The default parameters -/

/-- The parameters of `GetDefaultParam` (`util.cc:55-75`) with other dimensions. -/
def Scheme.default (d : Dims) : Scheme := ⟨2, 256, 4, 8, 8, d⟩

/-- The plaintexts of the default parameters. -/
def PackPar.default : PackPar := ⟨8, 8192⟩

/-- The inverse of `2 ^ k` modulo the default modulus. -/
def invPow (k : Nat) : Nat := 33487344869801985 ^ k % 66974689739603969

theorem invPow_lt (k : Nat) : invPow k < 66974689739603969 := by
  unfold invPow
  exact Nat.mod_lt _ (by norm_num)

theorem invPow_spec (k : Nat) : 2 ^ k * invPow k % 66974689739603969 = 1 := by
  unfold invPow
  rw [Nat.mul_mod, Nat.mod_mod, ← Nat.mul_mod, ← Nat.mul_pow, Nat.pow_mod]
  norm_num

theorem default_bits (avx : Bool) (t : Nat) : bitsPer (Par.default avx) t = if t = 56 then 1 else 56 / t + 1 := by
  unfold bitsPer
  rw [default_log2]

theorem default_fits (avx : Bool) : DigitFits (Par.default avx) 8 := by
  intro c tb h
  rw [default_bits]
  match c with
  | 0 =>
    have : buildTables Crt.default.mod0 11 66687 181947619 = tb := by simpa [Par.default, Par.two] using h
    rw [← this]
    decide +kernel
  | 1 =>
    have : buildTables Crt.default.mod1 11 158221 88293783 = tb := by simpa [Par.default, Par.two] using h
    rw [← this]
    decide +kernel
  | c + 2 => simp [Par.default, Par.two] at h

/-- Dimensions that `UpdateByDatabaseInfo` chooses for the default parameters are ones the scheme works with. -/
theorem default_scheme {size : Nat} {d : Dims} (hu : updateDims 11 6 size = .ok d) (avx : Bool) :
    SchemeOk (Par.default avx) (Scheme.default d) := by
  have hd : validCheck 11 d = .ok () ∧ (d.tgsw = 4 ∨ d.tgsw = 6) ∧ 0 < d.v2 := by
    by_cases h4 : 4 < size
    · obtain ⟨h1, h2⟩ := update_fits_partial hu
      obtain ⟨-, e, hv⟩ := updateDims_dims h4 hu
      exact ⟨hv, Or.inr (h2 h4).2, h1.pos.2⟩
    · unfold updateDims at hu
      rw [if_pos (by omega)] at hu
      have hv : validCheck 11 ⟨4, 2, 1⟩ = .ok () := by decide +kernel
      rw [hv, Res.ok_bind] at hu
      rw [← Res.ok.inj hu]
      exact ⟨hv, Or.inl rfl, by decide⟩
  obtain ⟨hv, ht, h0⟩ := hd
  refine ⟨hv, ?_, ?_, by simp [Scheme.default], by simp [Scheme.default], by simp [Scheme.default], default_fits avx, default_fits avx⟩
  · show 2 ≤ d.tgsw * d.v2
    rcases ht with e | e <;> rw [e] <;> omega
  · show bitsPer (Par.default avx) d.tgsw * (d.tgsw - 1) < 64
    rw [default_bits]
    rcases ht with e | e <;> rw [e] <;> decide

theorem Scheme.default_dims (d : Dims) : (Scheme.default d).dims = d := rfl

theorem Scheme.default_p (d : Dims) : (Scheme.default d).p = 256 := rfl

theorem Scheme.default_n (d : Dims) : (Scheme.default d).n = 2 := rfl

theorem Par.default_n (avx : Bool) : (Par.default avx).n = 2048 := rfl

theorem default_setup {size : Nat} {d : Dims} (hu : updateDims 11 6 size = .ok d) (avx : Bool) :
    SetupOk (Par.default avx) (Par.q2 avx) (Scheme.default d) PackPar.default 512 (invPow d.g) (invPow (d.stopRound + 1)) where
  ring := Par.default_ok avx
  two := by simp [Par.default, Par.two]
  ring2 := Par.q2_ok avx
  same := rfl
  scheme := default_scheme hu avx
  pt := by simp [Scheme.default, PackPar.default]
  coeffs := by rw [Scheme.default_n, Par.default_n]; rfl
  bits := by decide
  bytes := by decide
  pt_le := by rw [default_modulus]; simp [Scheme.default]
  middle := by rw [Par.q2_modulus, Scheme.default_p]; norm_num
  le := by rw [default_modulus, Par.q2_modulus]; decide
  fits := by rw [Par.q2_modulus, Scheme.default_p]; norm_num
  weight := by rw [default_modulus]; decide
  first_lt := by rw [default_modulus]; exact invPow_lt _
  rest_lt := by rw [default_modulus]; exact invPow_lt _
  first := by rw [default_modulus, Scheme.default_dims]; exact invPow_spec _
  rest := by rw [default_modulus, Scheme.default_dims]; exact invPow_spec _

theorem update_of_info {pk : PackPar} {L t rows len size : Nat} {d : Dims}
    (hu : updateByDatabaseInfo pk L t rows len = .ok (d, size)) :
    updateDims L t (plaintextsFor pk rows len) = .ok d ∧ plaintextsFor pk rows len ≤ 2 ^ d.v1 * 2 ^ d.v2 := by
  have h : updateDims L t (plaintextsFor pk rows len) = .ok d := by
    unfold updateByDatabaseInfo at hu
    unfold plaintextsFor
    simp only at hu
    cases hd : updateDims L t (uintNum rows (pk.elementSize (pk.elementLen len))) with
    | ok d' =>
      rw [hd, Res.ok_bind] at hu
      have := Res.ok.inj hu
      rw [(Prod.mk.inj this).1]
    | throws => rw [hd] at hu; cases hu
    | undefined => rw [hd] at hu; cases hu
  refine ⟨h, ?_⟩
  rw [← Nat.pow_add]
  exact (update_fits_partial h).1.holds

/-- **C68** with the default parameters and the dimensions the library chooses, every row of every accepted database comes
back as long as the accumulated error stays below `76305826579175`. -/
theorem default_retrieves (avx : Bool) {d : Dims} {size : Nat} (hlen : 0 < rowLen)
    (hu : updateByDatabaseInfo PackPar.default 11 6 raw.length rowLen = .ok (d, size))
    (hrows : ∀ r ∈ raw, r.length = rowLen) (hbytes : ∀ r ∈ raw, ∀ x ∈ r, x < 256)
    (hk : KeysOk (Par.default avx) (Scheme.default d) 512 skReg skGsw C) {idx : Nat} (hi : idx < raw.length)
    {s : Nat → Sample} (hs : SampleOk (Par.default avx) 1 1 (s 0)) :
    ∃ parts vs query, databasePts 8 PackPar.default rowLen (2 ^ d.v1 * 2 ^ d.v2) raw = .ok parts ∧
      mapRes (reorientDatabase (Par.default avx) 256 4 (2 ^ d.v2) (2 ^ d.v1)) parts = .ok vs ∧
      genQuery (Par.default avx) (Scheme.default d) skReg (ptIndex PackPar.default rowLen idx) (invPow d.g)
        (invPow (d.stopRound + 1)) s = .ok query ∧
      ((∀ part r c z, part < parts.length → r < 2 → c < 2 → z < 2048 →
        |coeff (respNoise (Par.default avx) (Scheme.default d)
          (theRun (Par.default avx) (Scheme.default d) PackPar.default skReg
            (genPublicKeys (Par.default avx) (Scheme.default d) skReg skGsw C) C s rowLen idx parts vs query) part r c) z| ≤
          76305826579175) →
      ∃ resp, processQuery (Par.default avx) (Scheme.default d) 786433
          (genPublicKeys (Par.default avx) (Scheme.default d) skReg skGsw C)
          (concatDbs (4 * (2 ^ d.v1 * 2 ^ d.v2) * 2048) vs) (4 * (2 ^ d.v1 * 2 ^ d.v2) * 2048) parts.length query = .ok resp ∧
        decodeAnswer (Par.default avx) (Par.q2 avx) (Scheme.default d) 786433 PackPar.default skGsw rowLen idx resp =
          .ok raw[idx]) := by
  obtain ⟨hu1, hu2⟩ := update_of_info hu
  obtain ⟨parts, vs, query, h1, h2, h3, h4⟩ := spiral_retrieves (default_setup hu1 avx) hk
    (wd := 8) ⟨by norm_num, by decide, hlen, hrows, hbytes, hu2⟩ hi hs
  rw [Par.q2_modulus] at h4
  refine ⟨parts, vs, query, h1, h2, h3, fun hn => h4 fun part r c z hp hr hc hz => ?_⟩
  have := hn part r c z hp hr hc hz
  rw [default_modulus]
  show 4 * ((786433 : Nat) : ℤ) * ((66974689739603969 % 256 : Nat) * ((256 : Nat) : ℤ)) + 8 * ((786433 : Nat) : ℤ) *
    (((256 : Nat) : ℤ) * _) + 4 * ((66974689739603969 : Nat) : ℤ) * ((256 : Nat) : ℤ) * ((512 : Nat) : ℤ) < _
  norm_num
  omega

/-- **C68** the server never answers with dimensions that `ValidCheck` refuses for being too small to expand: whatever the
keys, the database and the query, it throws. -/
theorem refuses_unchecked {P : Par} {D : Scheme} {polyLog q2 : Nat} {K : PublicKeys} {dbs : Words} {size parts : Nat}
    {query : Mat} (h1 : D.dims.v1 ≤ maxDbDim) (h2 : D.dims.v2 ≤ maxDbDim) (h3 : D.dims.g ≤ polyLog) (hg : 0 < D.dims.g)
    (h : validCheck polyLog D.dims ≠ .ok ()) : processQuery P D q2 K dbs size parts query = .throws := by
  have hpow : 2 ^ D.dims.g / 2 = 2 ^ (D.dims.g - 1) := by
    have : 2 ^ D.dims.g = 2 * 2 ^ (D.dims.g - 1) := by
      rw [← Nat.pow_succ']
      congr 1
      omega
    omega
  unfold validCheck at h
  rw [if_neg (by omega), if_neg (by omega), if_neg (by omega)] at h
  unfold processQuery
  refine if_neg ?_
  unfold expandOk
  rw [hpow, Nat.mul_comm, decide_eq_true_iff]
  rintro ⟨a, b⟩
  exact h (by rw [if_neg (by omega), if_neg (by omega)])

/-- Without a second dimension, and with a second dimension too large for the first. -/
example {P : Par} {K : PublicKeys} {dbs : Words} {query : Mat} :=
  refuses_unchecked (P := P) (D := Scheme.default ⟨6, 3, 0⟩) (polyLog := 11) (q2 := 786433) (K := K) (dbs := dbs) (size := 1)
    (parts := 1) (query := query) (by decide) (by decide) (by decide +kernel) (by decide +kernel) (by decide +kernel)

example {P : Par} {K : PublicKeys} {dbs : Words} {query : Mat} :=
  refuses_unchecked (P := P) (D := Scheme.default ⟨6, 1, 3⟩) (polyLog := 11) (q2 := 786433) (K := K) (dbs := dbs) (size := 1)
    (parts := 1) (query := query) (by decide) (by decide) (by decide +kernel) (by decide +kernel) (by decide +kernel)

/-- **C68** without errors every row comes back exactly. -/
theorem default_noiseless (avx : Bool) {d : Dims} {size : Nat} (hlen : 0 < rowLen)
    (hu : updateByDatabaseInfo PackPar.default 11 6 raw.length rowLen = .ok (d, size))
    (hrows : ∀ r ∈ raw, r.length = rowLen) (hbytes : ∀ r ∈ raw, ∀ x ∈ r, x < 256)
    (hk : KeysOk (Par.default avx) (Scheme.default d) 512 skReg skGsw C) {idx : Nat} (hi : idx < raw.length)
    {s : Nat → Sample} (hs : SampleOk (Par.default avx) 1 1 (s 0)) (hC : C.Le 0) (hs0 : (s 0).Le 0) :
    ∃ parts vs query resp, databasePts 8 PackPar.default rowLen (2 ^ d.v1 * 2 ^ d.v2) raw = .ok parts ∧
      mapRes (reorientDatabase (Par.default avx) 256 4 (2 ^ d.v2) (2 ^ d.v1)) parts = .ok vs ∧
      genQuery (Par.default avx) (Scheme.default d) skReg (ptIndex PackPar.default rowLen idx) (invPow d.g)
        (invPow (d.stopRound + 1)) s = .ok query ∧
      processQuery (Par.default avx) (Scheme.default d) 786433
        (genPublicKeys (Par.default avx) (Scheme.default d) skReg skGsw C)
        (concatDbs (4 * (2 ^ d.v1 * 2 ^ d.v2) * 2048) vs) (4 * (2 ^ d.v1 * 2 ^ d.v2) * 2048) parts.length query = .ok resp ∧
      decodeAnswer (Par.default avx) (Par.q2 avx) (Scheme.default d) 786433 PackPar.default skGsw rowLen idx resp =
        .ok raw[idx] := by
  obtain ⟨hu1, hu2⟩ := update_of_info hu
  have h0 : ∀ i, expandBound (Par.default avx) (Scheme.default d) 0 i = 0 := by
    intro i
    induction i with
    | zero => rfl
    | succ i ih =>
      unfold expandBound switchBound
      rw [ih]
      simp
  have hr : respBound (Par.default avx) (Scheme.default d) 512 0 = 0 := by
    unfold respBound firstBound gswBound
    rw [h0]
    simp [switchBound]
  obtain ⟨parts, vs, query, resp, h1, h2, h3, h4, h5⟩ := spiral_bounded (default_setup hu1 avx) hk
    (wd := 8) ⟨by norm_num, by decide, hlen, hrows, hbytes, hu2⟩ hi hs hC hs0 (by
      rw [hr, Par.q2_modulus, default_modulus]
      show 4 * 786433 * (66974689739603969 % 256 * 256) + 8 * 786433 * (256 * 0) + 4 * 66974689739603969 * 256 * 512 < _
      norm_num)
  rw [Par.q2_modulus] at h4 h5
  exact ⟨parts, vs, query, resp, h1, h2, h3, h4, h5⟩

end Psi.Spiral
