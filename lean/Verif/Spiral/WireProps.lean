import Verif.Spiral.WireLemmas

/-!
# C70, C71: Spiral PIR across messages and across a restart

C70: the row comes back although keys, query and answer cross as messages and the first row of the query is drawn again by
the server from a seed.  C71: what `Dump` wrote and `Load` read is a server that answers like that.
-/

namespace Psi.Spiral

open Finset

variable {P Q : Par} {D : Scheme} {pk : PackPar} {W invFirst invRest wd rowLen : Nat} {skReg skGsw : Mat} {C : KeyCoins}
  {raw : List (List Nat)}

/-- A server that holds the rows in the order of the first dimension. -/
structure Serves (P : Par) (D : Scheme) (pk : PackPar) (wd rowLen : Nat) (raw : List (List Nat)) (S : Server)
    (parts : List (List (List Nat))) : Prop where
  pts : databasePts wd pk rowLen (2 ^ D.dims.v1 * 2 ^ D.dims.v2) raw = .ok parts
  dbs : mapRes (reorientDatabase P D.p (D.n * D.n) (2 ^ D.dims.v2) (2 ^ D.dims.v1)) parts = .ok S.dbs
  partNum : S.partNum = parts.length
  dims : S.dims = D.dims
  single : S.singleDb = D.n * D.n * (2 ^ D.dims.v1 * 2 ^ D.dims.v2) * P.n
  seted : S.seted = true

theorem mapRes_length {α β : Type} {f : α → Res β} {l : List α} {bs : List β} (h : mapRes f l = .ok bs) :
    bs.length = l.length := by
  induction l generalizing bs with
  | nil =>
    unfold mapRes at h
    rw [← Res.ok.inj h]
    rfl
  | cons a l ih =>
    unfold mapRes at h
    cases hf : f a with
    | ok b =>
      rw [hf, Res.ok_bind] at h
      cases hl : mapRes f l with
      | ok bs' =>
        rw [hl, Res.ok_bind] at h
        rw [← Res.ok.inj h, List.length_cons, List.length_cons, ih hl]
      | throws => rw [hl] at h; cases h
      | undefined => rw [hl] at h; cases h
    | throws => rw [hf] at h; cases h
    | undefined => rw [hf] at h; cases h

theorem respond_of_process (hw : WireOk P D) {S : Server} {parts : List (List (List Nat))}
    (hS : Serves P D pk wd rowLen raw S parts) {q2 idx : Nat} {draw : Nat → Nat → Nat} {qm : QueryProto} {km : KeysProto}
    {query : Mat} {K : PublicKeys} (hq : deserializeQuery P draw qm = .ok query) (hK : deserializeKeys P km = .ok K)
    {resp : List Mat} {row : List Nat}
    (hp : processQuery P D q2 K (concatDbs (D.n * D.n * (2 ^ D.dims.v1 * 2 ^ D.dims.v2) * P.n) S.dbs)
      (D.n * D.n * (2 ^ D.dims.v1 * 2 ^ D.dims.v2) * P.n) parts.length query = .ok resp)
    (hd : decodeAnswer P Q D q2 pk skGsw rowLen idx resp = .ok row) :
    ∃ rm, S.respond P D q2 draw qm km = .ok rm ∧ receiveAnswer P Q D q2 pk skGsw rowLen idx rm = .ok row := by
  have hDS : { D with dims := S.dims } = D := by rw [hS.dims]
  refine ⟨resp.map (toProto P), ?_, ?_⟩
  · unfold Server.respond
    rw [hq, Res.ok_bind, hK, Res.ok_bind, if_neg (by rw [hS.seted]; decide), hDS, if_neg, hS.single, hS.partNum, hp, Res.ok_bind]
    rintro ⟨-, h⟩
    rw [hS.partNum, mapRes_length hS.dbs] at h
    omega
  · unfold receiveAnswer
    rw [response_wire hw hp, Res.ok_bind]
    exact hd

/-! ### C70 -/

theorem seeded_ok (ok : ParOk P) {fill : Nat → Nat → Nat} {seed : Nat} {e : Nat → Nat → Nat → ℤ}
    (he : ∀ z, z < P.n → |e 0 0 z| < P.modulus) : SampleOk P 1 1 (seededSample P fill seed e 0) := by
  have hb := ok.modulus_bounds
  refine ⟨rfl, rfl, fun r c _ hc z _ => ?_, fun i j z hi hj hz => ?_⟩
  · unfold seededSample
    simp only
    rw [Mat.build_poly _ _ (show c < 1 from hc)]
    exact (Nat.mod_lt _ (by omega)).le
  · obtain rfl : i = 0 := by omega
    obtain rfl : j = 0 := by omega
    exact he z hz

/-- Any server that holds the rows answers, across messages. -/
theorem served_retrieves (hp : SetupOk P Q D pk W invFirst invRest) (hw : WireOk P D) (hk : KeysOk P D W skReg skGsw C)
    (hr : RowsOk D pk wd rowLen raw) {idx : Nat} (hi : idx < raw.length) {fill draw : Nat → Nat → Nat} {seed : Nat}
    {e : Nat → Nat → Nat → ℤ} (hseed : seed < 2 ^ 128) (hprg : ∀ z, z < P.n → draw seed z = fill seed z)
    (he : ∀ z, z < P.n → |e 0 0 z| < P.modulus) {S : Server} {parts : List (List (List Nat))}
    (hS : Serves P D pk wd rowLen raw S parts) :
    ∃ qm query K, sendQuery P D fill skReg (ptIndex pk rowLen idx) invFirst invRest seed e = .ok qm ∧
      deserializeQuery P draw qm = .ok query ∧
      deserializeKeys P (serializeKeys P (genPublicKeys P D skReg skGsw C)) = .ok K ∧
      ((∀ part r c z, part < parts.length → r < D.n → c < D.n → z < P.n →
        4 * (Q.modulus : ℤ) * ((P.modulus % D.p : Nat) * D.p) + 8 * Q.modulus * (D.p *
            |coeff (respNoise P D (theRun P D pk skReg K C (seededSample P fill seed e) rowLen idx parts S.dbs query) part r c) z|) +
          4 * P.modulus * D.p * W < 3 * P.modulus * Q.modulus) →
      ∃ rm, S.respond P D Q.modulus draw qm (serializeKeys P (genPublicKeys P D skReg skGsw C)) = .ok rm ∧
        receiveAnswer P Q D Q.modulus pk skGsw rowLen idx rm = .ok raw[idx]) := by
  have ok := hp.ring
  obtain ⟨_, -, -, -, p4⟩ := row_round_trip hr.width hp.bits hr.bits hp.bytes hr.len
    (by rintro rfl; simp at hi) hr.rows hr.bytes hr.room
  have hs : SampleOk P 1 1 (seededSample P fill seed e 0) := seeded_ok ok he
  have hQ : QueryOk P D skReg (ptIndex pk rowLen idx) invFirst invRest (seededSample P fill seed e) :=
    ⟨hk.reg, (p4 idx hi).1, hp.first_lt, hp.rest_lt, hp.first, hp.rest, hs⟩
  obtain ⟨qm, query, q1, q2, q3⟩ := query_wire ok hp.scheme hw hseed hprg hQ
  obtain ⟨K, k1, k2⟩ := keys_wire ok hp.scheme hw hk.reg hk.gsw hk.coins
  refine ⟨qm, query, K, q1, q2, k1, fun hnoise => ?_⟩
  obtain ⟨parts'', vs, h1, h2, h3⟩ := retrieves_sent hp hk hr hi hs k2 q3
  rw [hS.pts] at h1
  obtain rfl : parts = parts'' := Res.ok.inj h1
  rw [hS.dbs] at h2
  obtain rfl : S.dbs = vs := Res.ok.inj h2
  obtain ⟨resp, r1, r2⟩ := h3 hnoise
  exact respond_of_process hw hS q2 k1 r1 r2

/-- The same for errors of at most `b`. -/
theorem served_bounded (hp : SetupOk P Q D pk W invFirst invRest) (hw : WireOk P D) (hk : KeysOk P D W skReg skGsw C)
    (hr : RowsOk D pk wd rowLen raw) {idx : Nat} (hi : idx < raw.length) {fill draw : Nat → Nat → Nat} {seed : Nat}
    {e : Nat → Nat → Nat → ℤ} (hseed : seed < 2 ^ 128) (hprg : ∀ z, z < P.n → draw seed z = fill seed z)
    {b : Nat} (hC : C.Le b) (heb : ∀ i j z, |e i j z| ≤ b) (hbq : b < P.modulus)
    (hb : 4 * Q.modulus * (P.modulus % D.p * D.p) + 8 * Q.modulus * (D.p * respBound P D W b) + 4 * P.modulus * D.p * W <
      3 * P.modulus * Q.modulus) {S : Server} {parts : List (List (List Nat))}
    (hS : Serves P D pk wd rowLen raw S parts) :
    ∃ qm rm, sendQuery P D fill skReg (ptIndex pk rowLen idx) invFirst invRest seed e = .ok qm ∧
      S.respond P D Q.modulus draw qm (serializeKeys P (genPublicKeys P D skReg skGsw C)) = .ok rm ∧
      receiveAnswer P Q D Q.modulus pk skGsw rowLen idx rm = .ok raw[idx] := by
  have ok := hp.ring
  obtain ⟨_, -, -, -, p4⟩ := row_round_trip hr.width hp.bits hr.bits hp.bytes hr.len
    (by rintro rfl; simp at hi) hr.rows hr.bytes hr.room
  have hs : SampleOk P 1 1 (seededSample P fill seed e 0) := seeded_ok ok fun z _ => by
    have := heb 0 0 z
    omega
  obtain ⟨qm, query, q1, q2, q3⟩ := query_wire ok hp.scheme hw hseed hprg
    ⟨hk.reg, (p4 idx hi).1, hp.first_lt, hp.rest_lt, hp.first, hp.rest, hs⟩
  obtain ⟨K, k1, k2⟩ := keys_wire ok hp.scheme hw hk.reg hk.gsw hk.coins
  obtain ⟨parts'', vs, resp, h1, h2, r1, r2⟩ := bounded_sent hp hk hr hi hs k2 q3 hC heb hb
  rw [hS.pts] at h1
  obtain rfl : parts = parts'' := Res.ok.inj h1
  rw [hS.dbs] at h2
  obtain rfl : S.dbs = vs := Res.ok.inj h2
  obtain ⟨rm, r3, r4⟩ := respond_of_process hw hS q2 k1 r1 r2
  exact ⟨qm, rm, q1, r3, r4⟩

theorem Server.kept_nil {α : Type} (pk : PackPar) (S : Server) : S.kept pk ([] : List α) = [] := by
  unfold Server.kept
  split_ifs
  all_goals rfl

/-- The server of `GenerateFromRawDataAndReorient`. -/
theorem reoriented_serves (hp : SetupOk P Q D pk W invFirst invRest) (hr : RowsOk D pk 64 rowLen raw) (h0 : raw ≠ []) :
    ∃ S parts, Server.generateReoriented P D pk { rows := raw.length, rowLen := rowLen, dims := D.dims } raw = .ok S ∧
      Serves P D pk 64 rowLen raw S parts := by
  obtain ⟨parts, p1, -, p3, -⟩ := row_round_trip hr.width hp.bits hr.bits hp.bytes hr.len h0 hr.rows hr.bytes hr.room
  obtain ⟨vs, v1, -⟩ := first_dimension_ring hp.ring hp.two (p := D.p) (trials := D.n * D.n) (numPer := 2 ^ D.dims.v2)
    (dim0 := 2 ^ D.dims.v1) hp.pt_le (Nat.pow_le_pow_right (by norm_num) (by have := hp.scheme.checks; omega))
    (fun db hd => (p3 db hd).1) (fun db hd c hc => by rw [← hp.coeffs]; exact (((p3 db hd).2 c hc).1).ge)
    (fun db hd c hc => by rw [hp.pt]; exact ((p3 db hd).2 c hc).2) (reg := fun _ => .zero 2 1)
    (fun j _ => ⟨zero_ok hp.ring _ _, rfl, rfl⟩)
  refine ⟨{ rows := raw.length
            rowLen := rowLen
            dims := D.dims
            ptNums := uintNum raw.length (pk.elementSize (pk.elementLen rowLen))
            singleDb := D.n * D.n * (2 ^ D.dims.v1 * 2 ^ D.dims.v2) * P.n
            partNum := parts.length
            dbs := vs
            seted := true }, parts, ?_, ⟨p1, v1, rfl, rfl, rfl, rfl⟩⟩
  unfold Server.generateReoriented Server.prod
  rw [if_neg (by simp)]
  simp only
  rw [p1, Res.ok_bind, v1, Res.ok_bind, Server.kept_nil, List.nil_append]

/-- **C70** the client gets the row it asked for, its keys, its query and the answer being messages and the first row of the
query being drawn by the server from the seed, whenever the accumulated error is below the threshold. -/
theorem wire_retrieves (hp : SetupOk P Q D pk W invFirst invRest) (hw : WireOk P D) (hk : KeysOk P D W skReg skGsw C)
    (hr : RowsOk D pk 64 rowLen raw) {idx : Nat} (hi : idx < raw.length) {fill draw : Nat → Nat → Nat} {seed : Nat}
    {e : Nat → Nat → Nat → ℤ} (hseed : seed < 2 ^ 128) (hprg : ∀ z, z < P.n → draw seed z = fill seed z)
    (he : ∀ z, z < P.n → |e 0 0 z| < P.modulus) :
    ∃ S parts qm query K,
      Server.generateReoriented P D pk { rows := raw.length, rowLen := rowLen, dims := D.dims } raw = .ok S ∧
      databasePts 64 pk rowLen (2 ^ D.dims.v1 * 2 ^ D.dims.v2) raw = .ok parts ∧
      sendQuery P D fill skReg (ptIndex pk rowLen idx) invFirst invRest seed e = .ok qm ∧
      deserializeQuery P draw qm = .ok query ∧
      deserializeKeys P (serializeKeys P (genPublicKeys P D skReg skGsw C)) = .ok K ∧
      ((∀ part r c z, part < parts.length → r < D.n → c < D.n → z < P.n →
        4 * (Q.modulus : ℤ) * ((P.modulus % D.p : Nat) * D.p) + 8 * Q.modulus * (D.p *
            |coeff (respNoise P D (theRun P D pk skReg K C (seededSample P fill seed e) rowLen idx parts S.dbs query) part r c) z|) +
          4 * P.modulus * D.p * W < 3 * P.modulus * Q.modulus) →
      ∃ rm, S.respond P D Q.modulus draw qm (serializeKeys P (genPublicKeys P D skReg skGsw C)) = .ok rm ∧
        receiveAnswer P Q D Q.modulus pk skGsw rowLen idx rm = .ok raw[idx]) := by
  obtain ⟨S, parts, s1, s2⟩ := reoriented_serves hp hr (by rintro rfl; simp at hi)
  obtain ⟨qm, query, K, h1, h2, h3, h4⟩ := served_retrieves hp hw hk hr hi hseed hprg he s2
  exact ⟨S, parts, qm, query, K, s1, s2.pts, h1, h2, h3, h4⟩

/-- **C70** for errors of at most `b` in all keys and in the query, if the worst case fits. -/
theorem wire_bounded (hp : SetupOk P Q D pk W invFirst invRest) (hw : WireOk P D) (hk : KeysOk P D W skReg skGsw C)
    (hr : RowsOk D pk 64 rowLen raw) {idx : Nat} (hi : idx < raw.length) {fill draw : Nat → Nat → Nat} {seed : Nat}
    {e : Nat → Nat → Nat → ℤ} (hseed : seed < 2 ^ 128) (hprg : ∀ z, z < P.n → draw seed z = fill seed z)
    {b : Nat} (hC : C.Le b) (heb : ∀ i j z, |e i j z| ≤ b) (hbq : b < P.modulus)
    (hb : 4 * Q.modulus * (P.modulus % D.p * D.p) + 8 * Q.modulus * (D.p * respBound P D W b) + 4 * P.modulus * D.p * W <
      3 * P.modulus * Q.modulus) :
    ∃ S qm rm, Server.generateReoriented P D pk { rows := raw.length, rowLen := rowLen, dims := D.dims } raw = .ok S ∧
      sendQuery P D fill skReg (ptIndex pk rowLen idx) invFirst invRest seed e = .ok qm ∧
      S.respond P D Q.modulus draw qm (serializeKeys P (genPublicKeys P D skReg skGsw C)) = .ok rm ∧
      receiveAnswer P Q D Q.modulus pk skGsw rowLen idx rm = .ok raw[idx] := by
  obtain ⟨S, parts, s1, s2⟩ := reoriented_serves hp hr (by rintro rfl; simp at hi)
  obtain ⟨qm, rm, h1, h2, h3⟩ := served_bounded hp hw hk hr hi hseed hprg hC heb hbq hb s2
  exact ⟨S, qm, rm, s1, h1, h2, h3⟩

theorem default_wire_ok (avx : Bool) (d : Dims) : WireOk (Par.default avx) (Scheme.default d) := by
  constructor <;> rw [Par.default_n] <;> norm_num [Scheme.default]

/-- **C70** with the default parameters: rows of any length, any number of rows, an accumulated error of at most
76305826579175. -/
theorem default_wire (avx : Bool) {d : Dims} {size : Nat} (hlen : 0 < rowLen)
    (hu : updateByDatabaseInfo PackPar.default 11 6 raw.length rowLen = .ok (d, size))
    (hrows : ∀ r ∈ raw, r.length = rowLen) (hbytes : ∀ r ∈ raw, ∀ x ∈ r, x < 256)
    (hk : KeysOk (Par.default avx) (Scheme.default d) 512 skReg skGsw C) {idx : Nat} (hi : idx < raw.length)
    {fill draw : Nat → Nat → Nat} {seed : Nat} {e : Nat → Nat → Nat → ℤ} (hseed : seed < 2 ^ 128)
    (hprg : ∀ z, z < 2048 → draw seed z = fill seed z) (he : ∀ z, z < 2048 → |e 0 0 z| < 66974689739603969) :
    ∃ S parts qm query K,
      Server.generateReoriented (Par.default avx) (Scheme.default d) PackPar.default
        { rows := raw.length, rowLen := rowLen, dims := d } raw = .ok S ∧
      databasePts 64 PackPar.default rowLen (2 ^ d.v1 * 2 ^ d.v2) raw = .ok parts ∧
      sendQuery (Par.default avx) (Scheme.default d) fill skReg (ptIndex PackPar.default rowLen idx) (invPow d.g)
        (invPow (d.stopRound + 1)) seed e = .ok qm ∧
      deserializeQuery (Par.default avx) draw qm = .ok query ∧
      deserializeKeys (Par.default avx)
        (serializeKeys (Par.default avx) (genPublicKeys (Par.default avx) (Scheme.default d) skReg skGsw C)) = .ok K ∧
      ((∀ part r c z, part < parts.length → r < 2 → c < 2 → z < 2048 →
        |coeff (respNoise (Par.default avx) (Scheme.default d)
          (theRun (Par.default avx) (Scheme.default d) PackPar.default skReg K C (seededSample (Par.default avx) fill seed e)
            rowLen idx parts S.dbs query) part r c) z| ≤ 76305826579175) →
      ∃ rm, S.respond (Par.default avx) (Scheme.default d) 786433 draw qm
          (serializeKeys (Par.default avx) (genPublicKeys (Par.default avx) (Scheme.default d) skReg skGsw C)) = .ok rm ∧
        receiveAnswer (Par.default avx) (Par.q2 avx) (Scheme.default d) 786433 PackPar.default skGsw rowLen idx rm =
          .ok raw[idx]) := by
  obtain ⟨hu1, hu2⟩ := update_of_info hu
  obtain ⟨S, parts, qm, query, K, h1, h2, h3, h4, h5, h6⟩ := wire_retrieves (default_setup hu1 avx) (default_wire_ok avx d) hk
    ⟨by norm_num, by decide, hlen, hrows, hbytes, hu2⟩ hi hseed hprg (e := e)
    (by rw [default_modulus]; exact he)
  rw [Par.q2_modulus] at h6
  refine ⟨S, parts, qm, query, K, h1, h2, h3, h4, h5, fun hn => h6 fun part r c z hp hr hc hz => ?_⟩
  have := hn part r c z hp hr hc hz
  rw [default_modulus]
  show 4 * ((786433 : Nat) : ℤ) * ((66974689739603969 % 256 : Nat) * ((256 : Nat) : ℤ)) + 8 * ((786433 : Nat) : ℤ) *
    (((256 : Nat) : ℤ) * _) + 4 * ((66974689739603969 : Nat) : ℤ) * ((256 : Nat) : ℤ) * ((512 : Nat) : ℤ) < _
  norm_num
  omega

/-- **C70** what crosses is what was sent: the received keys and the received query stand for the same ring elements. -/
theorem wire_exact (ok : ParOk P) (so : SchemeOk P D) (hw : WireOk P D) {idx seed : Nat} {fill draw : Nat → Nat → Nat}
    {e : Nat → Nat → Nat → ℤ} (hr : KeyOk P 1 skReg) (hg : KeyOk P D.n skGsw) (hC : CoinsOk P D C) (hseed : seed < 2 ^ 128)
    (hprg : ∀ z, z < P.n → draw seed z = fill seed z)
    (h : QueryOk P D skReg idx invFirst invRest (seededSample P fill seed e)) :
    ∃ K m q0 query, deserializeKeys P (serializeKeys P (genPublicKeys P D skReg skGsw C)) = .ok K ∧
      (∀ i, i < D.n → SameMat P (keyAt K.packing i) (packingKey P skReg skGsw D.n D.tConv i (C.pack i))) ∧
      (∀ i, i < D.dims.g → SameMat P (keyAt K.left i) (expansionKey P skReg D.tLeft i (C.left i))) ∧
      (∀ i, i ≤ D.dims.stopRound → SameMat P (keyAt K.right i) (expansionKey P skReg D.tRight i (C.right i))) ∧
      SameMat P K.conversion (conversionKey P skReg D.tConv C.conv) ∧
      sendQuery P D fill skReg idx invFirst invRest seed e = .ok m ∧ deserializeQuery P draw m = .ok query ∧
      genQuery P D skReg idx invFirst invRest (seededSample P fill seed e) = .ok q0 ∧
      query.rows = q0.rows ∧ query.cols = q0.cols ∧ ∀ r, r < 2 → rmat P query r 0 = rmat P q0 r 0 := by
  obtain ⟨K, k1, k2⟩ := keys_wire ok so hw hr hg hC
  obtain ⟨m, query, q1, q2, q0, q3, q4, q5, -, q6⟩ := query_wire ok so hw hseed hprg h
  exact ⟨K, m, q0, query, k1, k2.packing, k2.left, k2.right, k2.conversion, q1, q2, q3, q4, q5, q6⟩

/-- **C70** (limit) a query message with fewer than 16 bytes of seed makes the server read behind them. -/
theorem short_seed (P : Par) (draw : Nat → Nat → Nat) (ct : MatProto) {seed : List Nat} (h : seed.length < 16) :
    deserializeQuery P draw ⟨ct, seed⟩ = .undefined := by
  unfold deserializeQuery readSeed
  rw [if_pos h]
  rfl

/-- **C70** (limit) the check of the number of words wraps around: a message without any word passes as a matrix of `2 ^ 64`
words. -/
theorem size_wraps (P : Par) (hL : P.L ≤ 64) : ∃ M, fromProto P ⟨2 ^ (64 - P.L), 1, []⟩ = .ok M ∧ M.rows * M.cols * P.n = 2 ^ 64 := by
  have h : 2 ^ (64 - P.L) * 1 * P.n = 2 ^ 64 := by
    unfold Par.n
    rw [Nat.mul_one, ← Nat.pow_add]
    congr 1
    omega
  refine ⟨matOf P (2 ^ (64 - P.L)) 1 [], ?_, h⟩
  unfold fromProto
  rw [if_pos]
  simp only
  rw [h]
  rfl

/-! ### C71 -/

theorem subPtDb_eq {prod : Nat} {parts : List (List (List Nat))}
    (h : ∀ pts ∈ parts, pts.length = prod ∧ ∀ pt ∈ pts, pt.length = pk.coeffs) :
    (List.range parts.length).map (subPtDb pk prod (prod * pk.coeffs) (parts.map List.flatten).flatten) = parts := by
  refine List.ext_getElem (by simp) fun i h1 h2 => ?_
  rw [List.getElem_map, List.getElem_range]
  have hi : i < parts.length := h2
  obtain ⟨l1, l2⟩ := h _ (List.getElem_mem h2)
  unfold subPtDb
  refine List.ext_getElem (by simp [l1]) fun j h3 h4 => ?_
  rw [List.getElem_map, List.getElem_range]
  have hj : j < prod := by simpa using h3
  have l3 := l2 _ (List.getElem_mem h4)
  refine List.ext_getElem (by simp [l3]) fun k h5 h6 => ?_
  rw [List.getElem_map, List.getElem_range]
  have hk : k < pk.coeffs := by simpa using h5
  have := stored_exact h hi hj hk
  unfold storedCoeff at this
  rw [List.getD_eq_getElem?_getD, this, Option.getD_some, List.getD_eq_getElem _ _ hi, List.getD_eq_getElem _ _ h4,
    List.getD_eq_getElem _ _ h6]

theorem generate_ok (hb : 0 < pk.maxBytes) (hr : RowsOk D pk 8 rowLen raw) (h8 : pk.logt = 8) (h0 : raw ≠ []) :
    ∃ S parts, Server.generate pk { rows := raw.length, rowLen := rowLen, dims := D.dims } raw = .ok S ∧
      databasePts 8 pk rowLen (2 ^ D.dims.v1 * 2 ^ D.dims.v2) raw = .ok parts ∧
      parts.length = (rowLen + pk.maxBytes - 1) / pk.maxBytes ∧ 0 < parts.length ∧
      (∀ pts ∈ parts, pts.length = 2 ^ D.dims.v1 * 2 ^ D.dims.v2 ∧ ∀ pt ∈ pts, pt.length = pk.coeffs ∧ ∀ c ∈ pt, c < 256) ∧
      S = { rows := raw.length, rowLen := rowLen, dims := D.dims,
            ptNums := uintNum raw.length (pk.elementSize (pk.elementLen rowLen)),
            singlePt := 2 ^ D.dims.v1 * 2 ^ D.dims.v2 * pk.coeffs, partNum := parts.length,
            ptDbs := (parts.map List.flatten).flatten, seted := true } := by
  obtain ⟨parts, p1, p2, p3, -⟩ := row_round_trip hr.width (by omega) hr.bits hb hr.len h0 hr.rows hr.bytes hr.room
  have hpos : 0 < parts.length := by
    rw [p2]
    have := hr.len
    exact Nat.div_pos (by omega) hb
  refine ⟨_, parts, ?_, p1, p2, hpos, fun pts hp => ⟨(p3 pts hp).1, fun pt hpt => ?_⟩, rfl⟩
  · unfold Server.generate Server.prod
    rw [if_neg (by simpa using h8), if_neg (by simp)]
    simp only
    rw [p1, Res.ok_bind, Server.kept_nil, List.nil_append]
    congr 2
    match parts, hpos with
    | pts :: _, _ =>
      obtain ⟨l1, l2⟩ := p3 pts List.mem_cons_self
      rw [List.headD_cons, flatten_length fun pt hpt => (l2 pt hpt).1, l1]
  · obtain ⟨l1, l2⟩ := (p3 pts hp).2 pt hpt
    rw [h8] at l2
    exact ⟨l1, fun c hc => by simpa using l2 c hc⟩

/-- **C71** a database that was built, dumped and loaded is served like the one built for answering at once. -/
theorem load_serves_partial (hp : SetupOk P Q D pk W invFirst invRest) (hr : RowsOk D pk 8 rowLen raw) (h8 : pk.logt = 8)
    (h0 : raw ≠ []) {polyLog tgsw size : Nat}
    (hu : updateByDatabaseInfo pk polyLog tgsw raw.length rowLen = .ok (D.dims, size))
    (hfit : (rowLen + pk.maxBytes - 1) / pk.maxBytes * (2 ^ D.dims.v1 * 2 ^ D.dims.v2 * pk.coeffs) < 2 ^ 64) :
    ∃ S m S' parts, Server.generate pk { rows := raw.length, rowLen := rowLen, dims := D.dims } raw = .ok S ∧
      S.dump = .ok m ∧ Server.load P D.n D.p pk polyLog tgsw m = .ok S' ∧ Serves P D pk 8 rowLen raw S' parts := by
  obtain ⟨S, parts, g1, p1, p2, hpos, p3, rfl⟩ := generate_ok hp.bytes hr h8 h0
  obtain ⟨vs, v1, -⟩ := first_dimension_ring hp.ring hp.two (p := D.p) (trials := D.n * D.n) (numPer := 2 ^ D.dims.v2)
    (dim0 := 2 ^ D.dims.v1) hp.pt_le (Nat.pow_le_pow_right (by norm_num) (by have := hp.scheme.checks; omega))
    (fun db hd => (p3 db hd).1) (fun db hd c hc => by rw [← hp.coeffs]; exact (((p3 db hd).2 c hc).1).ge)
    (fun db hd c hc => by rw [hp.pt, h8]; exact ((p3 db hd).2 c hc).2) (reg := fun _ => .zero 2 1)
    (fun j _ => ⟨zero_ok hp.ring _ _, rfl, rfl⟩)
  have hsize : size = uintNum raw.length (pk.elementSize (pk.elementLen rowLen)) := by
    unfold updateByDatabaseInfo at hu
    simp only at hu
    cases hd : updateDims polyLog tgsw (uintNum raw.length (pk.elementSize (pk.elementLen rowLen))) with
    | ok d =>
      rw [hd, Res.ok_bind] at hu
      exact (Prod.ext_iff.1 (Res.ok.inj hu)).2.symm
    | throws => rw [hd] at hu; cases hu
    | undefined => rw [hd] at hu; cases hu
  have hlen : ((parts.map List.flatten).flatten).length = parts.length * (2 ^ D.dims.v1 * 2 ^ D.dims.v2 * pk.coeffs) := by
    have := flatten_length (rows := parts.map List.flatten) (len := 2 ^ D.dims.v1 * 2 ^ D.dims.v2 * pk.coeffs) (by
      intro p hm
      obtain ⟨q, hq, rfl⟩ := List.mem_map.1 hm
      rw [flatten_length fun pt hpt => ((p3 q hq).2 pt hpt).1, (p3 q hq).1])
    rw [this, List.length_map]
  rw [← p2] at hfit
  refine ⟨_, _, { rows := raw.length
                  rowLen := rowLen
                  dims := D.dims
                  ptNums := size
                  singlePt := 2 ^ D.dims.v1 * 2 ^ D.dims.v2 * pk.coeffs
                  singleDb := D.n * D.n * (2 ^ D.dims.v1 * 2 ^ D.dims.v2) * P.n
                  partNum := parts.length
                  dbs := vs
                  seted := true }, parts, g1, rfl, ?_, ⟨p1, v1, rfl, rfl, rfl, rfl⟩⟩
  unfold Server.load
  simp only
  rw [hu, Res.ok_bind]
  simp only
  rw [if_neg (by rw [hsize]; simp), if_neg (by simp), if_neg (by simp), if_neg, if_neg, if_neg (by rw [Nat.mul_comm]; simp),
    subPtDb_eq fun pts hm => ⟨(p3 pts hm).1, fun pt hpt => ((p3 pts hm).2 pt hpt).1⟩, v1, Res.ok_bind]
  · rw [hlen, Nat.mul_assoc parts.length, w64_of_lt hfit]
    simp
  · rw [hlen, Nat.mul_comm, w64_of_lt hfit]
    simp

/-- **C71** a client that asks a loaded server over the wire gets its row, whenever the accumulated error is below the
threshold. -/
theorem restart_retrieves_partial (hp : SetupOk P Q D pk W invFirst invRest) (hw : WireOk P D) (hk : KeysOk P D W skReg skGsw C)
    (hr : RowsOk D pk 8 rowLen raw) (h8 : pk.logt = 8) {polyLog tgsw size : Nat}
    (hu : updateByDatabaseInfo pk polyLog tgsw raw.length rowLen = .ok (D.dims, size))
    (hfit : (rowLen + pk.maxBytes - 1) / pk.maxBytes * (2 ^ D.dims.v1 * 2 ^ D.dims.v2 * pk.coeffs) < 2 ^ 64)
    {idx : Nat} (hi : idx < raw.length) {fill draw : Nat → Nat → Nat} {seed : Nat} {e : Nat → Nat → Nat → ℤ}
    (hseed : seed < 2 ^ 128) (hprg : ∀ z, z < P.n → draw seed z = fill seed z) (he : ∀ z, z < P.n → |e 0 0 z| < P.modulus) :
    ∃ S m S' parts qm query K,
      Server.generate pk { rows := raw.length, rowLen := rowLen, dims := D.dims } raw = .ok S ∧
      S.dump = .ok m ∧ Server.load P D.n D.p pk polyLog tgsw m = .ok S' ∧
      databasePts 8 pk rowLen (2 ^ D.dims.v1 * 2 ^ D.dims.v2) raw = .ok parts ∧
      sendQuery P D fill skReg (ptIndex pk rowLen idx) invFirst invRest seed e = .ok qm ∧
      deserializeQuery P draw qm = .ok query ∧
      deserializeKeys P (serializeKeys P (genPublicKeys P D skReg skGsw C)) = .ok K ∧
      ((∀ part r c z, part < parts.length → r < D.n → c < D.n → z < P.n →
        4 * (Q.modulus : ℤ) * ((P.modulus % D.p : Nat) * D.p) + 8 * Q.modulus * (D.p *
            |coeff (respNoise P D (theRun P D pk skReg K C (seededSample P fill seed e) rowLen idx parts S'.dbs query) part r c) z|) +
          4 * P.modulus * D.p * W < 3 * P.modulus * Q.modulus) →
      ∃ rm, S'.respond P D Q.modulus draw qm (serializeKeys P (genPublicKeys P D skReg skGsw C)) = .ok rm ∧
        receiveAnswer P Q D Q.modulus pk skGsw rowLen idx rm = .ok raw[idx]) := by
  obtain ⟨S, m, S', parts, s1, s2, s3, s4⟩ := load_serves_partial hp hr h8 (by rintro rfl; simp at hi) hu hfit
  obtain ⟨qm, query, K, h1, h2, h3, h4⟩ := served_retrieves hp hw hk hr hi hseed hprg he s4
  exact ⟨S, m, S', parts, qm, query, K, s1, s2, s3, s4.pts, h1, h2, h3, h4⟩

/-- **C71** for errors of at most `b` in all keys and in the query, if the worst case fits. -/
theorem restart_bounded (hp : SetupOk P Q D pk W invFirst invRest) (hw : WireOk P D) (hk : KeysOk P D W skReg skGsw C)
    (hr : RowsOk D pk 8 rowLen raw) (h8 : pk.logt = 8) {polyLog tgsw size : Nat}
    (hu : updateByDatabaseInfo pk polyLog tgsw raw.length rowLen = .ok (D.dims, size))
    (hfit : (rowLen + pk.maxBytes - 1) / pk.maxBytes * (2 ^ D.dims.v1 * 2 ^ D.dims.v2 * pk.coeffs) < 2 ^ 64)
    {idx : Nat} (hi : idx < raw.length) {fill draw : Nat → Nat → Nat} {seed : Nat} {e : Nat → Nat → Nat → ℤ}
    (hseed : seed < 2 ^ 128) (hprg : ∀ z, z < P.n → draw seed z = fill seed z)
    {b : Nat} (hC : C.Le b) (heb : ∀ i j z, |e i j z| ≤ b) (hbq : b < P.modulus)
    (hb : 4 * Q.modulus * (P.modulus % D.p * D.p) + 8 * Q.modulus * (D.p * respBound P D W b) + 4 * P.modulus * D.p * W <
      3 * P.modulus * Q.modulus) :
    ∃ S m S' qm rm, Server.generate pk { rows := raw.length, rowLen := rowLen, dims := D.dims } raw = .ok S ∧
      S.dump = .ok m ∧ Server.load P D.n D.p pk polyLog tgsw m = .ok S' ∧
      sendQuery P D fill skReg (ptIndex pk rowLen idx) invFirst invRest seed e = .ok qm ∧
      S'.respond P D Q.modulus draw qm (serializeKeys P (genPublicKeys P D skReg skGsw C)) = .ok rm ∧
      receiveAnswer P Q D Q.modulus pk skGsw rowLen idx rm = .ok raw[idx] := by
  obtain ⟨S, m, S', parts, s1, s2, s3, s4⟩ := load_serves_partial hp hr h8 (by rintro rfl; simp at hi) hu hfit
  obtain ⟨qm, rm, h1, h2, h3⟩ := served_bounded hp hw hk hr hi hseed hprg hC heb hbq hb s4
  exact ⟨S, m, S', qm, rm, s1, s2, s3, h1, h2, h3⟩

/-- **C71** with the default parameters and fewer than `2 ^ 64` stored coefficients. -/
theorem default_restart (avx : Bool) {d : Dims} {size : Nat} (hlen : 0 < rowLen)
    (hu : updateByDatabaseInfo PackPar.default 11 6 raw.length rowLen = .ok (d, size))
    (hfit : (rowLen + 8191) / 8192 * (2 ^ d.v1 * 2 ^ d.v2 * 8192) < 2 ^ 64)
    (hrows : ∀ r ∈ raw, r.length = rowLen) (hbytes : ∀ r ∈ raw, ∀ x ∈ r, x < 256)
    (hk : KeysOk (Par.default avx) (Scheme.default d) 512 skReg skGsw C) {idx : Nat} (hi : idx < raw.length)
    {fill draw : Nat → Nat → Nat} {seed : Nat} {e : Nat → Nat → Nat → ℤ} (hseed : seed < 2 ^ 128)
    (hprg : ∀ z, z < 2048 → draw seed z = fill seed z) (he : ∀ z, z < 2048 → |e 0 0 z| < 66974689739603969) :
    ∃ S m S' parts qm query K,
      Server.generate PackPar.default { rows := raw.length, rowLen := rowLen, dims := d } raw = .ok S ∧
      S.dump = .ok m ∧ Server.load (Par.default avx) 2 256 PackPar.default 11 6 m = .ok S' ∧
      databasePts 8 PackPar.default rowLen (2 ^ d.v1 * 2 ^ d.v2) raw = .ok parts ∧
      sendQuery (Par.default avx) (Scheme.default d) fill skReg (ptIndex PackPar.default rowLen idx) (invPow d.g)
        (invPow (d.stopRound + 1)) seed e = .ok qm ∧
      deserializeQuery (Par.default avx) draw qm = .ok query ∧
      deserializeKeys (Par.default avx)
        (serializeKeys (Par.default avx) (genPublicKeys (Par.default avx) (Scheme.default d) skReg skGsw C)) = .ok K ∧
      ((∀ part r c z, part < parts.length → r < 2 → c < 2 → z < 2048 →
        |coeff (respNoise (Par.default avx) (Scheme.default d)
          (theRun (Par.default avx) (Scheme.default d) PackPar.default skReg K C (seededSample (Par.default avx) fill seed e)
            rowLen idx parts S'.dbs query) part r c) z| ≤ 76305826579175) →
      ∃ rm, S'.respond (Par.default avx) (Scheme.default d) 786433 draw qm
          (serializeKeys (Par.default avx) (genPublicKeys (Par.default avx) (Scheme.default d) skReg skGsw C)) = .ok rm ∧
        receiveAnswer (Par.default avx) (Par.q2 avx) (Scheme.default d) 786433 PackPar.default skGsw rowLen idx rm =
          .ok raw[idx]) := by
  obtain ⟨hu1, hu2⟩ := update_of_info hu
  obtain ⟨S, m, S', parts, qm, query, K, s1, s2, s3, h2, h3, h4, h5, h6⟩ := restart_retrieves_partial (default_setup hu1 avx)
    (default_wire_ok avx d) hk ⟨by norm_num, by decide, hlen, hrows, hbytes, hu2⟩ rfl hu hfit hi hseed hprg (e := e)
    (by rw [default_modulus]; exact he)
  rw [Par.q2_modulus] at h6
  refine ⟨S, m, S', parts, qm, query, K, s1, s2, s3, h2, h3, h4, h5, fun hn => h6 fun part r c z hp hr hc hz => ?_⟩
  have := hn part r c z hp hr hc hz
  rw [default_modulus]
  show 4 * ((786433 : Nat) : ℤ) * ((66974689739603969 % 256 : Nat) * ((256 : Nat) : ℤ)) + 8 * ((786433 : Nat) : ℤ) *
    (((256 : Nat) : ℤ) * _) + 4 * ((66974689739603969 : Nat) : ℤ) * ((256 : Nat) : ℤ) * ((512 : Nat) : ℤ) < _
  norm_num
  omega

/-- **C71** (limit) a server that was built with `GenerateFromRawData` and not loaded again counts as ready, and every query
that parses makes it read behind the end of its data. -/
theorem built_not_ready {S0 S : Server} (h0 : S0.dbs = []) (hg : Server.generate pk S0 raw = .ok S)
    {q2 : Nat} {draw : Nat → Nat → Nat} {qm : QueryProto} {km : KeysProto}
    {query : Mat} {K : PublicKeys} (hq : deserializeQuery P draw qm = .ok query) (hK : deserializeKeys P km = .ok K)
    (he : expandOk { D with dims := S0.dims } = true) :
    S.seted = true ∧ S.respond P D q2 draw qm km = .undefined := by
  unfold Server.generate at hg
  split_ifs at hg
  cases hp : databasePts 8 pk S0.rowLen S0.prod raw with
  | ok parts =>
    rw [hp, Res.ok_bind] at hg
    obtain rfl := (Res.ok.inj hg).symm
    refine ⟨rfl, ?_⟩
    have hpos : 0 < parts.length := by
      unfold databasePts at hp
      split_ifs at hp with hle
      · cases hx : rawToPts 8 pk raw.length S0.rowLen S0.prod raw with
        | ok p =>
          rw [hx, Res.ok_bind] at hp
          rw [← Res.ok.inj hp]
          simp
        | throws => rw [hx] at hp; cases hp
        | undefined => rw [hx] at hp; cases hp
      · rw [mapRes_length hp]
        unfold partitionRows
        split_ifs
        simp
    unfold Server.respond
    rw [hq, Res.ok_bind, hK, Res.ok_bind]
    simp only
    rw [if_neg (by decide), if_pos ⟨he, by rw [h0]; simpa using hpos⟩]
  | throws => rw [hp] at hg; cases hg
  | undefined => rw [hp] at hg; cases hg

/-- **C71** (limit) public keys without the key for the conversion pass the parsing, and a server that is ready then reads an
element of an empty vector. -/
theorem keys_without_conversion {S : Server} (_hs : S.seted = true) (_he : expandOk { D with dims := S.dims } = true) {q2 : Nat} {draw : Nat → Nat → Nat} {qm : QueryProto} {km : KeysProto}
    {query : Mat} (hq : deserializeQuery P draw qm = .ok query) {packing left right : List Mat}
    (h1 : readKeys P km.packing = .ok packing) (h2 : readKeys P km.left = .ok left)
    (h3 : readKeys P km.right = .ok right) (h4 : km.conversion = []) :
    S.respond P D q2 draw qm km = .undefined := by
  have e : deserializeKeys P km = .undefined := by
    unfold deserializeKeys
    rw [h1, Res.ok_bind, h2, Res.ok_bind, h3, Res.ok_bind, h4]
    rfl
  unfold Server.respond
  rw [hq, Res.ok_bind, e]
  rfl

example {S : Server} (hs : S.seted = true) (he : expandOk { D with dims := S.dims } = true) {q2 : Nat}
    {draw : Nat → Nat → Nat} {qm : QueryProto} {query : Mat} (hq : deserializeQuery P draw qm = .ok query) :
    S.respond P D q2 draw qm ⟨[], [], [], []⟩ = .undefined :=
  keys_without_conversion hs he hq (packing := []) (left := []) (right := []) rfl rfl rfl rfl

/-- **C71** (limit) `Dump` of a loaded server succeeds and writes a file that cannot be loaded. -/
theorem dump_of_loaded {polyLog tgsw n p : Nat} {m : ServerProto} {S : Server} (h0 : m.ptDbs ≠ [])
    (h : Server.load P n p pk polyLog tgsw m = .ok S) :
    ∃ m', S.dump = .ok m' ∧ Server.load P n p pk polyLog tgsw m' = .throws := by
  unfold Server.load at h
  cases hu : updateByDatabaseInfo pk polyLog tgsw m.rows m.rowLen with
  | ok x =>
    rw [hu, Res.ok_bind] at h
    simp only at h
    split_ifs at h with c1 c2 c3 c4 c5 c6
    push Not at c1 c2 c3 c4 c5 c6
    cases hm : mapRes (reorientDatabase P p (n * n) (2 ^ x.1.v2) (2 ^ x.1.v1))
        ((List.range m.partNum).map (subPtDb pk (2 ^ x.1.v1 * 2 ^ x.1.v2) m.singlePt m.ptDbs)) with
    | ok dbs =>
      rw [hm, Res.ok_bind] at h
      obtain rfl := (Res.ok.inj h).symm
      refine ⟨_, rfl, ?_⟩
      unfold Server.load
      simp only
      rw [hu, Res.ok_bind]
      rw [if_neg (by simp), if_neg (by simp), if_neg (by simp), if_pos]
      rw [c4]
      simpa using h0
    | throws => rw [hm] at h; cases h
    | undefined => rw [hm] at h; cases h
  | throws => rw [hu] at h; cases h
  | undefined => rw [hu] at h; cases h

/-- **C71** (limit) so does `Dump` of a server built with `GenerateFromRawDataAndReorient`. -/
theorem dump_of_reoriented {polyLog tgsw size n p : Nat} {S0 S : Server} (h1 : S0.ptDbs = []) (h2 : S0.singlePt = 0)
    (hc : 0 < pk.coeffs) (hu : updateByDatabaseInfo pk polyLog tgsw S0.rows S0.rowLen = .ok (S0.dims, size))
    (hg : Server.generateReoriented P D pk S0 raw = .ok S) :
    ∃ m, S.dump = .ok m ∧ Server.load P n p pk polyLog tgsw m = .throws := by
  unfold Server.generateReoriented at hg
  split_ifs at hg
  cases hp : databasePts 64 pk S0.rowLen S0.prod raw with
  | ok parts =>
    rw [hp, Res.ok_bind] at hg
    cases hm : mapRes (reorientDatabase P D.p (D.n * D.n) (2 ^ S0.dims.v2) (2 ^ S0.dims.v1)) parts with
    | ok dbs =>
      rw [hm, Res.ok_bind] at hg
      obtain rfl := (Res.ok.inj hg).symm
      refine ⟨_, rfl, ?_⟩
      unfold Server.load
      rw [hu, Res.ok_bind, h1, h2]
      simp [hc.ne']
    | throws => rw [hm] at hg; cases hg
    | undefined => rw [hm] at hg; cases hg
  | throws => rw [hp] at hg; cases hg
  | undefined => rw [hp] at hg; cases hg

end Psi.Spiral
