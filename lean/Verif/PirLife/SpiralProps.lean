import Verif.PirLife.SpiralModel

/-!
# C124: a new database for a Spiral server

A server that holds its rows in one partition serves the new database.  With several partitions the new one is stored
behind the old one, where no answer reads; a server that was loaded is not changed by `GenerateFromRawData` either.
-/

namespace Psi.Spiral

variable {P Q : Par} {D : Scheme} {pk : PackPar} {W invFirst invRest wd rowLen : Nat}

/-! ### What an answer reads -/

theorem foldl_congr {α β : Type} {f g : β → α → β} : ∀ (l : List α) {s : β}, (∀ s, ∀ x ∈ l, f s x = g s x) →
    l.foldl f s = l.foldl g s
  | [], _, _ => rfl
  | x :: l, s, h => by
    rw [List.foldl_cons, List.foldl_cons, h s x (by simp)]
    exact foldl_congr l fun s y hy => h s y (by simp [hy])

theorem dimSum_congr {dim0 : Nat} {a b b' : Nat → Nat} {part : Nat → Nat} (h : ∀ j, j < dim0 → b j = b' j) :
    dimSum dim0 a b part = dimSum dim0 a b' part := by
  unfold dimSum
  exact foldl_congr _ fun s j hj => by rw [h j (List.mem_range.1 hj)]

theorem foldCts_congr {c cNeg v v' : Nat → Mat} (h : ∀ i, i < 2 ^ D.dims.v2 → v i = v' i) :
    ∀ k, k ≤ D.dims.v2 → ∀ i, i < 2 ^ D.dims.v2 → foldCts P D c cNeg v k i = foldCts P D c cNeg v' k i
  | 0, _, i, hi => h i hi
  | k + 1, hk, i, hi => by
    have ih := foldCts_congr (c := c) (cNeg := cNeg) h k (by omega)
    unfold foldCts
    simp only
    rw [ih i hi]
    split_ifs with hlt
    · have : 2 ^ (D.dims.v2 - 1 - k) + i < 2 ^ D.dims.v2 := by
        have h1 : 2 ^ (D.dims.v2 - 1 - k + 1) ≤ 2 ^ D.dims.v2 := Nat.pow_le_pow_right (by norm_num) (by omega)
        rw [pow_succ] at h1
        omega
      rw [ih _ this]
    · rfl

theorem packCts_congr {w : List Mat} {ct ct' : Nat → Mat} (h : ∀ t, t < D.n * D.n → ct t = ct' t) :
    packCts P D w ct = packCts P D w ct' := by
  suffices step : ∀ j, j < D.n → (List.range D.n).foldl (packStep P D w ct j) (.zero (D.n + 1) 1) =
      (List.range D.n).foldl (packStep P D w ct' j) (.zero (D.n + 1) 1) by
    unfold packCts
    have : (List.range D.n).map (fun j => ((List.range D.n).foldl (packStep P D w ct j) (.zero (D.n + 1) 1), j)) =
        (List.range D.n).map fun j => ((List.range D.n).foldl (packStep P D w ct' j) (.zero (D.n + 1) 1), j) :=
      List.map_congr_left fun j hj => by rw [step j (List.mem_range.1 hj)]
    rw [this]
  intro j hj
  refine foldl_congr _ fun s i hi => ?_
  rw [List.mem_range] at hi
  have hlt : i * D.n + j < D.n * D.n := by
    have : (i + 1) * D.n ≤ D.n * D.n := Nat.mul_le_mul_right _ hi
    rw [Nat.add_mul, Nat.one_mul] at this
    omega
  simp only [packStep, h _ hlt]

theorem word_index {n dim0 numPer trials t z i j : Nat} (ht : t < trials) (hz : z < n) (hi : i < numPer) (hj : j < dim0) :
    t * (dim0 * numPer * n) + (z * (numPer * dim0) + i * dim0 + j) < trials * (dim0 * numPer) * n := by
  have h1 : (i + 1) * dim0 ≤ numPer * dim0 := Nat.mul_le_mul_right _ hi
  have h2 : (z + 1) * (numPer * dim0) ≤ n * (numPer * dim0) := Nat.mul_le_mul_right _ hz
  have h3 : (t + 1) * (dim0 * numPer * n) ≤ trials * (dim0 * numPer * n) := Nat.mul_le_mul_right _ ht
  have e1 : n * (numPer * dim0) = dim0 * numPer * n := by ring
  have e2 : trials * (dim0 * numPer) * n = trials * (dim0 * numPer * n) := by ring
  rw [Nat.add_mul, Nat.one_mul] at h1 h2 h3
  rw [e2]
  omega

/-- An answer for partition `part` reads the words of that partition. -/
theorem answerCt_congr {K : PublicKeys} {dbs dbs' : Words} {query : Mat} {part : Nat}
    (h : ∀ a, a < D.n * D.n * (2 ^ D.dims.v1 * 2 ^ D.dims.v2) * P.n →
      dbs (part * (D.n * D.n * (2 ^ D.dims.v1 * 2 ^ D.dims.v2) * P.n) + a) =
      dbs' (part * (D.n * D.n * (2 ^ D.dims.v1 * 2 ^ D.dims.v2) * P.n) + a)) {trial : Nat} (ht : trial < D.n * D.n) :
    answerCt P D K dbs (D.n * D.n * (2 ^ D.dims.v1 * 2 ^ D.dims.v2) * P.n) query part trial =
      answerCt P D K dbs' (D.n * D.n * (2 ^ D.dims.v1 * 2 ^ D.dims.v2) * P.n) query part trial := by
  unfold answerCt
  simp only
  refine foldCts_congr (fun i hi => ?_) _ le_rfl 0 (Nat.pow_pos (by norm_num))
  congr 1
  unfold multiplyRegByDatabase
  congr 1
  funext r c idx
  simp only
  congr 1
  refine dimSum_congr fun j hj => ?_
  rw [Nat.add_assoc]
  exact h _ (word_index ht (Nat.mod_lt _ (Nat.pow_pos (by norm_num))) hi hj)

theorem concatDbs_left {size : Nat} {parts more : List Words} {k a : Nat} (hk : k < parts.length) (ha : a < size) :
    concatDbs size (parts ++ more) (k * size + a) = concatDbs size parts (k * size + a) := by
  rw [concatDbs_get (parts := parts) hk ha, concatDbs_get (by rw [List.length_append]; omega) ha, List.getElem_append_left hk]

/-- Words behind the partitions that are asked for do not matter. -/
theorem processQuery_more {q2 : Nat} {K : PublicKeys} {dbs more : List Words} {query : Mat} {partNum : Nat}
    (h : partNum ≤ dbs.length) :
    processQuery P D q2 K (concatDbs (D.n * D.n * (2 ^ D.dims.v1 * 2 ^ D.dims.v2) * P.n) (dbs ++ more))
      (D.n * D.n * (2 ^ D.dims.v1 * 2 ^ D.dims.v2) * P.n) partNum query =
    processQuery P D q2 K (concatDbs (D.n * D.n * (2 ^ D.dims.v1 * 2 ^ D.dims.v2) * P.n) dbs)
      (D.n * D.n * (2 ^ D.dims.v1 * 2 ^ D.dims.v2) * P.n) partNum query := by
  unfold processQuery
  split_ifs
  · have : ∀ l : List Nat, (∀ x ∈ l, x < partNum) → ∀ {f g : Nat → Res Mat}, (∀ x, x < partNum → f x = g x) →
        mapRes f l = mapRes g l := by
      intro l
      induction l with
      | nil => intros; rfl
      | cons x l ih =>
        intro hl f g hfg
        unfold mapRes
        rw [hfg x (hl x (by simp)), ih (fun y hy => hl y (by simp [hy])) hfg]
    refine this _ (fun x hx => List.mem_range.1 hx) fun part hp => ?_
    have hc : packCts P D K.packing (answerCt P D K (concatDbs (D.n * D.n * (2 ^ D.dims.v1 * 2 ^ D.dims.v2) * P.n) (dbs ++ more))
          (D.n * D.n * (2 ^ D.dims.v1 * 2 ^ D.dims.v2) * P.n) query part) =
        packCts P D K.packing (answerCt P D K (concatDbs (D.n * D.n * (2 ^ D.dims.v1 * 2 ^ D.dims.v2) * P.n) dbs)
          (D.n * D.n * (2 ^ D.dims.v1 * 2 ^ D.dims.v2) * P.n) query part) :=
      packCts_congr fun t ht => answerCt_congr (fun a ha => concatDbs_left (by omega) ha) ht
    rw [hc]
  · rfl

/-! ### What a server holds -/

theorem databasePts_length {prod : Nat} {raw : List (List Nat)} {parts : List (List (List Nat))}
    (h : databasePts wd pk rowLen prod raw = .ok parts) :
    parts.length = if rowLen ≤ pk.maxBytes then 1 else (rowLen + pk.maxBytes - 1) / pk.maxBytes - 1 + 1 := by
  unfold databasePts at h
  split_ifs at h ⊢ with hle
  · cases hx : rawToPts wd pk raw.length rowLen prod raw with
    | ok p =>
      rw [hx, Res.ok_bind] at h
      rw [← Res.ok.inj h]
      rfl
    | throws => rw [hx] at h; cases h
    | undefined => rw [hx] at h; cases h
  · rw [mapRes_length h]
    unfold partitionRows
    rw [if_neg hle]
    simp

theorem generateReoriented_ok {S0 S : Server} {raw : List (List Nat)} (hg : S0.generateReoriented P D pk raw = .ok S) :
    ∃ parts dbs, databasePts 64 pk S0.rowLen S0.prod raw = .ok parts ∧
      mapRes (reorientDatabase P D.p (D.n * D.n) (2 ^ S0.dims.v2) (2 ^ S0.dims.v1)) parts = .ok dbs ∧
      S = { S0 with
        ptNums := uintNum raw.length (pk.elementSize (pk.elementLen S0.rowLen))
        singleDb := D.n * D.n * S0.prod * P.n
        partNum := parts.length
        dbs := S0.kept pk S0.dbs ++ dbs
        seted := true } := by
  unfold Server.generateReoriented at hg
  split_ifs at hg
  cases hp : databasePts 64 pk S0.rowLen S0.prod raw with
  | ok parts =>
    rw [hp, Res.ok_bind] at hg
    cases hm : mapRes (reorientDatabase P D.p (D.n * D.n) (2 ^ S0.dims.v2) (2 ^ S0.dims.v1)) parts with
    | ok dbs =>
      rw [hm, Res.ok_bind] at hg
      exact ⟨parts, dbs, rfl, hm, (Res.ok.inj hg).symm⟩
    | throws => rw [hm] at hg; cases hg
    | undefined => rw [hm] at hg; cases hg
  | throws => rw [hp] at hg; cases hg
  | undefined => rw [hp] at hg; cases hg

theorem generate_inv {S0 S : Server} {raw : List (List Nat)} (hg : S0.generate pk raw = .ok S) :
    ∃ parts, databasePts 8 pk S0.rowLen S0.prod raw = .ok parts ∧
      S = { S0 with
        ptNums := uintNum raw.length (pk.elementSize (pk.elementLen S0.rowLen))
        singlePt := (parts.headD []).flatten.length
        partNum := parts.length
        ptDbs := S0.kept pk S0.ptDbs ++ (parts.map List.flatten).flatten
        seted := true } := by
  unfold Server.generate at hg
  split_ifs at hg
  cases hp : databasePts 8 pk S0.rowLen S0.prod raw with
  | ok parts =>
    rw [hp, Res.ok_bind] at hg
    exact ⟨parts, rfl, (Res.ok.inj hg).symm⟩
  | throws => rw [hp] at hg; cases hg
  | undefined => rw [hp] at hg; cases hg

/-- Servers that agree in these members answer alike. -/
theorem respond_congr {S S' : Server} (h1 : S.dims = S'.dims) (h2 : S.dbs = S'.dbs) (h3 : S.partNum = S'.partNum)
    (h4 : S.singleDb = S'.singleDb) (h5 : S.seted = S'.seted) (q2 : Nat) (draw : Nat → Nat → Nat) (qm : QueryProto)
    (km : KeysProto) : S.respond P D q2 draw qm km = S'.respond P D q2 draw qm km := by
  unfold Server.respond
  rw [h1, h2, h3, h4, h5]

theorem respond_more {S S' : Server} {more : List Words} (h1 : S'.dims = S.dims) (h2 : S'.dbs = S.dbs ++ more)
    (h3 : S'.partNum = S.partNum) (h4 : S'.singleDb = S.singleDb) (h5 : S'.seted = S.seted)
    (h6 : S.singleDb = D.n * D.n * (2 ^ S.dims.v1 * 2 ^ S.dims.v2) * P.n) (h7 : S.partNum ≤ S.dbs.length)
    (q2 : Nat) (draw : Nat → Nat → Nat) (qm : QueryProto) (km : KeysProto) :
    S'.respond P D q2 draw qm km = S.respond P D q2 draw qm km := by
  unfold Server.respond
  rw [h1, h2, h3, h4, h5, h6]
  congr 1
  funext query
  congr 1
  funext K
  split_ifs with c1 c2 c3 c4
  · rfl
  · rfl
  · rw [List.length_append] at c2
    omega
  · omega
  · have h8 := processQuery_more (P := P) (D := { D with dims := S.dims }) (q2 := q2) (K := K) (more := more) (query := query) h7
    simp only at h8
    rw [h8]

/-! ### The theorems -/

/-- **C124.**  When a plaintext holds a row, a server that is given another database answers as a new server that is
given this database, whatever it was given before.  (The property asks this for longer rows too, which
`long_rows_stale` refutes, and of `GenerateFromRawData`, which `rebuilt_stale` refutes.) -/
theorem refilled_serves_partial {S0 S : Server} {raw : List (List Nat)} (hshort : S0.rowLen ≤ pk.maxBytes)
    (hg : S0.generateReoriented P D pk raw = .ok S) :
    ∃ S', Server.generateReoriented P D pk { rows := S0.rows, rowLen := S0.rowLen, dims := S0.dims } raw = .ok S' ∧
      ∀ q2 draw qm km, S.respond P D q2 draw qm km = S'.respond P D q2 draw qm km := by
  obtain ⟨parts, dbs, h1, h2, rfl⟩ := generateReoriented_ok hg
  have hrows : raw.length = S0.rows := by
    by_contra h
    unfold Server.generateReoriented at hg
    rw [if_pos h] at hg
    cases hg
  refine ⟨{ rows := S0.rows
            rowLen := S0.rowLen
            dims := S0.dims
            ptNums := uintNum raw.length (pk.elementSize (pk.elementLen S0.rowLen))
            singleDb := D.n * D.n * S0.prod * P.n
            partNum := parts.length
            dbs := dbs
            seted := true }, ?_, fun q2 draw qm km => ?_⟩
  · unfold Server.generateReoriented
    rw [if_neg (by simpa using hrows)]
    show (databasePts 64 pk S0.rowLen S0.prod raw).bind _ = _
    rw [h1, Res.ok_bind]
    show (mapRes (reorientDatabase P D.p (D.n * D.n) (2 ^ S0.dims.v2) (2 ^ S0.dims.v1)) parts).bind _ = _
    rw [h2, Res.ok_bind, Server.kept_nil, List.nil_append]
    rfl
  · have hk : S0.kept pk S0.dbs = [] := by
      unfold Server.kept
      rw [if_pos hshort]
    rw [hk, List.nil_append]
    apply respond_congr
    all_goals rfl

/-- **Violated.**  When rows are longer than a plaintext, a server that holds a database and takes another answers every
query as before. -/
theorem long_rows_stale {S0 S1 S2 : Server} {raw raw' : List (List Nat)} (hlong : pk.maxBytes < S0.rowLen)
    (hg : S0.generateReoriented P D pk raw = .ok S1) (h0 : S0.dbs = []) (hg' : S1.generateReoriented P D pk raw' = .ok S2)
    (q2 : Nat) (draw : Nat → Nat → Nat) (qm : QueryProto) (km : KeysProto) :
    S2.respond P D q2 draw qm km = S1.respond P D q2 draw qm km := by
  obtain ⟨parts, dbs, h1, h2, rfl⟩ := generateReoriented_ok hg
  obtain ⟨parts', dbs', h1', h2', rfl⟩ := generateReoriented_ok hg'
  have hl := databasePts_length h1
  have hl' := databasePts_length h1'
  rw [if_neg (by omega)] at hl
  rw [if_neg (by show ¬ S0.rowLen ≤ _; omega)] at hl'
  have hk : ∀ {α : Type} (x : List α), Server.kept pk S0 x = x := fun x => by
    unfold Server.kept
    rw [if_neg (by omega)]
  have hd1 : S0.kept pk S0.dbs ++ dbs = dbs := by rw [hk, h0, List.nil_append]
  apply respond_more (more := dbs')
  case h1 => rfl
  case h2 =>
    show Server.kept pk _ (S0.kept pk S0.dbs ++ dbs) ++ dbs' = (S0.kept pk S0.dbs ++ dbs) ++ dbs'
    unfold Server.kept
    rw [if_neg (by show ¬ S0.rowLen ≤ _; omega)]
  case h3 => exact hl'.trans hl.symm
  case h4 => rfl
  case h5 => rfl
  case h6 => rfl
  case h7 =>
    show parts.length ≤ (S0.kept pk S0.dbs ++ dbs).length
    rw [hd1, mapRes_length h2]

/-- **Violated.**  `GenerateFromRawData` on a server that answers, because it was given rows in the order of the first
dimension: every answer stays as it was. -/
theorem rebuilt_stale {S0 S1 S2 : Server} {raw raw' : List (List Nat)} (hg : S0.generateReoriented P D pk raw = .ok S1)
    (hg' : S1.generate pk raw' = .ok S2) (q2 : Nat) (draw : Nat → Nat → Nat) (qm : QueryProto) (km : KeysProto) :
    S2.respond P D q2 draw qm km = S1.respond P D q2 draw qm km := by
  obtain ⟨parts, dbs, h1, h2, rfl⟩ := generateReoriented_ok hg
  obtain ⟨parts', h1', rfl⟩ := generate_inv hg'
  have hlen : parts'.length = parts.length := by
    rw [databasePts_length h1, databasePts_length h1']
  rw [hlen]
  apply respond_congr
  all_goals rfl

theorem load_shape {polyLog tgsw n p : Nat} {m : ServerProto} {S : Server} (hl : Server.load P n p pk polyLog tgsw m = .ok S) :
    S.rows = m.rows ∧ S.rowLen = m.rowLen ∧ S.partNum = m.partNum ∧ S.seted = true := by
  unfold Server.load at hl
  cases hu : updateByDatabaseInfo pk polyLog tgsw m.rows m.rowLen with
  | ok x =>
    rw [hu, Res.ok_bind] at hl
    simp only at hl
    split_ifs at hl
    cases hx : mapRes (reorientDatabase P p (n * n) (2 ^ x.1.v2) (2 ^ x.1.v1))
        ((List.range m.partNum).map (subPtDb pk (2 ^ x.1.v1 * 2 ^ x.1.v2) m.singlePt m.ptDbs)) with
    | ok dbs =>
      rw [hx, Res.ok_bind] at hl
      rw [← Res.ok.inj hl]
      exact ⟨rfl, rfl, rfl, rfl⟩
    | throws => rw [hx] at hl; cases hl
    | undefined => rw [hx] at hl; cases hl
  | throws => rw [hu] at hl; cases hl
  | undefined => rw [hu] at hl; cases hl

/-- **Violated.**  The same for a server that was loaded. -/
theorem loaded_stale {polyLog tgsw n p : Nat} {m : ServerProto} {S1 S2 : Server} {raw : List (List Nat)}
    (hl : Server.load P n p pk polyLog tgsw m = .ok S1)
    (hm : m.partNum = if m.rowLen ≤ pk.maxBytes then 1 else (m.rowLen + pk.maxBytes - 1) / pk.maxBytes)
    (hb : 0 < pk.maxBytes) (hg : S1.generate pk raw = .ok S2) (q2 : Nat) (draw : Nat → Nat → Nat) (qm : QueryProto)
    (km : KeysProto) : S2.respond P D q2 draw qm km = S1.respond P D q2 draw qm km := by
  obtain ⟨-, hS⟩ := load_shape hl
  obtain ⟨parts, h1, rfl⟩ := generate_inv hg
  apply respond_congr
  case h1 => rfl
  case h2 => rfl
  case h4 => rfl
  case h5 => exact hS.2.2.symm
  show parts.length = S1.partNum
  rw [databasePts_length h1, hS.1, hS.2.1, hm]
  split_ifs with h
  · rfl
  · have : 1 ≤ (m.rowLen + pk.maxBytes - 1) / pk.maxBytes := by
      rw [Nat.le_div_iff_mul_le hb]
      omega
    omega

/-- **Violated.**  When rows are longer than a plaintext, a server that was built once and is built again writes a file that
cannot be loaded. -/
theorem rebuilt_dump_refused {S0 S : Server} {raw : List (List Nat)} (hb : 0 < pk.maxBytes) (hlong : pk.maxBytes < S0.rowLen)
    (hold : S0.ptDbs ≠ []) (hD : S0.dims = D.dims) (hr : RowsOk D pk 8 S0.rowLen raw) (h0 : raw ≠ [])
    (h8 : pk.logt = 8) (hg : S0.generate pk raw = .ok S) (n p polyLog tgsw : Nat) :
    ∃ m, S.dump = .ok m ∧ ∀ S', Server.load P n p pk polyLog tgsw m ≠ .ok S' := by
  obtain ⟨parts, p1, rfl⟩ := generate_inv hg
  obtain ⟨parts', q1, q2, q3, -⟩ := row_round_trip hr.width (by omega) hr.bits hb hr.len h0 hr.rows hr.bytes hr.room
  have hpp : parts' = parts := by
    unfold Server.prod at p1
    rw [hD, q1] at p1
    exact Res.ok.inj p1
  subst hpp
  have hlen : ((parts'.map List.flatten).flatten).length = parts'.length * (2 ^ D.dims.v1 * 2 ^ D.dims.v2 * pk.coeffs) := by
    have := flatten_length (rows := parts'.map List.flatten) (len := 2 ^ D.dims.v1 * 2 ^ D.dims.v2 * pk.coeffs) (by
      intro p hm
      obtain ⟨q, hq, rfl⟩ := List.mem_map.1 hm
      rw [flatten_length fun pt hpt => ((q3 q hq).2 pt hpt).1, (q3 q hq).1])
    rw [this, List.length_map]
  have hhead : (parts'.headD []).flatten.length * parts'.length = parts'.length * (2 ^ D.dims.v1 * 2 ^ D.dims.v2 * pk.coeffs) := by
    cases parts' with
    | nil => simp
    | cons a l =>
      rw [List.headD_cons, flatten_length fun pt hpt => ((q3 a (by simp)).2 pt hpt).1, (q3 a (by simp)).1]
      ring
  refine ⟨_, rfl, fun S' hS' => ?_⟩
  unfold Server.load at hS'
  simp only at hS'
  cases hu : updateByDatabaseInfo pk polyLog tgsw S0.rows S0.rowLen with
  | ok x =>
    rw [hu, Res.ok_bind] at hS'
    split_ifs at hS' with c1 c2 c3 c4
    push Not at c4
    rw [hhead, List.length_append, hlen] at c4
    have hk : S0.kept pk S0.ptDbs = S0.ptDbs := by
      unfold Server.kept
      rw [if_neg (by omega)]
    rw [hk] at c4
    have hp := List.length_pos_iff.2 hold
    have : w64 (parts'.length * (2 ^ D.dims.v1 * 2 ^ D.dims.v2 * pk.coeffs)) ≤
        parts'.length * (2 ^ D.dims.v1 * 2 ^ D.dims.v2 * pk.coeffs) := Nat.mod_le _ _
    omega
  | throws => rw [hu] at hS'; cases hS'
  | undefined => rw [hu] at hS'; cases hS'

end Psi.Spiral
