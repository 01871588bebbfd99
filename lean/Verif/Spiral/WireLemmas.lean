import Verif.Spiral.WireModel
import Verif.Spiral.SchemeProps

/-!
# Matrices, keys and queries across a message
-/

namespace Psi.Spiral

open Finset

variable {P Q : Par} {D : Scheme}

/-! ### Matrices -/

theorem matWords_length (P : Par) (M : Mat) : (matWords P M).length = M.rows * M.cols * P.n := by
  unfold matWords
  simp

theorem matWords_getD {M : Mat} {i : Nat} (h : i < M.rows * M.cols * P.n) :
    (matWords P M).getD i 0 = M.data (i / P.n) (i % P.n) := by
  rw [List.getD_eq_getElem _ _ (by rw [matWords_length]; exact h)]
  unfold matWords
  rw [List.getElem_map, List.getElem_range]

theorem entry_lt {rows cols n r c z : Nat} (hr : r < rows) (hc : c < cols) (hz : z < n) :
    (r * cols + c) * n + z < rows * cols * n := mul_add_lt (mul_add_lt hr hc) hz

theorem matWords_entry {M : Mat} {r c z : Nat} (hr : r < M.rows) (hc : c < M.cols) (hz : z < P.n) :
    (matWords P M).getD ((r * M.cols + c) * P.n + z) 0 = M.poly r c z := by
  rw [matWords_getD (entry_lt hr hc hz)]
  unfold Mat.poly
  rw [Nat.add_comm, Nat.add_mul_div_right _ _ (by omega), Nat.div_eq_of_lt hz, Nat.zero_add, Nat.add_mul_mod_self_right,
    Nat.mod_eq_of_lt hz]

theorem fromProto_toProto {M : Mat} (h : M.rows * M.cols * P.n < 2 ^ 64) :
    fromProto P (toProto P M) = .ok (matOf P M.rows M.cols (matWords P M)) := by
  unfold fromProto toProto
  rw [if_pos]
  simp only
  rw [w64_of_lt h, matWords_length]

theorem matOf_poly {M : Mat} {r c z : Nat} (hr : r < M.rows) (hc : c < M.cols) (hz : z < P.n) :
    (matOf P M.rows M.cols (matWords P M)).poly r c z = M.poly r c z := by
  unfold matOf
  show (matWords P M).getD ((r * M.cols + c) * P.n + z) 0 = _
  exact matWords_entry hr hc hz

theorem matOf_rmat {M : Mat} {r c : Nat} (hr : r < M.rows) (hc : c < M.cols) :
    rmat P (matOf P M.rows M.cols (matWords P M)) r c = rmat P M r c :=
  rval_congr fun _ hz => matOf_poly hr hc hz

/-! ### Keys -/

/-- A key as the server has it. -/
def wireKey (P : Par) (k : Mat) : Mat := toNtt P (matOf P k.rows k.cols (matWords P (fromNtt P k)))

theorem wireKey_same (ok : ParOk P) {k : Mat} (hk : MatOk P k) : SameMat P (wireKey P k) k := by
  have hb := ok.modulus_bounds
  obtain ⟨f1, f2⟩ := fromNtt_spec ok hk
  have hle : RawLe P (matOf P k.rows k.cols (matWords P (fromNtt P k))) (2 ^ 64 - 1) := fun r c hr hc z hz => by
    have := matOf_poly (P := P) (M := fromNtt P k) hr hc hz
    rw [fromNtt_rows, fromNtt_cols] at this
    rw [this]
    exact (f1 r c hr hc z hz).trans (by omega)
  obtain ⟨t1, t2⟩ := toNtt_spec ok hle
  refine ⟨t1, rfl, rfl, fun r c hr hc => ?_⟩
  unfold wireKey
  rw [t2 r c hr hc, ← f2 r c hc]
  exact matOf_rmat (M := fromNtt P k) hr hc

theorem SameMat.trans {a b c : Mat} (h1 : SameMat P a b) (h2 : SameMat P b c) : SameMat P a c :=
  ⟨h1.ok, h1.rows.trans h2.rows, h1.cols.trans h2.cols, fun r x hr hx =>
    (h1.val r x (by rw [h2.rows]; exact hr) (by rw [h2.cols]; exact hx)).trans (h2.val r x hr hx)⟩

theorem readKeys_ok {l : List Mat} (h : ∀ k ∈ l, k.rows * k.cols * P.n < 2 ^ 64) :
    readKeys P (l.map fun k => toProto P (fromNtt P k)) = .ok (l.map (wireKey P)) := by
  unfold readKeys
  refine mapRes_map fun k hk => ?_
  rw [fromProto_toProto (by rw [fromNtt_rows, fromNtt_cols]; exact h k hk), Res.ok_bind]
  rfl

theorem keyAt_map (l : List Mat) (f : Mat → Mat) {i : Nat} (hi : i < l.length) : keyAt (l.map f) i = f (keyAt l i) := by
  unfold keyAt
  rw [List.getD_eq_getElem _ _ (by simpa using hi), List.getD_eq_getElem _ _ hi, List.getElem_map]

/-- Matrices whose number of words fits a `size_t`. -/
structure WireOk (P : Par) (D : Scheme) : Prop where
  pack : (D.n + 1) * D.tConv * P.n < 2 ^ 64
  left : 2 * D.tLeft * P.n < 2 ^ 64
  right : 2 * D.tRight * P.n < 2 ^ 64
  conv : 2 * (2 * D.tConv) * P.n < 2 ^ 64
  resp : (D.n + 1) * D.n * P.n < 2 ^ 64
  query : 2 * P.n < 2 ^ 64

theorem keys_wire (ok : ParOk P) (so : SchemeOk P D) (hw : WireOk P D) {skReg skGsw : Mat} {C : KeyCoins}
    (hr : KeyOk P 1 skReg) (hg : KeyOk P D.n skGsw) (hC : CoinsOk P D C) :
    ∃ K, deserializeKeys P (serializeKeys P (genPublicKeys P D skReg skGsw C)) = .ok K ∧ KeysFor P D skReg skGsw C K := by
  obtain ⟨r1, r2, r3, r4⟩ := so.right_bounds
  obtain ⟨c1, -⟩ := so.checks
  have hgen := keysFor_gen ok hr hg so hC
  have e1 := fun i (hi : i < D.dims.g) => (expansionKey_spec ok hr (m := D.tLeft) (i := i) (by omega) fun k hk => hC.left i k hi hk).1
  have e2 := fun i (hi : i ≤ D.dims.stopRound) =>
    (expansionKey_spec ok hr (m := D.tRight) (i := i) (by omega) fun k hk => hC.right i k hi hk).1
  have e3 := fun i (hi : i < D.n) => packingKey_spec ok hr hg (hC.pack i hi) (i := i)
  have e4 := (conversionKey_spec ok hr hC.conv).1
  refine ⟨⟨(genPublicKeys P D skReg skGsw C).packing.map (wireKey P), (genPublicKeys P D skReg skGsw C).left.map (wireKey P),
    (genPublicKeys P D skReg skGsw C).right.map (wireKey P), wireKey P (genPublicKeys P D skReg skGsw C).conversion⟩, ?_, ?_⟩
  · unfold deserializeKeys serializeKeys
    rw [readKeys_ok, Res.ok_bind, readKeys_ok, Res.ok_bind, readKeys_ok, Res.ok_bind,
      show [toProto P (fromNtt P (genPublicKeys P D skReg skGsw C).conversion)] =
        [(genPublicKeys P D skReg skGsw C).conversion].map (fun k => toProto P (fromNtt P k)) from rfl, readKeys_ok, Res.ok_bind]
    · rfl
    · intro k hk
      rw [List.mem_singleton.1 hk]
      show (conversionKey P skReg D.tConv C.conv).rows * (conversionKey P skReg D.tConv C.conv).cols * P.n < _
      rw [e4.rows, e4.cols]
      exact hw.conv
    · intro k hk
      obtain ⟨i, hi, rfl⟩ := List.mem_map.1 hk
      have := e2 i (by have := List.mem_range.1 hi; omega)
      rw [this.rows, this.cols]
      exact hw.right
    · intro k hk
      obtain ⟨i, hi, rfl⟩ := List.mem_map.1 hk
      have := e1 i (List.mem_range.1 hi)
      rw [this.rows, this.cols]
      exact hw.left
    · intro k hk
      obtain ⟨i, hi, rfl⟩ := List.mem_map.1 hk
      have := e3 i (List.mem_range.1 hi)
      rw [this.2.1, this.2.2.1]
      exact hw.pack
  · refine ⟨fun i hi => ?_, fun i hi => ?_, fun i hi => ?_, ?_⟩
    · rw [keyAt_map _ _ (by simpa [genPublicKeys] using hi)]
      exact (wireKey_same ok (hgen.left i hi).ok).trans (hgen.left i hi)
    · rw [keyAt_map _ _ (by simpa [genPublicKeys] using Nat.lt_succ_of_le hi)]
      exact (wireKey_same ok (hgen.right i hi).ok).trans (hgen.right i hi)
    · rw [keyAt_map _ _ (by simpa [genPublicKeys] using hi)]
      exact (wireKey_same ok (hgen.packing i hi).ok).trans (hgen.packing i hi)
    · exact (wireKey_same ok hgen.conversion.ok).trans hgen.conversion

/-! ### The seed -/

theorem foldr_bytes (seed k j : Nat) :
    ((List.range' j k).map fun i => seed / 256 ^ i % 256).foldr (fun b x => b + 256 * x) 0 = seed / 256 ^ j % 256 ^ k := by
  induction k generalizing j with
  | zero => simp [Nat.mod_one]
  | succ k ih =>
    rw [List.range'_succ, List.map_cons, List.foldr_cons, ih (j + 1), Nat.pow_succ 256 j, ← Nat.div_div_eq_div_mul, Nat.pow_succ',
      Nat.mod_mul]

theorem seed_round_trip {seed : Nat} (h : seed < 2 ^ 128) : readSeed (seedBytes seed) = .ok seed := by
  unfold readSeed seedBytes
  rw [if_neg (by simp), List.take_of_length_le (by simp), List.range_eq_range', foldr_bytes]
  congr 1
  rw [pow_zero, Nat.div_one]
  exact Nat.mod_eq_of_lt (by norm_num; omega)

/-! ### The query -/

/-- The first row of a query is the negated random polynomial. -/
theorem genQuery_first (ok : ParOk P) (so : SchemeOk P D) {skReg : Mat} {idx invFirst invRest : Nat} {s : Nat → Sample}
    (h : QueryOk P D skReg idx invFirst invRest s) {query : Mat} (hq : genQuery P D skReg idx invFirst invRest s = .ok query) :
    rmat P query 0 0 = -rmat P (s 0).a 0 0 := by
  have hb := ok.modulus_bounds
  obtain ⟨w, w1, w2⟩ := querySigma_ok ok so h.idx_lt h.first_lt h.rest_lt
  have hle : RawLe P (Mat.build 1 1 fun _ _ => w) (2 ^ 64 - 1) := by
    intro r c _ hc z hz
    rw [Mat.build_poly _ _ (by simpa using hc), w2 z hz]
    have : sigmaWord P D idx invFirst invRest z < P.modulus := Nat.mod_lt _ (by omega)
    omega
  obtain ⟨t1, t2⟩ := toNtt_spec ok hle
  unfold genQuery at hq
  rw [w1, Res.ok_bind] at hq
  obtain rfl := Res.ok.inj hq
  have hs : ∀ i, i < (toNtt P (Mat.build 1 1 fun _ _ => w)).cols → SampleOk P 1 1 (s i) := by
    intro i hi
    obtain rfl : i = 0 := by simpa using hi
    exact h.sample
  obtain ⟨e1, -⟩ := encryptRegev_spec ok h.key t1 (by simp) hs
  rw [(fromNtt_spec ok e1.ok).2 0 0 (by rw [e1.cols]; simp)]
  obtain ⟨f1, -⟩ := freshRegev_spec ok h.key hs
  obtain ⟨p1, p2⟩ := padTop_spec ok t1 1
  obtain ⟨a1, a2⟩ := add_spec ok f1.ok p1 (by rw [f1.rows, padTop_rows]; simp) (by rw [f1.cols, padTop_cols])
  obtain ⟨s1, s2⟩ := regevSample_spec ok h.key h.sample
  obtain ⟨i1, i2⟩ := toNtt_spec ok ((invert_le ok h.sample.le).mono (show P.modulus ≤ 2 ^ 64 - 1 by omega))
  have v0 : mval P (regevSample P skReg (s 0)) 0 0 = -rmat P (s 0).a 0 0 := by
    unfold regevSample
    rw [mval_copyInto _ _ _ _ _ (by simp), if_neg (by omega), mval_copyInto _ _ _ _ _ (by simp),
      if_pos (by simp [h.sample.rows, h.sample.cols]), Nat.sub_self, i2 0 0 (by simp [h.sample.rows]) (by simp [h.sample.cols]),
      invert_rmat ok h.sample.le (by simp [h.sample.rows]) (by simp [h.sample.cols])]
  have v1 : mval P (freshRegev P skReg (toNtt P (Mat.build 1 1 fun _ _ => w)).cols s) 0 0 = mval P (regevSample P skReg (s 0)) 0 0 := by
    have hc : (toNtt P (Mat.build 1 1 fun _ _ => w)).cols = 1 := by simp
    rw [hc]
    unfold freshRegev mval
    rw [copyCols_get (x := (regevSample P skReg (s 0), 0))]
    · intro x hx
      obtain ⟨i, hi, rfl⟩ := List.mem_map.1 hx
      obtain rfl : i = 0 := by simpa using hi
      exact s1.cols
    · simp
    · simp
    · simp
    · simp [s1.rows]
  unfold encryptRegev
  rw [a2 0 0 (by rw [f1.rows]; omega) (by rw [f1.cols]; simp), p2 0 0 (by simp) (by simp), if_neg (by omega), add_zero, v1, v0]

/-- The words that cross: the second row as sent, the first drawn again. -/
theorem query_wire (ok : ParOk P) (so : SchemeOk P D) (hw : WireOk P D) {fill draw : Nat → Nat → Nat} {skReg : Mat}
    {idx invFirst invRest seed : Nat} {e : Nat → Nat → Nat → ℤ} (hseed : seed < 2 ^ 128)
    (hprg : ∀ z, z < P.n → draw seed z = fill seed z)
    (h : QueryOk P D skReg idx invFirst invRest (seededSample P fill seed e)) :
    ∃ m query, sendQuery P D fill skReg idx invFirst invRest seed e = .ok m ∧ deserializeQuery P draw m = .ok query ∧
      SentQuery P D skReg idx invFirst invRest (seededSample P fill seed e) query := by
  have hb := ok.modulus_bounds
  obtain ⟨q0, g1, g2, -⟩ := genQuery_spec ok so h
  have gf := genQuery_first ok so h g1
  have hq := hw.query
  have hlen : (matWords P q0).length = 2 * P.n := by rw [matWords_length, g2.rows, g2.cols, Nat.mul_one]
  set first := (List.range P.n).map fun i => P.modulus - draw seed i % P.modulus with hfirst
  set rest := (matWords P q0).drop P.n with hrest
  have hfl : first.length = P.n := by simp [hfirst]
  have hrl : rest.length = P.n := by rw [hrest, List.length_drop, hlen]; omega
  have hm : sendQuery P D fill skReg idx invFirst invRest seed e = .ok ⟨⟨1, 1, rest⟩, seedBytes seed⟩ := by
    unfold sendQuery serializeQuery toProtoRng
    rw [g1, Res.ok_bind, if_pos (by rw [g2.rows]; omega), Res.ok_bind, g2.rows, g2.cols, Nat.one_mul]
  refine ⟨_, matOf P 2 1 (first ++ rest), hm, ?_, q0, g1, g2.rows.symm, g2.cols.symm, ?_, ?_⟩
  · unfold deserializeQuery fromProtoRng
    rw [seed_round_trip hseed, Res.ok_bind]
    simp only [Nat.one_mul, Nat.mul_one]
    rw [w64_of_lt (show P.n < 2 ^ 64 by omega), if_pos hrl.symm, if_pos]
    · rfl
    · rw [List.length_append, hrl, List.length_map, List.length_range, w64_of_lt (by omega)]
      omega
  · intro r c hr hc z hz
    obtain rfl : c = 0 := by simpa [matOf] using hc
    have hr2 : r < 2 := hr
    unfold matOf
    show (first ++ rest).getD ((r * 1 + 0) * P.n + z) 0 ≤ _
    rcases Nat.lt_or_ge r 1 with h1 | h1
    · obtain rfl : r = 0 := by omega
      rw [Nat.zero_mul, Nat.zero_add, List.getD_append _ _ _ _ (by omega),
        List.getD_eq_getElem _ _ (by omega)]
      simp [hfirst]
    · obtain rfl : r = 1 := by omega
      rw [List.getD_append_right _ _ _ _ (by omega), hfl]
      have : (1 * 1 + 0) * P.n + z - P.n = z := by omega
      rw [this, hrest, List.getD_eq_getElem?_getD, List.getElem?_drop, ← List.getD_eq_getElem?_getD]
      have e := matWords_entry (P := P) (M := q0) (r := 1) (c := 0) (z := z) (by rw [g2.rows]; omega) (by rw [g2.cols]; omega) hz
      rw [g2.cols, Nat.one_mul] at e
      rw [e]
      exact (g2.le 1 0 (by rw [g2.rows]; omega) (by rw [g2.cols]; omega) z hz).trans (Nat.sub_le _ _)
  · intro r hr
    rcases Nat.lt_or_ge r 1 with h1 | h1
    · obtain rfl : r = 0 := by omega
      rw [gf, ← invert_rmat ok h.sample.le (by rw [h.sample.rows]; omega) (by rw [h.sample.cols]; omega)]
      refine rval_congr fun z hz => ?_
      unfold matOf
      show (first ++ rest).getD ((0 * 1 + 0) * P.n + z) 0 = _
      rw [Nat.zero_mul, Nat.zero_add, List.getD_append _ _ _ _ (by omega),
        List.getD_eq_getElem _ _ (by omega), invert_poly _ _ (by rw [h.sample.cols]; omega)]
      unfold invertPoly seededSample
      simp only [hfirst, List.getElem_map, List.getElem_range]
      rw [Mat.build_poly _ _ (by omega), hprg z hz]
      have : fill seed z % P.modulus < P.modulus := Nat.mod_lt _ (by omega)
      unfold sub64
      omega
    · obtain rfl : r = 1 := by omega
      refine rval_congr fun z hz => ?_
      unfold matOf
      show (first ++ rest).getD ((1 * 1 + 0) * P.n + z) 0 = _
      rw [List.getD_append_right _ _ _ _ (by omega), hfl]
      have : (1 * 1 + 0) * P.n + z - P.n = z := by omega
      rw [this, hrest, List.getD_eq_getElem?_getD, List.getElem?_drop, ← List.getD_eq_getElem?_getD]
      have e := matWords_entry (P := P) (M := q0) (r := 1) (c := 0) (z := z) (by rw [g2.rows]; omega) (by rw [g2.cols]; omega) hz
      rw [g2.cols, Nat.one_mul] at e
      exact e

/-! ### The response -/

theorem resWords_zero {k : Nat} {f : Nat → Res Nat} {w : Words} (h : resWords k f = .ok w) {i : Nat} (hi : k ≤ i) : w i = 0 := by
  induction k generalizing w with
  | zero =>
    unfold resWords at h
    rw [← Res.ok.inj h]
  | succ k ih =>
    unfold resWords at h
    cases hk : resWords k f with
    | ok w' =>
      rw [hk, Res.ok_bind] at h
      cases hf : f k with
      | ok x =>
        rw [hf, Res.ok_bind] at h
        rw [← Res.ok.inj h]
        unfold upd
        rw [if_neg (by omega)]
        exact ih hk (by omega)
      | throws => rw [hf] at h; cases h
      | undefined => rw [hf] at h; cases h
    | throws => rw [hk] at h; cases h
    | undefined => rw [hk] at h; cases h

/-- A matrix written word by word crosses unchanged. -/
theorem resMat_wire {rows cols : Nat} {f : Nat → Nat → Nat → Res Nat} {M : Mat} (h : resMat P.n rows cols f = .ok M) :
    matOf P M.rows M.cols (matWords P M) = M := by
  obtain ⟨h1, h2⟩ := resMat_size h
  unfold resMat at h
  cases hw : resWords (rows * cols * P.n) (fun i => f (i / P.n / cols) (i / P.n % cols) (i % P.n)) with
  | ok w =>
    rw [hw, Res.ok_bind] at h
    have e := (Res.ok.inj h).symm
    have hd : ∀ k z, M.data k z = w (k * P.n + z) := fun k z => by
      rw [e]
      show w ((k / cols * cols + k % cols) * P.n + z) = _
      rw [Nat.mul_comm (k / cols), Nat.div_add_mod]
    have hdata : (matOf P M.rows M.cols (matWords P M)).data = M.data := by
      funext k z
      show (matWords P M).getD (k * P.n + z) 0 = _
      rcases Nat.lt_or_ge (k * P.n + z) (M.rows * M.cols * P.n) with hlt | hge
      · rw [matWords_getD hlt, hd, hd, Nat.mul_comm, Nat.div_add_mod]
      · rw [List.getD_eq_default _ _ (by rw [matWords_length]; exact hge), hd, resWords_zero hw (by rw [← h1, ← h2]; exact hge)]
    calc matOf P M.rows M.cols (matWords P M) = ⟨M.rows, M.cols, (matOf P M.rows M.cols (matWords P M)).data⟩ := rfl
      _ = M := by rw [hdata]
  | throws => rw [hw] at h; cases h
  | undefined => rw [hw] at h; cases h

theorem switch_wire {p q2 : Nat} {ct M : Mat} (h : switchModulus P p q2 ct = .ok M) :
    matOf P M.rows M.cols (matWords P M) = M ∧ M.rows = ct.rows ∧ M.cols = ct.cols := by
  unfold switchModulus at h
  cases ha : rescaleRows P ct 0 1 P.modulus q2 with
  | ok a =>
    rw [ha, Res.ok_bind] at h
    unfold rescaleRows at h ha
    obtain ⟨h1, h2⟩ := resMat_size ha
    obtain ⟨h3, h4⟩ := resMat_size h
    exact ⟨resMat_wire h, h3.trans h1, h4.trans h2⟩
  | throws => rw [ha] at h; cases h
  | undefined => rw [ha] at h; cases h

theorem mapRes_back {α β : Type} {f : α → Res β} {l : List α} {bs : List β} (h : mapRes f l = .ok bs) :
    ∀ b ∈ bs, ∃ a ∈ l, f a = .ok b := by
  induction l generalizing bs with
  | nil =>
    unfold mapRes at h
    rw [← Res.ok.inj h]
    simp
  | cons a l ih =>
    unfold mapRes at h
    cases hf : f a with
    | ok b =>
      rw [hf, Res.ok_bind] at h
      cases hl : mapRes f l with
      | ok bs' =>
        rw [hl, Res.ok_bind] at h
        rw [← Res.ok.inj h]
        intro x hx
        rcases List.mem_cons.1 hx with rfl | hx
        · exact ⟨a, List.mem_cons_self, hf⟩
        · obtain ⟨y, hy, e⟩ := ih hl x hx
          exact ⟨y, List.mem_cons_of_mem _ hy, e⟩
      | throws => rw [hl] at h; cases h
      | undefined => rw [hl] at h; cases h
    | throws => rw [hf] at h; cases h
    | undefined => rw [hf] at h; cases h

theorem packCts_size (P : Par) (D : Scheme) (w : List Mat) (ct : Nat → Mat) :
    (packCts P D w ct).rows = D.n + 1 ∧ (packCts P D w ct).cols = D.n := by
  unfold packCts
  exact ⟨by simp, by simp⟩

theorem response_wire (hw : WireOk P D) {q2 : Nat} {K : PublicKeys} {dbs : Words} {size parts : Nat} {query : Mat}
    {resp : List Mat} (h : processQuery P D q2 K dbs size parts query = .ok resp) :
    deserializeResponse P (resp.map (toProto P)) = .ok resp := by
  unfold processQuery at h
  split_ifs at h with he
  have := mapRes_map (f := fromProto P) (g := toProto P) (h := id) (l := resp) (by
    intro M hM
    obtain ⟨a, -, ha⟩ := mapRes_back h M hM
    obtain ⟨s1, s2, s3⟩ := switch_wire ha
    obtain ⟨p1, p2⟩ := packCts_size P D K.packing (answerCt P D K dbs size query a)
    rw [fromNtt_rows, p1] at s2
    rw [fromNtt_cols, p2] at s3
    rw [fromProto_toProto (by rw [s2, s3]; exact hw.resp), s1]
    rfl)
  rwa [List.map_id] at this

end Psi.Spiral
