import Verif.SealPir.CodecProps
import Verif.SealPir.RespondLemmas

/-!
# SealPIR: the database and the bytes of an answer
-/

namespace Psi.SealPir

open Psi.Spiral (Res w64 w32 uintNum mapRes partitionRows bitsVal)

/-! ### Packing rows -/

theorem bitsVal_false {b : Nat → Bool} {s n : Nat} (h : ∀ i, s ≤ i → b i = false) : bitsVal b s n = 0 := by
  refine Psi.Spiral.bitsVal_word (Nat.pow_pos (by norm_num)) fun k _ => ?_
  rw [h _ (by omega)]
  simp

theorem bytesToCoeffs_zeros {logt len : Nat} (hl : 0 < logt) (h64 : logt ≤ 64) (hlen : 0 < len) :
    bytesToCoeffs logt (List.replicate len 0) = .ok (List.replicate (coefficientsPerElement logt len) 0) := by
  obtain ⟨cs, h1, h2, h3⟩ := bytesToCoeffs_spec hl h64 (List.replicate len 0)
    (fun x hx => by rw [List.eq_of_mem_replicate hx]; norm_num) (by simpa using hlen)
  rw [List.length_replicate] at h2
  rw [h1]
  congr 1
  refine List.ext_getElem (by simp [h2]) fun i a b => ?_
  have := h3 i a
  rw [List.getD_eq_getElem _ _ a] at this
  rw [this, List.getElem_replicate]
  refine bitsVal_false fun k _ => ?_
  unfold streamBit
  split_ifs
  · unfold Psi.Spiral.byteBit
    have : (List.replicate len 0).getD (k / 8) 0 = 0 := by
      rw [List.getD_eq_getElem?_getD, List.getElem?_replicate]
      split_ifs <;> rfl
    rw [this]
    simp
  · rfl

theorem mapRes_append {α β : Type} {f : α → Res β} : ∀ {l₁ l₂ : List α} {r₁ r₂ : List β},
    mapRes f l₁ = .ok r₁ → mapRes f l₂ = .ok r₂ → mapRes f (l₁ ++ l₂) = .ok (r₁ ++ r₂)
  | [], l₂, r₁, r₂, h1, h2 => by
    have : r₁ = [] := by
      unfold mapRes at h1
      injection h1 with h
      exact h.symm
    subst this
    exact h2
  | x :: l₁, l₂, r₁, r₂, h1, h2 => by
    unfold mapRes at h1
    cases hx : f x with
    | ok y =>
      rw [hx] at h1
      cases hl : mapRes f l₁ with
      | ok ys =>
        rw [hl] at h1
        have h1' : Res.ok (y :: ys) = Res.ok r₁ := h1
        injection h1' with h
        subst h
        rw [List.cons_append]
        unfold mapRes
        rw [hx, mapRes_append hl h2]
        rfl
      | throws => rw [hl] at h1; cases h1
      | undefined => rw [hl] at h1; cases h1
    | throws => rw [hx] at h1; cases h1
    | undefined => rw [hx] at h1; cases h1

theorem mapRes_replicate {α β : Type} {f : α → Res β} {x : α} {y : β} (h : f x = .ok y) : ∀ n,
    mapRes f (List.replicate n x) = .ok (List.replicate n y)
  | 0 => rfl
  | n + 1 => by
    rw [List.replicate_succ, List.replicate_succ]
    unfold mapRes
    rw [h, mapRes_replicate h n]
    rfl

theorem flatten_row {rows : List (List Nat)} {len : Nat} (h : ∀ r ∈ rows, r.length = len) : ∀ (k : Nat)
    (hk : k < rows.length), (rows.flatten.drop (k * len)).take len = rows[k] := by
  induction rows with
  | nil => exact fun k hk => absurd hk (by simp)
  | cons r rows ih =>
    intro k hk
    have hr := h r (by simp)
    rw [List.flatten_cons]
    cases k with
    | zero =>
      rw [Nat.zero_mul, List.drop_zero, List.take_left' hr]
      rfl
    | succ k =>
      rw [Nat.succ_mul, Nat.add_comm, ← List.drop_drop, List.drop_left' hr]
      exact ih (fun x hx => h x (by simp [hx])) k (by simpa using hk)

theorem coeffsToBytes_length {logt len eleSize : Nat} {cs bs : List Nat} (h : coeffsToBytes logt cs len eleSize = .ok bs) :
    bs.length = len := by
  unfold coeffsToBytes at h
  simp only at h
  cases hu : unpackCoeffs logt len (w32 (eleSize * 8)) cs ⟨0, 8, fun _ => 0⟩ (w32 (eleSize * 8)) with
  | ok s =>
    rw [hu] at h
    have h' : Res.ok ((List.range len).map s.arr) = Res.ok bs := h
    injection h' with h
    subst h
    simp
  | throws => rw [hu] at h; cases h
  | undefined => rw [hu] at h; cases h

/-- Rows of equal length, of bytes. -/
def RowsOk (rows : List (List Nat)) (len : Nat) : Prop := ∀ r ∈ rows, r.length = len ∧ ∀ x ∈ r, x < 256

theorem packed_ok {logt len : Nat} (hl : 0 < logt) (h64 : logt ≤ 64) (hlen : 0 < len) {rows : List (List Nat)}
    (h : RowsOk rows len) : ∃ css, mapRes (bytesToCoeffs logt) rows = .ok css ∧
      css.flatten.length = rows.length * coefficientsPerElement logt len ∧ ∀ c ∈ css.flatten, c < 2 ^ logt := by
  obtain ⟨css, h1, h2, h3⟩ := packRows_ok hl h64 hlen rows h
  refine ⟨css, h1, ?_, ?_⟩
  · rw [← h2]
    refine Psi.Spiral.flatten_length fun r hr => ?_
    obtain ⟨k, hk, rfl⟩ := List.getElem_of_mem hr
    have := (h3 k hk).1
    rwa [List.getD_eq_getElem _ _ hk] at this
  · intro c hc
    obtain ⟨r, hr, hcr⟩ := List.mem_flatten.1 hc
    obtain ⟨k, hk, rfl⟩ := List.getElem_of_mem hr
    obtain ⟨i, hi, rfl⟩ := List.getElem_of_mem hcr
    obtain ⟨g1, g2⟩ := h3 k hk
    rw [List.getD_eq_getElem _ _ hk] at g1 g2
    have := g2 i hi
    rw [List.getD_eq_getElem _ _ hi] at this
    rw [this]
    exact Psi.Spiral.bitsVal_lt _ _ _

/-! ### The plaintexts of a partition -/

section

variable {S : Seal} (H : Laws S)

/-- The list of coefficients of a plaintext. -/
def ptList (P : Params) (cpe : Nat) (css : List (List Nat)) : List Nat :=
  css.flatten ++ List.replicate (P.perPt * cpe - css.flatten.length) 0 ++ List.replicate (P.n - P.perPt * cpe) 1

/-- What the database of a partition is. -/
structure PartOk (S : Seal) (P : Params) (rows : List (List Nat)) (cpe : Nat) (db : List Plain) : Prop where
  len : db.length = P.dims.prod
  plain : ∀ p ∈ db, PlainOk S p
  get : ∀ i, i < P.numPts → ∃ css, mapRes (bytesToCoeffs P.logt) ((rows.drop (i * P.perPt)).take P.perPt) = .ok css ∧
    (ptList P cpe css).length = S.n ∧ (∀ x ∈ ptList P cpe css, x < S.t) ∧
    ∀ (h : i < db.length), db[i] = S.encode (ptList P cpe css)

include H in
theorem partPlains_ok {P : Params} {rows : List (List Nat)} {ll : Nat} (hn : P.n = S.n) (hl : 0 < P.logt)
    (h64 : P.logt ≤ 64) (ht : 2 ^ P.logt ≤ S.t) (h3 : 3 ≤ S.t) (hll : 0 < ll) (hrows : RowsOk rows ll)
    (hne : rows ≠ []) (hnum : P.eleNum = rows.length) (hper : 0 < P.perPt)
    (hpts : P.numPts = uintNum P.eleNum P.perPt) (hfit : P.perPt * coefficientsPerElement P.logt ll ≤ P.n)
    (hprod : P.numPts ≤ P.dims.prod) :
    ∃ db, partPlains S P rows = .ok db ∧ PartOk S P rows (coefficientsPerElement P.logt ll) db := by
  obtain ⟨r, rest, hr⟩ := List.exists_cons_of_ne_nil hne
  have hrlen : r.length = ll := (hrows r (by rw [hr]; simp)).1
  have hun : partPlains S P rows = (mapRes (ptCoeffs P rows (coefficientsPerElement P.logt ll)) (List.range P.numPts)).bind
      fun cs => .ok (cs.map S.encode ++ List.replicate (P.dims.prod - P.numPts) fun k => if k < P.n then 1 else 0) := by
    unfold partPlains
    rw [hr]
    simp only
    rw [hrlen, if_neg (by omega)]
  generalize hcpe : coefficientsPerElement P.logt ll = cpe at *
  have hpos : 0 < P.eleNum := by rw [hnum]; exact List.length_pos_iff.2 hne
  obtain ⟨u1, u2⟩ := Psi.Spiral.uintNum_bounds P.eleNum hper
  have u3 := u2 hpos
  rw [← hpts] at u1 u3
  obtain ⟨cs, g1, g2, g3⟩ := mapRes_forall (f := ptCoeffs P rows cpe) (List.range P.numPts)
    (fun i c => ∃ css, mapRes (bytesToCoeffs P.logt) ((rows.drop (i * P.perPt)).take P.perPt) = .ok css ∧
      c = ptList P cpe css ∧ (ptList P cpe css).length = S.n ∧ ∀ x ∈ ptList P cpe css, x < S.t) (fun i hi => by
      rw [List.length_range] at hi
      rw [List.getElem_range]
      have hoff : i * P.perPt ≤ (P.numPts - 1) * P.perPt := Nat.mul_le_mul_right _ (by omega)
      have htake : (rows.drop (i * P.perPt)).take (min P.perPt (P.eleNum - i * P.perPt)) =
          (rows.drop (i * P.perPt)).take P.perPt := by
        rcases Nat.le_total P.perPt (P.eleNum - i * P.perPt) with h | h
        · rw [Nat.min_eq_left h]
        · rw [Nat.min_eq_right h, List.take_of_length_le (by rw [List.length_drop]; omega),
            List.take_of_length_le (by rw [List.length_drop]; omega)]
      have hsub : RowsOk ((rows.drop (i * P.perPt)).take P.perPt) ll := fun x hx =>
        hrows x (List.drop_subset _ _ (List.take_subset _ _ hx))
      obtain ⟨css, e1, e2, e3⟩ := packed_ok hl h64 hll hsub
      rw [hcpe, List.length_take, List.length_drop] at e2
      have hle : css.flatten.length ≤ P.perPt * cpe := by
        rw [e2]
        exact Nat.mul_le_mul_right _ (by omega)
      refine ⟨ptList P cpe css, ?_, css, e1, rfl, ?_, ?_⟩
      · unfold ptCoeffs
        simp only
        rw [if_neg (by omega), htake, e1]
        rfl
      · unfold ptList
        rw [List.length_append, List.length_append, List.length_replicate, List.length_replicate]
        omega
      · intro x hx
        unfold ptList at hx
        rcases List.mem_append.1 hx with hx | hx
        · rcases List.mem_append.1 hx with hx | hx
          · exact lt_of_lt_of_le (e3 x hx) ht
          · rw [List.eq_of_mem_replicate hx]; omega
        · rw [List.eq_of_mem_replicate hx]; omega)
  rw [List.length_range] at g2
  rw [hun, g1]
  refine ⟨_, rfl, ?_, ?_, ?_⟩
  · rw [List.length_append, List.length_map, List.length_replicate, g2]
    omega
  · intro p hp
    rcases List.mem_append.1 hp with hp | hp
    · obtain ⟨c, hc, rfl⟩ := List.mem_map.1 hp
      obtain ⟨i, hi, rfl⟩ := List.getElem_of_mem hc
      obtain ⟨css, -, e2, e3, e4⟩ := g3 i hi
      rw [e2]
      exact H.encode_lt _ e3 e4
    · rw [List.eq_of_mem_replicate hp]
      intro k _
      show (if k < P.n then 1 else 0) < S.t
      split_ifs <;> omega
  · intro i hi
    obtain ⟨css, e1, e2, e3, e4⟩ := g3 i (by omega)
    refine ⟨css, e1, e3, e4, fun h => ?_⟩
    rw [List.getElem_append_left (by rw [List.length_map]; omega), List.getElem_map, e2]

include H in
/-- Short rows: the bytes read at an offset are the row. -/
theorem extract_short {P : Params} {rows : List (List Nat)} {len : Nat} (hl : 0 < P.logt)
    (h64 : P.logt ≤ 64) (hlen : 0 < len) (h32 : 8 * len < 2 ^ 32) (hsize : P.eleSize = len) (hrows : RowsOk rows len)
    (hper : 0 < P.perPt) {db : List Plain}
    (hdb : PartOk S P rows (coefficientsPerElement P.logt len) db)
    {idx : Nat} (hi : idx < rows.length) (hpt : idx / P.perPt < P.numPts) (hin : idx / P.perPt < db.length) {pt : Plain}
    (hp : ∀ k < S.n, pt k = db[idx / P.perPt] k) :
    extractBytes S P pt (idx % P.perPt) len = .ok rows[idx] := by
  obtain ⟨css, e1, e2, e3, e4⟩ := hdb.get _ hpt
  have hdec : S.decode pt = ptList P (coefficientsPerElement P.logt len) css :=
    H.decode_encode _ _ e2 e3 fun k hk => by rw [hp k hk, e4 hin]
  generalize hchunk : (rows.drop (idx / P.perPt * P.perPt)).take P.perPt = chunk at e1
  have hsub : RowsOk chunk len := fun x hx => by
    rw [← hchunk] at hx
    exact hrows x (List.drop_subset _ _ (List.take_subset _ _ hx))
  have hclen : chunk.length ≤ P.perPt := by rw [← hchunk, List.length_take]; omega
  have hz := mapRes_replicate (bytesToCoeffs_zeros hl h64 hlen) (P.perPt - chunk.length)
  have hall := mapRes_append e1 hz
  have hcl : css.flatten.length = chunk.length * coefficientsPerElement P.logt len := by
    obtain ⟨css', a1, a2, -⟩ := packed_ok hl h64 hlen hsub
    rw [e1] at a1
    injection a1 with a1
    rw [a1]
    exact a2
  have hzfl : ∀ n c : Nat, (List.replicate n (List.replicate c (0 : Nat))).flatten = List.replicate (n * c) 0 := by
    intro n c
    rw [List.flatten_replicate_replicate]
  have hsub2 : ∀ r ∈ chunk ++ List.replicate (P.perPt - chunk.length) (List.replicate len 0),
      r.length = len ∧ ∀ x ∈ r, x < 256 := by
    intro r hr
    rcases List.mem_append.1 hr with hr | hr
    · exact hsub r hr
    · rw [List.eq_of_mem_replicate hr]
      refine ⟨by simp, fun x hx => ?_⟩
      rw [List.eq_of_mem_replicate hx]
      norm_num
  have hrt := elements_round_trip hl h64 hlen h32 _ hsub2
    (List.replicate (P.n - P.perPt * coefficientsPerElement P.logt len) 1)
  rw [hall] at hrt
  have hrt : coeffsToBytes P.logt ((css ++ List.replicate (P.perPt - chunk.length)
      (List.replicate (coefficientsPerElement P.logt len) 0)).flatten ++
      List.replicate (P.n - P.perPt * coefficientsPerElement P.logt len) 1)
      ((chunk ++ List.replicate (P.perPt - chunk.length) (List.replicate len 0)).length * len) len = _ := hrt
  rw [List.flatten_append, hzfl, List.length_append, List.length_replicate,
    show chunk.length + (P.perPt - chunk.length) = P.perPt by omega, Nat.sub_mul, ← hcl] at hrt
  unfold extractBytes
  rw [hdec, hsize]
  unfold ptList
  rw [hrt]
  show (if _ then _ else _) = _
  have hflen := Psi.Spiral.flatten_length (fun r hr => (hsub2 r hr).1)
  rw [List.length_append, List.length_replicate, show chunk.length + (P.perPt - chunk.length) = P.perPt by omega] at hflen
  have hmod := Nat.mod_lt idx hper
  rw [if_pos (by rw [hflen]; exact Nat.mul_le_mul_right _ hmod)]
  congr 1
  have hdm := Nat.div_add_mod' idx P.perPt
  have hoff : idx % P.perPt < chunk.length := by
    rw [← hchunk, List.length_take, List.length_drop]
    omega
  rw [flatten_row (fun r hr => (hsub2 r hr).1) _ (by rw [List.length_append]; omega), List.getElem_append_left hoff]
  simp only [← hchunk, List.getElem_take, List.getElem_drop, hdm]

include H in
/-- Long rows: the bytes read are the first bytes of the part. -/
theorem extract_long {P : Params} {rows : List (List Nat)} {m : Nat} (hl : 0 < P.logt)
    (h64 : P.logt ≤ 64) (hm : 0 < m) (h32 : 8 * P.eleSize < 2 ^ 32) (hrows : RowsOk rows m)
    (hper : P.perPt = 1) (hfull : coefficientsPerElement P.logt m = P.n) (hbits : P.n * P.logt ≤ 8 * P.eleSize)
    {db : List Plain} (hdb : PartOk S P rows (coefficientsPerElement P.logt m) db)
    {idx : Nat} (hi : idx < rows.length) (hpt : idx / P.perPt < P.numPts) (hin : idx / P.perPt < db.length) {pt : Plain}
    (hp : ∀ k < S.n, pt k = db[idx / P.perPt] k) {loc : Nat} (hloc : loc ≤ m) (hloc2 : loc ≤ P.eleSize) :
    extractBytes S P pt (idx % P.perPt) loc = .ok ((rows[idx]).take loc) := by
  obtain ⟨css, e1, e2, e3, e4⟩ := hdb.get _ hpt
  have hdec : S.decode pt = ptList P (coefficientsPerElement P.logt m) css :=
    H.decode_encode _ _ e2 e3 fun k hk => by rw [hp k hk, e4 hin]
  have hidx : idx / P.perPt = idx := by rw [hper, Nat.div_one]
  rw [hidx, hper, Nat.mul_one] at e1
  have hone : (rows.drop idx).take 1 = [rows[idx]] := by
    rw [List.drop_eq_getElem_cons hi]
    rfl
  rw [hone] at e1
  obtain ⟨hrl, hrb⟩ := hrows _ (List.getElem_mem hi)
  obtain ⟨cs, c1, c2, -⟩ := bytesToCoeffs_spec hl h64 rows[idx] hrb (by omega)
  have hcss : css = [cs] := by
    unfold mapRes at e1
    rw [c1] at e1
    have e1' : Res.ok [cs] = Res.ok css := e1
    injection e1' with h
    exact h.symm
  rw [hrl, hfull] at c2
  have hlist : ptList P (coefficientsPerElement P.logt m) css = cs := by
    unfold ptList
    rw [hcss, hper, hfull, Nat.one_mul, Nat.sub_self]
    simp [c2]
  have hrt := part_round_trip hl h64 h32 rows[idx] [] hrb (by omega) (by simp) (by
    rw [hrl, hfull]
    simpa using hbits)
  rw [c1] at hrt
  unfold extractBytes
  rw [hdec, hlist, hper, Nat.one_mul, Nat.mod_one]
  cases hb : coeffsToBytes P.logt cs P.eleSize P.eleSize with
  | ok bs =>
    have hrt : (coeffsToBytes P.logt (cs ++ []) P.eleSize P.eleSize).bind (fun bs => Res.ok (bs.take (rows[idx]).length)) =
      .ok rows[idx] := hrt
    rw [List.append_nil, hb] at hrt
    have hrt : Res.ok (bs.take (rows[idx]).length) = Res.ok rows[idx] := hrt
    injection hrt with hrt
    have hbl := coeffsToBytes_length hb
    show (if _ then _ else _) = _
    rw [if_pos (by omega), Nat.zero_mul, List.drop_zero]
    congr 1
    rw [hrl] at hrt
    rw [← hrt, List.take_take, Nat.min_eq_left hloc]
  | throws =>
    have hrt : (coeffsToBytes P.logt (cs ++ []) P.eleSize P.eleSize).bind (fun bs => Res.ok (bs.take (rows[idx]).length)) =
      .ok rows[idx] := hrt
    rw [List.append_nil, hb] at hrt
    cases hrt
  | undefined =>
    have hrt : (coeffsToBytes P.logt (cs ++ []) P.eleSize P.eleSize).bind (fun bs => Res.ok (bs.take (rows[idx]).length)) =
      .ok rows[idx] := hrt
    rw [List.append_nil, hb] at hrt
    cases hrt

end

/-! ### Parts of long rows -/

theorem parts_row {rows : List (List Nat)} {rowLen m : Nat} (hm : 0 < m) (hlt : m < rowLen)
    (hr : ∀ r ∈ rows, r.length = rowLen) :
    (partitionRows rows rowLen m).length = (rowLen + m - 1) / m ∧
    ∀ i (h : i < (partitionRows rows rowLen m).length) idx (hi : idx < rows.length)
      (hi2 : idx < ((partitionRows rows rowLen m)[i]).length),
      (((partitionRows rows rowLen m)[i])[idx]).take (if i = (rowLen + m - 1) / m - 1 then rowLen - i * m else m) =
        ((rows[idx]).drop (i * m)).take m := by
  obtain ⟨u1, u2⟩ := Psi.Spiral.uintNum_bounds rowLen hm
  have u3 := u2 (by omega)
  unfold uintNum at u1 u3
  generalize hn : (rowLen + m - 1) / m = num at *
  have hnum : 0 < num := by
    rcases Nat.eq_zero_or_pos num with h | h
    · rw [h] at u1; omega
    · exact h
  have hsucc : num * m = (num - 1) * m + m := by
    rw [← Nat.succ_mul]
    congr 1
    omega
  have heq : partitionRows rows rowLen m =
      ((List.range (num - 1)).map fun i => rows.map fun r => (r.drop (i * m)).take m) ++
      [rows.map fun r => (r.drop ((num - 1) * m)).take (rowLen - (num - 1) * m) ++
        List.replicate (m - (rowLen - (num - 1) * m)) 0] := by
    unfold partitionRows
    rw [if_neg (by omega)]
    simp only [hn]
    rw [show min ((num - 1) * m + m) rowLen = rowLen by omega]
  have hlen : (partitionRows rows rowLen m).length = num := by
    rw [heq]
    simp
    omega
  refine ⟨hlen, fun i h idx hi hi2 => ?_⟩
  have hrow := hr _ (List.getElem_mem hi)
  by_cases hlast : i = num - 1
  · have e : (partitionRows rows rowLen m)[i] = rows.map fun r => (r.drop ((num - 1) * m)).take (rowLen - (num - 1) * m) ++
        List.replicate (m - (rowLen - (num - 1) * m)) 0 := by
      rw [List.getElem_of_eq heq h, List.getElem_append_right (by simp; omega)]
      simp [hlast]
    have hdl : ((rows[idx]).drop ((num - 1) * m)).length = rowLen - (num - 1) * m := by rw [List.length_drop, hrow]
    rw [List.getElem_of_eq e hi2, List.getElem_map, if_pos hlast]
    have him : i * m = (num - 1) * m := by rw [hlast]
    rw [him, List.take_of_length_le (l := (rows[idx]).drop ((num - 1) * m)) (i := rowLen - (num - 1) * m) (by omega),
      List.take_left' hdl, List.take_of_length_le (by omega)]
  · have e : (partitionRows rows rowLen m)[i] = rows.map fun r => (r.drop (i * m)).take m := by
      rw [List.getElem_of_eq heq h, List.getElem_append_left (by simp; omega), List.getElem_map, List.getElem_range]
    rw [List.getElem_of_eq e hi2, List.getElem_map, if_neg hlast, List.take_take, Nat.min_self]

end Psi.SealPir
