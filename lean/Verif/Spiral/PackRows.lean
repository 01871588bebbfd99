import Verif.Spiral.PackLemmas

/-!
# Rows in plaintexts
-/

namespace Psi.Spiral

theorem mapRes_ok {α β : Type} {f : α → Res β} {Q : α → β → Prop} :
    ∀ {l : List α}, (∀ a ∈ l, ∃ b, f a = .ok b ∧ Q a b) → ∃ bs, mapRes f l = .ok bs ∧ List.Forall₂ Q l bs := by
  intro l
  induction l with
  | nil => exact fun _ => ⟨[], rfl, .nil⟩
  | cons a l ih =>
    intro h
    obtain ⟨b, h1, h2⟩ := h a (by simp)
    obtain ⟨bs, h3, h4⟩ := ih fun x hx => h x (by simp [hx])
    refine ⟨b :: bs, ?_, .cons h2 h4⟩
    unfold mapRes
    rw [h1]
    show (mapRes f l).bind _ = _
    rw [h3]
    rfl

theorem mapRes_map {α β γ : Type} {f : β → Res γ} {g : α → β} {h : α → γ} {l : List α}
    (hf : ∀ a ∈ l, f (g a) = .ok (h a)) : mapRes f (l.map g) = .ok (l.map h) := by
  induction l with
  | nil => rfl
  | cons a l ih =>
    rw [List.map_cons, List.map_cons]
    unfold mapRes
    rw [hf a (by simp)]
    show (mapRes f (l.map g)).bind _ = _
    rw [ih fun x hx => hf x (by simp [hx])]
    rfl

theorem uintNum_le {a b n : Nat} (hb : 0 < b) (h : a ≤ n * b) : uintNum a b ≤ n := by
  by_contra hc
  obtain ⟨_, h2⟩ := uintNum_bounds a hb
  by_cases h0 : 0 < a
  · have := h2 h0
    have := Nat.mul_le_mul_right b (show n ≤ uintNum a b - 1 by omega)
    omega
  · have : a = 0 := by omega
    subst this
    unfold uintNum at hc
    rw [Nat.zero_add, Nat.div_eq_of_lt (by omega)] at hc
    omega

/-- The sizes used by the conversion. -/
structure SizeOk (P : PackPar) (len : Nat) : Prop where
  logt : 0 < P.logt
  pos : 0 < len
  fit : len ≤ P.maxBytes

theorem SizeOk.coeffs {P : PackPar} {len : Nat} (h : SizeOk P len) :
    0 < uintNum (8 * len) P.logt ∧ uintNum (8 * len) P.logt ≤ P.coeffs := by
  have h1 := h.fit
  have h2 := h.pos
  unfold PackPar.maxBytes at h1
  refine ⟨?_, uintNum_le h.logt (by omega)⟩
  obtain ⟨h3, _⟩ := uintNum_bounds (8 * len) h.logt
  by_contra hc
  have : uintNum (8 * len) P.logt = 0 := by omega
  rw [this] at h3
  omega

theorem SizeOk.elements {P : PackPar} {len : Nat} (h : SizeOk P len) :
    0 < P.elementSize len ∧ P.elementSize len * uintNum (8 * len) P.logt ≤ P.coeffs := by
  obtain ⟨h1, h2⟩ := h.coeffs
  unfold PackPar.elementSize
  have h3 : 0 < P.coeffs / uintNum (8 * len) P.logt := Nat.div_pos h2 h1
  rw [Nat.max_eq_left (by omega)]
  exact ⟨h3, Nat.div_mul_le_self _ _⟩

/-- The bits of a plaintext. -/
structure PtOk (P : PackPar) (combined : List Nat) (offset size : Nat) (pt : List Nat) : Prop where
  length : pt.length = P.coeffs
  small : ∀ c ∈ pt, c < 2 ^ P.logt
  bits : ∀ i, i < 8 * size → coeffBit P.logt pt i = byteBit combined (8 * offset + i)

theorem ptOk_of {wd : Nat} {P : PackPar} {combined : List Nat} {offset size : Nat} (hwd : wd ≤ 64) (hl : 0 < P.logt)
    (hlw : P.logt ≤ wd) (hb : ∀ x ∈ combined, x < 256) (hs : 0 < size) (hlen : offset + size ≤ combined.length)
    (hn : uintNum (8 * size) P.logt ≤ P.coeffs) :
    ∃ cs, bytesToCoeffs wd P.logt offset size combined = .ok cs ∧ cs.length = uintNum (8 * size) P.logt ∧
      PtOk P combined offset size (cs ++ List.replicate (P.coeffs - cs.length) 1) := by
  obtain ⟨cs, h1, h2, h3⟩ := bytesToCoeffs_spec hwd hl hlw combined hb hs hlen
  refine ⟨cs, h1, h2, by rw [List.length_append, List.length_replicate]; omega, fun c hc => ?_, fun i hi => ?_⟩
  · rcases List.mem_append.1 hc with hc | hc
    · obtain ⟨k, hk, rfl⟩ := List.getElem_of_mem hc
      have := h3 k hk
      rw [List.getD_eq_getElem _ _ hk] at this
      rw [this]
      exact bitsVal_lt _ _ _
    · rw [List.eq_of_mem_replicate hc]
      exact Nat.one_lt_two_pow (by omega)
  · obtain ⟨u1, -⟩ := uintNum_bounds (8 * size) hl
    have hk : i / P.logt < cs.length := by
      rw [Nat.div_lt_iff_lt_mul hl, h2]
      omega
    unfold coeffBit
    rw [List.getD_append _ _ _ _ hk, h3 _ hk, bitsVal_testBit _ _ _ (Nat.mod_lt _ hl)]
    rw [Nat.mul_comm, Nat.div_add_mod, if_pos hi]

/-- The loop over the plaintexts from plaintext `p` on. -/
theorem ptLoop_spec {wd : Nat} {P : PackPar} {combined : List Nat} {len rows : Nat} (hwd : wd ≤ 64) (hlw : P.logt ≤ wd)
    (hs : SizeOk P len) (hb : ∀ x ∈ combined, x < 256) (hlen : combined.length = rows * len) (hr : 0 < rows) (k : Nat) :
    ∀ p, p + k = uintNum rows (P.elementSize len) → ∀ offset, (0 < k → offset = p * (P.elementSize len * len)) →
      ∃ pts, ptLoop wd P combined len (P.elementSize len * len) (rows * len)
          (P.elementSize len * uintNum (8 * len) P.logt) k offset = .ok pts ∧ pts.length = k ∧
        ∀ i (hi : i < pts.length), PtOk P combined ((p + i) * (P.elementSize len * len))
          (min (P.elementSize len * len) (rows * len - (p + i) * (P.elementSize len * len))) pts[i] := by
  obtain ⟨e1, e2⟩ := hs.elements
  obtain ⟨n1, n2⟩ := uintNum_bounds rows e1
  have n3 := n2 hr
  have hlen0 := hs.pos
  generalize hes : P.elementSize len = es at *
  induction k with
  | zero =>
    intro p _ offset _
    exact ⟨[], rfl, rfl, fun i hi => absurd hi (by simp)⟩
  | succ k ih =>
    intro p hp offset ho
    have ho' := ho (by omega)
    have hlt : p * es < rows := by
      have := Nat.mul_le_mul_right es (show p ≤ uintNum rows es - 1 by omega)
      omega
    have hlt2 : offset < rows * len := by
      rw [ho', ← Nat.mul_assoc]
      exact Nat.mul_lt_mul_of_pos_right hlt hlen0
    unfold ptLoop
    rw [if_neg (by omega)]
    simp only
    generalize hsz : (if rows * len < offset + es * len then rows * len - offset else es * len) = size
    have hsz' : size = min (es * len) (rows * len - offset) := by rw [← hsz]; split_ifs <;> omega
    have hmul : size % len = 0 := by
      rw [← hsz]
      split_ifs
      · rw [ho', ← Nat.mul_assoc, ← Nat.sub_mul, Nat.mul_mod_left]
      · rw [Nat.mul_mod_left]
    have hpos : 0 < es * len := Nat.mul_pos e1 hlen0
    rw [if_neg (by omega), if_neg (by omega)]
    have hused : uintNum (8 * size) P.logt ≤ es * uintNum (8 * len) P.logt := by
      refine uintNum_le hs.logt ?_
      obtain ⟨u1, -⟩ := uintNum_bounds (8 * len) hs.logt
      calc 8 * size ≤ 8 * (es * len) := by omega
        _ = es * (8 * len) := by ring
        _ ≤ es * (uintNum (8 * len) P.logt * P.logt) := Nat.mul_le_mul_left _ u1
        _ = _ := by ring
    obtain ⟨cs, c1, c2, c3⟩ := ptOk_of (P := P) (offset := offset) (size := size) hwd hs.logt hlw hb (by omega)
      (by omega) (by omega)
    rw [c1]
    obtain ⟨pts, p1, p2, p3⟩ := ih (p + 1) (by omega) (offset + size) fun hk => by
      have h1 : (p + 1) * es < rows := by
        have := Nat.mul_le_mul_right es (show p + 1 ≤ uintNum rows es - 1 by omega)
        omega
      have h2 : (p + 1) * es * len < rows * len := Nat.mul_lt_mul_of_pos_right h1 hlen0
      have h3 : (p + 1) * es * len = p * (es * len) + es * len := by ring
      rw [← Nat.mul_assoc (p + 1), h3]
      omega
    refine ⟨(cs ++ List.replicate (P.coeffs - cs.length) 1) :: pts, ?_, by simp [p2], fun i hi => ?_⟩
    · show (if es * uintNum (8 * len) P.logt < cs.length then Res.throws else _) = _
      rw [if_neg (by omega), p1]
      rfl
    · obtain _ | i := i
      · rw [Nat.add_zero, ← ho', ← hsz']
        exact c3
      · have := p3 i (by simpa using hi)
        rw [show p + 1 + i = p + (i + 1) by omega] at this
        exact this

theorem flatten_getD {rows : List (List Nat)} {len : Nat} (h : ∀ r ∈ rows, r.length = len) {i t : Nat}
    (hi : i < rows.length) (ht : t < len) : rows.flatten.getD (i * len + t) 0 = rows[i].getD t 0 := by
  induction rows generalizing i with
  | nil => simp at hi
  | cons r rows ih =>
    have hr := h r (by simp)
    rw [List.flatten_cons]
    obtain _ | i := i
    · rw [List.getD_append _ _ _ _ (by omega), Nat.zero_mul, Nat.zero_add]
      rfl
    · rw [List.getD_append_right _ _ _ _ (by rw [Nat.succ_mul]; omega), hr,
        show (i + 1) * len + t - len = i * len + t by rw [Nat.succ_mul]; omega,
        ih (fun x hx => h x (by simp [hx])) (by simpa using hi)]
      rfl

theorem flatten_length {rows : List (List Nat)} {len : Nat} (h : ∀ r ∈ rows, r.length = len) :
    rows.flatten.length = rows.length * len := by
  induction rows with
  | nil => simp
  | cons r rows ih =>
    rw [List.flatten_cons, List.length_append, ih fun x hx => h x (by simp [hx]), h r (by simp), List.length_cons]
    ring

/-- A row is read back from the plaintext that holds it. -/
theorem extractRow_of {P : PackPar} {rows : List (List Nat)} {rowLen idx : Nat} {pt : List Nat} (h64 : P.logt ≤ 64)
    (hs : SizeOk P (P.elementLen rowLen)) (hr : ∀ r ∈ rows, r.length = P.elementLen rowLen)
    (hb : ∀ r ∈ rows, ∀ x ∈ r, x < 256) (hi : idx < rows.length)
    (hpt : PtOk P rows.flatten (ptIndex P rowLen idx * (P.elementSize (P.elementLen rowLen) * P.elementLen rowLen))
      (min (P.elementSize (P.elementLen rowLen) * P.elementLen rowLen) (rows.length * P.elementLen rowLen -
        ptIndex P rowLen idx * (P.elementSize (P.elementLen rowLen) * P.elementLen rowLen))) pt) :
    extractRow P rowLen idx pt = .ok rows[idx] := by
  unfold ptIndex at hpt
  unfold extractRow
  obtain ⟨e1, e2⟩ := hs.elements
  have hlen0 := hs.pos
  obtain ⟨u1, -⟩ := uintNum_bounds (8 * P.elementLen rowLen) hs.logt
  generalize hlen : P.elementLen rowLen = len at *
  generalize hes : P.elementSize len = es at *
  rw [if_neg (by rw [hpt.length]; simp)]
  obtain ⟨bytes, b1, b2, b3⟩ := coeffsToBytes_spec hs.logt h64 pt hpt.small
  rw [b1]
  rw [hpt.length] at b2 b3
  have hmod : idx % es < es := Nat.mod_lt _ e1
  have hdm := Nat.div_add_mod idx es
  have hfit : (idx % es) * len + len ≤ es * len := by
    rw [← Nat.succ_mul]
    exact Nat.mul_le_mul_right _ hmod
  have hcap : 8 * (es * len) ≤ P.coeffs * P.logt := by
    calc 8 * (es * len) = es * (8 * len) := by ring
      _ ≤ es * (uintNum (8 * len) P.logt * P.logt) := Nat.mul_le_mul_left _ u1
      _ = (es * uintNum (8 * len) P.logt) * P.logt := by ring
      _ ≤ _ := Nat.mul_le_mul_right _ e2
  have hbl : es * len ≤ bytes.length := by
    obtain ⟨v1, -⟩ := uintNum_bounds (P.coeffs * P.logt) (show 0 < 8 by norm_num)
    omega
  show (if (idx % P.elementSize len) * len + len ≤ bytes.length then
    Res.ok ((bytes.drop ((idx % P.elementSize len) * len)).take len) else _) = _
  rw [hes, if_pos (by omega)]
  congr 1
  have hrow : (rows[idx]).length = len := hr _ (List.getElem_mem hi)
  refine List.ext_getElem (by rw [List.length_take, List.length_drop, hrow]; omega) fun t h1 h2 => ?_
  rw [hrow] at h2
  rw [List.getElem_take, List.getElem_drop]
  have hin : idx % es * len + t < es * len := by omega
  have h3 := b3 (idx % es * len + t) (by omega)
  rw [List.getD_eq_getElem _ _ (by omega)] at h3
  rw [h3]
  have hsplit : idx / es * (es * len) + (idx % es * len + t) = idx * len + t := by
    conv_rhs => rw [← hdm]
    ring
  have htot : idx * len + len ≤ rows.length * len := by
    rw [← Nat.succ_mul]
    exact Nat.mul_le_mul_right _ hi
  have hxs : (rows[idx])[t] < 2 ^ 8 := hb _ (List.getElem_mem hi) _ (List.getElem_mem _)
  refine bitsVal_word hxs fun k hk => ?_
  rw [hpt.bits _ (by omega)]
  unfold byteBit
  rw [show (8 * (idx / es * (es * len)) + (8 * (idx % es * len + t) + k)) / 8 = idx * len + t by omega,
    show (8 * (idx / es * (es * len)) + (8 * (idx % es * len + t) + k)) % 8 = k by omega,
    flatten_getD hr hi h2, List.getD_eq_getElem _ _ (by omega)]

/-- One partition: the conversion succeeds, fills the database, and every row is read back from its plaintext. -/
theorem rawToPts_spec {wd : Nat} {P : PackPar} {rows : List (List Nat)} {rowLen prod : Nat} (hwd : wd ≤ 64)
    (hlw : P.logt ≤ wd) (hs : SizeOk P (P.elementLen rowLen)) (hr : ∀ r ∈ rows, r.length = P.elementLen rowLen)
    (hb : ∀ r ∈ rows, ∀ x ∈ r, x < 256) (h0 : rows ≠ [])
    (hprod : uintNum rows.length (P.elementSize (P.elementLen rowLen)) ≤ prod) :
    ∃ pts, rawToPts wd P rows.length rowLen prod rows = .ok pts ∧ pts.length = prod ∧
      (∀ pt ∈ pts, pt.length = P.coeffs ∧ ∀ c ∈ pt, c < 2 ^ P.logt) ∧
      ∀ idx (hi : idx < rows.length), extractRow P rowLen idx (pts.getD (ptIndex P rowLen idx) []) = .ok rows[idx] := by
  obtain ⟨e1, e2⟩ := hs.elements
  have hpos : 0 < rows.length := List.length_pos_iff.2 h0
  have hfl := flatten_length hr
  have hbf : ∀ x ∈ rows.flatten, x < 256 := by
    intro x hx
    obtain ⟨r, hr1, hr2⟩ := List.mem_flatten.1 hx
    exact hb r hr1 x hr2
  obtain ⟨pts, p1, p2, p3⟩ := ptLoop_spec hwd hlw hs hbf hfl hpos (uintNum rows.length (P.elementSize (P.elementLen rowLen)))
    0 (by omega) 0 (by simp)
  refine ⟨pts ++ List.replicate (prod - pts.length) (List.replicate P.coeffs 1), ?_, ?_, ?_, ?_⟩
  · unfold rawToPts
    rw [if_neg (by simp)]
    obtain _ | ⟨r0, rs⟩ := rows
    · exact absurd rfl h0
    · simp only
      rw [if_neg (by rw [hr r0 (by simp)]; have := hs.fit; omega), if_neg (by omega), p1]
      show (if uintNum (r0 :: rs).length (P.elementSize (P.elementLen rowLen)) < pts.length then Res.throws else _) = _
      rw [if_neg (by omega)]
  · rw [List.length_append, List.length_replicate]
    omega
  · intro pt hpt
    rcases List.mem_append.1 hpt with hpt | hpt
    · obtain ⟨i, hi, rfl⟩ := List.getElem_of_mem hpt
      exact ⟨(p3 i hi).length, (p3 i hi).small⟩
    · rw [List.eq_of_mem_replicate hpt]
      refine ⟨by simp, fun c hc => ?_⟩
      rw [List.eq_of_mem_replicate hc]
      exact Nat.one_lt_two_pow (by have := hs.logt; omega)
  · intro idx hi
    obtain ⟨n1, -⟩ := uintNum_bounds rows.length e1
    have hlt : ptIndex P rowLen idx < pts.length := by
      unfold ptIndex
      rw [Nat.div_lt_iff_lt_mul e1, p2]
      omega
    rw [List.getD_append _ _ _ _ hlt, List.getD_eq_getElem _ _ hlt]
    have := p3 _ hlt
    rw [Nat.zero_add] at this
    exact extractRow_of (by omega) hs hr hb hi this

/-! ### Partitions -/

theorem partitionRows_mem {rows : List (List Nat)} {rowLen m : Nat} (hm : 0 < m) (hlt : m < rowLen)
    (hr : ∀ r ∈ rows, r.length = rowLen) (hb : ∀ r ∈ rows, ∀ x ∈ r, x < 256) {part : List (List Nat)}
    (h : part ∈ partitionRows rows rowLen m) :
    part.length = rows.length ∧ (∀ r ∈ part, r.length = m) ∧ ∀ r ∈ part, ∀ x ∈ r, x < 256 := by
  unfold partitionRows at h
  rw [if_neg (by omega)] at h
  simp only at h
  obtain ⟨u1, u2⟩ := uintNum_bounds rowLen hm
  have u3 := u2 (by omega)
  unfold uintNum at u1 u3
  generalize hn : (rowLen + m - 1) / m = num at *
  rcases List.mem_append.1 h with h | h
  · obtain ⟨i, hi, rfl⟩ := List.mem_map.1 h
    have hi := List.mem_range.1 hi
    refine ⟨by simp, fun r h1 => ?_, fun r h1 x hx => ?_⟩
    · obtain ⟨r', h2, rfl⟩ := List.mem_map.1 h1
      rw [List.length_take, List.length_drop, hr r' h2]
      have := Nat.mul_le_mul_right m (show i + 1 ≤ num - 1 by omega)
      rw [Nat.succ_mul] at this
      omega
    · obtain ⟨r', h2, rfl⟩ := List.mem_map.1 h1
      exact hb r' h2 x (List.drop_subset _ _ (List.take_subset _ _ hx))
  · rw [List.mem_singleton] at h
    subst h
    refine ⟨by simp, fun r h1 => ?_, fun r h1 x hx => ?_⟩
    · obtain ⟨r', h2, rfl⟩ := List.mem_map.1 h1
      rw [List.length_append, List.length_take, List.length_drop, List.length_replicate, hr r' h2]
      rw [Nat.sub_mul, Nat.one_mul] at u3 ⊢
      omega
    · obtain ⟨r', h2, rfl⟩ := List.mem_map.1 h1
      rcases List.mem_append.1 hx with hx | hx
      · exact hb r' h2 x (List.drop_subset _ _ (List.take_subset _ _ hx))
      · rw [List.eq_of_mem_replicate hx]
        norm_num

theorem chunks_flatten (r : List Nat) (m : Nat) : ∀ n, ((List.range n).map fun i => (r.drop (i * m)).take m).flatten =
    r.take (n * m) := by
  intro n
  induction n with
  | zero => simp
  | succ n ih =>
    rw [List.range_succ, List.map_append, List.flatten_append, ih, Nat.succ_mul, List.take_add]
    simp

theorem combineRow_append {A : List (List Nat)} {l : List Nat} {m rowLen : Nat} (hA : 0 < A.length)
    (hall : ∀ d ∈ A ++ [l], d.length = m) (h1 : A.length * m ≤ rowLen) (h2 : rowLen ≤ A.length * m + m) :
    combineRow (A ++ [l]) rowLen = .ok (A.flatten ++ l.take (rowLen - A.length * m)) := by
  obtain _ | ⟨d, ds⟩ := A
  · simp at hA
  · have hd : d.length = m := hall d (by simp)
    rw [List.cons_append]
    obtain ⟨e, es, he⟩ : ∃ e es, ds ++ [l] = e :: es := by
      obtain _ | ⟨e, es⟩ := ds
      · exact ⟨l, [], rfl⟩
      · exact ⟨e, es ++ [l], rfl⟩
    have hel : (e :: es).length = ds.length + 1 := by rw [← he]; simp
    rw [he]
    unfold combineRow
    simp only
    rw [hd, hel, if_neg (by rw [not_not, ← he]; exact hall), if_neg, if_neg, ← he]
    · congr 1
      congr 1
      · rw [List.take_succ_cons, List.take_left' rfl]
      · have : (d :: (ds ++ [l])).getLastD [] = l := by
          rw [← List.cons_append, List.getLastD_eq_getLast?, List.getLast?_concat]
          rfl
        rw [this, List.length_cons]
    · simpa using h1
    · rw [Nat.succ_mul]
      simp only [List.length_cons] at h2
      omega

/-- The pieces of a row, put together. -/
theorem combineRow_partition {rows : List (List Nat)} {rowLen m idx : Nat} (hm : 0 < m) (hlt : m < rowLen)
    (hr : ∀ r ∈ rows, r.length = rowLen) (hb : ∀ r ∈ rows, ∀ x ∈ r, x < 256) (hi : idx < rows.length) :
    combineRow ((partitionRows rows rowLen m).map fun p => p.getD idx []) rowLen = .ok rows[idx] := by
  have hall : ∀ d ∈ (partitionRows rows rowLen m).map fun p => p.getD idx [], d.length = m := by
    intro d hd
    obtain ⟨p, hp, rfl⟩ := List.mem_map.1 hd
    obtain ⟨h1, h2, -⟩ := partitionRows_mem hm hlt hr hb hp
    rw [List.getD_eq_getElem _ _ (by omega)]
    exact h2 _ (List.getElem_mem _)
  obtain ⟨u1, u2⟩ := uintNum_bounds rowLen hm
  have u3 := u2 (by omega)
  unfold uintNum at u1 u3
  have hrow : (rows[idx]).length = rowLen := hr _ (List.getElem_mem hi)
  have heq : (partitionRows rows rowLen m).map (fun p => p.getD idx []) =
      ((List.range ((rowLen + m - 1) / m - 1)).map fun i => ((rows[idx]).drop (i * m)).take m) ++
        [((rows[idx]).drop (((rowLen + m - 1) / m - 1) * m)).take (rowLen - ((rowLen + m - 1) / m - 1) * m) ++
          List.replicate (m - (rowLen - ((rowLen + m - 1) / m - 1) * m)) 0] := by
    unfold partitionRows
    rw [if_neg (by omega)]
    simp only
    have hstop : min (((rowLen + m - 1) / m - 1) * m + m) rowLen = rowLen := by
      rw [← Nat.succ_mul]
      have : (rowLen + m - 1) / m ≠ 0 := by
        intro h
        rw [h] at u1
        omega
      rw [show ((rowLen + m - 1) / m - 1).succ = (rowLen + m - 1) / m from Nat.succ_pred_eq_of_ne_zero this]
      exact Nat.min_eq_right u1
    rw [hstop, List.map_append, List.map_map]
    congr 1
    · refine List.map_congr_left fun i _ => ?_
      simp [Function.comp, hi]
    · simp [hi]
  rw [heq] at hall ⊢
  have hn2 : 1 ≤ (rowLen + m - 1) / m - 1 := by
    by_contra hc
    have : (rowLen + m - 1) / m ≤ 1 := by omega
    have := Nat.mul_le_mul_right m this
    omega
  have hu1 : rowLen ≤ ((rowLen + m - 1) / m - 1) * m + m := by
    rw [Nat.sub_mul, Nat.one_mul]
    generalize (rowLen + m - 1) / m * m = y at *
    omega
  generalize (rowLen + m - 1) / m - 1 = k at *
  rw [combineRow_append (by simp; omega) hall (by simp; omega) (by simp; omega), chunks_flatten]
  simp only [List.length_map, List.length_range]
  rw [List.take_append_of_le_length (by rw [List.length_take, List.length_drop, hrow]; omega), List.take_take,
    Nat.min_self, List.take_of_length_le (l := List.drop _ _) (by rw [List.length_drop, hrow]), List.take_append_drop]

end Psi.Spiral
