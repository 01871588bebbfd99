import Verif.SealPir.DbLemmas

/-!
# C76–C78: SealPIR returns the row asked for

`Laws S` says what is assumed of Microsoft SEAL, and `Laws.Fits` that its noise budget suffices.
-/

namespace Psi.SealPir

open Psi.Spiral (Res w64 w32 uintNum mapRes partitionRows)

/-! ### Sizes -/

theorem mapRes_inv {α β : Type} {f : α → Res β} : ∀ {l : List α} {ys : List β}, mapRes f l = .ok ys →
    ys.length = l.length ∧ ∀ i (h : i < l.length) (h' : i < ys.length), f l[i] = .ok ys[i]
  | [], ys, h => by
    unfold mapRes at h
    injection h with h
    subst h
    exact ⟨rfl, fun i h => absurd h (by simp)⟩
  | x :: l, ys, h => by
    unfold mapRes at h
    cases hx : f x with
    | throws => rw [hx] at h; cases h
    | undefined => rw [hx] at h; cases h
    | ok y =>
      rw [hx] at h
      cases hl : mapRes f l with
      | throws => rw [hl] at h; cases h
      | undefined => rw [hl] at h; cases h
      | ok zs =>
        rw [hl] at h
        have h : Res.ok (y :: zs) = Res.ok ys := h
        injection h with h
        subst h
        obtain ⟨i1, i2⟩ := mapRes_inv hl
        refine ⟨by simp [i1], fun i h1 h2 => ?_⟩
        cases i with
        | zero => exact hx
        | succ i => exact i2 i (by simpa using h1) (by simpa using h2)

theorem bumpDims_cases (total : Nat) : ∀ (l done : List Nat),
    total < (bumpDims total done l).prod ∨ bumpDims total done l = done ++ l.map (· + 1)
  | [], done => by
    right
    simp [bumpDims]
  | x :: xs, done => by
    unfold bumpDims
    split_ifs with h
    · exact Or.inl h
    · rcases bumpDims_cases total xs (done ++ [x + 1]) with h | h
      · exact Or.inl h
      · right
        rw [h]
        simp

theorem bumpDims_length (total : Nat) : ∀ (l done : List Nat), (bumpDims total done l).length = done.length + l.length
  | [], done => by simp [bumpDims]
  | x :: xs, done => by
    unfold bumpDims
    split_ifs with h
    · simp
    · rw [bumpDims_length total xs (done ++ [x + 1])]
      simp
      omega

theorem bumpDims_pos (total : Nat) : ∀ (l done : List Nat), (∀ x ∈ l, 0 < x) → (∀ x ∈ done, 0 < x) →
    ∀ x ∈ bumpDims total done l, 0 < x
  | [], done, _, h => by simpa [bumpDims] using h
  | y :: ys, done, h1, h2 => by
    unfold bumpDims
    split_ifs with h
    · intro x hx
      rcases List.mem_append.1 hx with hx | hx
      · exact h2 x hx
      · exact h1 x hx
    · refine bumpDims_pos total ys _ (fun x hx => h1 x (by simp [hx])) fun x hx => ?_
      rcases List.mem_append.1 hx with hx | hx
      · exact h2 x hx
      · rw [List.mem_singleton.1 hx]; omega

theorem prod_le_bump (x : Nat) : ∀ (l : List Nat), l.prod ≤ (l.map (· + 1)).prod
  | [] => by simp
  | y :: l => by
    rw [List.map_cons, List.prod_cons, List.prod_cons]
    exact Nat.mul_le_mul (by omega) (prod_le_bump x l)

theorem bumpDims_all (total : Nat) : ∀ (l done : List Nat), (done ++ l.map (· + 1)).prod ≤ total →
    bumpDims total done l = done ++ l.map (· + 1)
  | [], done, _ => by simp [bumpDims]
  | x :: xs, done, h => by
    unfold bumpDims
    rw [if_neg]
    · rw [bumpDims_all total xs (done ++ [x + 1]) (by simpa using h)]
      simp
    · rw [not_lt]
      refine le_trans ?_ h
      rw [List.prod_append, List.prod_append]
      exact Nat.mul_le_mul_left _ (prod_le_bump x (x :: xs))

/-- What the constructor sets. -/
theorem setParams_ok {root : Nat → Nat → Nat} {o : Options} {P : Params} (h : setParams root o = .ok P) :
    4096 ≤ o.n ∧ P.logt = o.logt ∧ P.n = o.n ∧ P.eleNum = o.eleNum ∧ P.eleSize = o.eleSize ∧ 0 < P.perPt ∧
      P.numPts = uintNum o.eleNum P.perPt ∧ P.partSize = o.logt * o.n / 8 ∧ 0 < P.partSize ∧
      P.partNum = (o.eleSize + P.partSize - 1) / P.partSize ∧ P.dims.length = o.dimension ∧ P.dims ≠ [] ∧
      (∀ d ∈ P.dims, 0 < d) ∧ P.numPts ≤ P.dims.prod ∧
      (o.eleSize ≤ P.partSize → P.perPt = o.n / coefficientsPerElement o.logt o.eleSize) ∧
      (P.partSize < o.eleSize → P.perPt = 1) ∧
      P.dims = bumpDims P.numPts [] (List.replicate o.dimension (max 2 (root P.numPts o.dimension))) := by
  unfold setParams at h
  split_ifs at h with hn
  obtain ⟨e, he, hpos, he1, he2⟩ : ∃ e, elementsPerPtxt o.logt o.n o.eleSize = .ok e ∧ 0 < e ∧
      (o.eleSize ≤ o.logt * o.n / 8 → e = o.n / coefficientsPerElement o.logt o.eleSize) ∧
      (o.logt * o.n / 8 < o.eleSize → e = 1) := by
    unfold elementsPerPtxt at h ⊢
    by_cases h1 : o.logt * o.n / 8 < o.eleSize
    · rw [if_pos h1]
      exact ⟨1, rfl, by omega, fun h => by omega, fun _ => rfl⟩
    · rw [if_neg h1] at h ⊢
      simp only at h ⊢
      by_cases h2 : coefficientsPerElement o.logt o.eleSize = 0
      · rw [if_pos h2] at h; cases h
      · rw [if_neg h2] at h ⊢
        by_cases h3 : o.n / coefficientsPerElement o.logt o.eleSize = 0
        · rw [if_pos h3] at h; cases h
        · rw [if_neg h3]
          exact ⟨_, rfl, Nat.pos_of_ne_zero h3, fun _ => rfl, fun h => absurd h h1⟩
  rw [he] at h
  have h' : (if o.logt * o.n / 8 = 0 then Res.undefined else _) = Res.ok P := h
  split_ifs at h' with hp
  unfold getDimensions at h'
  split_ifs at h' with hd
  · cases h'
  · simp only at h'
    split_ifs at h' with hx
    · cases h'
    · injection h' with h'
      subst h'
      push Not at hd
      have hl := bumpDims_length (uintNum o.eleNum e)
        (List.replicate o.dimension (max 2 (root (uintNum o.eleNum e) o.dimension))) []
      simp only [List.length_nil, List.length_replicate, Nat.zero_add] at hl
      refine ⟨by omega, rfl, rfl, rfl, rfl, hpos, rfl, rfl, by show 0 < o.logt * o.n / 8; omega, rfl, hl, ?_, ?_, ?_, he1, he2, rfl⟩
      · intro h0
        have h0 : bumpDims (uintNum o.eleNum e) []
          (List.replicate o.dimension (max 2 (root (uintNum o.eleNum e) o.dimension))) = [] := h0
        rw [h0] at hl
        exact hd.1 hl.symm
      · refine bumpDims_pos _ _ _ (fun x hx => ?_) (by simp)
        rw [List.eq_of_mem_replicate hx]
        omega
      · exact Nat.le_of_not_lt hx

/-- With a root that is not short, the dimensions hold more than the plaintexts, as the database demands. -/
theorem dims_suffice {root : Nat → Nat → Nat} {o : Options} {P : Params} (h : setParams root o = .ok P)
    (hroot : P.numPts < (root P.numPts o.dimension + 1) ^ o.dimension) : P.numPts < P.dims.prod := by
  obtain ⟨-, -, -, -, -, -, -, -, -, -, -, -, -, -, -, -, hd⟩ := setParams_ok h
  rw [hd]
  rcases bumpDims_cases P.numPts (List.replicate o.dimension (max 2 (root P.numPts o.dimension))) [] with h1 | h1
  · exact h1
  · rw [h1, List.nil_append, List.map_replicate, List.prod_replicate]
    exact lt_of_lt_of_le hroot (Nat.pow_le_pow_left (by omega) _)

/-- A root for the examples: the greatest number whose power is at most the number. -/
def exactRoot (x d : Nat) : Nat := Nat.findGreatest (fun r => r ^ d ≤ x) x

theorem exactRoot_spec {x d : Nat} (hd : 0 < d) : x < (exactRoot x d + 1) ^ d := by
  by_contra hc
  push Not at hc
  have hle : exactRoot x d + 1 ≤ x := le_trans (Nat.le_self_pow (by omega) _) hc
  have := Nat.le_findGreatest (P := fun r => r ^ d ≤ x) hle hc
  unfold exactRoot at this
  omega

theorem small_params : setParams exactRoot ⟨4096, 1000, 10, 2, 20⟩ = .ok ⟨20, 4096, 1000, 10, 1024, 1, 10240, 1, [2, 2]⟩ := by
  decide +kernel

example := dims_suffice small_params (by decide +kernel)

/-! ### C76: the query and its expansion -/

section

variable {S : Seal} (H : Laws S)

theorem queryOk_get : ∀ {dims is : List Nat} {q : List (List S.Ct)}, QueryOk H dims is q →
    q.length = dims.length ∧ ∀ i (h : i < q.length), ∃ ex, is.getD i 0 < dims.getD i 0 ∧
      expandAll S (galoisElts S) (dims.getD i 0) q[i] = .ok ex ∧
      OneHot H (expNoise H.fresh H.ks (Nat.clog 2 (min (dims.getD i 0) S.n))) (dims.getD i 0) (is.getD i 0) ex
  | [], [], [], _ => ⟨rfl, fun i h => absurd h (by simp)⟩
  | d :: ds, j :: is, q :: qs, h => by
    obtain ⟨⟨h1, ex, h2, h3⟩, h4⟩ := h
    obtain ⟨i1, i2⟩ := queryOk_get h4
    refine ⟨by simp [i1], fun i hi => ?_⟩
    cases i with
    | zero => exact ⟨ex, h1, h2, h3⟩
    | succ i =>
      obtain ⟨ex', g⟩ := i2 i (by simpa using hi)
      exact ⟨ex', by simpa [List.getD_cons_succ] using g⟩
  | [], _ :: _, _, h => by cases ‹List (List S.Ct)› <;> exact h.elim
  | [], [], _ :: _, h => h.elim
  | _ :: _, [], _, h => by cases ‹List (List S.Ct)› <;> exact h.elim
  | _ :: _, _ :: _, [], h => h.elim

/-- **C76.**  The server expands the query for a plaintext, dimension by dimension, to one ciphertext for each position:
of the constant 1 for the position of the plaintext, and of 0 for all the others.  The positions are the digits of the
index of the plaintext in the mixed radix of the dimensions. -/
theorem expansion_one_hot (hodd : S.t % 2 = 1) (h3 : 3 ≤ S.t) (coin : Nat → Nat → S.Coin) {dims : List Nat} {j : Nat}
    (hd : ∀ d ∈ dims, 0 < d) (h31 : dims.prod < 2 ^ 31) (hj : j < dims.prod)
    (hb : ∀ d ∈ dims, expNoise H.fresh H.ks (Nat.clog 2 (min d S.n)) ≤ H.budget) :
    ∃ (is : List Nat) (q : List (List S.Ct)), generateQuery S coin dims j = .ok q ∧ q.length = dims.length ∧ is.length = dims.length ∧
      ((List.range dims.length).map fun i => is.getD i 0 * (dims.drop (i + 1)).prod).sum = j ∧
      ∀ i (h : i < q.length), is.getD i 0 < dims.getD i 0 ∧
        ∃ ex, expandAll S (galoisElts S) (dims.getD i 0) q[i] = .ok ex ∧ ex.length = dims.getD i 0 ∧
        ∀ k (hk : k < ex.length) c, c < S.n →
          S.decrypt ex[k] c = if k = is.getD i 0 ∧ c = 0 then 1 else 0 := by
  obtain ⟨is, q, e1, e2, e3⟩ := generateQuery_ok H hodd h3 coin hd h31 hj
  obtain ⟨g1, g2⟩ := queryOk_get H e2
  refine ⟨is, q, e1, g1, e2.inDims.length, ?_, fun i hi => ?_⟩
  · rw [← e3]
    clear e1 e2 e3 g1 g2 hb hj h31 hd
    induction dims generalizing is with
    | nil => cases is <;> rfl
    | cons d ds ih =>
      cases is with
      | nil =>
        show _ = 0
        refine List.sum_eq_zero fun x hx => ?_
        obtain ⟨i, -, rfl⟩ := List.mem_map.1 hx
        simp
      | cons a is =>
        rw [List.length_cons, List.range_succ_eq_map, List.map_cons, List.sum_cons, List.map_map]
        show a * ds.prod + _ = a * ds.prod + _
        rw [← ih is]
        rfl
  · obtain ⟨ex, h1, h2, h4⟩ := g2 i hi
    refine ⟨h1, ex, h2, h4.1, fun k hk c hc => ?_⟩
    have hmem : dims.getD i 0 ∈ dims := by
      rw [List.getD_eq_getElem _ _ (by omega)]
      exact List.getElem_mem _
    obtain ⟨d1, d2⟩ := H.decrypt_ok (h4.2 k hk) (hb _ hmem)
    have hn : 0 < 2 ^ S.L := Nat.pow_pos (by norm_num)
    have hone : val S.L S.t (fun c => if c = 0 then 1 else 0) = 1 := by
      rw [val_single hn]
      unfold xpow
      simp
    by_cases hki : k = is.getD i 0
    · rw [if_pos hki] at d2
      have := val_inj d1 (fun c _ => by split_ifs <;> omega) (d2.trans hone.symm) c hc
      rw [this]
      simp only [hki, true_and]
    · rw [if_neg hki] at d2
      have := val_inj d1 (fun c _ => by omega) (d2.trans (val_zero S.L S.t).symm) c hc
      rw [this, if_neg (fun h => hki h.1)]

end

example := expansion_one_hot (toyLaws (L := 12) (t := 1032193) true (by norm_num) (by norm_num)) rfl
  (by show 3 ≤ 1032193; norm_num) (fun _ _ => ()) (dims := [3, 5]) (j := 7) (by decide) (by decide) (by decide)
  (fun d hd => by
    have h := (toy_fits (L := 12) (t := 1032193) true (by norm_num) (by norm_num) [3, 5]) d hd
    refine le_trans ?_ h.1
    have h0 : ∀ e, expNoise 0 0 e = 0 := by
      intro e
      induction e with
      | zero => rfl
      | succ e ih => unfold expNoise; rw [ih]
    show expNoise 0 0 _ ≤ _
    rw [h0]
    exact Nat.zero_le _)

/-- The query of a client says nothing by its shape: for every index, the same number of ciphertexts. -/
theorem query_shape (S : Seal) (coin : Nat → Nat → S.Coin) (dims : List Nat) (j : Nat) {q : List (List S.Ct)}
    (h : generateQuery S coin dims j = .ok q) : q.map List.length = dims.map fun d => uintNum d S.n := by
  unfold generateQuery at h
  cases hc : computeIndices j dims with
  | throws => rw [hc] at h; cases h
  | undefined => rw [hc] at h; cases h
  | ok is =>
    rw [hc] at h
    have h : mapRes (fun i => queryDim S (coin i) (dims.getD i 0) (is.getD i 0)) (List.range is.length) = .ok q := h
    have hlen : is.length = dims.length := by
      have : ∀ (dims : List Nat) (p j : Nat) (is : List Nat), indicesLoop dims p j = .ok is → is.length = dims.length := by
        intro dims
        induction dims with
        | nil => intro p j is h; injection h with h; subst h; rfl
        | cons d ds ih =>
          intro p j is h
          unfold indicesLoop at h
          simp only at h
          split_ifs at h
          cases hr : indicesLoop ds (p / d) (j % (p / d)) with
          | throws => rw [hr] at h; cases h
          | undefined => rw [hr] at h; cases h
          | ok r =>
            rw [hr] at h
            have h : Res.ok (j / (p / d) :: r) = Res.ok is := h
            injection h with h
            subst h
            simp [ih _ _ _ hr]
      exact this _ _ _ _ hc
    obtain ⟨m1, m2⟩ := mapRes_inv h
    rw [List.length_range] at m1
    refine List.ext_getElem (by simp [m1, hlen]) fun i h1 h2 => ?_
    rw [List.length_map] at h1 h2
    rw [List.getElem_map, List.getElem_map]
    have h3 := m2 i (by rw [List.length_range]; omega) h1
    rw [List.getElem_range, List.getD_eq_getElem _ _ h2] at h3
    unfold queryDim at h3
    obtain ⟨m3, -⟩ := mapRes_inv h3
    rw [m3, List.length_range]

/-! ### C77: the row asked for -/

section

variable {S : Seal} (H : Laws S)

/-- The number of bytes of partition `i`. -/
def locOf (P : Params) (i : Nat) : Nat := if i = P.partNum - 1 then P.eleSize - i * P.partSize else P.partSize

include H in
theorem db_ok {root : Nat → Nat → Nat} {o : Options} {P : Params} (hP : setParams root o = .ok P) (hS : o.n = S.n)
    (h3 : 3 ≤ S.t) (hl : 0 < o.logt) (h64 : o.logt ≤ 64) (ht : 2 ^ o.logt ≤ S.t)
    (hsize : 0 < o.eleSize) (h32 : 8 * o.eleSize < 2 ^ 32) {rows : List (List Nat)} (hlen : rows.length = o.eleNum)
    (hne : rows ≠ []) (hr : ∀ r ∈ rows, r.length = o.eleSize ∧ ∀ x ∈ r, x < 256) (hprod : P.numPts < P.dims.prod) :
    ∃ dbs, generateDb S P rows o.eleSize = .ok dbs ∧ dbs.length = P.partNum ∧
      ∀ i (h : i < dbs.length), (dbs[i]).length = P.dims.prod ∧ (∀ p ∈ dbs[i], PlainOk S p) ∧
        ∀ idx (hi : idx < rows.length) (hin : idx / P.perPt < (dbs[i]).length) (pt : Plain),
          (∀ k < S.n, pt k = (dbs[i])[idx / P.perPt] k) →
          extractBytes S P pt (idx % P.perPt) (locOf P i) = .ok (((rows[idx]).drop (i * P.partSize)).take P.partSize) := by
  obtain ⟨hn, p1, p2, p3, p4, hper, p5, p6, hps, p7, -, -, -, -, p8, p9, -⟩ := setParams_ok hP
  have hpos : 0 < o.eleNum := by rw [← hlen]; exact List.length_pos_iff.2 hne
  have hptlt : ∀ idx, idx < rows.length → idx / P.perPt < P.numPts := by
    intro idx hi
    rw [Nat.div_lt_iff_lt_mul hper, p5]
    have := (Psi.Spiral.uintNum_bounds o.eleNum hper).1
    omega
  rcases Nat.lt_or_ge P.partSize o.eleSize with hlong | hshort
  · -- long rows
    obtain ⟨q1, q2⟩ := parts_row (rows := rows) hps hlong fun r h => (hr r h).1
    have hpar : ∀ part ∈ partitionRows rows o.eleSize P.partSize, part.length = rows.length ∧ RowsOk part P.partSize := by
      intro part h
      obtain ⟨a, b, c⟩ := Psi.Spiral.partitionRows_mem hps hlong (fun r h => (hr r h).1) (fun r h => (hr r h).2) h
      exact ⟨a, fun r hr => ⟨b r hr, c r hr⟩⟩
    have h8 : 8 * P.partSize = o.n * o.logt := by
      rw [p6, hS]
      have hL : 3 ≤ S.L := by
        by_contra hc
        have : S.n ≤ 2 ^ 2 := Nat.pow_le_pow_right (by norm_num) (by omega)
        rw [← hS] at this
        omega
      have hdvd : 8 ∣ S.n * o.logt := Dvd.dvd.mul_right (pow_dvd_pow 2 hL) _
      rw [Nat.mul_comm o.logt]
      exact Nat.mul_div_cancel' hdvd
    have hfull : coefficientsPerElement P.logt P.partSize = P.n := by
      unfold coefficientsPerElement uintNum
      rw [p1, p2, h8, show o.n * o.logt + o.logt - 1 = o.logt - 1 + o.n * o.logt by omega,
        Nat.add_mul_div_right _ _ hl, Nat.div_eq_of_lt (by omega), Nat.zero_add]
    have hp1 := p9 hlong
    obtain ⟨dbs, g1, g2, g3⟩ := mapRes_forall (f := partPlains S P) (partitionRows rows o.eleSize P.partSize)
      (fun i db => ∀ (h : i < (partitionRows rows o.eleSize P.partSize).length),
        PartOk S P ((partitionRows rows o.eleSize P.partSize)[i]) (coefficientsPerElement P.logt P.partSize) db)
      (fun i hi => by
        obtain ⟨a, b⟩ := hpar _ (List.getElem_mem hi)
        obtain ⟨db, d1, d2⟩ := partPlains_ok H (P := P) (p2.trans hS) (by omega) (by omega) (by rwa [p1]) h3 hps b
          (by intro h0; rw [h0] at a; simp at a; omega) (by omega) hper (by rw [p5, p3])
          (by rw [hfull, hp1, Nat.one_mul]) hprod.le
        exact ⟨db, d1, fun _ => d2⟩)
    refine ⟨dbs, ?_, by rw [g2, q1, p7], fun i h => ?_⟩
    · unfold generateDb
      simp only
      rw [if_neg (by rw [q1, p7]; simp), if_neg (by omega), g1]
    · have hi' : i < (partitionRows rows o.eleSize P.partSize).length := by omega
      have d := g3 i h hi'
      obtain ⟨a, b⟩ := hpar _ (List.getElem_mem hi')
      refine ⟨d.len, d.plain, fun idx hi hin pt hpt => ?_⟩
      have hloc : locOf P i ≤ P.partSize ∧ locOf P i ≤ P.eleSize := by
        have hb := (Psi.Spiral.uintNum_bounds o.eleSize hps).1
        unfold uintNum at hb
        rw [← p7] at hb
        unfold locOf
        split_ifs with h0
        · rw [q1, ← p7] at hi'
          have : P.partNum * P.partSize = i * P.partSize + P.partSize := by
            rw [← Nat.succ_mul]
            congr 1
            omega
          omega
        · omega
      rw [extract_long H (P := P) (by omega) (by omega) hps (by omega) b hp1 hfull (by rw [p1, p2, ← h8, p4]; omega) d
        (by omega) (hptlt idx hi) hin hpt hloc.1 hloc.2]
      congr 1
      have := q2 i hi' idx hi (by omega)
      rw [← this]
      unfold locOf
      rw [p7, p4]
  · -- short rows
    have hparts : partitionRows rows o.eleSize P.partSize = [rows] := by
      unfold partitionRows
      rw [if_pos hshort]
    have hpn : P.partNum = 1 := by
      rw [p7]
      refine Nat.div_eq_of_lt_le (by omega) (by omega)
    have hcpe : P.perPt * coefficientsPerElement P.logt o.eleSize ≤ P.n := by
      rw [p8 hshort, p1, p2]
      exact Nat.div_mul_le_self _ _
    obtain ⟨db, d1, d2⟩ := partPlains_ok H (P := P) (p2.trans hS) (by omega) (by omega) (by rwa [p1]) h3 hsize hr hne
      (by omega) hper (by rw [p5, p3]) hcpe hprod.le
    refine ⟨[db], ?_, by rw [hpn]; rfl, fun i h => ?_⟩
    · unfold generateDb
      simp only
      rw [hparts, if_neg (by rw [hpn]; simp), if_neg (by omega)]
      unfold mapRes
      rw [d1]
      rfl
    · have hi0 : i = 0 := by simpa using h
      subst hi0
      refine ⟨d2.len, d2.plain, fun idx hi hin pt hpt => ?_⟩
      have hlc : locOf P 0 = o.eleSize := by
        unfold locOf
        rw [hpn, if_pos rfl, Nat.zero_mul, p4]
        rfl
      rw [hlc, extract_short H (P := P) (by omega) (by omega) hsize h32 p4 hr hper d2 hi (hptlt idx hi) hin hpt]
      congr 1
      rw [Nat.zero_mul, List.drop_zero, List.take_of_length_le]
      rw [(hr _ (List.getElem_mem hi)).1]
      exact hshort

include H in
/-- **C77.**  A client and a server made from the same options: the answer to the query for a row decodes to the row, for
rows of any length and in any number, packed many to a plaintext or split over many.  Only if SEAL refuses products that
are transparent may the run end in an exception instead. -/
theorem row_or_refusal {root : Nat → Nat → Nat} {o : Options} {P : Params} (hP : setParams root o = .ok P)
    (hS : o.n = S.n) (hodd : S.t % 2 = 1) (h3 : 3 ≤ S.t) (hl : 0 < o.logt) (h64 : o.logt ≤ 64) (ht : 2 ^ o.logt ≤ S.t)
    (hsize : 0 < o.eleSize) (h32 : 8 * o.eleSize < 2 ^ 32) {rows : List (List Nat)} (hlen : rows.length = o.eleNum)
    (hr : ∀ r ∈ rows, r.length = o.eleSize ∧ ∀ x ∈ r, x < 256)
    (hroot : P.numPts < (root P.numPts o.dimension + 1) ^ o.dimension) (h31 : P.dims.prod < 2 ^ 31) (hf : H.Fits P.dims)
    (coin : Nat → Nat → S.Coin) {idx : Nat} (hi : idx < rows.length) :
    run S root o coin rows o.eleSize idx = .ok rows[idx] ∨
      (S.throwOnTransparent = true ∧ run S root o coin rows o.eleSize idx = .throws) := by
  have hprod := dims_suffice hP hroot
  obtain ⟨dbs, g1, g2, g3⟩ := db_ok H hP hS h3 hl h64 ht hsize h32 hlen
    (by intro h0; rw [h0] at hi; simp at hi) hr hprod
  obtain ⟨hn, p1, p2, p3, p4, hper, p5, p6, hps, p7, -, hdne, hdpos, -, p8, p9, -⟩ := setParams_ok hP
  have hpt : idx / P.perPt < P.numPts := by
    rw [Nat.div_lt_iff_lt_mul hper, p5]
    have := (Psi.Spiral.uintNum_bounds o.eleNum hper).1
    omega
  obtain ⟨is, q, e1, e2, e3⟩ := generateQuery_ok H hodd h3 coin hdpos h31 (show idx / P.perPt < P.dims.prod by omega)
  have hrun : run S root o coin rows o.eleSize idx = (generateResponse S P (galoisElts S) dbs q).bind fun r =>
      decodeResponse S P r idx := by
    unfold run
    rw [hP]
    show (generateDb S P rows o.eleSize).bind _ = _
    rw [g1]
    show ask S P coin dbs idx = _
    unfold ask
    rw [e1]
    rfl
  have hresp := Out.mapRes (S := S) (f := respondPart S P (galoisElts S) dbs q) (List.range P.partNum)
    (fun i out => ∃ c cs, out = c :: cs ∧ ∃ pt, decodePlain S P.logt (S.size c) P.dims.length out = .ok pt ∧
      extractBytes S P pt (idx % P.perPt) (locOf P i) = .ok (((rows[idx]).drop (i * P.partSize)).take P.partSize))
    (fun i h => by
      rw [List.length_range] at h
      rw [List.getElem_range]
      obtain ⟨a, b, c⟩ := g3 i (by omega)
      have hin : flatIndex P.dims is < (dbs[i]).length := by rw [e3, a]; omega
      unfold respondPart
      rw [List.getElem?_eq_getElem (show i < dbs.length by omega)]
      refine Out.mono (partition_ok H (logt := P.logt) (by omega) (by rwa [p1]) hdne e2 hf a b hin) fun out ho => ?_
      obtain ⟨c', cs, h1, pt, h2, h4⟩ := ho
      refine ⟨c', cs, h1, pt, h2, ?_⟩
      have hin' : idx / P.perPt < (dbs[i]).length := by rw [a]; omega
      refine c idx hi hin' pt fun k hk => ?_
      rw [h4 k hk]
      have key : ∀ (m : Nat) (hm : m < (dbs[i]).length), m = idx / P.perPt →
          (dbs[i])[m] k = (dbs[i])[idx / P.perPt] k := by
        intro m hm h
        subst h
        rfl
      exact key _ hin e3)
  have hout : Out S (run S root o coin rows o.eleSize idx) fun bs => bs = rows[idx] := by
    rw [hrun]
    refine Out.bind hresp fun r hrr => ?_
    rw [List.length_range] at hrr
    unfold decodeResponse
    have hdec : mapRes (decodePart S P r idx) (List.range P.partNum) =
        .ok ((List.range P.partNum).map fun i => ((rows[idx]).drop (i * P.partSize)).take P.partSize) := by
      have key := Psi.Spiral.mapRes_map (f := decodePart S P r idx) (g := id)
        (h := fun i => ((rows[idx]).drop (i * P.partSize)).take P.partSize) (l := List.range P.partNum) ?_
      · rwa [List.map_id] at key
      intro i hi'
      have hi' := List.mem_range.1 hi'
      show decodePart S P r idx i = _
      obtain ⟨c, cs, h1, pt, h2, h4⟩ := hrr.2 i (by omega)
      unfold decodePart
      rw [List.getElem?_eq_getElem (show i < r.length by omega), h1]
      rw [h1] at h2
      simp only
      rw [h2]
      exact h4
    rw [hdec]
    refine Out.ok ?_
    rw [Psi.Spiral.chunks_flatten, List.take_of_length_le]
    rw [(hr _ (List.getElem_mem hi)).1, p7]
    exact (Psi.Spiral.uintNum_bounds o.eleSize hps).1
  rcases hout with ⟨bs, h1, rfl⟩ | ⟨h1, h2⟩
  · exact Or.inl h1
  · exact Or.inr ⟨h1, h2⟩

include H in
/-- **C78**, for SEAL built without that refusal and within the bounds of C77: every row of every database is returned. -/
theorem row_returned_partial {root : Nat → Nat → Nat} {o : Options} {P : Params} (hP : setParams root o = .ok P)
    (hS : o.n = S.n) (hodd : S.t % 2 = 1) (h3 : 3 ≤ S.t) (hl : 0 < o.logt) (h64 : o.logt ≤ 64) (ht : 2 ^ o.logt ≤ S.t)
    (hsize : 0 < o.eleSize) (h32 : 8 * o.eleSize < 2 ^ 32) {rows : List (List Nat)} (hlen : rows.length = o.eleNum)
    (hr : ∀ r ∈ rows, r.length = o.eleSize ∧ ∀ x ∈ r, x < 256)
    (hroot : P.numPts < (root P.numPts o.dimension + 1) ^ o.dimension) (h31 : P.dims.prod < 2 ^ 31) (hf : H.Fits P.dims)
    (coin : Nat → Nat → S.Coin) {idx : Nat} (hi : idx < rows.length) (hth : S.throwOnTransparent = false) :
    run S root o coin rows o.eleSize idx = .ok rows[idx] := by
  rcases row_or_refusal H hP hS hodd h3 hl h64 ht hsize h32 hlen hr hroot h31 hf coin hi with h | h
  · exact h
  · rw [hth] at h
    exact absurd h.1 (by simp)

end

/-- Rows for the examples. -/
def sampleRows (n len : Nat) : List (List Nat) := (List.range n).map fun i => (List.range len).map fun k => (7 * i + k) % 256

theorem sampleRows_ok (n len : Nat) : (sampleRows n len).length = n ∧
    ∀ r ∈ sampleRows n len, r.length = len ∧ ∀ x ∈ r, x < 256 := by
  refine ⟨by simp [sampleRows], fun r hr => ?_⟩
  obtain ⟨i, -, rfl⟩ := List.mem_map.1 hr
  refine ⟨by simp, fun x hx => ?_⟩
  obtain ⟨k, -, rfl⟩ := List.mem_map.1 hx
  exact Nat.mod_lt _ (by norm_num)

/-- Rows of 10 bytes, 1024 to a plaintext. -/
example := row_returned_partial (toyLaws (L := 12) (t := 1179649) false (by norm_num) (by norm_num)) small_params rfl rfl
  (by show 3 ≤ 1179649; norm_num) (by norm_num) (by norm_num) (by show 2 ^ 20 ≤ 1179649; norm_num) (by norm_num)
  (by norm_num) (sampleRows_ok 1000 10).1 (sampleRows_ok 1000 10).2 (by decide +kernel) (by decide)
  (toy_fits (L := 12) (t := 1179649) false (by norm_num) (by norm_num) _) (fun _ _ => ()) (idx := 999)
  (by rw [(sampleRows_ok 1000 10).1]; norm_num) rfl

theorem long_params : setParams exactRoot ⟨4096, 7, 25000, 2, 20⟩ = .ok ⟨20, 4096, 7, 25000, 1, 7, 10240, 3, [3, 3]⟩ := by
  decide +kernel

/-- Rows of 25000 bytes, in three parts. -/
example := row_or_refusal (toyLaws (L := 12) (t := 1179649) true (by norm_num) (by norm_num)) long_params rfl rfl
  (by show 3 ≤ 1179649; norm_num) (by norm_num) (by norm_num) (by show 2 ^ 20 ≤ 1179649; norm_num) (by norm_num)
  (by norm_num) (sampleRows_ok 7 25000).1 (sampleRows_ok 7 25000).2 (by decide +kernel) (by decide)
  (toy_fits (L := 12) (t := 1179649) true (by norm_num) (by norm_num) _) (fun _ _ => ()) (idx := 6)
  (by rw [(sampleRows_ok 7 25000).1]; norm_num)

/-- A server stored and loaded again is the same server. -/
theorem load_dump {root : Nat → Nat → Nat} {o : Options} {P : Params} (hP : setParams root o = .ok P)
    {dbs : List (List Plain)} (hd : dbs.length = P.partNum) : load root (dump P dbs) = .ok (P, dbs) := by
  obtain ⟨-, p1, p2, p3, p4, -, -, -, -, -, p5, -⟩ := setParams_ok hP
  have ho : (⟨(dump P dbs).n, (dump P dbs).rows, (dump P dbs).rowLen, (dump P dbs).dim, (dump P dbs).logt⟩ : Options) = o := by
    show (⟨P.n, P.eleNum, P.eleSize, P.dims.length, P.logt⟩ : Options) = o
    rw [p1, p2, p3, p4, p5]
  unfold load
  rw [ho, hP]
  show (if P.numPts ≠ P.numPts ∨ P.partNum ≠ P.partNum ∨ P.dims.length ≠ P.dims.length ∨ P.dims ≠ P.dims then _ else _) = _
  rw [if_neg (by simp)]
  show (if dbs.length < P.partNum then _ else _) = _
  rw [if_neg (by omega)]
  show Res.ok (P, dbs.take P.partNum) = _
  rw [List.take_of_length_le (by omega)]

example := load_dump long_params (dbs := List.replicate 3 (List.replicate 9 fun _ => 5)) rfl

/-! ### C78: where it fails -/

/-- **Violated.**  `floor(pow(n, 1.0 / d))` is one short for some exact powers (`pow(64, 1.0 / 3)` is below 4).  Then the
dimensions hold exactly the plaintexts, and the server, which wants more, refuses every database. -/
theorem short_root_refused (S : Seal) {root : Nat → Nat → Nat} {o : Options} {P : Params} (hP : setParams root o = .ok P)
    (h2 : 2 ≤ root P.numPts o.dimension) (hroot : (root P.numPts o.dimension + 1) ^ o.dimension = P.numPts)
    (coin : Nat → Nat → S.Coin) (rows : List (List Nat)) (rowLen idx : Nat) :
    run S root o coin rows rowLen idx = .throws := by
  obtain ⟨-, -, -, -, -, -, -, -, -, -, -, -, -, -, -, -, hd⟩ := setParams_ok hP
  have hprod : P.dims.prod ≤ P.numPts := by
    rw [hd, bumpDims_all]
    all_goals rw [List.nil_append, List.map_replicate, List.prod_replicate, Nat.max_eq_right h2, hroot]
  unfold run
  rw [hP]
  show (generateDb S P rows rowLen).bind _ = _
  unfold generateDb
  simp only
  split_ifs <;> rfl

theorem cube_params : setParams (fun x d => if x = 64 ∧ d = 3 then 3 else exactRoot x d) ⟨4096, 64, 10240, 3, 20⟩ =
    .ok ⟨20, 4096, 64, 10240, 1, 64, 10240, 1, [4, 4, 4]⟩ := by
  decide +kernel

example := short_root_refused (toy 12 1179649 false) cube_params (by decide +kernel) (by decide +kernel) (fun _ _ => ())
  (sampleRows 64 10240) 10240 5

/-- **Violated.**  With SEAL's refusal of transparent products, a plaintext of zeros in the database makes every query
fail, whatever row it asks for. -/
theorem zero_plaintext_refused (S : Seal) (hth : S.throwOnTransparent = true) {P : Params} (hd : ∀ d ∈ P.dims, 0 < d)
    {dbs : List (List Plain)} {i j : Nat} (hi : i < dbs.length) (hpart : i < P.partNum)
    (hj : j < (dbs[i]).length) (hlen : (dbs[i]).length = P.dims.prod) (hz : ∀ k < S.n, (dbs[i])[j] k = 0)
    (hne : P.dims ≠ []) (coin : Nat → Nat → S.Coin) (idx : Nat) (row : List Nat) :
    ask S P coin dbs idx ≠ .ok row := by
  have hmul : ∀ c, multiplyPlain S c (dbs[i])[j] = .throws := fun c => by
    unfold multiplyPlain
    rw [if_pos ⟨hth, hz⟩]
  -- the sum for the column of the plaintext is never computed
  have hfrom : ∀ (ex : List S.Ct) (prod k : Nat), (m a : Nat) → (acc r : S.Ct) →
      (b : Nat) → a ≤ b → b < a + m → b * prod + k = j → dotFrom S dbs[i] ex prod k m a acc ≠ .ok r := by
    intro ex prod k m
    induction m with
    | zero => intro a acc r b h1 h2; omega
    | succ m ih =>
      intro a acc r b h1 h2 h3 h
      unfold dotFrom at h
      cases hex : ex[a]? with
      | none => rw [hex] at h; cases h
      | some c =>
        rw [hex] at h
        cases hc : (dbs[i])[a * prod + k]? with
        | none => rw [hc] at h; cases h
        | some p =>
          rw [hc] at h
          simp only at h
          by_cases hab : a = b
          · rw [hab, h3, List.getElem?_eq_getElem hj] at hc
            injection hc with hc
            rw [← hc, hmul] at h
            cases h
          · cases hm : multiplyPlain S c p with
            | throws => rw [hm] at h; cases h
            | undefined => rw [hm] at h; cases h
            | ok tmp =>
              rw [hm] at h
              exact ih (a + 1) (S.add acc tmp) r b (by omega) (by omega) h3 h
  have hdot : ∀ (ex : List S.Ct) (ni prod k : Nat) (r : S.Ct) (b : Nat), b < ni → b * prod + k = j →
      dot S dbs[i] ex ni prod k ≠ .ok r := by
    intro ex ni prod k r b hb h3 h
    unfold dot at h
    cases hex : ex[0]? with
    | none => rw [hex] at h; cases h
    | some c =>
      rw [hex] at h
      cases hc : (dbs[i])[k]? with
      | none => rw [hc] at h; cases h
      | some p =>
        rw [hc] at h
        simp only at h
        by_cases hab : b = 0
        · rw [hab, Nat.zero_mul, Nat.zero_add] at h3
          rw [h3, List.getElem?_eq_getElem hj] at hc
          injection hc with hc
          rw [← hc, hmul] at h
          cases h
        · cases hm : multiplyPlain S c p with
          | throws => rw [hm] at h; cases h
          | undefined => rw [hm] at h; cases h
          | ok tmp =>
            rw [hm] at h
            exact hfrom ex prod k (ni - 1) 1 tmp r b (by omega) (by omega) h3 h
  obtain ⟨ni, ns, hdims⟩ := List.exists_cons_of_ne_nil hne
  have hni : 0 < ni := hd ni (by rw [hdims]; simp)
  have hpd : P.dims.prod / ni = ns.prod := by
    rw [hdims, List.prod_cons, Nat.mul_div_cancel_left _ hni]
  have hj0 : j < ni * ns.prod := by
    rw [← List.prod_cons, ← hdims, ← hlen]
    exact hj
  have hnsp : 0 < ns.prod := Nat.pos_of_ne_zero fun h0 => by rw [h0] at hj0; simp at hj0
  have hresp : ∀ q r, respond S P.logt (galoisElts S) P.dims q P.dims.prod dbs[i] ≠ .ok r := by
    intro q r h
    have hpr := hpd
    generalize P.dims.prod = pr at h hpr hlen
    rw [hdims] at h
    cases q with
    | nil => cases h
    | cons q qs =>
      unfold respond at h
      cases hex : expandAll S (galoisElts S) ni q with
      | throws => rw [hex] at h; cases h
      | undefined => rw [hex] at h; cases h
      | ok ex =>
        rw [hex] at h
        cases hm : mapRes (dot S dbs[i] ex ni (pr / ni)) (List.range (pr / ni)) with
        | throws => rw [hpd] at *; simp only [Res.bind] at h; rw [hm] at h; cases h
        | undefined => simp only [Res.bind] at h; rw [hm] at h; cases h
        | ok cts =>
          obtain ⟨m1, m2⟩ := mapRes_inv hm
          rw [List.length_range] at m1
          have hk : j % ns.prod < pr / ni := by rw [hpr]; exact Nat.mod_lt _ hnsp
          have h1 := m2 (j % ns.prod) (by rw [List.length_range]; exact hk) (by omega)
          rw [List.getElem_range, hpr] at h1
          refine hdot ex ni ns.prod (j % ns.prod) _ (j / ns.prod) ?_ (Nat.div_add_mod' _ _) h1
          rw [Nat.div_lt_iff_lt_mul hnsp]
          exact hj0
  intro h
  unfold ask at h
  cases hq : generateQuery S coin P.dims (idx / P.perPt) with
  | throws => rw [hq] at h; cases h
  | undefined => rw [hq] at h; cases h
  | ok q =>
    rw [hq] at h
    cases hg : generateResponse S P (galoisElts S) dbs q with
    | throws => simp only [Res.bind] at h; rw [hg] at h; cases h
    | undefined => simp only [Res.bind] at h; rw [hg] at h; cases h
    | ok r =>
      unfold generateResponse at hg
      obtain ⟨m1, m2⟩ := mapRes_inv hg
      rw [List.length_range] at m1
      have h1 := m2 i (by rw [List.length_range]; exact hpart) (by omega)
      rw [List.getElem_range] at h1
      unfold respondPart at h1
      rw [List.getElem?_eq_getElem hi] at h1
      exact hresp _ _ h1

example := zero_plaintext_refused (toy 12 1179649 true) rfl
  (P := ⟨20, 4096, 2000, 10, 1024, 2, 10240, 1, [2, 2]⟩) (by decide) (dbs := [[fun _ => 5, fun _ => 0, fun _ => 1, fun _ => 1]])
  (i := 0) (j := 1) (by decide) (by decide) (by decide) rfl (fun _ _ => rfl) (by decide) (fun _ _ => ()) 0 [1]

theorem mapRes_const {α β : Type} {f : α → Res β} {y : β} : ∀ (l : List α), (∀ x ∈ l, f x = .ok y) →
    mapRes f l = .ok (List.replicate l.length y)
  | [], _ => rfl
  | x :: l, h => by
    unfold mapRes
    rw [h x (by simp), mapRes_const l fun z hz => h z (by simp [hz])]
    rfl

/-- **Violated.**  Rows of zeros that fill a plaintext, the last rows for instance: no row of the database can be
retrieved. -/
theorem zero_rows_refused {S : Seal} (H : Laws S) (hth : S.throwOnTransparent = true)
    (henc : ∀ k < S.n, S.encode (List.replicate S.n 0) k = 0)
    {root : Nat → Nat → Nat} {o : Options} {P : Params} (hP : setParams root o = .ok P) (hS : o.n = S.n)
    (h3 : 3 ≤ S.t) (hl : 0 < o.logt) (h64 : o.logt ≤ 64) (ht : 2 ^ o.logt ≤ S.t) (hsize : 0 < o.eleSize)
    (hshort : o.eleSize ≤ P.partSize) (hfill : P.perPt * coefficientsPerElement o.logt o.eleSize = o.n)
    {rows : List (List Nat)} (hlen : rows.length = o.eleNum) (hne : rows ≠ [])
    (hr : ∀ r ∈ rows, r.length = o.eleSize ∧ ∀ x ∈ r, x < 256) {i : Nat} (hi : i < P.numPts)
    (hz : ∀ r ∈ (rows.drop (i * P.perPt)).take P.perPt, r = List.replicate o.eleSize 0) (coin : Nat → Nat → S.Coin)
    (idx : Nat) (row : List Nat) : run S root o coin rows o.eleSize idx ≠ .ok row := by
  obtain ⟨hn, p1, p2, p3, p4, hper, p5, p6, hps, p7, -, hdne, hdpos, hprod, p8, p9, -⟩ := setParams_ok hP
  have hparts : partitionRows rows o.eleSize P.partSize = [rows] := by
    unfold partitionRows
    rw [if_pos hshort]
  have hpn : P.partNum = 1 := by
    rw [p7]
    refine Nat.div_eq_of_lt_le (by omega) (by omega)
  obtain ⟨db, d1, d2⟩ := partPlains_ok H (P := P) (p2.trans hS) (by omega) (by omega) (by rwa [p1]) h3 hsize hr hne
    (by omega) hper (by rw [p5, p3]) (by rw [p1, p2, hfill]) hprod
  intro h
  unfold run at h
  rw [hP] at h
  have h : (generateDb S P rows o.eleSize).bind (fun dbs => ask S P coin dbs idx) = .ok row := h
  unfold generateDb at h
  simp only [hparts] at h
  rw [if_neg (by rw [hpn]; simp)] at h
  split_ifs at h with hpr
  · cases h
  · unfold mapRes at h
    rw [d1] at h
    have h : ask S P coin [db] idx = .ok row := h
    have hidb : i < db.length := by rw [d2.len]; omega
    refine zero_plaintext_refused S hth hdpos (dbs := [db]) (i := 0) (j := i) (by simp) (by omega) hidb d2.len ?_ hdne
      coin idx row h
    intro k hk
    show db[i] k = 0
    obtain ⟨css, e1, -, -, e4⟩ := d2.get i hi
    rw [e4 hidb]
    have hc : mapRes (bytesToCoeffs P.logt) ((rows.drop (i * P.perPt)).take P.perPt) =
        .ok (List.replicate ((rows.drop (i * P.perPt)).take P.perPt).length
          (List.replicate (coefficientsPerElement P.logt o.eleSize) 0)) := by
      refine mapRes_const _ fun r hr => ?_
      rw [hz r hr]
      exact bytesToCoeffs_zeros (by omega) (by omega) hsize
    rw [e1] at hc
    injection hc with hc
    have hlist : ptList P (coefficientsPerElement P.logt o.eleSize) css = List.replicate S.n 0 := by
      unfold ptList
      rw [hc, List.flatten_replicate_replicate, List.length_replicate, ← List.replicate_add, p1, p2, hfill, Nat.sub_self]
      have : ((rows.drop (i * P.perPt)).take P.perPt).length * coefficientsPerElement o.logt o.eleSize ≤ o.n := by
        rw [← hfill]
        exact Nat.mul_le_mul_right _ (by rw [List.length_take]; omega)
      rw [List.replicate_zero, List.append_nil, hS]
      congr 1
      omega
    rw [hlist]
    exact henc k hk

theorem zero_tail_params :
    setParams exactRoot ⟨4096, 2000, 10, 2, 20⟩ = .ok ⟨20, 4096, 2000, 10, 1024, 2, 10240, 1, [2, 2]⟩ := by
  decide +kernel

/-- The last 976 rows are zeros: row 0 cannot be retrieved. -/
example := zero_rows_refused (toyLaws (L := 12) (t := 1179649) true (by norm_num) (by norm_num)) rfl
  (fun k hk => by
    show (List.replicate _ 0).getD k 0 = 0
    rw [List.getD_eq_getElem?_getD, List.getElem?_replicate]
    split_ifs
    all_goals rfl)
  zero_tail_params rfl (by show 3 ≤ 1179649; norm_num) (by norm_num) (by norm_num)
  (by show 2 ^ 20 ≤ 1179649; norm_num) (by norm_num) (by norm_num) (by decide)
  (rows := sampleRows 1024 10 ++ List.replicate 976 (List.replicate 10 0))
  (by rw [List.length_append, List.length_replicate, (sampleRows_ok 1024 10).1])
  (by
    intro h
    have h := congrArg List.length h
    rw [List.length_append, (sampleRows_ok 1024 10).1, List.length_nil] at h
    omega)
  (fun r hr => by
    rcases List.mem_append.1 hr with hr | hr
    · exact (sampleRows_ok 1024 10).2 r hr
    · rw [List.eq_of_mem_replicate hr]
      exact ⟨by simp, fun x hx => by rw [List.eq_of_mem_replicate hx]; norm_num⟩)
  (i := 1) (by norm_num)
  (fun r hr => by
    have hr := List.take_subset _ _ hr
    rw [Nat.one_mul, List.drop_left' (sampleRows_ok 1024 10).1] at hr
    exact List.eq_of_mem_replicate hr)
  (fun _ _ => ()) 0

/-- **Violated for `2 ^ 31` plaintexts and more**: the product of the dimensions is computed in an `int`, and every query
of the client asks for the first plaintext. -/
theorem indices_wrapped {j : Nat} (hj : j < 2 ^ 31) : computeIndices j [2 ^ 16, 2 ^ 15] = .ok [0, 0] := by
  have h0 : intProd [2 ^ 16, 2 ^ 15] = 2 ^ 64 - 2 ^ 31 := by decide +kernel
  unfold computeIndices
  rw [h0]
  unfold indicesLoop
  simp only
  rw [if_neg (by norm_num)]
  unfold indicesLoop
  simp only
  rw [if_neg (by norm_num)]
  unfold indicesLoop
  rw [Nat.mod_eq_of_lt (by omega), Nat.div_eq_of_lt (by omega), Nat.div_eq_of_lt (by omega)]
  rfl

example := indices_wrapped (j := 32768) (by norm_num)

example := setParams_ok long_params

example := query_shape (toy 12 1179649 false) (fun _ _ => ()) [3, 5] 7 rfl

end Psi.SealPir
