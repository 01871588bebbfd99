import Verif.Spiral.SchemeOps
import Mathlib.Data.List.GetD

/-!
# The expansion of a query of Spiral PIR
-/

namespace Psi.Spiral

open Finset

variable {P : Par} {D : Scheme}

/-! ### Splitting a polynomial -/

/-- The coefficients `j`, `j + 2 ^ i`, `j + 2 * 2 ^ i`, ... as a polynomial in `X ^ (2 ^ i)`. -/
noncomputable def part (L : Nat) (σ : Nat → ℤ) (i j : Nat) : A L :=
  ∑ u ∈ range (2 ^ (L - i)), (σ (j + 2 ^ i * u) : A L) * xx L ^ (2 ^ i * u)

theorem part_zero (L : Nat) (σ : Nat → ℤ) : part L σ 0 0 = toA L σ := by
  unfold part toA evalAt
  rw [Nat.sub_zero]
  refine sum_congr rfl fun u _ => ?_
  rw [pow_zero, Nat.one_mul, Nat.zero_add]

theorem part_split {L : Nat} (σ : Nat → ℤ) {i : Nat} (hi : i < L) (j : Nat) :
    part L σ i j = part L σ (i + 1) j + xx L ^ 2 ^ i * part L σ (i + 1) (j + 2 ^ i) := by
  unfold part
  have e : 2 ^ (L - i) = 2 * 2 ^ (L - (i + 1)) := by
    rw [← Nat.pow_succ']
    congr 1
    omega
  rw [e, sum_pairs, mul_sum, ← sum_add_distrib]
  refine sum_congr rfl fun u _ => ?_
  have e1 : 2 ^ i * (2 * u) = 2 ^ (i + 1) * u := by rw [Nat.pow_succ]; ring
  have e2 : 2 ^ i * (2 * u + 1) = 2 ^ i + 2 ^ (i + 1) * u := by rw [Nat.pow_succ]; ring
  have e3 : j + (2 ^ i + 2 ^ (i + 1) * u) = j + 2 ^ i + 2 ^ (i + 1) * u := by ring
  rw [e1, e2, e3, pow_add]
  ring

/-- The exponent is odd below `L`, so that the map is a homomorphism there. -/
noncomputable def tauAt (L t : Nat) : A L →+* A L := if h : t % 2 = 1 then tau L t h else RingHom.id _

theorem tauAt_red {i : Nat} (hi : i < P.L) (x : A P.L) :
    tauQ P.L P.modulus _ (autoExp_odd hi).1 (red _ _ x) = red _ _ (tauAt P.L (autoExp P i) x) := by
  rw [tauQ_red]
  unfold tauAt
  rw [dif_pos (autoExp_odd hi).1]

theorem tauAt_xx {i : Nat} (hi : i < P.L) (k : Nat) :
    tauAt P.L (autoExp P i) (xx P.L ^ (2 ^ i * k)) = (-1) ^ k * xx P.L ^ (2 ^ i * k) := by
  unfold tauAt
  rw [dif_pos (autoExp_odd hi).1, map_pow, tau_xx]
  have e : autoExp P i * (2 ^ i * k) = 2 ^ P.L * k + 2 ^ i * k := by
    unfold autoExp Par.n
    have h := Nat.div_mul_cancel (Nat.pow_dvd_pow 2 hi.le)
    rw [Nat.add_mul, Nat.one_mul, ← Nat.mul_assoc, h]
  rw [← pow_mul, e, pow_add, pow_mul, xx_pow]

theorem tauAt_part {i : Nat} (hi : i < P.L) (σ : Nat → ℤ) (j : Nat) :
    tauAt P.L (autoExp P i) (part P.L σ (i + 1) j) = part P.L σ (i + 1) j := by
  unfold part
  rw [map_sum]
  refine sum_congr rfl fun u _ => ?_
  have e : 2 ^ (i + 1) * u = 2 ^ i * (2 * u) := by rw [Nat.pow_succ]; ring
  rw [map_mul, map_intCast, e, tauAt_xx hi, pow_mul (-1), neg_one_sq, one_pow, one_mul]

/-- `-X ^ (n - 2 ^ i)`, the inverse of `X ^ (2 ^ i)`. -/
noncomputable def yy (L i : Nat) : A L := -xx L ^ (2 ^ L - 2 ^ i)

theorem yy_mul {L i : Nat} (hi : i < L) : yy L i * xx L ^ 2 ^ i = 1 := by
  unfold yy
  have h : 2 ^ i ≤ 2 ^ L := Nat.pow_le_pow_right (by norm_num) hi.le
  rw [neg_mul, ← pow_add, Nat.sub_add_cancel h, xx_pow, neg_neg]

theorem tauAt_yy {i : Nat} (hi : i < P.L) : tauAt P.L (autoExp P i) (yy P.L i) = -yy P.L i := by
  have h1 := yy_mul hi
  have h2 := tauAt_xx hi 1
  rw [Nat.mul_one, pow_one, neg_one_mul] at h2
  have h3 : tauAt P.L (autoExp P i) (yy P.L i) * -xx P.L ^ 2 ^ i = 1 := by rw [← h2, ← map_mul, h1, map_one]
  calc tauAt P.L (autoExp P i) (yy P.L i) = tauAt P.L (autoExp P i) (yy P.L i) * -xx P.L ^ 2 ^ i * -yy P.L i := by
        linear_combination -(tauAt P.L (autoExp P i) (yy P.L i)) * h1
    _ = -yy P.L i := by rw [h3, one_mul]

/-- The first half of a round. -/
theorem expand_even {i : Nat} (hi : i < P.L) (σ : Nat → ℤ) (j : Nat) :
    part P.L σ i j + tauAt P.L (autoExp P i) (part P.L σ i j) = 2 * part P.L σ (i + 1) j := by
  have h2 := tauAt_xx hi 1
  rw [Nat.mul_one, pow_one, neg_one_mul] at h2
  rw [part_split σ hi, map_add, map_mul, tauAt_part hi, tauAt_part hi, h2]
  ring

/-- The second half of a round. -/
theorem expand_odd {i : Nat} (hi : i < P.L) (σ : Nat → ℤ) (j : Nat) :
    yy P.L i * part P.L σ i j + tauAt P.L (autoExp P i) (yy P.L i * part P.L σ i j) = 2 * part P.L σ (i + 1) (j + 2 ^ i) := by
  have h1 := yy_mul hi
  have h2 := tauAt_xx hi 1
  rw [Nat.mul_one, pow_one, neg_one_mul] at h2
  rw [part_split σ hi, map_mul, map_add, map_mul, tauAt_part hi, tauAt_part hi, h2, tauAt_yy hi]
  linear_combination 2 * part P.L σ (i + 1) (j + 2 ^ i) * h1

/-- A part whose other coefficients are zero. -/
theorem part_single {L : Nat} (σ : Nat → ℤ) {i j : Nat} (h : ∀ u, 0 < u → u < 2 ^ (L - i) → σ (j + 2 ^ i * u) = 0) :
    part L σ i j = (σ j : A L) := by
  unfold part
  rw [sum_eq_single 0]
  · simp
  · intro u hu h0
    rw [h u (Nat.pos_of_ne_zero h0) (mem_range.1 hu), Int.cast_zero, zero_mul]
  · intro h0
    exact absurd (mem_range.2 (by positivity)) h0

theorem neg1_spec (ok : ParOk P) {i : Nat} : MatOk P (neg1 P i) ∧ (neg1 P i).rows = 1 ∧
    (neg1 P i).cols = 1 ∧ mval P (neg1 P i) 0 0 = red _ _ (yy P.L i) := by
  have hb := ok.modulus_bounds
  have hp : ∀ r c, c < 1 → (Mat.build 1 1 fun _ _ z => if z = P.n - 2 ^ i then 1 else 0).poly r c =
      fun z => if z = P.n - 2 ^ i then 1 else 0 := fun r c hc => Mat.build_poly _ _ hc
  have hle : RawLe P (Mat.build 1 1 fun _ _ z => if z = P.n - 2 ^ i then 1 else 0) P.modulus := by
    intro r c _ hc z _
    rw [hp r c hc]
    simp only
    split_ifs <;> omega
  obtain ⟨t1, t2⟩ := toNtt_spec ok ((invert_le ok hle).mono (show P.modulus ≤ 2 ^ 64 - 1 by omega))
  unfold neg1
  refine ⟨t1, by simp, by simp, ?_⟩
  rw [t2 0 0 (by simp) (by simp), invert_rmat ok hle (by simp) (by simp)]
  unfold rmat rval yy
  rw [hp 0 0 (by omega), map_neg]
  congr 2
  have e : (fun z : Nat => (((if z = P.n - 2 ^ i then 1 else 0 : Nat)) : ℤ)) = fun z => if z = P.n - 2 ^ i then (1 : ℤ) else 0 := by
    funext z; split_ifs <;> simp
  have hlt : P.n - 2 ^ i < 2 ^ P.L := by
    have : 0 < 2 ^ i := by positivity
    have := ok.n_pos
    unfold Par.n at *
    omega
  rw [e, toA_single P.L 1 hlt, Int.cast_one, one_mul]
  rfl

/-! ### Rounds -/

/-- Dimensions and gadgets the scheme works with. -/
structure SchemeOk (P : Par) (D : Scheme) : Prop where
  valid : validCheck P.L D.dims = .ok ()
  right : 2 ≤ D.dims.tgsw * D.dims.v2
  bits : bitsPer P D.dims.tgsw * (D.dims.tgsw - 1) < 64
  conv : 0 < D.tConv
  left : 0 < D.tLeft
  rightPos : 0 < D.tRight
  fitLeft : DigitFits P D.tLeft
  fitRight : DigitFits P D.tRight

namespace SchemeOk

theorem checks (h : SchemeOk P D) : D.dims.g ≤ P.L ∧ 2 ^ D.dims.v1 ≤ 2 ^ (D.dims.g - 1) ∧
    D.dims.v2 * D.dims.tgsw ≤ 2 ^ (D.dims.g - 1) ∧ D.dims.v1 ≤ 11 ∧ D.dims.v2 ≤ 11 := by
  have := h.valid
  unfold validCheck maxDbDim at this
  split_ifs at this
  omega

theorem tgsw_pos (h : SchemeOk P D) : 0 < D.dims.tgsw := by
  rcases Nat.eq_zero_or_pos D.dims.tgsw with h0 | h0
  · have := h.right
    rw [h0, Nat.zero_mul] at this
    omega
  · exact h0

theorem right_bounds (h : SchemeOk P D) : 0 < D.dims.stopRound ∧ D.dims.tgsw * D.dims.v2 ≤ 2 ^ D.dims.stopRound ∧
    2 ^ (D.dims.stopRound - 1) < D.dims.tgsw * D.dims.v2 ∧ D.dims.stopRound < D.dims.g := by
  obtain ⟨-, -, c, -, -⟩ := h.checks
  have r := h.right
  have h1 : 0 < D.dims.stopRound := by
    unfold Dims.stopRound log2Ceil
    exact Nat.clog_pos (by norm_num) r
  have hg : D.dims.stopRound ≤ D.dims.g - 1 := by
    unfold Dims.stopRound log2Ceil
    refine Nat.clog_le_of_le_pow ?_
    rw [Nat.mul_comm]
    exact c
  refine ⟨h1, ?_, ?_, by omega⟩
  · unfold Dims.stopRound log2Ceil
    exact Nat.le_pow_clog (by norm_num) _
  · unfold Dims.stopRound log2Ceil
    exact Nat.pow_pred_clog_lt_self (by norm_num) r

end SchemeOk

/-- The randomness fits the keys. -/
structure CoinsOk (P : Par) (D : Scheme) (C : KeyCoins) : Prop where
  pack : ∀ i, i < D.n → SampleOk P D.n D.tConv (C.pack i)
  left : ∀ i k, i < D.dims.g → k < D.tLeft → SampleOk P 1 1 (C.left i k)
  right : ∀ i k, i ≤ D.dims.stopRound → k < D.tRight → SampleOk P 1 1 (C.right i k)
  conv : ∀ k, k < 2 * D.tConv → SampleOk P 1 1 (C.conv k)

theorem keyAt_range (f : Nat → Mat) {n i : Nat} (hi : i < n) : keyAt ((List.range n).map f) i = f i := by
  unfold keyAt
  rw [List.getD_eq_getElem _ _ (by simpa using hi), List.getElem_map, List.getElem_range]

/-- The noise after a step of the expansion. -/
noncomputable def stepNoise (P : Par) (D : Scheme) (C : KeyCoins) (i j : Nat) (f : Mat) (N : A P.L) : A P.L :=
  if expandSkip D.dims.stopRound (D.dims.tgsw * D.dims.v2) i j then N
  else N + tauAt P.L (autoExp P i) N +
    if i ≠ 0 ∧ j % 2 = 0 then
      switchNoise P D.tLeft (fun k => (C.left i k).err P 0 0) ((automorphism P (fromNtt P f) (autoExp P i)).poly 0 0)
    else switchNoise P D.tRight (fun k => (C.right i k).err P 0 0) ((automorphism P (fromNtt P f) (autoExp P i)).poly 0 0)

/-- The noise after some rounds; `v` are the ciphertexts after the rounds so far. -/
noncomputable def expandNoise (P : Par) (D : Scheme) (C : KeyCoins) (v : Nat → Nat → Mat) (e : A P.L) : Nat → Nat → A P.L
  | 0 => fun k => if k = 0 then e else 0
  | i + 1 => fun k =>
    if k < 2 ^ i then stepNoise P D C i k (v i k) (expandNoise P D C v e i k)
    else if k < 2 ^ (i + 1) then
      stepNoise P D C i (k - 2 ^ i) (scalarMultiply P (neg1 P i) (v i (k - 2 ^ i)))
        (yy P.L i * expandNoise P D C v e i (k - 2 ^ i))
    else expandNoise P D C v e i k

/-- The rounds that reach entry `j`. -/
def rounds (D : Scheme) (i j : Nat) : Nat := if j % 2 = 1 then min i (D.dims.stopRound + 1) else i

/-- The same ring elements, the words reduced in one way or another. -/
structure SameMat (P : Par) (a b : Mat) : Prop where
  ok : MatOk P a
  rows : a.rows = b.rows
  cols : a.cols = b.cols
  val : ∀ r c, r < b.rows → c < b.cols → mval P a r c = mval P b r c

theorem SameMat.ct {a b : Mat} {m : Nat} (h : SameMat P a b) (hb : CtOk P b m) : CtOk P a m :=
  ⟨h.ok, h.rows.trans hb.rows, h.cols.trans hb.cols⟩

theorem SameMat.ph {a b : Mat} {m : Nat} (h : SameMat P a b) (hb : CtOk P b m) (s : Rq P.L P.modulus) {c : Nat} (hc : c < m) :
    ph P s a c = ph P s b c := by
  have h1 := hb.rows
  have h2 := hb.cols
  unfold Spiral.ph
  rw [h.val 0 c (by omega) (by omega), h.val 1 c (by omega) (by omega)]

/-- Keys with the values of those the client made. -/
structure KeysFor (P : Par) (D : Scheme) (skReg skGsw : Mat) (C : KeyCoins) (K : PublicKeys) : Prop where
  left : ∀ i, i < D.dims.g → SameMat P (keyAt K.left i) (expansionKey P skReg D.tLeft i (C.left i))
  right : ∀ i, i ≤ D.dims.stopRound → SameMat P (keyAt K.right i) (expansionKey P skReg D.tRight i (C.right i))
  packing : ∀ i, i < D.n → SameMat P (keyAt K.packing i) (packingKey P skReg skGsw D.n D.tConv i (C.pack i))
  conversion : SameMat P K.conversion (conversionKey P skReg D.tConv C.conv)

theorem keysFor_gen (ok : ParOk P) {skReg skGsw : Mat} {C : KeyCoins} (hr : KeyOk P 1 skReg) (hg : KeyOk P D.n skGsw)
    (so : SchemeOk P D) (hC : CoinsOk P D C) : KeysFor P D skReg skGsw C (genPublicKeys P D skReg skGsw C) := by
  have h : ∀ {a b : Mat}, a = b → MatOk P b → SameMat P a b := by
    rintro a _ rfl h
    exact ⟨h, rfl, rfl, fun _ _ _ _ => rfl⟩
  obtain ⟨r1, r2, r3, r4⟩ := so.right_bounds
  obtain ⟨c1, -⟩ := so.checks
  refine ⟨fun i hi => h (keyAt_range _ hi) ?_, fun i hi => h (keyAt_range _ (by omega)) ?_,
    fun i hi => h (keyAt_range _ hi) ?_, h rfl ?_⟩
  · exact (expansionKey_spec ok hr (by omega) fun k hk => hC.left i k hi hk).1.ok
  · exact (expansionKey_spec ok hr (by omega) fun k hk => hC.right i k hi hk).1.ok
  · exact (packingKey_spec ok hr hg (hC.pack i hi)).1
  · exact (conversionKey_spec ok hr hC.conv).1.ok

theorem expandStep_spec (ok : ParOk P) (so : SchemeOk P D) {skReg skGsw : Mat} (hsk : KeyOk P 1 skReg) {C : KeyCoins}
    (hC : CoinsOk P D C) {K : PublicKeys} (hK : KeysFor P D skReg skGsw C K) {i j : Nat} (hi : i < D.dims.g) (hj : j < 2 ^ i) (hlive : j % 2 = 1 → i ≤ D.dims.stopRound)
    {f : Mat} (hf : CtOk P f 1) {m m' N : A P.L} (hph : ph P (rmat P skReg 0 0) f 0 = red _ _ (m + N))
    (hm : m + tauAt P.L (autoExp P i) m = m') :
    CtOk P (expandStep P D K D.dims.stopRound (D.dims.tgsw * D.dims.v2) i j f) 1 ∧
      ph P (rmat P skReg 0 0)
        (expandStep P D K D.dims.stopRound (D.dims.tgsw * D.dims.v2) i j f) 0 =
        red _ _ (m' + stepNoise P D C i j f N) := by
  obtain ⟨c1, -, -, -, -⟩ := so.checks
  obtain ⟨r1, r2, r3, r4⟩ := so.right_bounds
  have hiL : i < P.L := by omega
  have hskip : expandSkip D.dims.stopRound (D.dims.tgsw * D.dims.v2) i j = false := by
    unfold expandSkip
    rw [Bool.or_eq_false_iff]
    constructor
    · exact decide_eq_false (by omega)
    · refine decide_eq_false ?_
      rintro ⟨-, rfl, -, h⟩
      have e : 2 ^ D.dims.stopRound = 2 * 2 ^ (D.dims.stopRound - 1) := by
        rw [← Nat.pow_succ']
        congr 1
        omega
      omega
  unfold expandStep stepNoise
  rw [hskip]
  simp only [Bool.false_eq_true, if_false]
  by_cases hl : i ≠ 0 ∧ j % 2 = 0
  · rw [if_pos hl, if_pos hl]
    have hk := hK.left i hi
    obtain ⟨k1, k2⟩ := expansionKey_spec ok hsk hiL (m := D.tLeft) (s := C.left i) fun k hk => hC.left i k hi hk
    obtain ⟨a1, a2⟩ := expandAct_spec ok hiL so.left so.fitLeft (hk.ct k1) (fun k hk' => (hk.ph k1 _ hk').trans (k2 k hk')) hf
    refine ⟨a1, ?_⟩
    rw [a2, hph, tauAt_red hiL, ← map_add (red _ _), ← map_add (red _ _), ← hm, map_add (tauAt _ _)]
    congr 1
    ring
  · rw [if_neg hl, if_neg hl]
    have hle : i ≤ D.dims.stopRound := by
      by_cases h0 : i = 0
      · omega
      · exact hlive (by omega)
    have hk := hK.right i hle
    obtain ⟨k1, k2⟩ := expansionKey_spec ok hsk hiL (m := D.tRight) (s := C.right i) fun k hk => hC.right i k hle hk
    obtain ⟨a1, a2⟩ := expandAct_spec ok hiL so.rightPos so.fitRight (hk.ct k1) (fun k hk' => (hk.ph k1 _ hk').trans (k2 k hk')) hf
    refine ⟨a1, ?_⟩
    rw [a2, hph, tauAt_red hiL, ← map_add (red _ _), ← map_add (red _ _), ← hm, map_add (tauAt _ _)]
    congr 1
    ring

/-- After `i` rounds, entry `j` holds the coefficients `j`, `j + 2 ^ i`, ... of the query, times `2 ^ i`. -/
theorem expand_spec (ok : ParOk P) (so : SchemeOk P D) {skReg skGsw : Mat} (hsk : KeyOk P 1 skReg) {C : KeyCoins}
    (hC : CoinsOk P D C) {K : PublicKeys} (hK : KeysFor P D skReg skGsw C K) {v : Nat → Mat} (h0 : CtOk P (v 0) 1) {σ : Nat → ℤ} {e : A P.L}
    (hph : ph P (rmat P skReg 0 0) (v 0) 0 = red _ _ (toA P.L σ + e)) {i : Nat} (hi : i ≤ D.dims.g) {j : Nat}
    (hj : j < 2 ^ rounds D i j) :
    CtOk P (expand P D K D.dims.stopRound (D.dims.tgsw * D.dims.v2) v i j) 1 ∧
      ph P (rmat P skReg 0 0)
        (expand P D K D.dims.stopRound (D.dims.tgsw * D.dims.v2) v i j) 0 =
        red _ _ (2 ^ rounds D i j * part P.L σ (rounds D i j) j + expandNoise P D C
          (expand P D K D.dims.stopRound (D.dims.tgsw * D.dims.v2) v) e i j) := by
  obtain ⟨c1, -, -, -, -⟩ := so.checks
  obtain ⟨r1, r2, r3, r4⟩ := so.right_bounds
  induction i generalizing j with
  | zero =>
    have hl : rounds D 0 j = 0 := by unfold rounds; split_ifs <;> simp
    rw [hl] at hj ⊢
    obtain rfl : j = 0 := by omega
    refine ⟨h0, ?_⟩
    rw [part_zero, pow_zero, one_mul]
    unfold expand expandNoise
    rw [if_pos rfl, hph]
  | succ i ih =>
    have hpar : ∀ j', (j' = j ∨ j' + 2 ^ i = j) → (i ≠ 0 → j' % 2 = j % 2) := by
      rintro j' (rfl | h) h0
      · rfl
      · have : 2 ^ i = 2 * 2 ^ (i - 1) := by
          rw [← Nat.pow_succ']
          congr 1
          omega
        omega
    unfold expand expandNoise
    by_cases hdead : j % 2 = 1 ∧ D.dims.stopRound < i
    · have hl1 : rounds D (i + 1) j = D.dims.stopRound + 1 := by
        unfold rounds
        rw [if_pos hdead.1]
        omega
      have hl0 : rounds D i j = D.dims.stopRound + 1 := by
        unfold rounds
        rw [if_pos hdead.1]
        omega
      rw [hl1] at hj ⊢
      obtain ⟨i1, i2⟩ := ih (by omega) (j := j) (by rw [hl0]; exact hj)
      rw [hl0] at i2
      have hlt : j < 2 ^ i := lt_of_lt_of_le hj (Nat.pow_le_pow_right (by norm_num) (by omega))
      have hskip : expandSkip D.dims.stopRound (D.dims.tgsw * D.dims.v2) i j = true := by
        unfold expandSkip
        rw [Bool.or_eq_true]
        left
        exact decide_eq_true ⟨r1, hdead.2, hdead.1⟩
      unfold expandRound expandStep stepNoise
      rw [if_pos hlt, if_pos hlt, hskip, if_pos rfl, if_pos rfl]
      exact ⟨i1, i2⟩
    · have hl1 : rounds D (i + 1) j = i + 1 := by
        unfold rounds
        split_ifs
        · omega
        · rfl
      rw [hl1] at hj ⊢
      by_cases hlt : j < 2 ^ i
      · have hl0 : rounds D i j = i := by
          unfold rounds
          split_ifs
          · omega
          · rfl
        obtain ⟨i1, i2⟩ := ih (by omega) (j := j) (by rw [hl0]; exact hlt)
        rw [hl0] at i2
        unfold expandRound
        rw [if_pos hlt, if_pos hlt]
        refine expandStep_spec ok so hsk hC hK (by omega) hlt (by omega) i1 i2 ?_
        rw [map_mul, map_pow, map_ofNat, ← mul_add, expand_even (by omega)]
        ring
      · obtain ⟨k, rfl⟩ : ∃ k, j = k + 2 ^ i := ⟨j - 2 ^ i, by omega⟩
        have hk : k < 2 ^ i := by rw [Nat.pow_succ] at hj; omega
        have hp := hpar k (Or.inr rfl)
        have hl0 : rounds D i k = i := by
          unfold rounds
          split_ifs with h
          · by_cases h0 : i = 0
            · omega
            · have := hp h0
              omega
          · rfl
        obtain ⟨i1, i2⟩ := ih (by omega) (j := k) (by rw [hl0]; exact hk)
        rw [hl0] at i2
        unfold expandRound
        rw [if_neg hlt, if_pos hj, if_neg hlt, if_pos hj, Nat.add_sub_cancel]
        obtain ⟨n1, n2, n3, n4⟩ := neg1_spec ok (i := i)
        obtain ⟨s1, s2⟩ := scalarMultiply_spec ok (n1 0 0 (by rw [n2]; omega) (by rw [n3]; omega)) i1.ok
        refine expandStep_spec ok so hsk hC hK (by omega) hk ?_ ⟨s1, by rw [scalarMultiply_rows, i1.rows], by
          rw [scalarMultiply_cols, i1.cols]⟩ (m := 2 ^ i * (yy P.L i * part P.L σ i k)) ?_ ?_
        · intro h
          by_cases h0 : i = 0
          · omega
          · have := hp h0
            omega
        · unfold ph
          rw [s2 0 0 (by rw [i1.rows]; omega) (by rw [i1.cols]; omega), s2 1 0 (by rw [i1.rows]; omega) (by rw [i1.cols]; omega), n4]
          unfold ph at i2
          calc _ = red _ _ (yy P.L i) * (rmat P skReg 0 0 * mval P (expand P D K
                    D.dims.stopRound (D.dims.tgsw * D.dims.v2) v i k) 0 0 + mval P (expand P D K
                    D.dims.stopRound (D.dims.tgsw * D.dims.v2) v i k) 1 0) := by ring
            _ = _ := by
              rw [i2, ← map_mul]
              congr 1
              ring
        · have hE := expand_odd (show i < P.L by omega) σ k
          rw [map_mul (tauAt _ _) (2 ^ i), map_pow, map_ofNat, ← mul_add, hE]
          ring

end Psi.Spiral
