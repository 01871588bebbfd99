import Verif.Spiral.MatLemmas

/-!
# C63: polynomial matrices and gadgets

The statements are about the integer coefficients of the polynomials before and after a sequence of calls, modulo
`X ^ n + 1` and the product `q` of the moduli.
-/

namespace Psi.Spiral

open Finset

variable {P : Par}

/-- Coefficient `k` of `a(X ^ t)` modulo `X ^ n + 1`. -/
def substitute (a : Nat → ℤ) (n t k : Nat) : ℤ :=
  ∑ i ∈ range n, if i * t % (2 * n) = k then a i else if i * t % (2 * n) = k + n then -a i else 0

/-- Reduced words are the coefficients of their ring element. -/
theorem word_eq {a : Words} (ha : ∀ z, z < P.n → a z < P.modulus) {x : A P.L} (h : rval P a = red _ _ x) {z : Nat}
    (hz : z < P.n) : (a z : ℤ) = coeff x z % P.modulus := by
  unfold rval at h
  have := red_eq_coeff.1 h z hz
  rw [coeff_toA _ hz] at this
  rw [← this, Int.emod_eq_of_lt (Int.natCast_nonneg _)]
  exact_mod_cast ha z hz

theorem rawLe_lt {M : Mat} {b : Nat} (hb : 0 < b) (h : RawLe P M (b - 1)) {r c : Nat} (hr : r < M.rows)
    (hc : c < M.cols) : ∀ z, z < P.n → M.poly r c z < b := fun z hz => by
  have := h r c hr hc z hz
  omega

/-- **C63** transforming a raw matrix and back reduces its coefficients modulo `q`, nothing else. -/
theorem transform_round_trip (ok : ParOk P) {M : Mat} (h : RawLe P M (2 ^ 64 - 1)) {r c z : Nat}
    (hr : r < M.rows) (hc : c < M.cols) (hz : z < P.n) :
    (fromNtt P (toNtt P M)).poly r c z = M.poly r c z % P.modulus := by
  obtain ⟨h1, h2⟩ := toNtt_spec ok h
  obtain ⟨h3, h4⟩ := fromNtt_spec ok h1
  have hb := ok.modulus_bounds
  have hl := rawLe_lt (by omega) h3 (r := r) (c := c) (by simpa using hr) (by simpa using hc)
  have e := h4 r c (by simpa using hc)
  rw [h2 r c hr hc] at e
  have := (rval_eq_iff).1 e z hz
  rw [Nat.mod_eq_of_lt (hl z hz)] at this
  exact this

/-- **C63** the product of two transformed matrices is the matrix product over the polynomials. -/
theorem matrix_product_exact (ok : ParOk P) {M N : Mat} (hM : RawLe P M (2 ^ 64 - 1)) (hN : RawLe P N (2 ^ 64 - 1))
    (hd : M.cols = N.rows) {r c z : Nat} (hr : r < M.rows) (hc : c < N.cols) (hz : z < P.n) :
    ((fromNtt P (multiply P (toNtt P M) (toNtt P N))).poly r c z : ℤ) =
      (∑ k ∈ range M.cols, negacyclic (fun i => (M.poly r k i : ℤ)) (fun i => (N.poly k c i : ℤ)) P.n z) % P.modulus := by
  obtain ⟨a1, a2⟩ := toNtt_spec ok hM
  obtain ⟨b1, b2⟩ := toNtt_spec ok hN
  obtain ⟨c1, c2⟩ := multiply_spec ok a1 b1 (by simpa using hd)
  obtain ⟨d1, d2⟩ := fromNtt_spec ok c1
  have hb := ok.modulus_bounds
  have hl := rawLe_lt (by omega) d1 (r := r) (c := c) (by simpa using hr) (by simpa using hc)
  have e := d2 r c (by simpa using hc)
  rw [c2 r c (by simpa using hr) (by simpa using hc), toNtt_cols] at e
  have e2 : rmat P (fromNtt P (multiply P (toNtt P M) (toNtt P N))) r c =
      red _ _ (toA P.L fun z =>
        ∑ k ∈ range M.cols, negacyclic (fun i => (M.poly r k i : ℤ)) (fun i => (N.poly k c i : ℤ)) P.n z) := by
    rw [e, toA_sum, map_sum]
    refine sum_congr rfl fun k hk => ?_
    have hk' := mem_range.1 hk
    rw [a2 r k hr hk', b2 k c (by omega) hc]
    unfold rmat rval
    rw [← map_mul, toA_mul]
    rfl
  rw [word_eq hl e2 hz, coeff_toA _ hz]

/-- **C63** sums. -/
theorem matrix_sum_exact (ok : ParOk P) {M N : Mat} (hM : RawLe P M (2 ^ 64 - 1)) (hN : RawLe P N (2 ^ 64 - 1))
    (hd : M.rows = N.rows) (hd2 : M.cols = N.cols) {r c z : Nat} (hr : r < M.rows) (hc : c < M.cols) (hz : z < P.n) :
    (fromNtt P (add P (toNtt P M) (toNtt P N))).poly r c z = (M.poly r c z + N.poly r c z) % P.modulus := by
  obtain ⟨a1, a2⟩ := toNtt_spec ok hM
  obtain ⟨b1, b2⟩ := toNtt_spec ok hN
  obtain ⟨c1, c2⟩ := add_spec ok a1 b1 (by simpa using hd) (by simpa using hd2)
  obtain ⟨d1, d2⟩ := fromNtt_spec ok c1
  have hb := ok.modulus_bounds
  have hl := rawLe_lt (by omega) d1 (r := r) (c := c) (by simpa using hr) (by simpa using hc)
  have e := d2 r c (by simpa using hc)
  rw [c2 r c (by simpa using hr) (by simpa using hc), a2 r c hr hc, b2 r c (by omega) (by omega)] at e
  have e2 : rval P ((fromNtt P (add P (toNtt P M) (toNtt P N))).poly r c) =
      red _ _ (toA P.L fun z => ((M.poly r c z + N.poly r c z : Nat) : ℤ)) := by
    refine e.trans ?_
    unfold rmat rval
    rw [← map_add, ← toA_add]
    congr 2
  have := word_eq hl e2 hz
  rw [coeff_toA _ hz] at this
  exact_mod_cast this

/-- **C63** negation of words up to `q`. -/
theorem invert_exact (ok : ParOk P) {M : Mat} (hM : RawLe P M P.modulus) {r c z : Nat}
    (hr : r < M.rows) (hc : c < M.cols) (hz : z < P.n) :
    (invert P M).poly r c z ≤ P.modulus ∧ (invert P M).poly r c z + M.poly r c z = P.modulus := by
  have hb := ok.modulus_bounds
  have h := hM r c hr hc z hz
  rw [invert_poly M r hc]
  unfold invertPoly
  rw [sub64_of_le (by omega) h]
  omega

theorem tau_toA (L t : Nat) (ht : t % 2 = 1) (a : Nat → ℤ) :
    tau L t ht (toA L a) = toA L (substitute a (2 ^ L) t) := by
  have hmono : ∀ i, xx L ^ (i * t) = toA L fun k =>
      if i * t % (2 * 2 ^ L) = k then 1 else if i * t % (2 * 2 ^ L) = k + 2 ^ L then -1 else 0 := by
    intro i
    have hp : 0 < 2 ^ L := Nat.pow_pos (by norm_num)
    have h1 : xx L ^ (i * t) = xx L ^ (i * t % (2 * 2 ^ L)) := by
      conv_lhs => rw [← Nat.div_add_mod (i * t) (2 * 2 ^ L)]
      rw [pow_add, pow_mul, mul_comm 2, pow_mul, xx_pow]
      simp
    rw [h1]
    generalize hm : i * t % (2 * 2 ^ L) = m
    have hm2 : m < 2 * 2 ^ L := by rw [← hm]; exact Nat.mod_lt _ (by omega)
    by_cases hlt : m < 2 ^ L
    · have := toA_single L 1 hlt
      rw [Int.cast_one, one_mul] at this
      rw [← this]
      refine toA_congr fun k hk => ?_
      by_cases hk' : k = m
      · simp [hk']
      · rw [if_neg hk', if_neg (by omega), if_neg (by omega)]
    · have := toA_single L (-1) (j := m - 2 ^ L) (by omega)
      have e : xx L ^ m = ((-1 : ℤ) : A L) * xx L ^ (m - 2 ^ L) := by
        conv_lhs => rw [show m = 2 ^ L + (m - 2 ^ L) by omega]
        rw [pow_add, xx_pow]
        push_cast
        ring
      rw [e, ← this]
      refine toA_congr fun k hk => ?_
      by_cases hk' : k = m - 2 ^ L
      · rw [if_pos hk', if_neg (by omega), if_pos (by omega)]
      · rw [if_neg hk', if_neg (by omega), if_neg (by omega)]
  have h2 : tau L t ht (toA L a) = ∑ i ∈ range (2 ^ L), (a i : A L) * xx L ^ (i * t) := by
    unfold tau
    rw [evalHom_toA]
    unfold evalAt
    exact sum_congr rfl fun i _ => by rw [← pow_mul, mul_comm t]
  rw [h2, sum_congr rfl fun i _ => by rw [hmono i, ← toA_int_mul], ← toA_sum]
  refine toA_congr fun k _ => ?_
  unfold substitute
  refine sum_congr rfl fun i _ => ?_
  split_ifs <;> ring

/-- **C63** the automorphism substitutes `X ^ t` for `X`. -/
theorem automorphism_exact (ok : ParOk P) {M : Mat} (hM : RawLe P M P.modulus) {t : Nat} (ht : t % 2 = 1)
    (ht2 : t ≤ P.n + 1) {r c z : Nat} (hr : r < M.rows) (hc : c < M.cols) (hz : z < P.n) :
    (automorphism P M t).poly r c z ≤ P.modulus ∧
      ((automorphism P M t).poly r c z : ℤ) % P.modulus =
        substitute (fun i => (M.poly r c i : ℤ)) P.n t z % P.modulus := by
  obtain ⟨h1, h2⟩ := automorphism_spec ok hM ht ht2
  refine ⟨h1 r c (by simpa using hr) (by simpa using hc) z hz, ?_⟩
  have e := h2 r c hr hc
  unfold rmat rval at e
  rw [tauQ_red, tau_toA] at e
  have := red_eq_coeff.1 e z hz
  rw [coeff_toA _ hz, coeff_toA _ hz] at this
  exact this

/-- **C63** the digits of a value below `q` are smaller than the base and add up to the value. -/
theorem gadget_digits_exact_partial (ok : ParOk P) {t : Nat} (ht : 0 < t) {val : Nat} (hv : val < P.modulus) :
    (∀ k, gadgetPiece (bitsPer P t) k val < 2 ^ bitsPer P t) ∧
      ∑ k ∈ range t, 2 ^ (bitsPer P t * k) * gadgetPiece (bitsPer P t) k val = val :=
  ⟨fun _ => gadgetPiece_lt _ _ _, gadgetPiece_sum ok ht hv⟩

theorem sum_blocks {R : Type} [CommRing R] (f : Nat → R) (t rows : Nat) :
    ∑ i ∈ range (t * rows), f i = ∑ k ∈ range t, ∑ j ∈ range rows, f (j + k * rows) := by
  induction t with
  | zero => simp
  | succ t ih =>
    rw [Nat.succ_mul, sum_range_add, ih, sum_range_succ]
    congr 1
    exact sum_congr rfl fun j _ => by rw [Nat.add_comm]

/-- **C63** the gadget matrix times the decomposition of a column is that column. -/
theorem gadget_inverse_exact_partial (ok : ParOk P) {M : Mat} {t : Nat} (ht : 0 < t) (hrows : 0 < M.rows) (hcols : M.cols = 1)
    (hM : RawLe P M (P.modulus - 1))
    (hbits : ∀ (c : Nat) (tb : Tables), P.tables[c]? = some tb → 2 ^ bitsPer P t ≤ 4 * tb.modulus)
    {r z : Nat} (hr : r < M.rows) (hz : z < P.n) :
    (fromNtt P (multiply P (toNtt P (buildGadget P M.rows (t * M.rows)))
      (toNttNoReduce P (gadgetInvert P (t * M.rows) M)))).poly r 0 z = M.poly r 0 z := by
  have hb := ok.modulus_bounds
  have hp : 0 < 2 ^ bitsPer P t := Nat.pow_pos (by norm_num)
  obtain ⟨a1, a2⟩ := toNtt_spec ok (M := buildGadget P M.rows (t * M.rows)) ((buildGadget_le P _ _).mono (by norm_num))
  obtain ⟨b1, b2⟩ := toNttNoReduce_spec ok (M := gadgetInvert P (t * M.rows) M) (gadgetInvertRdim_le M t M.rows hrows)
    fun c tb hc => by have := hbits c tb hc; omega
  obtain ⟨c1, c2⟩ := multiply_spec ok a1 b1 (by simp)
  obtain ⟨d1, d2⟩ := fromNtt_spec ok c1
  have hl := rawLe_lt (by omega) d1 (r := r) (c := 0) (by simpa using hr) (by simp [hcols])
  have hMl := rawLe_lt (by omega) hM (r := r) (c := 0) hr (by omega)
  have e := d2 r 0 (by simp [hcols])
  rw [c2 r 0 (by simpa using hr) (by simp [hcols]), toNtt_cols, buildGadget_cols, sum_blocks] at e
  have e2 : rmat P (fromNtt P (multiply P (toNtt P (buildGadget P M.rows (t * M.rows)))
      (toNttNoReduce P (gadgetInvert P (t * M.rows) M)))) r 0 = rval P (M.poly r 0) := by
    rw [e, ← gdigit_sum ok ht hMl]
    refine sum_congr rfl fun k hk => ?_
    have hk' := mem_range.1 hk
    rw [sum_eq_single r]
    · have hlt : r + k * M.rows < t * M.rows := by
        have : (k + 1) * M.rows ≤ t * M.rows := Nat.mul_le_mul_right _ hk'
        rw [Nat.succ_mul] at this
        omega
      rw [a2 _ _ (by simpa using hr) (by simpa using hlt), buildGadget_rmat P hrows hr hk',
        b2 _ _ (by simpa using hlt) (by simp [hcols])]
      rw [gadgetInvert, gadgetInvertRdim_rmat M hcols hrows hr hk']
      by_cases h64 : bitsPer P t * k < 64
      · rw [if_pos ⟨rfl, h64⟩]
      · rw [gdigit_high h64, map_zero, mul_zero, mul_zero]
    · intro j hj hne
      have hj' := mem_range.1 hj
      have hlt : j + k * M.rows < t * M.rows := by
        have : (k + 1) * M.rows ≤ t * M.rows := Nat.mul_le_mul_right _ hk'
        rw [Nat.succ_mul] at this
        omega
      rw [a2 _ _ (by simpa using hr) (by simpa using hlt), buildGadget_rmat P hrows hj' hk',
        if_neg (fun h => hne h.1.symm), zero_mul]
    · intro h
      exact absurd (mem_range.2 hr) h
  have := (rval_eq_iff).1 e2 z hz
  rw [Nat.mod_eq_of_lt (hl z hz), Nat.mod_eq_of_lt (hMl z hz)] at this
  exact this

/-! ### Examples -/

/-- Parameters with two moduli. -/
def Par.two (L : Nat) (avx : Bool) (crt : Crt) (root0 inv0 root1 inv1 : Nat) : Par :=
  ⟨L, avx, [buildTables crt.mod0 L root0 inv0, buildTables crt.mod1 L root1 inv1], crt⟩

theorem Par.two_ok {L : Nat} {avx : Bool} {crt : Crt} {root0 inv0 root1 inv1 : Nat} (h2 : 2 ≤ L) (h30 : L ≤ 30)
    (hc : crt.Ok) (h0 : RootOk crt.mod0 L root0 inv0) (h1 : RootOk crt.mod1 L root1 inv1) :
    ParOk (Par.two L avx crt root0 inv0 root1 inv1) := by
  refine ⟨h2, h30, fun c t h => ?_, Or.inr ⟨rfl, hc, rfl, rfl⟩⟩
  match c with
  | 0 =>
    have : buildTables crt.mod0 L root0 inv0 = t := by simpa [Par.two] using h
    rw [← this]
    exact h0.good
  | 1 =>
    have : buildTables crt.mod1 L root1 inv1 = t := by simpa [Par.two] using h
    rw [← this]
    exact h1.good
  | c + 2 => simp [Par.two] at h

/-- The default ring: `util.cc:61`, degree 2048. -/
def Par.default (avx : Bool) : Par := Par.two 11 avx Crt.default 66687 181947619 158221 88293783

theorem Par.default_ok (avx : Bool) : ParOk (Par.default avx) :=
  Par.two_ok (by decide) (by decide) Crt.default_ok rootOk_default0 rootOk_default1

/-- A small ring: degree 8, moduli 17 and 97. -/
def Par.small (avx : Bool) : Par := Par.two 3 avx ⟨17, 97, 40, 10⟩ 3 6 8 85

theorem Par.small_ok (avx : Bool) : ParOk (Par.small avx) :=
  Par.two_ok (by decide) (by decide) (by decide) rootOk_small (by constructor <;> decide)

/-- A 2 by 1 and a 1 by 2 matrix. -/
def exCol : Mat := .build 2 1 fun r _ z => r + 3 * z + 5

def exRow : Mat := .build 1 2 fun _ c z => 2 * c + z + 7

theorem exCol_le (avx : Bool) : RawLe (Par.default avx) exCol 10000 := by
  intro r c hr _ k hk
  have h1 : r < 2 := hr
  have h2 : k < 2048 := hk
  unfold exCol
  rw [Mat.build_poly _ _ (by simpa [exCol] using ‹c < exCol.cols›)]
  omega

theorem exRow_le (avx : Bool) : RawLe (Par.default avx) exRow 10000 := by
  intro r c _ hc k hk
  have h1 : c < 2 := hc
  have h2 : k < 2048 := hk
  unfold exRow
  rw [Mat.build_poly _ _ h1]
  omega

theorem default_modulus (avx : Bool) : (Par.default avx).modulus = 66974689739603969 := by
  cases avx <;> decide +kernel

example : (fromNtt (Par.default true) (toNtt (Par.default true) exCol)).poly 1 0 5 =
    exCol.poly 1 0 5 % (Par.default true).modulus :=
  transform_round_trip (Par.default_ok true) ((exCol_le true).mono (by norm_num)) (by decide) (by decide) (by decide)

example := matrix_product_exact (Par.default_ok true) ((exCol_le true).mono (by norm_num))
  ((exRow_le true).mono (by norm_num)) rfl (r := 1) (c := 1) (z := 2000) (by decide) (by decide) (by decide)

example := matrix_sum_exact (Par.default_ok false) ((exCol_le false).mono (by norm_num))
  ((exCol_le false).mono (by norm_num)) rfl rfl (r := 1) (c := 0) (z := 2000) (by decide) (by decide) (by decide)

example := invert_exact (Par.default_ok false) ((exCol_le false).mono (by rw [default_modulus]; norm_num))
  (r := 1) (c := 0) (z := 2000) (by decide) (by decide) (by decide)

example := automorphism_exact (Par.default_ok false) ((exCol_le false).mono (by rw [default_modulus]; norm_num))
  (t := 2049) (by decide) (by decide) (r := 1) (c := 0) (z := 2000) (by decide) (by decide) (by decide)

example := gadget_digits_exact_partial (Par.default_ok true) (t := 4) (by decide) (val := 66974689739603968)
  (by rw [default_modulus]; norm_num)

theorem default_log2 (avx : Bool) : log2Ceil (Par.default avx).modulus = 56 := by
  rw [default_modulus]
  unfold log2Ceil
  decide +kernel

example : (fromNtt (Par.default true) (multiply (Par.default true)
    (toNtt (Par.default true) (buildGadget (Par.default true) 2 (4 * 2)))
    (toNttNoReduce (Par.default true) (gadgetInvert (Par.default true) (4 * 2) exCol)))).poly 1 0 100 =
      exCol.poly 1 0 100 :=
  gadget_inverse_exact_partial (M := exCol) (Par.default_ok true) (t := 4) (by decide) (by decide) rfl
    ((exCol_le true).mono (by rw [default_modulus]; norm_num))
    (fun c tb h => by
      have hb : bitsPer (Par.default true) 4 = 15 := by unfold bitsPer; rw [default_log2]; rfl
      rw [hb]
      match c with
      | 0 =>
        have : buildTables Crt.default.mod0 11 66687 181947619 = tb := by simpa [Par.default, Par.two] using h
        rw [← this]
        decide
      | 1 =>
        have : buildTables Crt.default.mod1 11 158221 88293783 = tb := by simpa [Par.default, Par.two] using h
        rw [← this]
        decide
      | c + 2 => simp [Par.default, Par.two] at h) (by decide) (by decide)

/-- **C63** limit: with two columns the decomposition reads row and column exchanged; the first row of the input
has value 5 in column 1, and the digits appear in row 1 of column 0. -/
theorem gadget_invert_exchanged :
    let M : Mat := .build 2 2 fun r c z => if r = 0 ∧ c = 1 ∧ z = 0 then 5 else 0
    (gadgetInvert (Par.small true) 4 M).poly 1 0 0 = 5 ∧ (gadgetInvert (Par.small true) 4 M).poly 0 1 0 = 0 ∧
      M.poly 1 0 0 = 0 ∧ M.poly 0 1 0 = 5 := by
  decide +kernel

end Psi.Spiral
