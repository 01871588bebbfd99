import Verif.Spiral.RingLemmas

/-!
# Polynomial matrices of Spiral PIR as matrices of ring elements
-/

namespace Psi.Spiral

open Finset

variable {P : Par}

theorem Mat.build_poly {rows cols : Nat} (f : Nat → Nat → Words) (r : Nat) {c : Nat} (hc : c < cols) :
    (Mat.build rows cols f).poly r c = f r c := by
  unfold Mat.build Mat.poly
  simp only [(div_add cols r c hc).1, (div_add cols r c hc).2]

@[simp] theorem Mat.build_rows (rows cols : Nat) (f : Nat → Nat → Words) : (Mat.build rows cols f).rows = rows := rfl
@[simp] theorem Mat.build_cols (rows cols : Nat) (f : Nat → Nat → Words) : (Mat.build rows cols f).cols = cols := rfl

/-! The sizes of the results.  (Plain `rfl` would make the kernel compare the words as well.) -/

@[simp] theorem toNtt_rows (P : Par) (a : Mat) : (toNtt P a).rows = a.rows := by
  rw [toNtt, Mat.build_rows]
@[simp] theorem toNtt_cols (P : Par) (a : Mat) : (toNtt P a).cols = a.cols := by
  rw [toNtt, Mat.build_cols]
@[simp] theorem toNttNoReduce_rows (P : Par) (a : Mat) : (toNttNoReduce P a).rows = a.rows := by
  rw [toNttNoReduce, Mat.build_rows]
@[simp] theorem toNttNoReduce_cols (P : Par) (a : Mat) : (toNttNoReduce P a).cols = a.cols := by
  rw [toNttNoReduce, Mat.build_cols]
@[simp] theorem fromNtt_rows (P : Par) (a : Mat) : (fromNtt P a).rows = a.rows := by
  rw [fromNtt, Mat.build_rows]
@[simp] theorem fromNtt_cols (P : Par) (a : Mat) : (fromNtt P a).cols = a.cols := by
  rw [fromNtt, Mat.build_cols]
@[simp] theorem multiply_rows (P : Par) (a b : Mat) : (multiply P a b).rows = a.rows := by
  rw [multiply, Mat.build_rows]
@[simp] theorem multiply_cols (P : Par) (a b : Mat) : (multiply P a b).cols = b.cols := by
  rw [multiply, Mat.build_cols]
@[simp] theorem add_rows (P : Par) (a b : Mat) : (add P a b).rows = a.rows := by
  rw [add, Mat.build_rows]
@[simp] theorem add_cols (P : Par) (a b : Mat) : (add P a b).cols = a.cols := by
  rw [add, Mat.build_cols]
@[simp] theorem addIntoAt_rows (P : Par) (a b : Mat) (t u : Nat) : (addIntoAt P a b t u).rows = a.rows := by
  rw [addIntoAt, Mat.build_rows]
@[simp] theorem addIntoAt_cols (P : Par) (a b : Mat) (t u : Nat) : (addIntoAt P a b t u).cols = a.cols := by
  rw [addIntoAt, Mat.build_cols]
@[simp] theorem scalarMultiply_rows (P : Par) (a b : Mat) : (scalarMultiply P a b).rows = b.rows := by
  rw [scalarMultiply, Mat.build_rows]
@[simp] theorem scalarMultiply_cols (P : Par) (a b : Mat) : (scalarMultiply P a b).cols = b.cols := by
  rw [scalarMultiply, Mat.build_cols]
@[simp] theorem invert_rows (P : Par) (a : Mat) : (invert P a).rows = a.rows := by
  rw [invert, Mat.build_rows]
@[simp] theorem invert_cols (P : Par) (a : Mat) : (invert P a).cols = a.cols := by
  rw [invert, Mat.build_cols]
@[simp] theorem automorphism_rows (P : Par) (a : Mat) (t : Nat) : (automorphism P a t).rows = a.rows := by
  rw [automorphism, Mat.build_rows]
@[simp] theorem automorphism_cols (P : Par) (a : Mat) (t : Nat) : (automorphism P a t).cols = a.cols := by
  rw [automorphism, Mat.build_cols]
@[simp] theorem copyInto_rows (a b : Mat) (t u : Nat) : (a.copyInto b t u).rows = a.rows := by
  rw [Mat.copyInto, Mat.build_rows]
@[simp] theorem copyInto_cols (a b : Mat) (t u : Nat) : (a.copyInto b t u).cols = a.cols := by
  rw [Mat.copyInto, Mat.build_cols]
@[simp] theorem subMatrix_rows (a : Mat) (t u v w : Nat) : (a.subMatrix t u v w).rows = v := by
  rw [Mat.subMatrix, Mat.build_rows]
@[simp] theorem subMatrix_cols (a : Mat) (t u v w : Nat) : (a.subMatrix t u v w).cols = w := by
  rw [Mat.subMatrix, Mat.build_cols]
@[simp] theorem zero_rows (t u : Nat) : (Mat.zero t u).rows = t := by
  rw [Mat.zero, Mat.build_rows]
@[simp] theorem zero_cols (t u : Nat) : (Mat.zero t u).cols = u := by
  rw [Mat.zero, Mat.build_cols]
@[simp] theorem singleValue_rows (t : Nat) : (Mat.singleValue t).rows = 1 := by
  rw [Mat.singleValue, Mat.build_rows]
@[simp] theorem singleValue_cols (t : Nat) : (Mat.singleValue t).cols = 1 := by
  rw [Mat.singleValue, Mat.build_cols]
@[simp] theorem buildGadget_rows (P : Par) (t u : Nat) : (buildGadget P t u).rows = t := by
  rw [buildGadget, Mat.build_rows]
@[simp] theorem buildGadget_cols (P : Par) (t u : Nat) : (buildGadget P t u).cols = u := by
  rw [buildGadget, Mat.build_cols]
@[simp] theorem gadgetInvertRdim_rows (P : Par) (t : Nat) (a : Mat) (u : Nat) : (gadgetInvertRdim P t a u).rows = t := by
  rw [gadgetInvertRdim, Mat.build_rows]
@[simp] theorem gadgetInvertRdim_cols (P : Par) (t : Nat) (a : Mat) (u : Nat) : (gadgetInvertRdim P t a u).cols = a.cols := by
  rw [gadgetInvertRdim, Mat.build_cols]
@[simp] theorem gadgetInvert_rows (P : Par) (t : Nat) (a : Mat) : (gadgetInvert P t a).rows = t := by
  rw [gadgetInvert, gadgetInvertRdim_rows]
@[simp] theorem gadgetInvert_cols (P : Par) (t : Nat) (a : Mat) : (gadgetInvert P t a).cols = a.cols := by
  rw [gadgetInvert, gadgetInvertRdim_cols]

/-- All polynomials of a transformed matrix are reduced. -/
def MatOk (P : Par) (M : Mat) : Prop := ∀ r c, r < M.rows → c < M.cols → NttOk P (M.poly r c)

/-- The entry of a transformed matrix. -/
noncomputable def mval (P : Par) (M : Mat) (r c : Nat) : Rq P.L P.modulus := nval P (M.poly r c)

/-- The entry of a raw matrix. -/
noncomputable def rmat (P : Par) (M : Mat) (r c : Nat) : Rq P.L P.modulus := rval P (M.poly r c)

/-- The words of a raw matrix are at most `b`. -/
def RawLe (P : Par) (M : Mat) (b : Nat) : Prop := ∀ r c, r < M.rows → c < M.cols → ∀ k, k < P.n → M.poly r c k ≤ b

theorem RawLe.mono {M : Mat} {a b : Nat} (h : RawLe P M a) (hab : a ≤ b) : RawLe P M b :=
  fun r c hr hc k hk => (h r c hr hc k hk).trans hab

theorem toNtt_spec (ok : ParOk P) {M : Mat} (h : RawLe P M (2 ^ 64 - 1)) :
    MatOk P (toNtt P M) ∧ ∀ r c, r < M.rows → c < M.cols → mval P (toNtt P M) r c = rmat P M r c := by
  have key : ∀ r c, r < M.rows → c < M.cols → NttOk P ((toNtt P M).poly r c) ∧ mval P (toNtt P M) r c = rmat P M r c := by
    intro r c hr hc
    unfold mval toNtt
    rw [Mat.build_poly _ _ hc]
    exact toNttPoly_spec ok fun k hk => by have := h r c hr hc k hk; omega
  exact ⟨fun r c hr hc => (key r c hr hc).1, fun r c hr hc => (key r c hr hc).2⟩

theorem toNttNoReduce_spec (ok : ParOk P) {M : Mat} {b : Nat} (h : RawLe P M b)
    (hb : ∀ (c : Nat) (t : Tables), P.tables[c]? = some t → b < 4 * t.modulus) :
    MatOk P (toNttNoReduce P M) ∧
      ∀ r c, r < M.rows → c < M.cols → mval P (toNttNoReduce P M) r c = rmat P M r c := by
  have key : ∀ r c, r < M.rows → c < M.cols →
      NttOk P ((toNttNoReduce P M).poly r c) ∧ mval P (toNttNoReduce P M) r c = rmat P M r c := by
    intro r c hr hc
    unfold mval toNttNoReduce
    rw [Mat.build_poly _ _ hc]
    exact toNttNoReducePoly_spec ok fun d t ht k hk => by
      have := h r c hr hc k hk
      have := hb d t ht
      omega
  exact ⟨fun r c hr hc => (key r c hr hc).1, fun r c hr hc => (key r c hr hc).2⟩

theorem fromNtt_spec (ok : ParOk P) {M : Mat} (h : MatOk P M) :
    RawLe P (fromNtt P M) (P.modulus - 1) ∧
      ∀ r c, c < M.cols → rmat P (fromNtt P M) r c = mval P M r c := by
  constructor
  · intro r c hr hc k hk
    unfold fromNtt
    rw [Mat.build_poly _ _ (show c < M.cols from hc)]
    have := fromNttPoly_lt ok (h r c hr hc) hk
    omega
  · intro r c hc
    unfold rmat fromNtt
    rw [Mat.build_poly _ _ hc]
    exact rval_fromNttPoly _

theorem multiply_fold (ok : ParOk P) (f g : Nat → Words) (m : Nat) (hf : ∀ k, k < m → NttOk P (f k))
    (hg : ∀ k, k < m → NttOk P (g k)) :
    NttOk P ((List.range m).foldl (fun res k => multiplyAddPoly P res (f k) (g k)) fun _ => 0) ∧
    nval P ((List.range m).foldl (fun res k => multiplyAddPoly P res (f k) (g k)) fun _ => 0) =
      ∑ k ∈ range m, nval P (f k) * nval P (g k) := by
  induction m with
  | zero =>
    refine ⟨(zeroPoly_spec ok).1, ?_⟩
    rw [sum_range_zero]
    exact (zeroPoly_spec ok).2
  | succ m ih =>
    obtain ⟨h1, h2⟩ := ih (fun k hk => hf k (by omega)) fun k hk => hg k (by omega)
    rw [List.range_succ, List.foldl_append, sum_range_succ, ← h2]
    simp only [List.foldl_cons, List.foldl_nil]
    exact multiplyAddPoly_spec ok h1 (hf m (by omega)) (hg m (by omega))

theorem multiply_spec (ok : ParOk P) {a b : Mat} (ha : MatOk P a) (hb : MatOk P b) (hd : a.cols = b.rows) :
    MatOk P (multiply P a b) ∧
      ∀ r c, r < a.rows → c < b.cols → mval P (multiply P a b) r c = ∑ k ∈ range a.cols, mval P a r k * mval P b k c := by
  have key : ∀ r c, r < a.rows → c < b.cols → NttOk P ((multiply P a b).poly r c) ∧
      mval P (multiply P a b) r c = ∑ k ∈ range a.cols, mval P a r k * mval P b k c := by
    intro r c hr hc
    unfold mval multiply
    rw [Mat.build_poly _ _ hc]
    exact multiply_fold ok (fun k => a.poly r k) (fun k => b.poly k c) a.cols (fun k hk => ha r k hr hk)
      fun k hk => hb k c (by omega) hc
  exact ⟨fun r c hr hc => (key r c hr hc).1, fun r c hr hc => (key r c hr hc).2⟩

theorem add_spec (ok : ParOk P) {a b : Mat} (ha : MatOk P a) (hb : MatOk P b) (hr : a.rows = b.rows)
    (hc : a.cols = b.cols) :
    MatOk P (add P a b) ∧
      ∀ r c, r < a.rows → c < a.cols → mval P (add P a b) r c = mval P a r c + mval P b r c := by
  have key : ∀ r c, r < a.rows → c < a.cols → NttOk P ((add P a b).poly r c) ∧
      mval P (add P a b) r c = mval P a r c + mval P b r c := by
    intro r c h1 h2
    unfold mval add
    rw [Mat.build_poly _ _ h2]
    exact addPoly_spec ok (ha r c h1 h2) (hb r c (by omega) (by omega))
  exact ⟨fun r c hr hc => (key r c hr hc).1, fun r c hr hc => (key r c hr hc).2⟩

theorem addIntoAt_spec (ok : ParOk P) {res a : Mat} (hres : MatOk P res) (ha : MatOk P a) (row col : Nat) :
    MatOk P (addIntoAt P res a row col) ∧
      ∀ r c, r < res.rows → c < res.cols → mval P (addIntoAt P res a row col) r c =
        mval P res r c + if row ≤ r ∧ r < row + a.rows ∧ col ≤ c ∧ c < col + a.cols then
          mval P a (r - row) (c - col) else 0 := by
  have key : ∀ r c, r < res.rows → c < res.cols → NttOk P ((addIntoAt P res a row col).poly r c) ∧
      mval P (addIntoAt P res a row col) r c =
        mval P res r c + if row ≤ r ∧ r < row + a.rows ∧ col ≤ c ∧ c < col + a.cols then
          mval P a (r - row) (c - col) else 0 := by
    intro r c h1 h2
    unfold mval addIntoAt
    rw [Mat.build_poly _ _ h2]
    split_ifs with h
    · rw [add_comm]
      exact addPoly_spec ok (ha _ _ (by omega) (by omega)) (hres r c h1 h2)
    · rw [add_zero]
      exact ⟨hres r c h1 h2, rfl⟩
  exact ⟨fun r c hr hc => (key r c hr hc).1, fun r c hr hc => (key r c hr hc).2⟩

theorem scalarMultiply_spec (ok : ParOk P) {a b : Mat} (ha : NttOk P (a.poly 0 0)) (hb : MatOk P b) :
    MatOk P (scalarMultiply P a b) ∧
      ∀ r c, r < b.rows → c < b.cols → mval P (scalarMultiply P a b) r c = mval P a 0 0 * mval P b r c := by
  have key : ∀ r c, r < b.rows → c < b.cols → NttOk P ((scalarMultiply P a b).poly r c) ∧
      mval P (scalarMultiply P a b) r c = mval P a 0 0 * mval P b r c := by
    intro r c h1 h2
    unfold mval scalarMultiply
    rw [Mat.build_poly _ _ h2]
    exact multiplyPoly_spec ok ha (hb r c h1 h2)
  exact ⟨fun r c hr hc => (key r c hr hc).1, fun r c hr hc => (key r c hr hc).2⟩

theorem invert_poly (a : Mat) (r : Nat) {c : Nat} (hc : c < a.cols) :
    (invert P a).poly r c = invertPoly P (a.poly r c) := by
  unfold invert
  rw [Mat.build_poly _ _ hc]

theorem invert_le (ok : ParOk P) {a : Mat} (ha : RawLe P a P.modulus) : RawLe P (invert P a) P.modulus := by
  intro r c h1 h2 k hk
  have h3 : r < a.rows := by simpa using h1
  have h4 : c < a.cols := by simpa using h2
  have := (invertPoly_spec ok (ha r c h3 h4)).1 k hk
  rw [invert_poly a r h4]
  exact this

theorem invert_rmat (ok : ParOk P) {a : Mat} (ha : RawLe P a P.modulus) {r c : Nat} (h1 : r < a.rows)
    (h2 : c < a.cols) : rmat P (invert P a) r c = -rmat P a r c := by
  have := (invertPoly_spec ok (ha r c h1 h2)).2
  unfold rmat
  rw [invert_poly a r h2, this]

theorem automorphism_spec (ok : ParOk P) {a : Mat} (ha : RawLe P a P.modulus) {t : Nat} (ht : t % 2 = 1)
    (ht2 : t ≤ P.n + 1) :
    RawLe P (automorphism P a t) P.modulus ∧
      ∀ r c, r < a.rows → c < a.cols → rmat P (automorphism P a t) r c = tauQ _ _ t ht (rmat P a r c) := by
  constructor
  · intro r c h1 h2
    unfold automorphism
    rw [Mat.build_poly _ _ (show c < a.cols from h2)]
    exact (automorphPoly_spec ok (ha r c h1 h2) ht ht2).1
  · intro r c h1 h2
    unfold rmat automorphism
    rw [Mat.build_poly _ _ h2]
    exact (automorphPoly_spec ok (ha r c h1 h2) ht ht2).2

/-! ### Shapes -/

theorem copyInto_poly (M p : Mat) (row col r : Nat) {c : Nat} (hc : c < M.cols) :
    (M.copyInto p row col).poly r c =
      if row ≤ r ∧ r < row + p.rows ∧ col ≤ c ∧ c < col + p.cols then p.poly (r - row) (c - col) else M.poly r c :=
  Mat.build_poly _ _ hc

theorem subMatrix_poly (M : Mat) (row col rows cols r : Nat) {c : Nat} (hc : c < cols) :
    (M.subMatrix row col rows cols).poly r c = M.poly (row + r) (col + c) := Mat.build_poly _ _ hc

theorem zero_poly (rows cols r : Nat) {c : Nat} (hc : c < cols) : (Mat.zero rows cols).poly r c = fun _ => 0 :=
  Mat.build_poly _ _ hc

theorem copyInto_ok {M p : Mat} (hM : MatOk P M) (hp : MatOk P p) (row col : Nat) :
    MatOk P (M.copyInto p row col) := by
  intro r c h1 h2
  rw [copyInto_poly M p row col r h2]
  split_ifs with h
  · exact hp _ _ (by omega) (by omega)
  · exact hM r c h1 h2

theorem zero_ok (ok : ParOk P) (rows cols : Nat) : MatOk P (Mat.zero rows cols) := by
  intro r c _ hc
  rw [zero_poly rows cols r hc]
  exact (zeroPoly_spec ok).1

theorem zero_mval (ok : ParOk P) (rows cols r : Nat) {c : Nat} (hc : c < cols) :
    mval P (Mat.zero rows cols) r c = 0 := by
  unfold mval
  rw [zero_poly rows cols r hc]
  exact (zeroPoly_spec ok).2

theorem zero_rmat (rows cols r : Nat) {c : Nat} (hc : c < cols) : rmat P (Mat.zero rows cols) r c = 0 := by
  unfold rmat rval
  rw [zero_poly rows cols r hc]
  simp only [Nat.cast_zero]
  rw [toA_zero, map_zero]

theorem subMatrix_ok {M : Mat} (hM : MatOk P M) {row col rows cols : Nat} (h1 : row + rows ≤ M.rows)
    (h2 : col + cols ≤ M.cols) : MatOk P (M.subMatrix row col rows cols) := by
  intro r c hr hc
  have hr' : r < rows := hr
  have hc' : c < cols := hc
  rw [subMatrix_poly M row col rows cols r hc']
  exact hM _ _ (by omega) (by omega)

/-! ### Gadgets -/

theorem gadgetPiece_eq {bits k val : Nat} (hv : val < 2 ^ 64) : gadgetPiece bits k val = val / 2 ^ (k * bits) % 2 ^ bits := by
  unfold gadgetPiece
  by_cases h : k * bits < 64
  · rw [Nat.min_eq_left (by omega), if_neg (by omega)]
  · rw [Nat.min_eq_right (by omega), if_pos (le_refl _), Nat.div_eq_of_lt, Nat.zero_mod]
    exact lt_of_lt_of_le hv (Nat.pow_le_pow_right (by norm_num) (by omega))

theorem gadgetPiece_lt (bits k val : Nat) : gadgetPiece bits k val < 2 ^ bits := by
  unfold gadgetPiece
  simp only
  split_ifs
  · positivity
  · exact Nat.mod_lt _ (by positivity)

theorem pieces_sum (bits val t : Nat) :
    ∑ k ∈ range t, 2 ^ (bits * k) * (val / 2 ^ (k * bits) % 2 ^ bits) = val % 2 ^ (bits * t) := by
  induction t with
  | zero => simp [Nat.mod_one]
  | succ t ih =>
    rw [sum_range_succ, ih, Nat.mul_succ, pow_add, Nat.mod_mul, Nat.mul_comm t bits]

/-- The pieces cover every value below the modulus. -/
theorem bitsPer_cover (P : Par) {t : Nat} (ht : 0 < t) : P.modulus ≤ 2 ^ (bitsPer P t * t) := by
  have h : P.modulus ≤ 2 ^ log2Ceil P.modulus := Nat.le_pow_clog (by norm_num) _
  refine h.trans (Nat.pow_le_pow_right (by norm_num) ?_)
  unfold bitsPer
  split_ifs with h
  · omega
  · have h1 := Nat.div_add_mod (log2Ceil P.modulus) t
    have h2 := Nat.mod_lt (log2Ceil P.modulus) ht
    have h3 : t * (log2Ceil P.modulus / t) = log2Ceil P.modulus / t * t := Nat.mul_comm _ _
    rw [Nat.add_mul, Nat.one_mul]
    omega

theorem bitsPer_pos (P : Par) (t : Nat) : 0 < bitsPer P t := by
  unfold bitsPer
  split_ifs
  · exact Nat.one_pos
  · exact Nat.succ_pos _

/-- The pieces of a value up to the modulus, weighted, give the value modulo the modulus. -/
theorem gadgetPiece_sum (ok : ParOk P) {t : Nat} (ht : 0 < t) {val : Nat} (hv : val < P.modulus) :
    ∑ k ∈ range t, 2 ^ (bitsPer P t * k) * gadgetPiece (bitsPer P t) k val = val := by
  have hb := ok.modulus_bounds
  rw [sum_congr rfl fun k _ => by rw [gadgetPiece_eq (by omega)], pieces_sum, Nat.mod_eq_of_lt]
  exact lt_of_lt_of_le hv (bitsPer_cover P ht)

/-- The weight of piece `k`. -/
noncomputable def gw (P : Par) (t k : Nat) : Rq P.L P.modulus := ((2 ^ (bitsPer P t * k) : Nat) : Rq P.L P.modulus)

/-- The digit polynomial `k`, over the integers. -/
noncomputable def gdigit (P : Par) (t k : Nat) (a : Words) : A P.L :=
  toA P.L fun z => (gadgetPiece (bitsPer P t) k (a z) : ℤ)

theorem gdigit_bound (t k : Nat) (a : Words) {z : Nat} (hz : z < P.n) :
    0 ≤ coeff (gdigit P t k a) z ∧ coeff (gdigit P t k a) z < 2 ^ bitsPer P t := by
  unfold gdigit
  rw [coeff_toA _ hz]
  exact ⟨Int.natCast_nonneg _, by exact_mod_cast gadgetPiece_lt _ _ _⟩

theorem gdigit_sum (ok : ParOk P) {t : Nat} (ht : 0 < t) {a : Words} (ha : ∀ z, z < P.n → a z < P.modulus) :
    ∑ k ∈ range t, gw P t k * red _ _ (gdigit P t k a) = rval P a := by
  have e : ∀ k, gw P t k * red _ _ (gdigit P t k a) =
      red _ _ (toA P.L fun z => (2 ^ (bitsPer P t * k) : ℤ) * (gadgetPiece (bitsPer P t) k (a z) : ℤ)) := by
    intro k
    rw [toA_int_mul, map_mul]
    unfold gw gdigit
    rw [map_intCast]
    push_cast
    rfl
  rw [sum_congr rfl fun k _ => e k, ← map_sum, ← toA_sum]
  unfold rval
  congr 1
  refine toA_congr fun z hz => ?_
  conv_rhs => rw [← gadgetPiece_sum ok ht (ha z hz)]
  push_cast
  rfl

theorem gadgetInvertRdim_poly (M : Mat) (hM : M.cols = 1) {t rdim : Nat} (hr : 0 < rdim) {j k : Nat}
    (hj : j < rdim) (hk : k < t) :
    (gadgetInvertRdim P (t * rdim) M rdim).poly (j + k * rdim) 0 = fun z => gadgetPiece (bitsPer P t) k (M.poly j 0 z) := by
  unfold gadgetInvertRdim
  rw [Mat.build_poly _ _ (by omega)]
  funext z
  have h1 : (j + k * rdim) / rdim = k := by rw [Nat.add_comm]; exact (div_add rdim k j hj).1
  have h2 : (j + k * rdim) % rdim = j := by rw [Nat.add_comm]; exact (div_add rdim k j hj).2
  have h3 : t * rdim / rdim = t := Nat.mul_div_cancel _ hr
  have h4 : M.poly 0 j = M.poly j 0 := by unfold Mat.poly; rw [hM]; simp
  simp only [h1, h2, h3, h4, if_pos hk]

theorem gadgetInvertRdim_rmat (M : Mat) (hM : M.cols = 1) {t rdim : Nat} (hr : 0 < rdim) {j k : Nat}
    (hj : j < rdim) (hk : k < t) :
    rmat P (gadgetInvertRdim P (t * rdim) M rdim) (j + k * rdim) 0 = red _ _ (gdigit P t k (M.poly j 0)) := by
  unfold rmat
  rw [gadgetInvertRdim_poly M hM hr hj hk]
  rfl

theorem gadgetInvertRdim_le (M : Mat) (t rdim : Nat) (hr : 0 < rdim) :
    RawLe P (gadgetInvertRdim P (t * rdim) M rdim) (2 ^ bitsPer P t - 1) := by
  intro r c hr' hc k _
  unfold gadgetInvertRdim
  rw [Mat.build_poly _ _ (show c < M.cols from hc)]
  have h3 : t * rdim / rdim = t := Nat.mul_div_cancel _ hr
  simp only [h3]
  split_ifs
  · have := gadgetPiece_lt (bitsPer P t) (r / rdim) (M.poly c (r % rdim) k)
    omega
  · exact Nat.zero_le _

/-- Entry `(r, c)` of the gadget matrix. -/
theorem buildGadget_rmat (P : Par) {rows t : Nat} (hr : 0 < rows) {r j k : Nat} (hj : j < rows) (hk : k < t) :
    rmat P (buildGadget P rows (t * rows)) r (j + k * rows) =
      if r = j ∧ bitsPer P t * k < 64 then gw P t k else 0 := by
  have hc : j + k * rows < t * rows := by
    have : (k + 1) * rows ≤ t * rows := Nat.mul_le_mul_right _ hk
    rw [Nat.succ_mul] at this
    omega
  have h1 : (j + k * rows) / rows = k := by rw [Nat.add_comm]; exact (div_add rows k j hj).1
  have h2 : (j + k * rows) % rows = j := by rw [Nat.add_comm]; exact (div_add rows k j hj).2
  have h3 : t * rows / rows = t := Nat.mul_div_cancel _ hr
  unfold rmat buildGadget
  rw [Mat.build_poly _ _ hc]
  simp only [h1, h2, h3, hk, true_and]
  by_cases h : r = j ∧ bitsPer P t * k < 64
  · obtain ⟨rfl, h5⟩ := h
    simp only [h5, and_true, if_true]
    unfold rval gw
    have : (fun i : Nat => ((if i = 0 then 2 ^ (bitsPer P t * k) else 0 : Nat) : ℤ)) =
        fun i : Nat => if i = 0 then ((2 ^ (bitsPer P t * k) : Nat) : ℤ) else 0 := by
      funext i; split_ifs <;> simp
    rw [this, toA_single P.L _ (Nat.pow_pos (by norm_num)), pow_zero, mul_one, map_intCast, Int.cast_natCast]
  · rw [if_neg h]
    have : ∀ z : Nat, ¬(z = 0 ∧ j = r ∧ bitsPer P t * k < 64) := fun z hz => h ⟨hz.2.1.symm, hz.2.2⟩
    simp only [if_neg (this _)]
    unfold rval
    simp only [Nat.cast_zero]
    rw [toA_zero, map_zero]

theorem buildGadget_le (P : Par) (rows cols : Nat) : RawLe P (buildGadget P rows cols) (2 ^ 63) := by
  intro r c _ hc k _
  unfold buildGadget
  rw [Mat.build_poly _ _ (show c < cols from hc)]
  simp only
  split_ifs with h
  · exact Nat.pow_le_pow_right (by norm_num) (by omega)
  · exact Nat.zero_le _

/-- Weights of 64 bits and more belong to digits that are zero. -/
theorem gdigit_high {t k : Nat} (h : ¬bitsPer P t * k < 64) (a : Words) : gdigit P t k a = 0 := by
  unfold gdigit
  rw [show (fun z => (gadgetPiece (bitsPer P t) k (a z) : ℤ)) = fun _ => 0 from ?_, toA_zero]
  funext z
  have : gadgetPiece (bitsPer P t) k (a z) = 0 := by
    unfold gadgetPiece
    have := Nat.mul_comm (bitsPer P t) k
    rw [Nat.min_eq_right (by omega), if_pos (le_refl _)]
  rw [this]
  rfl

end Psi.Spiral
