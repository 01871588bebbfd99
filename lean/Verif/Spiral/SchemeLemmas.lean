import Verif.Spiral.SchemeModel
import Verif.Spiral.MatLemmas

/-!
# What the ciphertexts and keys of Spiral PIR encrypt
-/

namespace Psi.Spiral

open Finset

variable {P : Par}

/-! ### Weights -/

theorem ParOk.modulus_odd (ok : ParOk P) : P.modulus % 2 = 1 := by
  rcases ok.cases with ⟨t, ht, hm⟩ | ⟨t, u, ht, hm, -⟩
  · rw [hm]
    exact (ok.good 0 t (by rw [ht]; rfl)).odd
  · rw [hm, Nat.mul_mod, (ok.good 0 t (by rw [ht]; rfl)).odd, (ok.good 1 u (by rw [ht]; rfl)).odd]

/-- Entry `k` of the gadget. -/
noncomputable def gent (P : Par) (t k : Nat) : Rq P.L P.modulus := if bitsPer P t * k < 64 then gw P t k else 0

theorem gent_digit (t k : Nat) (a : Words) :
    gent P t k * red _ _ (gdigit P t k a) = gw P t k * red _ _ (gdigit P t k a) := by
  unfold gent
  split_ifs with h
  · rfl
  · rw [gdigit_high h, map_zero, mul_zero, mul_zero]

theorem modulus_cover (ok : ParOk P) {t : Nat} (ht : 0 < t) : P.modulus < 2 ^ (bitsPer P t * t) := by
  have h1 := bitsPer_cover P ht
  have h2 : 0 < bitsPer P t * t := Nat.mul_pos (bitsPer_pos P t) ht
  have h3 : 2 ^ (bitsPer P t * t) = 2 * 2 ^ (bitsPer P t * t - 1) := by
    rw [← Nat.pow_succ']
    congr 1
    omega
  have := ok.modulus_odd
  omega

/-- The digits, weighted, give back words up to the modulus. -/
theorem gent_sum (ok : ParOk P) {t : Nat} (ht : 0 < t) {a : Words} (ha : ∀ z, z < P.n → a z ≤ P.modulus) :
    ∑ k ∈ range t, gent P t k * red _ _ (gdigit P t k a) = rval P a := by
  have hb := ok.modulus_bounds
  have e : ∀ k ∈ range t, gent P t k * red _ _ (gdigit P t k a) =
      red _ _ (toA P.L fun z => (2 ^ (bitsPer P t * k) : ℤ) * (gadgetPiece (bitsPer P t) k (a z) : ℤ)) := by
    intro k _
    rw [gent_digit]
    unfold gw gdigit
    have := toA_int_mul P.L (2 ^ (bitsPer P t * k)) fun z => (gadgetPiece (bitsPer P t) k (a z) : ℤ)
    rw [this, map_mul]
    congr 1
  rw [sum_congr rfl e, ← map_sum, ← toA_sum]
  unfold rval
  congr 1
  refine toA_congr fun z hz => ?_
  have h1 := ha z hz
  have h2 : ∑ k ∈ range t, 2 ^ (bitsPer P t * k) * gadgetPiece (bitsPer P t) k (a z) = a z := by
    rw [sum_congr rfl fun k _ => by rw [gadgetPiece_eq (show a z < 2 ^ 64 by omega)], pieces_sum,
      Nat.mod_eq_of_lt (lt_of_le_of_lt h1 (modulus_cover ok ht))]
  conv_rhs => rw [← h2]
  push_cast
  rfl

/-! ### Columns -/

@[simp] theorem copyCols_rows (M : Mat) (l : List (Mat × Nat)) : (copyCols M l).rows = M.rows := by
  unfold copyCols
  induction l generalizing M with
  | nil => rfl
  | cons x l ih =>
    rw [List.foldl_cons, ih]
    simp

@[simp] theorem copyCols_cols (M : Mat) (l : List (Mat × Nat)) : (copyCols M l).cols = M.cols := by
  unfold copyCols
  induction l generalizing M with
  | nil => rfl
  | cons x l ih =>
    rw [List.foldl_cons, ih]
    simp

theorem copyCols_ok {M : Mat} (hM : MatOk P M) {l : List (Mat × Nat)} (h : ∀ x ∈ l, MatOk P x.1) :
    MatOk P (copyCols M l) := by
  unfold copyCols
  induction l generalizing M with
  | nil => exact hM
  | cons x l ih =>
    rw [List.foldl_cons]
    exact ih (copyInto_ok hM (h x (by simp)) 0 x.2) fun y hy => h y (by simp [hy])

theorem copyCols_other (M : Mat) {l : List (Mat × Nat)} {c : Nat} (hc : c < M.cols) (h1 : ∀ x ∈ l, x.1.cols = 1)
    (h : ∀ x ∈ l, x.2 ≠ c) (r : Nat) : (copyCols M l).poly r c = M.poly r c := by
  unfold copyCols
  induction l generalizing M with
  | nil => rfl
  | cons x l ih =>
    rw [List.foldl_cons, ih _ (by simpa using hc) (fun y hy => h1 y (by simp [hy])) fun y hy => h y (by simp [hy]),
      copyInto_poly _ _ _ _ _ hc, if_neg]
    have a1 := h1 x (by simp)
    have a2 := h x (by simp)
    omega

/-- A column holds the matrix copied there. -/
theorem copyCols_get (M : Mat) {l : List (Mat × Nat)} (h1 : ∀ x ∈ l, x.1.cols = 1) (hd : (l.map Prod.snd).Nodup)
    {x : Mat × Nat} (hx : x ∈ l) (hc : x.2 < M.cols) {r : Nat} (hr : r < x.1.rows) :
    (copyCols M l).poly r x.2 = x.1.poly r 0 := by
  induction l generalizing M with
  | nil => cases hx
  | cons y l ih =>
    rw [List.map_cons, List.nodup_cons] at hd
    rcases List.mem_cons.1 hx with rfl | hm
    · have e : copyCols M (x :: l) = copyCols (M.copyInto x.1 0 x.2) l := rfl
      rw [e, copyCols_other _ (by simpa using hc) (fun y hy => h1 y (by simp [hy])), copyInto_poly _ _ _ _ _ hc, if_pos]
      · simp
      · rw [h1 x (by simp)]
        omega
      · rintro y hy rfl'
        exact hd.1 (rfl' ▸ List.mem_map_of_mem hy)
    · exact ih (M.copyInto y.1 0 y.2) (fun y hy => h1 y (by simp [hy])) hd.2 hm (by simpa using hc)

/-! ### Noise -/

theorem noiseWord_spec {q : Nat} (hq : q < 2 ^ 60) {v : ℤ} (hv : |v| < q) :
    noiseWord q v < 2 ^ 60 ∧ (noiseWord q v : ℤ) % q = v % q := by
  unfold noiseWord
  rw [abs_lt] at hv
  split_ifs with h
  · rw [Int.emod_eq_of_lt (by omega) (by omega)]
    refine ⟨by omega, ?_⟩
    rw [Int.toNat_of_nonneg (by omega), Int.add_emod_right]
  · rw [Int.emod_eq_of_lt (by omega) (by omega)]
    refine ⟨by omega, ?_⟩
    rw [Int.toNat_of_nonneg (by omega)]

@[simp] theorem noise_rows (P : Par) (rows cols : Nat) (e : Nat → Nat → Nat → ℤ) : (noise P rows cols e).rows = rows := by
  unfold noise; simp
@[simp] theorem noise_cols (P : Par) (rows cols : Nat) (e : Nat → Nat → Nat → ℤ) : (noise P rows cols e).cols = cols := by
  unfold noise; simp

theorem noise_spec (ok : ParOk P) {rows cols : Nat} {e : Nat → Nat → Nat → ℤ}
    (he : ∀ r c z, r < rows → c < cols → z < P.n → |e r c z| < P.modulus) :
    MatOk P (toNtt P (noise P rows cols e)) ∧
      ∀ r c, r < rows → c < cols → mval P (toNtt P (noise P rows cols e)) r c = red _ _ (toA P.L (e r c)) := by
  have hb := ok.modulus_bounds
  have hle : RawLe P (noise P rows cols e) (2 ^ 64 - 1) := by
    intro r c hr hc z hz
    rw [noise_rows] at hr
    rw [noise_cols] at hc
    unfold noise
    rw [Mat.build_poly _ _ hc]
    have := (noiseWord_spec hb.2 (he r c z hr hc hz)).1
    omega
  obtain ⟨h1, h2⟩ := toNtt_spec ok hle
  refine ⟨h1, fun r c hr hc => ?_⟩
  rw [h2 r c (by simpa using hr) (by simpa using hc)]
  unfold rmat rval
  refine red_eq_coeff.2 fun z hz => ?_
  rw [coeff_toA _ hz, coeff_toA _ hz]
  unfold noise
  rw [Mat.build_poly _ _ hc]
  exact (noiseWord_spec hb.2 (he r c z hr hc hz)).2

/-- A draw for a matrix of the given size: the public polynomials are reduced, the noise is below the modulus. -/
structure SampleOk (P : Par) (n m : Nat) (s : Sample) : Prop where
  rows : s.a.rows = 1
  cols : s.a.cols = m
  le : RawLe P s.a P.modulus
  small : ∀ i j z, i < n → j < m → z < P.n → |s.e i j z| < P.modulus

/-- The noise polynomial of a draw. -/
noncomputable def Sample.err (P : Par) (s : Sample) (r c : Nat) : A P.L := toA P.L (s.e r c)

/-! ### Regev ciphertexts -/

/-- Reduced, with two rows. -/
structure CtOk (P : Par) (M : Mat) (m : Nat) : Prop where
  ok : MatOk P M
  rows : M.rows = 2
  cols : M.cols = m

/-- The secret key times the first row plus the second. -/
noncomputable def ph (P : Par) (s : Rq P.L P.modulus) (M : Mat) (c : Nat) : Rq P.L P.modulus :=
  s * mval P M 0 c + mval P M 1 c

/-- A secret key of one polynomial. -/
structure KeyOk (P : Par) (n : Nat) (sk : Mat) : Prop where
  rows : sk.rows = n
  cols : sk.cols = 1
  le : RawLe P sk P.modulus

theorem KeyOk.ntt (ok : ParOk P) {n : Nat} {sk : Mat} (h : KeyOk P n sk) : MatOk P (toNtt P sk) ∧
    ∀ r, r < n → mval P (toNtt P sk) r 0 = rmat P sk r 0 := by
  have hb := ok.modulus_bounds
  obtain ⟨h1, h2⟩ := toNtt_spec ok (h.le.mono (show P.modulus ≤ 2 ^ 64 - 1 by omega))
  exact ⟨h1, fun r hr => h2 r 0 (by rw [h.rows]; exact hr) (by rw [h.cols]; exact Nat.one_pos)⟩

theorem mval_copyInto (M p : Mat) (row col r : Nat) {c : Nat} (hc : c < M.cols) :
    mval P (M.copyInto p row col) r c =
      if row ≤ r ∧ r < row + p.rows ∧ col ≤ c ∧ c < col + p.cols then mval P p (r - row) (c - col) else mval P M r c := by
  unfold mval
  rw [copyInto_poly _ _ _ _ _ hc]
  split_ifs <;> rfl

theorem regevSample_spec (ok : ParOk P) {sk : Mat} (hsk : KeyOk P 1 sk) {s : Sample} (hs : SampleOk P 1 1 s) :
    CtOk P (regevSample P sk s) 1 ∧ ph P (rmat P sk 0 0) (regevSample P sk s) 0 = red _ _ (s.err P 0 0) := by
  have hb := ok.modulus_bounds
  obtain ⟨k1, k2⟩ := hsk.ntt ok
  obtain ⟨a1, a2⟩ := toNtt_spec ok (hs.le.mono (show P.modulus ≤ 2 ^ 64 - 1 by omega))
  obtain ⟨i1, i2⟩ := toNtt_spec ok ((invert_le ok hs.le).mono (show P.modulus ≤ 2 ^ 64 - 1 by omega))
  obtain ⟨e1, e2⟩ := noise_spec ok hs.small
  obtain ⟨m1, m2⟩ := multiply_spec ok k1 a1 (by rw [toNtt_cols, hsk.cols, toNtt_rows, hs.rows])
  obtain ⟨b1, b2⟩ := add_spec ok e1 m1 (by simp [hsk.rows]) (by simp [hs.cols])
  have v0 : mval P (regevSample P sk s) 0 0 = -rmat P s.a 0 0 := by
    unfold regevSample
    rw [mval_copyInto _ _ _ _ _ (by simp), if_neg (by omega), mval_copyInto _ _ _ _ _ (by simp),
      if_pos (by simp [hs.rows, hs.cols]), Nat.sub_self, i2 0 0 (by simp [hs.rows]) (by simp [hs.cols]),
      invert_rmat ok hs.le (by simp [hs.rows]) (by simp [hs.cols])]
  have v1 : mval P (regevSample P sk s) 1 0 = red _ _ (s.err P 0 0) + rmat P sk 0 0 * rmat P s.a 0 0 := by
    unfold regevSample
    rw [mval_copyInto _ _ _ _ _ (by simp), if_pos (by simp), Nat.sub_self,
      b2 0 0 (by simp) (by simp), e2 0 0 (by omega) (by omega), m2 0 0 (by simp [hsk.rows]) (by simp [hs.cols]),
      toNtt_cols, hsk.cols, sum_range_one, k2 0 (by omega), a2 0 0 (by simp [hs.rows]) (by simp [hs.cols])]
    rfl
  refine ⟨⟨?_, ?_, ?_⟩, ?_⟩
  · exact copyInto_ok (copyInto_ok (zero_ok ok 2 1) i1 0 0) b1 1 0
  · unfold regevSample; simp
  · unfold regevSample; simp
  · unfold ph
    rw [v0, v1]
    ring

theorem freshRegev_spec (ok : ParOk P) {sk : Mat} (hsk : KeyOk P 1 sk) {m : Nat} {s : Nat → Sample}
    (hs : ∀ i, i < m → SampleOk P 1 1 (s i)) :
    CtOk P (freshRegev P sk m s) m ∧
      ∀ c, c < m → ph P (rmat P sk 0 0) (freshRegev P sk m s) c = red _ _ ((s c).err P 0 0) := by
  unfold freshRegev
  refine ⟨⟨copyCols_ok (zero_ok ok 2 m) ?_, by simp, by simp⟩, fun c hc => ?_⟩
  · intro x hx
    obtain ⟨i, hi, rfl⟩ := List.mem_map.1 hx
    exact (regevSample_spec ok hsk (hs i (List.mem_range.1 hi))).1.ok
  · obtain ⟨h1, h2⟩ := regevSample_spec ok hsk (hs c hc)
    have hget : ∀ r, r < 2 → mval P (copyCols (.zero 2 m) ((List.range m).map fun i => (regevSample P sk (s i), i))) r c =
        mval P (regevSample P sk (s c)) r 0 := by
      intro r hr
      unfold mval
      rw [copyCols_get (x := (regevSample P sk (s c), c))]
      · intro x hx
        obtain ⟨i, hi, rfl⟩ := List.mem_map.1 hx
        exact (regevSample_spec ok hsk (hs i (List.mem_range.1 hi))).1.cols
      · rw [List.map_map]
        have : (Prod.snd ∘ fun i => (regevSample P sk (s i), i)) = id := rfl
        rw [this, List.map_id]
        exact List.nodup_range
      · exact List.mem_map.2 ⟨c, List.mem_range.2 hc, rfl⟩
      · simpa using hc
      · simpa [h1.rows] using hr
    rw [← h2]
    unfold ph
    rw [hget 0 (by omega), hget 1 (by omega)]

@[simp] theorem padTop_rows (M : Mat) (k : Nat) : (M.padTop k).rows = M.rows + k := by unfold Mat.padTop; simp
@[simp] theorem padTop_cols (M : Mat) (k : Nat) : (M.padTop k).cols = M.cols := by unfold Mat.padTop; simp

theorem padTop_spec (ok : ParOk P) {M : Mat} (hM : MatOk P M) (k : Nat) :
    MatOk P (M.padTop k) ∧ ∀ r c, r < M.rows + k → c < M.cols → mval P (M.padTop k) r c =
      if k ≤ r then mval P M (r - k) c else 0 := by
  unfold Mat.padTop
  refine ⟨copyInto_ok (zero_ok ok _ _) hM k 0, fun r c hr hc => ?_⟩
  rw [mval_copyInto _ _ _ _ _ (by simpa using hc)]
  split_ifs with h1 h2 h2
  · rfl
  · omega
  · omega
  · exact zero_mval ok _ _ _ hc

theorem encryptRegev_spec (ok : ParOk P) {sk : Mat} (hsk : KeyOk P 1 sk) {M : Mat} (hM : MatOk P M) (hr : M.rows = 1)
    {s : Nat → Sample} (hs : ∀ i, i < M.cols → SampleOk P 1 1 (s i)) :
    CtOk P (encryptRegev P sk M s) M.cols ∧
      ∀ c, c < M.cols → ph P (rmat P sk 0 0) (encryptRegev P sk M s) c = mval P M 0 c + red _ _ ((s c).err P 0 0) := by
  obtain ⟨f1, f2⟩ := freshRegev_spec ok hsk hs
  obtain ⟨p1, p2⟩ := padTop_spec ok hM 1
  obtain ⟨a1, a2⟩ := add_spec ok f1.ok p1 (by rw [f1.rows, padTop_rows, hr]) (by rw [f1.cols, padTop_cols])
  unfold encryptRegev
  refine ⟨⟨a1, by simp [f1.rows], by simp [f1.cols]⟩, fun c hc => ?_⟩
  have := f2 c hc
  unfold ph at this ⊢
  rw [a2 0 c (by rw [f1.rows]; omega) (by rw [f1.cols]; exact hc), a2 1 c (by rw [f1.rows]; omega) (by rw [f1.cols]; exact hc),
    p2 0 c (by omega) hc, p2 1 c (by omega) hc, if_neg (by omega), if_pos (le_refl _), ← this]
  ring

/-! ### Keys -/

theorem autoExp_odd {i : Nat} (hi : i < P.L) : autoExp P i % 2 = 1 ∧ autoExp P i ≤ P.n + 1 := by
  unfold autoExp Par.n
  have h : 2 ^ P.L / 2 ^ i = 2 * 2 ^ (P.L - i - 1) := by
    rw [Nat.pow_div hi.le (by norm_num), ← Nat.pow_succ']
    congr 1
    omega
  have h2 : 2 ^ P.L / 2 ^ i ≤ 2 ^ P.L := Nat.div_le_self _ _
  omega

theorem expansionKey_spec (ok : ParOk P) {sk : Mat} (hsk : KeyOk P 1 sk) {m i : Nat} (hi : i < P.L)
    {s : Nat → Sample} (hs : ∀ k, k < m → SampleOk P 1 1 (s k)) :
    CtOk P (expansionKey P sk m i s) m ∧ ∀ k, k < m → ph P (rmat P sk 0 0) (expansionKey P sk m i s) k =
      tauQ _ _ _ (autoExp_odd hi).1 (rmat P sk 0 0) * gent P m k + red _ _ ((s k).err P 0 0) := by
  have hb := ok.modulus_bounds
  obtain ⟨t1, t2⟩ := automorphism_spec ok hsk.le (autoExp_odd hi).1 (autoExp_odd hi).2
  obtain ⟨n1, n2⟩ := toNtt_spec ok (t1.mono (show P.modulus ≤ 2 ^ 64 - 1 by omega))
  obtain ⟨g1, g2⟩ := toNtt_spec ok ((buildGadget_le P 1 m).mono (show 2 ^ 63 ≤ 2 ^ 64 - 1 by norm_num))
  obtain ⟨p1, p2⟩ := multiply_spec ok n1 g1 (by simp [hsk.cols])
  obtain ⟨e1, e2⟩ := encryptRegev_spec ok hsk p1 (by simp [hsk.rows]) (s := s) (by simpa using hs)
  unfold expansionKey
  refine ⟨by simpa using e1, fun k hk => ?_⟩
  have hg := buildGadget_rmat P (rows := 1) (t := m) Nat.one_pos (r := 0) (j := 0) Nat.one_pos hk
  rw [Nat.mul_one, Nat.mul_one, Nat.zero_add] at hg
  rw [e2 k (by simpa using hk), p2 0 k (by simp [hsk.rows]) (by simpa using hk)]
  simp only [toNtt_cols, automorphism_cols]
  rw [hsk.cols, sum_range_one, n2 0 0 (by simp [hsk.rows]) (by simp [hsk.cols]),
    t2 0 0 (by simp [hsk.rows]) (by simp [hsk.cols]), g2 0 k (by simp) (by simpa using hk), hg]
  unfold gent
  simp only [true_and]

end Psi.Spiral
