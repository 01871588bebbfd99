import Verif.Spiral.SchemeLemmas

/-!
# What the server's operations do to the encrypted values
-/

namespace Psi.Spiral

open Finset

variable {P : Par}

/-! ### Packing and conversion keys -/

theorem encryptGsw_spec (ok : ParOk P) {n : Nat} {sk : Mat} (hsk : KeyOk P n sk) {M : Mat} (hM : MatOk P M)
    (hr : M.rows = n) {s : Sample} (hs : SampleOk P n M.cols s) :
    MatOk P (encryptGsw P n sk M s) ∧ (encryptGsw P n sk M s).rows = n + 1 ∧ (encryptGsw P n sk M s).cols = M.cols ∧
      ∀ r c, r < n → c < M.cols →
        rmat P sk r 0 * mval P (encryptGsw P n sk M s) 0 c + mval P (encryptGsw P n sk M s) (r + 1) c =
          mval P M r c + red _ _ (s.err P r c) := by
  have hb := ok.modulus_bounds
  obtain ⟨k1, k2⟩ := hsk.ntt ok
  obtain ⟨a1, a2⟩ := toNtt_spec ok (hs.le.mono (show P.modulus ≤ 2 ^ 64 - 1 by omega))
  obtain ⟨e1, e2⟩ := noise_spec ok hs.small
  obtain ⟨m1, m2⟩ := multiply_spec ok k1 a1 (by rw [toNtt_cols, hsk.cols, toNtt_rows, hs.rows])
  obtain ⟨b1, b2⟩ := add_spec ok e1 m1 (by simp [hsk.rows]) (by simp [hs.cols])
  obtain ⟨f1, f2⟩ := fromNtt_spec ok b1
  have hi := invert_le ok hs.le
  have fr : (freshGsw P n sk M.cols s).rows = n + 1 := by
    unfold freshGsw Mat.stack
    simp [hs.rows, Nat.add_comm]
  have fc : (freshGsw P n sk M.cols s).cols = M.cols := by
    unfold freshGsw Mat.stack
    simp [hs.cols]
  have fp : ∀ r c, r < n + 1 → c < M.cols → (freshGsw P n sk M.cols s).poly r c =
      if r = 0 then (invert P s.a).poly 0 c else
        (fromNtt P (add P (toNtt P (noise P n M.cols s.e)) (multiply P (toNtt P sk) (toNtt P s.a)))).poly (r - 1) c := by
    intro r c h1 h2
    unfold freshGsw Mat.stack
    rw [copyInto_poly _ _ _ _ _ (by simpa [hs.cols] using h2)]
    simp only [invert_rows, fromNtt_rows, add_rows, toNtt_rows, noise_rows, fromNtt_cols, add_cols, toNtt_cols, noise_cols,
      hs.rows]
    by_cases h : r = 0
    · rw [if_neg (by omega), if_pos h, copyInto_poly _ _ _ _ _ (by simpa [hs.cols] using h2), if_pos, h]
      · simp
      · simp [hs.rows, hs.cols, h, h2]
    · rw [if_pos (by omega), if_neg h, Nat.sub_zero]
  have fle : RawLe P (freshGsw P n sk M.cols s) (2 ^ 64 - 1) := by
    intro r c h1 h2 z hz
    rw [fr] at h1
    rw [fc] at h2
    rw [fp r c h1 h2]
    split_ifs with h
    · have := hi 0 c (by simp [hs.rows]) (by simp [hs.cols, h2]) z hz
      omega
    · have := f1 (r - 1) c (by simp; omega) (by simpa using h2) z hz
      omega
  obtain ⟨n1, n2⟩ := toNtt_spec ok fle
  obtain ⟨p1, p2⟩ := padTop_spec ok hM 1
  obtain ⟨q1, q2⟩ := add_spec ok n1 p1 (by simp [fr, hr]) (by simp [fc])
  unfold encryptGsw
  refine ⟨q1, by simp [fr], by simp [fc], fun r c h1 h2 => ?_⟩
  rw [q2 0 c (by simp [fr]) (by simpa [fc] using h2), q2 (r + 1) c (by simp [fr, h1]) (by simpa [fc] using h2),
    p2 0 c (by omega) h2, p2 (r + 1) c (by omega) h2, if_neg (by omega), if_pos (by omega), Nat.add_sub_cancel,
    n2 0 c (by rw [fr]; omega) (by rw [fc]; exact h2), n2 (r + 1) c (by rw [fr]; omega) (by rw [fc]; exact h2)]
  have v0 : rmat P (freshGsw P n sk M.cols s) 0 c = -rmat P s.a 0 c := by
    rw [← invert_rmat ok hs.le (by rw [hs.rows]; omega) (by rw [hs.cols]; exact h2)]
    unfold rmat
    rw [fp 0 c (by omega) h2, if_pos rfl]
  have v1 : rmat P (freshGsw P n sk M.cols s) (r + 1) c = red _ _ (s.err P r c) + rmat P sk r 0 * rmat P s.a 0 c := by
    have : rmat P (freshGsw P n sk M.cols s) (r + 1) c =
        rmat P (fromNtt P (add P (toNtt P (noise P n M.cols s.e)) (multiply P (toNtt P sk) (toNtt P s.a)))) r c := by
      unfold rmat
      rw [fp (r + 1) c (by omega) h2, if_neg (by omega), Nat.add_sub_cancel]
    rw [this, f2 r c (by simpa using h2), b2 r c (by simpa using h1) (by simpa using h2), e2 r c h1 h2,
      m2 r c (by simpa [hsk.rows] using h1) (by simpa [hs.cols] using h2), toNtt_cols, hsk.cols, sum_range_one, k2 r h1,
      a2 0 c (by rw [hs.rows]; omega) (by rw [hs.cols]; exact h2)]
    rfl
  rw [v0, v1]
  ring

theorem packingKey_spec (ok : ParOk P) {n tConv i : Nat} {skReg skGsw : Mat} (hr : KeyOk P 1 skReg) (hg : KeyOk P n skGsw)
    {s : Sample} (hs : SampleOk P n tConv s) :
    MatOk P (packingKey P skReg skGsw n tConv i s) ∧ (packingKey P skReg skGsw n tConv i s).rows = n + 1 ∧
      (packingKey P skReg skGsw n tConv i s).cols = tConv ∧ ∀ r k, r < n → k < tConv →
        rmat P skGsw r 0 * mval P (packingKey P skReg skGsw n tConv i s) 0 k +
            mval P (packingKey P skReg skGsw n tConv i s) (r + 1) k =
          (if r = i then rmat P skReg 0 0 * gent P tConv k else 0) + red _ _ (s.err P r k) := by
  obtain ⟨k1, k2⟩ := hr.ntt ok
  obtain ⟨g1, g2⟩ := toNtt_spec ok ((buildGadget_le P 1 tConv).mono (show 2 ^ 63 ≤ 2 ^ 64 - 1 by norm_num))
  obtain ⟨m1, m2⟩ := scalarMultiply_spec ok (k1 0 0 (by simp [hr.rows]) (by simp [hr.cols])) g1
  have hM : MatOk P ((Mat.zero n tConv).copyInto
      (scalarMultiply P (toNtt P skReg) (toNtt P (buildGadget P 1 tConv))) i 0) := copyInto_ok (zero_ok ok _ _) m1 i 0
  obtain ⟨e1, e2, e3, e4⟩ := encryptGsw_spec ok hg hM (by simp) (s := s) (by simpa using hs)
  unfold packingKey
  refine ⟨e1, e2, by simpa using e3, fun r k h1 h2 => ?_⟩
  rw [e4 r k h1 (by simpa using h2)]
  congr 1
  rw [mval_copyInto _ _ _ _ _ (by simpa using h2)]
  simp only [scalarMultiply_rows, toNtt_rows, buildGadget_rows, scalarMultiply_cols, toNtt_cols, buildGadget_cols]
  by_cases h : r = i
  · rw [if_pos (by omega), if_pos h, h, Nat.sub_self, Nat.sub_zero, m2 0 k (by simp) (by simpa using h2),
      k2 0 (by omega), g2 0 k (by simp) (by simpa using h2)]
    have hg := buildGadget_rmat P (rows := 1) (t := tConv) Nat.one_pos (r := 0) (j := 0) Nat.one_pos h2
    rw [Nat.mul_one, Nat.mul_one, Nat.zero_add] at hg
    rw [hg]
    unfold gent
    simp only [true_and]
  · rw [if_neg (by omega), if_neg h, zero_mval ok _ _ _ h2]

theorem buildGadget_word (P : Par) {t : Nat} (j k : Nat) (hj : j < 2) (hk : k < t) :
    (buildGadget P 2 (2 * t)).poly j (2 * k + j) 0 = if bitsPer P t * k < 64 then 2 ^ (bitsPer P t * k) else 0 := by
  unfold buildGadget
  rw [Mat.build_poly _ _ (by omega)]
  have e1 : 2 * t / 2 = t := by omega
  have e2 : (2 * k + j) / 2 = k := by omega
  have e3 : (2 * k + j) % 2 = j := by omega
  simp only [e1, e2, e3, true_and, hk]

theorem singleValue_spec (ok : ParOk P) {v : Nat} (hv : v < 2 ^ 64) : MatOk P (toNtt P (Mat.singleValue v)) ∧
    mval P (toNtt P (Mat.singleValue v)) 0 0 = ((v : Nat) : Rq P.L P.modulus) := by
  have hp : (Mat.singleValue v).poly 0 0 = fun i => if i = 0 then v else 0 := by
    unfold Mat.singleValue
    rw [Mat.build_poly _ _ Nat.one_pos]
  obtain ⟨h1, h2⟩ := toNtt_spec ok (M := Mat.singleValue v) (by
    intro r c hr hc z _
    rw [singleValue_rows] at hr
    rw [singleValue_cols] at hc
    obtain rfl : r = 0 := by omega
    obtain rfl : c = 0 := by omega
    rw [hp]
    simp only
    split_ifs <;> omega)
  refine ⟨h1, ?_⟩
  rw [h2 0 0 (by simp) (by simp)]
  unfold rmat rval
  rw [hp]
  have e : (fun i : Nat => (((if i = 0 then v else 0 : Nat)) : ℤ)) = fun i => if i = 0 then (v : ℤ) else 0 := by
    funext i; split_ifs <;> simp
  rw [e, toA_single P.L (v : ℤ) (j := 0) (by positivity)]
  simp

theorem conversionSigma_spec (ok : ParOk P) {sk : Mat} (hsk : KeyOk P 1 sk) {t j k : Nat} (hj : j < 2) (hk : k < t) :
    MatOk P (conversionSigma P sk t (2 * k + j)) ∧ (conversionSigma P sk t (2 * k + j)).rows = 1 ∧
      (conversionSigma P sk t (2 * k + j)).cols = 1 ∧ mval P (conversionSigma P sk t (2 * k + j)) 0 0 =
        rmat P sk 0 0 * (if j = 0 then rmat P sk 0 0 else 1) * gent P t k := by
  obtain ⟨k1, k2⟩ := hsk.ntt ok
  have hw := buildGadget_word P j k hj hk
  have hlt : (buildGadget P 2 (2 * t)).poly j (2 * k + j) 0 < 2 ^ 64 := by
    rw [hw]
    split_ifs with h
    · exact Nat.pow_lt_pow_right (by norm_num) h
    · norm_num
  have hcast : (((buildGadget P 2 (2 * t)).poly j (2 * k + j) 0 : Nat) : Rq P.L P.modulus) = gent P t k := by
    rw [hw]
    unfold gent gw
    split_ifs <;> simp
  obtain ⟨v1, v2⟩ := singleValue_spec ok hlt
  rw [hcast] at v2
  unfold conversionSigma
  by_cases h : j = 0
  · subst h
    rw [if_pos (by omega)]
    obtain ⟨s1, s2⟩ := multiply_spec ok k1 k1 (by simp [hsk.rows, hsk.cols])
    obtain ⟨m1, m2⟩ := multiply_spec ok s1 v1 (by simp [hsk.cols])
    refine ⟨m1, by simp [hsk.rows], by simp, ?_⟩
    rw [m2 0 0 (by simp [hsk.rows]) (by simp)]
    simp only [multiply_cols, toNtt_cols, hsk.cols, sum_range_one]
    rw [s2 0 0 (by simp [hsk.rows]) (by simp [hsk.cols])]
    simp only [toNtt_cols, hsk.cols, sum_range_one]
    rw [k2 0 (by omega), v2, if_pos trivial]
  · obtain rfl : j = 1 := by omega
    rw [if_neg (by omega)]
    obtain ⟨m1, m2⟩ := multiply_spec ok k1 v1 (by simp [hsk.cols])
    refine ⟨m1, by simp [hsk.rows], by simp, ?_⟩
    rw [m2 0 0 (by simp [hsk.rows]) (by simp)]
    simp only [toNtt_cols, hsk.cols, sum_range_one]
    rw [k2 0 (by omega), v2, if_neg h, mul_one]

theorem conversionKey_spec (ok : ParOk P) {sk : Mat} (hsk : KeyOk P 1 sk) {t : Nat} {s : Nat → Sample}
    (hs : ∀ i, i < 2 * t → SampleOk P 1 1 (s i)) :
    CtOk P (conversionKey P sk t s) (2 * t) ∧ ∀ j k, j < 2 → k < t → ph P (rmat P sk 0 0) (conversionKey P sk t s) (2 * k + j) =
      rmat P sk 0 0 * (if j = 0 then rmat P sk 0 0 else 1) * gent P t k + red _ _ ((s (2 * k + j)).err P 0 0) := by
  have hc : ∀ i, i < 2 * t → CtOk P (encryptRegev P sk (conversionSigma P sk t i) fun _ => s i) 1 ∧
      ph P (rmat P sk 0 0) (encryptRegev P sk (conversionSigma P sk t i) fun _ => s i) 0 =
        rmat P sk 0 0 * (if i % 2 = 0 then rmat P sk 0 0 else 1) * gent P t (i / 2) + red _ _ ((s i).err P 0 0) := by
    intro i hi
    obtain ⟨a1, a2, a3, a4⟩ := conversionSigma_spec ok hsk (t := t) (j := i % 2) (k := i / 2) (by omega) (by omega)
    rw [Nat.div_add_mod] at a1 a2 a3 a4
    obtain ⟨e1, e2⟩ := encryptRegev_spec ok hsk a1 a2 (s := fun _ => s i) fun _ _ => hs i hi
    rw [a3] at e1 e2
    refine ⟨e1, ?_⟩
    rw [e2 0 (by omega), a4]
  unfold conversionKey
  refine ⟨⟨copyCols_ok (zero_ok ok _ _) ?_, by simp, by simp⟩, fun j k hj hk => ?_⟩
  · intro x hx
    obtain ⟨i, hi, rfl⟩ := List.mem_map.1 hx
    exact (hc i (List.mem_range.1 hi)).1.ok
  · have hlt : 2 * k + j < 2 * t := by omega
    obtain ⟨h1, h2⟩ := hc (2 * k + j) hlt
    rw [show (2 * k + j) % 2 = j by omega, show (2 * k + j) / 2 = k by omega] at h2
    rw [← h2]
    have hget : ∀ r, r < 2 → mval P (copyCols (.zero 2 (2 * t)) ((List.range (2 * t)).map fun i =>
          (encryptRegev P sk (conversionSigma P sk t i) (fun _ => s i), i))) r (2 * k + j) =
        mval P (encryptRegev P sk (conversionSigma P sk t (2 * k + j)) fun _ => s (2 * k + j)) r 0 := by
      intro r hr
      unfold mval
      rw [copyCols_get (x := (encryptRegev P sk (conversionSigma P sk t (2 * k + j)) (fun _ => s (2 * k + j)), 2 * k + j))]
      · intro x hx
        obtain ⟨i, hi, rfl⟩ := List.mem_map.1 hx
        exact (hc i (List.mem_range.1 hi)).1.cols
      · rw [List.map_map]
        have : (Prod.snd ∘ fun i => (encryptRegev P sk (conversionSigma P sk t i) (fun _ => s i), i)) = id := rfl
        rw [this, List.map_id]
        exact List.nodup_range
      · exact List.mem_map.2 ⟨_, List.mem_range.2 hlt, rfl⟩
      · simpa using hlt
      · simpa [h1.rows] using hr
    unfold ph
    rw [hget 0 (by omega), hget 1 (by omega)]

/-! ### Expansion -/

/-- The noise a key switch adds: the key's noise times the digits. -/
noncomputable def switchNoise (P : Par) (t : Nat) (ε : Nat → A P.L) (w : Words) : A P.L :=
  ∑ k ∈ range t, ε k * gdigit P t k w

/-- The words of a digit fit the transform without reduction. -/
def DigitFits (P : Par) (t : Nat) : Prop :=
  ∀ (c : Nat) (tb : Tables), P.tables[c]? = some tb → 2 ^ bitsPer P t ≤ 4 * tb.modulus

theorem CtOk.raw (ok : ParOk P) {f : Mat} {m : Nat} (hf : CtOk P f m) : RawLe P (fromNtt P f) (P.modulus - 1) ∧
    ∀ r c, c < m → rmat P (fromNtt P f) r c = mval P f r c := by
  obtain ⟨h1, h2⟩ := fromNtt_spec ok hf.ok
  exact ⟨h1, fun r c hc => h2 r c (by rw [hf.cols]; exact hc)⟩

theorem expandAct_spec (ok : ParOk P) {sk : Mat} {i m : Nat} (hi : i < P.L) (hm : 0 < m)
    (hfit : DigitFits P m) {w : Mat} (hw : CtOk P w m) {ε : Nat → A P.L}
    (hph : ∀ k, k < m → ph P (rmat P sk 0 0) w k =
      tauQ _ _ _ (autoExp_odd hi).1 (rmat P sk 0 0) * gent P m k + red _ _ (ε k))
    {f : Mat} (hf : CtOk P f 1) :
    CtOk P (expandAct P w m (autoExp P i) f) 1 ∧
      ph P (rmat P sk 0 0) (expandAct P w m (autoExp P i) f) 0 =
        ph P (rmat P sk 0 0) f 0 + tauQ _ _ _ (autoExp_odd hi).1 (ph P (rmat P sk 0 0) f 0) +
          red _ _ (switchNoise P m ε ((automorphism P (fromNtt P f) (autoExp P i)).poly 0 0)) := by
  have hb := ok.modulus_bounds
  obtain ⟨c1, c2⟩ := hf.raw ok
  obtain ⟨t1, t2⟩ := automorphism_spec ok (c1.mono (Nat.sub_le _ _)) (autoExp_odd hi).1 (autoExp_odd hi).2
  set au := automorphism P (fromNtt P f) (autoExp P i) with hau
  have ar : au.rows = 2 := by simp [hau, hf.rows]
  have ac : au.cols = 1 := by simp [hau, hf.cols]
  have gle := gadgetInvertRdim_le (P := P) au m 1 Nat.one_pos
  have gr : ∀ k, k < m → rmat P (gadgetInvertRdim P m au 1) k 0 = red _ _ (gdigit P m k (au.poly 0 0)) := by
    intro k hk
    have := gadgetInvertRdim_rmat (P := P) au ac (t := m) (rdim := 1) Nat.one_pos (j := 0) Nat.one_pos hk
    rwa [Nat.mul_one, Nat.mul_one, Nat.zero_add] at this
  rw [Nat.mul_one] at gle
  obtain ⟨d1, d2⟩ := toNttNoReduce_spec ok gle (by
    intro c tb hc
    have := hfit c tb hc
    have : 0 < 2 ^ bitsPer P m := by positivity
    omega)
  have sle : RawLe P (au.subMatrix 1 0 1 1) (2 ^ 64 - 1) := by
    intro r c hr hc z hz
    rw [subMatrix_rows] at hr
    rw [subMatrix_cols] at hc
    rw [subMatrix_poly _ _ _ _ _ _ hc]
    have := t1 (1 + r) (0 + c) (by rw [ar]; omega) (by rw [ac]; omega) z hz
    omega
  obtain ⟨u1, u2⟩ := toNtt_spec ok sle
  obtain ⟨p1, p2⟩ := multiply_spec ok hw.ok d1 (by simp [hw.cols])
  set prod := multiply P w (toNttNoReduce P (gadgetInvertRdim P m au 1)) with hprod
  have pr : prod.rows = 2 := by simp [hprod, hw.rows]
  have pc : prod.cols = 1 := by simp [hprod, ac]
  set a1 := toNtt P (au.subMatrix 1 0 1 1) with ha1
  have key : ∀ r, r < 2 → NttOk P ((expandAct P w m (autoExp P i) f).poly r 0) ∧
      nval P ((expandAct P w m (autoExp P i) f).poly r 0) =
        mval P f r 0 + mval P prod r 0 + (r : Rq P.L P.modulus) * mval P a1 0 0 := by
    intro r hr
    have o1 : NttOk P (f.poly r 0) := hf.ok r 0 (by rw [hf.rows]; exact hr) (by rw [hf.cols]; omega)
    have o2 : NttOk P (prod.poly r 0) := p1 r 0 (by rw [pr]; exact hr) (by rw [pc]; omega)
    have o3 : NttOk P (a1.poly 0 0) := u1 0 0 (by simp [ha1]) (by simp [ha1])
    refine wordOp_spec ok (fun c k => f.poly r 0 (c * P.n + k) + prod.poly r 0 (c * P.n + k) + r * a1.poly 0 0 (c * P.n + k))
      (fun c t hc k hk => ?_) fun c t hc k hk => ?_
    · unfold expandAct
      rw [Mat.build_poly _ _ Nat.one_pos]
      rw [(div_add P.n c k hk).1, ParOk.mod_eq hc, ← hau, ← hprod, ← ha1]
      have h1 := o1.lt ok hc hk
      have h2 := o2.lt ok hc hk
      have h3 := o3.lt ok hc hk
      have h4 : r * a1.poly 0 0 (c * P.n + k) ≤ 1 * 2 ^ 30 := Nat.mul_le_mul (by omega) h3.le
      rw [w64_of_lt (x := f.poly r 0 (c * P.n + k) + prod.poly r 0 (c * P.n + k)) (by omega), w64_of_lt (by omega),
        barrettCoeffU64_eq (ok.good c t hc).small.1 (by omega)]
    · unfold mval
      rw [map_add, map_add, map_mul, map_natCast, ev_nval ok o1, ev_nval ok o2, ev_nval ok o3]
      push_cast
      rfl
  refine ⟨⟨fun r c hr hc => ?_, rfl, rfl⟩, ?_⟩
  · have hr' : r < 2 := hr
    have hc' : c < 1 := hc
    obtain rfl : c = 0 := by omega
    exact (key r hr').1
  · have hm0 := (key 0 (by omega)).2
    have hm1 := (key 1 (by omega)).2
    have hd : ∀ k, k < m → mval P (toNttNoReduce P (gadgetInvertRdim P m au 1)) k 0 =
        red _ _ (gdigit P m k (au.poly 0 0)) := fun k hk => by
      rw [d2 k 0 (by simpa using hk) (by simp [ac]), gr k hk]
    have hprodv : ∀ r, r < 2 → mval P prod r 0 = ∑ k ∈ range m, mval P w r k * red _ _ (gdigit P m k (au.poly 0 0)) := by
      intro r hr
      rw [p2 r 0 (by rw [hw.rows]; exact hr) (by simp [ac]), hw.cols]
      exact sum_congr rfl fun k hk => by rw [hd k (mem_range.1 hk)]
    have ha1v : mval P a1 0 0 = tauQ _ _ _ (autoExp_odd hi).1 (mval P f 1 0) := by
      rw [u2 0 0 (by simp) (by simp), ← c2 1 0 (by omega), ← t2 1 0 (by simp [hf.rows]) (by simp [hf.cols])]
      unfold rmat
      rw [subMatrix_poly _ _ _ _ _ _ (by omega)]
    have hg : ∑ k ∈ range m, gent P m k * red _ _ (gdigit P m k (au.poly 0 0)) =
        tauQ _ _ _ (autoExp_odd hi).1 (mval P f 0 0) := by
      rw [gent_sum ok hm fun z hz => t1 0 0 (by rw [ar]; omega) (by rw [ac]; omega) z hz, ← c2 0 0 (by omega),
        ← t2 0 0 (by simp [hf.rows]) (by simp [hf.cols])]
      rfl
    have hs : rmat P sk 0 0 * mval P prod 0 0 + mval P prod 1 0 =
        ∑ k ∈ range m, ph P (rmat P sk 0 0) w k * red _ _ (gdigit P m k (au.poly 0 0)) := by
      rw [hprodv 0 (by omega), hprodv 1 (by omega), mul_sum, ← sum_add_distrib]
      refine sum_congr rfl fun k _ => ?_
      unfold ph
      ring
    have hs2 : ∑ k ∈ range m, ph P (rmat P sk 0 0) w k * red _ _ (gdigit P m k (au.poly 0 0)) =
        tauQ _ _ _ (autoExp_odd hi).1 (rmat P sk 0 0) * tauQ _ _ _ (autoExp_odd hi).1 (mval P f 0 0) +
          red _ _ (switchNoise P m ε (au.poly 0 0)) := by
      rw [← hg, mul_sum]
      unfold switchNoise
      rw [map_sum, ← sum_add_distrib]
      refine sum_congr rfl fun k hk => ?_
      rw [hph k (mem_range.1 hk), map_mul]
      ring
    have e0 : mval P (expandAct P w m (autoExp P i) f) 0 0 = mval P f 0 0 + mval P prod 0 0 := by
      unfold mval at hm0 ⊢
      rw [hm0]
      simp
    have e1 : mval P (expandAct P w m (autoExp P i) f) 1 0 = mval P f 1 0 + mval P prod 1 0 + mval P a1 0 0 := by
      unfold mval at hm1 ⊢
      rw [hm1]
      simp
    have hfin : ph P (rmat P sk 0 0) (expandAct P w m (autoExp P i) f) 0 = ph P (rmat P sk 0 0) f 0 +
        (rmat P sk 0 0 * mval P prod 0 0 + mval P prod 1 0) + mval P a1 0 0 := by
      unfold ph
      rw [e0, e1]
      ring
    rw [hfin, hs, hs2, ha1v]
    unfold ph
    rw [map_add, map_mul]
    ring

/-! ### Conversion -/

theorem bitsPer_le (ok : ParOk P) (t : Nat) : bitsPer P t ≤ 61 := by
  have hb := ok.modulus_bounds
  have h1 : log2Ceil P.modulus ≤ 60 := by
    unfold log2Ceil
    exact Nat.clog_le_of_le_pow hb.2.le
  unfold bitsPer
  split_ifs
  · omega
  · have := Nat.div_le_self (log2Ceil P.modulus) t
    omega

theorem digits_le (ok : ParOk P) (x : Mat) (t : Nat) {rdim : Nat} (hr : 0 < rdim) :
    RawLe P (gadgetInvertRdim P (t * rdim) x rdim) (2 ^ 64 - 1) :=
  (gadgetInvertRdim_le (P := P) x t rdim hr).mono (by
    have : 2 ^ bitsPer P t ≤ 2 ^ 61 := Nat.pow_le_pow_right (by norm_num) (bitsPer_le ok t)
    omega)

/-- Column `2 k + j` of a digit decomposition of a ciphertext. -/
theorem digitCol (ok : ParOk P) {t : Nat} {x : Mat} (hr : x.rows = 2) (hc : x.cols = 1) :
    MatOk P (toNtt P (gadgetInvert P (2 * t) x)) ∧ ∀ j k, j < 2 → k < t →
      mval P (toNtt P (gadgetInvert P (2 * t) x)) (2 * k + j) 0 = red _ _ (gdigit P t k (x.poly j 0)) := by
  have hle : RawLe P (gadgetInvert P (2 * t) x) (2 ^ 64 - 1) := by
    unfold gadgetInvert
    rw [hr, Nat.mul_comm]
    exact digits_le ok x t (by omega)
  obtain ⟨n1, n2⟩ := toNtt_spec ok hle
  refine ⟨n1, fun j k hj hk => ?_⟩
  rw [n2 _ _ (by simp; omega) (by simp [hc])]
  have := gadgetInvertRdim_rmat (P := P) x hc (t := t) (rdim := 2) (by omega) hj hk
  unfold gadgetInvert
  rw [hr]
  rwa [Nat.mul_comm t 2, Nat.mul_comm k 2, Nat.add_comm j] at this

/-- A sum over the columns `2 k + j`. -/
theorem sum_pairs {R : Type} [AddCommMonoid R] (t : Nat) (f : Nat → R) :
    ∑ c ∈ range (2 * t), f c = ∑ k ∈ range t, (f (2 * k) + f (2 * k + 1)) := by
  induction t with
  | zero => simp
  | succ t ih => rw [Nat.mul_succ, sum_range_succ, sum_range_succ, ih, sum_range_succ, add_assoc]

/-- The product of a two-row matrix with the digits of a ciphertext. -/
theorem gadgetProduct (ok : ParOk P) {t : Nat} {C : Mat} (hC : CtOk P C (2 * t)) {x : Mat} (hr : x.rows = 2)
    (hc : x.cols = 1) (s : Rq P.L P.modulus) :
    CtOk P (multiply P C (toNtt P (gadgetInvert P (2 * t) x))) 1 ∧
      ph P s (multiply P C (toNtt P (gadgetInvert P (2 * t) x))) 0 =
        ∑ k ∈ range t, (ph P s C (2 * k) * red _ _ (gdigit P t k (x.poly 0 0)) +
          ph P s C (2 * k + 1) * red _ _ (gdigit P t k (x.poly 1 0))) := by
  obtain ⟨d1, d2⟩ := digitCol ok (t := t) hr hc
  obtain ⟨m1, m2⟩ := multiply_spec ok hC.ok d1 (by simp [hC.cols])
  refine ⟨⟨m1, by simp [hC.rows], by simp [hc]⟩, ?_⟩
  unfold ph
  rw [m2 0 0 (by rw [hC.rows]; omega) (by simp [hc]), m2 1 0 (by rw [hC.rows]; omega) (by simp [hc]), hC.cols, mul_sum,
    ← sum_add_distrib, sum_pairs]
  refine sum_congr rfl fun k hk => ?_
  have h0 := d2 0 k (by omega) (mem_range.1 hk)
  rw [Nat.add_zero] at h0
  rw [← h0, ← d2 1 k (by omega) (mem_range.1 hk)]
  ring

/-- The value of a raw ciphertext. -/
noncomputable def rph (P : Par) (s : Rq P.L P.modulus) (x : Mat) : Rq P.L P.modulus := s * rmat P x 0 0 + rmat P x 1 0

/-- A reduced raw ciphertext. -/
structure RawCt (P : Par) (x : Mat) : Prop where
  le : RawLe P x (P.modulus - 1)
  rows : x.rows = 2
  cols : x.cols = 1

theorem CtOk.toRaw (ok : ParOk P) {f : Mat} (hf : CtOk P f 1) (s : Rq P.L P.modulus) : RawCt P (fromNtt P f) ∧
    rph P s (fromNtt P f) = ph P s f 0 := by
  obtain ⟨h1, h2⟩ := hf.raw ok
  refine ⟨⟨h1, by simp [hf.rows], by simp [hf.cols]⟩, ?_⟩
  unfold rph ph
  rw [h2 0 0 (by omega), h2 1 0 (by omega)]

/-- The digits of a raw ciphertext, weighted. -/
theorem RawCt.digits (ok : ParOk P) {x : Mat} (hx : RawCt P x) {t : Nat} (ht : 0 < t) {j : Nat} (hj : j < 2) :
    ∑ k ∈ range t, gent P t k * red _ _ (gdigit P t k (x.poly j 0)) = rmat P x j 0 :=
  gent_sum ok ht fun z hz => (hx.le j 0 (by rw [hx.rows]; exact hj) (by rw [hx.cols]; omega) z hz).trans (Nat.sub_le _ _)

/-- The noise of `convertCt`. -/
noncomputable def convertNoise (P : Par) (t : Nat) (ε : Nat → A P.L) (x : Mat) : A P.L :=
  ∑ k ∈ range t, (ε (2 * k) * gdigit P t k (x.poly 0 0) + ε (2 * k + 1) * gdigit P t k (x.poly 1 0))

theorem convertCt_spec (ok : ParOk P) {D : Scheme} (ht : 0 < D.tConv) {s : Rq P.L P.modulus} {V : Mat}
    (hV : CtOk P V (2 * D.tConv)) {ε : Nat → A P.L}
    (hph : ∀ j k, j < 2 → k < D.tConv → ph P s V (2 * k + j) =
      s * (if j = 0 then s else 1) * gent P D.tConv k + red _ _ (ε (2 * k + j)))
    {inp : Mat} (hi : CtOk P inp 1) :
    CtOk P (convertCt P D V inp) 1 ∧ ph P s (convertCt P D V inp) 0 =
      s * ph P s inp 0 + red _ _ (convertNoise P D.tConv ε (fromNtt P inp)) := by
  obtain ⟨r1, r2⟩ := hi.toRaw ok s
  obtain ⟨g1, g2⟩ := gadgetProduct ok hV r1.rows r1.cols s
  refine ⟨g1, ?_⟩
  unfold convertCt
  rw [g2, ← r2]
  unfold rph convertNoise
  rw [← r1.digits ok ht (show 0 < 2 by omega), ← r1.digits ok ht (show 1 < 2 by omega), mul_add, mul_sum, mul_sum, mul_sum,
    map_sum, ← sum_add_distrib, ← sum_add_distrib]
  refine sum_congr rfl fun k hk => ?_
  have h0 := hph 0 k (by omega) (mem_range.1 hk)
  have h1 := hph 1 k (by omega) (mem_range.1 hk)
  rw [if_pos rfl, Nat.add_zero] at h0
  rw [if_neg (by omega)] at h1
  rw [h0, h1, map_add, map_mul, map_mul]
  ring

/-! ### Selection ciphertexts -/

theorem regevToGsw_spec (ok : ParOk P) {D : Scheme} {s : Rq P.L P.modulus} {V : Mat} {inp : Nat → Mat} {i : Nat}
    (hinp : ∀ j, j < D.dims.tgsw → CtOk P (inp (i * D.dims.tgsw + j)) 1)
    (hconv : ∀ j, j < D.dims.tgsw → CtOk P (convertCt P D V (inp (i * D.dims.tgsw + j))) 1) :
    CtOk P (regevToGsw P D V inp i) (2 * D.dims.tgsw) ∧ ∀ k, k < D.dims.tgsw →
      ph P s (regevToGsw P D V inp i) (2 * k) = ph P s (convertCt P D V (inp (i * D.dims.tgsw + k))) 0 ∧
      ph P s (regevToGsw P D V inp i) (2 * k + 1) = ph P s (inp (i * D.dims.tgsw + k)) 0 := by
  unfold regevToGsw
  set l := (List.range D.dims.tgsw).flatMap fun j =>
    [(inp (i * D.dims.tgsw + j), 2 * j + 1), (convertCt P D V (inp (i * D.dims.tgsw + j)), 2 * j)] with hl
  have hmem : ∀ x ∈ l, CtOk P x.1 1 := by
    intro x hx
    obtain ⟨j, hj, hx⟩ := List.mem_flatMap.1 hx
    rw [List.mem_range] at hj
    simp only [List.mem_cons, List.not_mem_nil, or_false] at hx
    rcases hx with rfl | rfl
    · exact hinp j hj
    · exact hconv j hj
  have hnd : (l.map Prod.snd).Nodup := by
    rw [hl, List.map_flatMap]
    simp only [List.map_cons, List.map_nil]
    rw [List.nodup_flatMap]
    refine ⟨fun j _ => by simp, ?_⟩
    refine (List.nodup_range (n := D.dims.tgsw)).imp fun {a b} hab => ?_
    simp only [Function.onFun, List.disjoint_left, List.mem_cons, List.not_mem_nil, or_false]
    omega
  have hget : ∀ x ∈ l, x.2 < 2 * D.dims.tgsw → ph P s (copyCols (.zero 2 (2 * D.dims.tgsw)) l) x.2 = ph P s x.1 0 := by
    intro x hx hc
    have e : ∀ r, r < 2 → mval P (copyCols (.zero 2 (2 * D.dims.tgsw)) l) r x.2 = mval P x.1 r 0 := by
      intro r hr
      unfold mval
      rw [copyCols_get _ (fun y hy => (hmem y hy).cols) hnd hx (by simpa using hc) (by rw [(hmem x hx).rows]; exact hr)]
    unfold ph
    rw [e 0 (by omega), e 1 (by omega)]
  refine ⟨⟨copyCols_ok (zero_ok ok _ _) fun x hx => (hmem x hx).ok, by simp, by simp⟩, fun k hk => ⟨?_, ?_⟩⟩
  · exact hget (convertCt P D V (inp (i * D.dims.tgsw + k)), 2 * k)
      (List.mem_flatMap.2 ⟨k, List.mem_range.2 hk, by simp⟩) (by simp; omega)
  · exact hget (inp (i * D.dims.tgsw + k), 2 * k + 1)
      (List.mem_flatMap.2 ⟨k, List.mem_range.2 hk, by simp⟩) (by simp; omega)

theorem foldingNeg_spec (ok : ParOk P) {D : Scheme} {s : Rq P.L P.modulus} {C : Mat} (hC : CtOk P C (2 * D.dims.tgsw)) :
    CtOk P (foldingNeg P D C) (2 * D.dims.tgsw) ∧ ∀ j k, j < 2 → k < D.dims.tgsw →
      ph P s (foldingNeg P D C) (2 * k + j) = (if j = 0 then s else 1) * gent P D.dims.tgsw k - ph P s C (2 * k + j) := by
  have hb := ok.modulus_bounds
  obtain ⟨g1, g2⟩ := toNtt_spec ok ((buildGadget_le P 2 (2 * D.dims.tgsw)).mono (show 2 ^ 63 ≤ 2 ^ 64 - 1 by norm_num))
  obtain ⟨c1, c2⟩ := hC.raw ok
  have c3 : RawLe P (fromNtt P C) P.modulus := c1.mono (Nat.sub_le _ _)
  obtain ⟨i1, i2⟩ := toNtt_spec ok ((invert_le ok c3).mono (show P.modulus ≤ 2 ^ 64 - 1 by omega))
  obtain ⟨a1, a2⟩ := add_spec ok g1 i1 (by simp [hC.rows]) (by simp [hC.cols])
  unfold foldingNeg
  refine ⟨⟨a1, by simp, by simp⟩, fun j k hj hk => ?_⟩
  have hlt : 2 * k + j < 2 * D.dims.tgsw := by omega
  have e : ∀ r, r < 2 → mval P (add P (toNtt P (buildGadget P 2 (2 * D.dims.tgsw))) (toNtt P (invert P (fromNtt P C)))) r
      (2 * k + j) = (if r = j then gent P D.dims.tgsw k else 0) - mval P C r (2 * k + j) := by
    intro r hr
    have hg := buildGadget_rmat P (rows := 2) (t := D.dims.tgsw) (by omega) (r := r) hj hk
    rw [Nat.mul_comm k 2, Nat.add_comm j, Nat.mul_comm D.dims.tgsw 2] at hg
    rw [a2 r _ (by simpa using hr) (by simpa using hlt), g2 r _ (by simpa using hr) (by simpa using hlt), hg,
      i2 r _ (by simpa [hC.rows] using hr) (by simpa [hC.cols] using hlt),
      invert_rmat ok c3 (by simpa [hC.rows] using hr) (by simpa [hC.cols] using hlt), c2 r _ hlt, sub_eq_add_neg]
    congr 1
    unfold gent
    by_cases h : r = j <;> simp [h]
  unfold ph
  rw [e 0 (by omega), e 1 (by omega)]
  rcases (show j = 0 ∨ j = 1 by omega) with rfl | rfl
  · rw [if_pos rfl, if_neg (by omega), if_pos rfl]
    ring
  · rw [if_neg (by omega), if_pos rfl, if_neg (by omega)]
    ring

/-- The noise of a selection: the noise of the columns times the digits. -/
noncomputable def selectNoise (P : Par) (t : Nat) (N : Nat → A P.L) (x : Mat) : A P.L :=
  ∑ k ∈ range t, (N (2 * k) * gdigit P t k (x.poly 0 0) + N (2 * k + 1) * gdigit P t k (x.poly 1 0))

/-- Folding a pair selects: with a selection ciphertext of `b`, the result holds `b` times the second value plus
`1 - b` times the first. -/
theorem foldPair_spec (ok : ParOk P) {D : Scheme} (ht : 0 < D.dims.tgsw) {s : Rq P.L P.modulus} {C : Mat}
    (hC : CtOk P C (2 * D.dims.tgsw)) {b : A P.L} {N : Nat → A P.L}
    (hph : ∀ j k, j < 2 → k < D.dims.tgsw → ph P s C (2 * k + j) =
      red _ _ b * ((if j = 0 then s else 1) * gent P D.dims.tgsw k) + red _ _ (N (2 * k + j)))
    {x y : Mat} (hx : RawCt P x) (hy : RawCt P y) :
    RawCt P (foldPair P D C (foldingNeg P D C) x y) ∧ rph P s (foldPair P D C (foldingNeg P D C) x y) =
      (1 - red _ _ b) * rph P s x + red _ _ b * rph P s y +
        red _ _ (selectNoise P D.dims.tgsw N y - selectNoise P D.dims.tgsw N x) := by
  obtain ⟨n1, n2⟩ := foldingNeg_spec ok hC (s := s)
  obtain ⟨p1, p2⟩ := gadgetProduct ok n1 hx.rows hx.cols s
  obtain ⟨q1, q2⟩ := gadgetProduct ok hC hy.rows hy.cols s
  obtain ⟨a1, a2⟩ := add_spec ok q1.ok p1.ok (by rw [q1.rows, p1.rows]) (by rw [q1.cols, p1.cols])
  have hA : CtOk P (add P (multiply P C (toNtt P (gadgetInvert P (2 * D.dims.tgsw) y)))
      (multiply P (foldingNeg P D C) (toNtt P (gadgetInvert P (2 * D.dims.tgsw) x)))) 1 :=
    ⟨a1, by rw [add_rows, q1.rows], by rw [add_cols, q1.cols]⟩
  obtain ⟨r1, r2⟩ := hA.toRaw ok s
  unfold foldPair
  refine ⟨r1, r2.trans ?_⟩
  have e : ph P s (add P (multiply P C (toNtt P (gadgetInvert P (2 * D.dims.tgsw) y)))
      (multiply P (foldingNeg P D C) (toNtt P (gadgetInvert P (2 * D.dims.tgsw) x)))) 0 =
      ph P s (multiply P C (toNtt P (gadgetInvert P (2 * D.dims.tgsw) y))) 0 +
      ph P s (multiply P (foldingNeg P D C) (toNtt P (gadgetInvert P (2 * D.dims.tgsw) x))) 0 := by
    unfold ph
    rw [a2 0 0 (by rw [q1.rows]; omega) (by rw [q1.cols]; omega), a2 1 0 (by rw [q1.rows]; omega) (by rw [q1.cols]; omega)]
    ring
  rw [e, p2, q2]
  unfold rph selectNoise
  rw [← hx.digits ok ht (show 0 < 2 by omega), ← hx.digits ok ht (show 1 < 2 by omega),
    ← hy.digits ok ht (show 0 < 2 by omega), ← hy.digits ok ht (show 1 < 2 by omega)]
  simp only [mul_sum, mul_add, map_sub, map_sum, ← sum_add_distrib, ← sum_sub_distrib]
  refine sum_congr rfl fun k hk => ?_
  have h0 := hph 0 k (by omega) (mem_range.1 hk)
  have h1 := hph 1 k (by omega) (mem_range.1 hk)
  have g0 := n2 0 k (by omega) (mem_range.1 hk)
  have g1 := n2 1 k (by omega) (mem_range.1 hk)
  rw [Nat.add_zero] at g0 h0
  rw [g0, g1, h0, h1, if_pos rfl, if_neg (by omega)]
  simp only [map_add, map_mul]
  ring

/-! ### Packing -/

/-- The noise of packing one ciphertext. -/
theorem packStep_spec (ok : ParOk P) {D : Scheme} (ht : 0 < D.tConv) {sk : Mat} {s : Rq P.L P.modulus} {w : List Mat}
    {ct : Nat → Mat} {i j : Nat} (hct : RawCt P (ct (i * D.n + j)))
    (hw : MatOk P (keyAt w i)) (hwr : (keyAt w i).rows = D.n + 1) (hwc : (keyAt w i).cols = D.tConv)
    {ε : Nat → Nat → A P.L}
    (hph : ∀ r k, r < D.n → k < D.tConv → rmat P sk r 0 * mval P (keyAt w i) 0 k + mval P (keyAt w i) (r + 1) k =
      (if r = i then s * gent P D.tConv k else 0) + red _ _ (ε r k))
    {v : Mat} (hv : MatOk P v) (hvr : v.rows = D.n + 1) (hvc : v.cols = 1) :
    MatOk P (packStep P D w ct j v i) ∧ (packStep P D w ct j v i).rows = D.n + 1 ∧ (packStep P D w ct j v i).cols = 1 ∧
      ∀ r, r < D.n → rmat P sk r 0 * mval P (packStep P D w ct j v i) 0 0 + mval P (packStep P D w ct j v i) (r + 1) 0 =
        (rmat P sk r 0 * mval P v 0 0 + mval P v (r + 1) 0) + (if r = i then rph P s (ct (i * D.n + j)) else 0) +
          red _ _ (switchNoise P D.tConv (ε r) ((ct (i * D.n + j)).poly 0 0)) := by
  have hb := ok.modulus_bounds
  set c := ct (i * D.n + j) with hc
  have sub : ∀ k, k < 2 → RawLe P (c.subMatrix k 0 1 1) (P.modulus - 1) ∧ (c.subMatrix k 0 1 1).poly 0 0 = c.poly k 0 := by
    intro k hk
    have e : (c.subMatrix k 0 1 1).poly 0 0 = c.poly k 0 := by rw [subMatrix_poly _ _ _ _ _ _ (by omega)]; rfl
    refine ⟨fun r q hr hq z hz => ?_, e⟩
    rw [subMatrix_rows] at hr
    rw [subMatrix_cols] at hq
    obtain rfl : r = 0 := by omega
    obtain rfl : q = 0 := by omega
    rw [e]
    exact hct.le k 0 (by rw [hct.rows]; exact hk) (by rw [hct.cols]; omega) z hz
  obtain ⟨s0, e0⟩ := sub 0 (by omega)
  obtain ⟨s1, e1⟩ := sub 1 (by omega)
  obtain ⟨t1, t2⟩ := toNtt_spec ok (s1.mono (show P.modulus - 1 ≤ 2 ^ 64 - 1 by omega))
  have gle : RawLe P (gadgetInvert P D.tConv (c.subMatrix 0 0 1 1)) (2 ^ 64 - 1) := by
    unfold gadgetInvert
    rw [subMatrix_rows]
    have := digits_le ok (c.subMatrix 0 0 1 1) D.tConv Nat.one_pos
    rwa [Nat.mul_one] at this
  obtain ⟨d1, d2⟩ := toNtt_spec ok gle
  have hd : ∀ k, k < D.tConv → mval P (toNtt P (gadgetInvert P D.tConv (c.subMatrix 0 0 1 1))) k 0 =
      red _ _ (gdigit P D.tConv k (c.poly 0 0)) := by
    intro k hk
    rw [d2 k 0 (by simpa using hk) (by simp)]
    unfold gadgetInvert
    rw [subMatrix_rows]
    have := gadgetInvertRdim_rmat (P := P) (c.subMatrix 0 0 1 1) (by simp) (t := D.tConv) (rdim := 1) Nat.one_pos (j := 0)
      Nat.one_pos hk
    rwa [Nat.mul_one, Nat.mul_one, Nat.zero_add, e0] at this
  obtain ⟨m1, m2⟩ := multiply_spec ok hw d1 (by simp [hwc])
  obtain ⟨i1, i2⟩ := addIntoAt_spec ok hv t1 (i + 1) 0
  obtain ⟨a1, a2⟩ := add_spec ok i1 m1 (by simp [hvr, hwr]) (by simp [hvc])
  unfold packStep
  refine ⟨a1, by simp [hvr], by simp [hvc], fun r hr => ?_⟩
  have prodv : ∀ q, q < D.n + 1 → mval P (multiply P (keyAt w i) (toNtt P (gadgetInvert P D.tConv (c.subMatrix 0 0 1 1)))) q 0 =
      ∑ k ∈ range D.tConv, mval P (keyAt w i) q k * red _ _ (gdigit P D.tConv k (c.poly 0 0)) := by
    intro q hq
    rw [m2 q 0 (by rw [hwr]; exact hq) (by simp), hwc]
    exact sum_congr rfl fun k hk => by rw [hd k (mem_range.1 hk)]
  have ctv : mval P (toNtt P (c.subMatrix 1 0 1 1)) 0 0 = rmat P c 1 0 := by
    rw [t2 0 0 (by simp) (by simp)]
    unfold rmat
    rw [e1]
  rw [← hc, a2 0 0 (by simp [hvr]) (by simp [hvc]), a2 (r + 1) 0 (by simp [hvr, hr]) (by simp [hvc]),
    i2 0 0 (by rw [hvr]; omega) (by rw [hvc]; omega), i2 (r + 1) 0 (by rw [hvr]; omega) (by rw [hvc]; omega), if_neg (by omega),
    prodv 0 (by omega), prodv (r + 1) (by omega)]
  have hsum : rmat P sk r 0 * ∑ k ∈ range D.tConv, mval P (keyAt w i) 0 k * red _ _ (gdigit P D.tConv k (c.poly 0 0)) +
      ∑ k ∈ range D.tConv, mval P (keyAt w i) (r + 1) k * red _ _ (gdigit P D.tConv k (c.poly 0 0)) =
      (if r = i then s * rmat P c 0 0 else 0) + red _ _ (switchNoise P D.tConv (ε r) (c.poly 0 0)) := by
    have hg : (if r = i then s * rmat P c 0 0 else 0) =
        ∑ k ∈ range D.tConv, (if r = i then s * gent P D.tConv k else 0) * red _ _ (gdigit P D.tConv k (c.poly 0 0)) := by
      split_ifs
      · rw [← hct.digits ok ht (show 0 < 2 by omega), mul_sum]
        exact sum_congr rfl fun k _ => by ring
      · simp
    rw [hg]
    unfold switchNoise
    rw [mul_sum, map_sum, ← sum_add_distrib, ← sum_add_distrib]
    refine sum_congr rfl fun k hk => ?_
    rw [map_mul, ← add_mul, ← hph r k hr (mem_range.1 hk)]
    ring
  simp only [toNtt_rows, subMatrix_rows, toNtt_cols, subMatrix_cols]
  by_cases h : r = i
  · rw [if_pos (by omega), if_pos h]
    rw [if_pos h] at hsum
    have : r + 1 - (i + 1) = 0 := by omega
    rw [this, Nat.sub_self, ctv]
    unfold rph
    linear_combination hsum
  · rw [if_neg (by omega), if_neg h]
    rw [if_neg h] at hsum
    linear_combination hsum

end Psi.Spiral
