import Verif.Spiral.SchemeQuery
import Verif.Spiral.DbProps

/-!
# The answer of Spiral PIR
-/

namespace Psi.Spiral

open Finset

variable {P : Par} {D : Scheme}

/-! ### The selection ciphertexts -/

/-- The noise of column `c` of selection ciphertext `i`; `S` is the secret polynomial. -/
noncomputable def gswNoise (P : Par) (D : Scheme) (K : PublicKeys) (C : KeyCoins) (s : Nat → Sample) (S : A P.L) (query : Mat)
    (i c : Nat) : A P.L :=
  let x := 2 * (i * D.dims.tgsw + c / 2) + 1
  if c % 2 = 0 then S * queryNoise P D K C s query x +
    convertNoise P D.tConv (fun k => (C.conv k).err P 0 0) (fromNtt P (expandQuery P D K query x))
  else queryNoise P D K C s query x

/-- The bit of a further dimension. -/
noncomputable def selBit (L : Nat) (D : Scheme) (idx i : Nat) : A L := if (idx % 2 ^ D.dims.v2).testBit i = true then 1 else 0

variable {skReg skGsw : Mat} {idx invFirst invRest : Nat} {s : Nat → Sample} {C : KeyCoins}

theorem folding_spec (ok : ParOk P) (so : SchemeOk P D) (h : QueryOk P D skReg idx invFirst invRest s)
    (hC : CoinsOk P D C) {S : A P.L} (hS : rmat P skReg 0 0 = red _ _ S) {K : PublicKeys}
    (hK : KeysFor P D skReg skGsw C K) {query : Mat} (hq : SentQuery P D skReg idx invFirst invRest s query) {i : Nat} (hi : i < D.dims.v2) :
    CtOk P (foldingOf P D K query i) (2 * D.dims.tgsw) ∧
      ∀ j k, j < 2 → k < D.dims.tgsw →
        ph P (rmat P skReg 0 0) (foldingOf P D K query i) (2 * k + j) =
          red _ _ (selBit P.L D idx i) * ((if j = 0 then rmat P skReg 0 0 else 1) * gent P D.dims.tgsw k) +
            red _ _ (gswNoise P D K C s S query i (2 * k + j)) := by
  have hin := fun k (hk : k < D.dims.tgsw) => expandQuery_odd ok so h hC hK hq hi hk
  obtain ⟨v1, v2⟩ := conversionKey_spec ok h.key (t := D.tConv) (s := C.conv) hC.conv
  have V2 : ∀ j k, j < 2 → k < D.tConv → ph P (rmat P skReg 0 0) K.conversion (2 * k + j) =
      rmat P skReg 0 0 * (if j = 0 then rmat P skReg 0 0 else 1) * gent P D.tConv k +
        red _ _ ((C.conv (2 * k + j)).err P 0 0) := fun j k hj hk =>
    (hK.conversion.ph v1 _ (by omega)).trans (v2 j k hj hk)
  have hcv := fun k (hk : k < D.dims.tgsw) => convertCt_spec ok so.conv (hK.conversion.ct v1)
    (s := rmat P skReg 0 0) (ε := fun k => (C.conv k).err P 0 0) V2 (hin k hk).1
  obtain ⟨g1, g2⟩ := regevToGsw_spec ok (D := D) (s := rmat P skReg 0 0)
    (V := K.conversion)
    (inp := fun i => expandQuery P D K query (2 * i + 1)) (i := i)
    (fun k hk => (hin k hk).1) (fun k hk => (hcv k hk).1)
  refine ⟨g1, fun j k hj hk => ?_⟩
  have hgent : gent P D.dims.tgsw k = red _ _ (((2 ^ (bitsPer P D.dims.tgsw * k) : Nat) : A P.L)) := by
    unfold gent gw
    rw [if_pos, map_natCast]
    refine lt_of_le_of_lt (Nat.mul_le_mul_left _ ?_) so.bits
    omega
  have hx : (2 * k + j) / 2 = k := by omega
  have hy : (2 * k + j) % 2 = j := by omega
  unfold foldingOf gswNoise
  simp only [hx, hy]
  by_cases h0 : j = 0
  · subst h0
    rw [if_pos rfl, if_pos rfl, Nat.add_zero, (g2 k hk).1]
    refine (hcv k hk).2.trans ?_
    rw [(hin k hk).2, hgent, hS]
    unfold selBit
    rw [map_add (red _ _), map_add (red _ _), map_mul (red _ _), map_mul (red _ _)]
    ring
  · obtain rfl : j = 1 := by omega
    rw [if_neg h0, if_neg h0, (g2 k hk).2]
    refine (hin k hk).2.trans ?_
    rw [hgent]
    unfold selBit
    rw [map_add (red _ _), map_mul (red _ _)]
    ring

/-! ### Folding -/

/-- The noise after `k` rounds of `FoldCiphertexts`; `b` are the bits, `M` the noise of the selection ciphertexts, `v` the
ciphertexts after the rounds so far. -/
noncomputable def foldNoise (P : Par) (D : Scheme) (b : Nat → A P.L) (M : Nat → Nat → A P.L) (v : Nat → Nat → Mat)
    (N : Nat → A P.L) : Nat → Nat → A P.L
  | 0 => N
  | k + 1 => fun i =>
    let num := 2 ^ (D.dims.v2 - 1 - k)
    let f := D.dims.v2 - 1 - k
    if i < num then
      (1 - b f) * foldNoise P D b M v N k i + b f * foldNoise P D b M v N k (num + i) +
        (selectNoise P D.dims.tgsw (M f) (v k (num + i)) - selectNoise P D.dims.tgsw (M f) (v k i))
    else foldNoise P D b M v N k i

theorem selBit_eq (L : Nat) (D : Scheme) (idx i : Nat) :
    selBit L D idx i = ((idx % 2 ^ D.dims.v2 / 2 ^ i % 2 : Nat) : A L) := by
  unfold selBit
  rw [Nat.testBit_eq_decide_div_mod_eq]
  rcases Nat.mod_two_eq_zero_or_one (idx % 2 ^ D.dims.v2 / 2 ^ i) with h | h <;> simp [h]

theorem foldCts_spec (ok : ParOk P) (ht : 0 < D.dims.tgsw) {sk : Rq P.L P.modulus} {c : Nat → Mat} {M : Nat → Nat → A P.L}
    (hc : ∀ i, i < D.dims.v2 → CtOk P (c i) (2 * D.dims.tgsw))
    (hph : ∀ i j k, i < D.dims.v2 → j < 2 → k < D.dims.tgsw → ph P sk (c i) (2 * k + j) =
      red _ _ (selBit P.L D idx i) * ((if j = 0 then sk else 1) * gent P D.dims.tgsw k) + red _ _ (M i (2 * k + j)))
    {v : Nat → Mat} {m N : Nat → A P.L} (hv : ∀ i, i < 2 ^ D.dims.v2 → RawCt P (v i) ∧ rph P sk (v i) = red _ _ (m i + N i))
    {k : Nat} (hk : k ≤ D.dims.v2) {i : Nat} (hi : i < 2 ^ (D.dims.v2 - k)) :
    RawCt P (foldCts P D c (fun i => foldingNeg P D (c i)) v k i) ∧
      rph P sk (foldCts P D c (fun i => foldingNeg P D (c i)) v k i) =
        red _ _ (m (idx % 2 ^ D.dims.v2 / 2 ^ (D.dims.v2 - k) * 2 ^ (D.dims.v2 - k) + i) +
          foldNoise P D (selBit P.L D idx) M (foldCts P D c (fun i => foldingNeg P D (c i)) v) N k i) := by
  induction k generalizing i with
  | zero =>
    rw [Nat.sub_zero] at hi ⊢
    rw [Nat.div_eq_of_lt (Nat.mod_lt _ (by positivity)), Nat.zero_mul, Nat.zero_add]
    exact hv i hi
  | succ k ih =>
    have e : D.dims.v2 - k = (D.dims.v2 - (k + 1)) + 1 := by omega
    have e' : D.dims.v2 - 1 - k = D.dims.v2 - (k + 1) := by omega
    rw [e, Nat.pow_succ] at ih
    unfold foldCts foldNoise
    rw [e']
    simp only
    generalize hf : D.dims.v2 - (k + 1) = f at *
    obtain ⟨x1, x2⟩ := ih (by omega) (i := i) (by omega)
    obtain ⟨y1, y2⟩ := ih (by omega) (i := 2 ^ f + i) (by omega)
    rw [if_pos hi, if_pos hi]
    obtain ⟨p1, p2⟩ := foldPair_spec ok ht (hc f (by omega)) (hph f · · (by omega)) x1 y1
    refine ⟨p1, ?_⟩
    rw [p2, x2, y2]
    have hb : idx % 2 ^ D.dims.v2 / 2 ^ f = 2 * (idx % 2 ^ D.dims.v2 / (2 ^ f * 2)) + idx % 2 ^ D.dims.v2 / 2 ^ f % 2 := by
      rw [← Nat.div_div_eq_div_mul]
      omega
    rw [selBit_eq]
    generalize idx % 2 ^ D.dims.v2 / (2 ^ f * 2) = F at *
    rcases Nat.mod_two_eq_zero_or_one (idx % 2 ^ D.dims.v2 / 2 ^ f) with h0 | h0
    · rw [h0] at hb ⊢
      have e3 : idx % 2 ^ D.dims.v2 / 2 ^ f * 2 ^ f + i = F * (2 ^ f * 2) + i := by rw [hb]; ring
      rw [e3, ← map_one (red P.L P.modulus), ← map_sub (red _ _), ← map_mul (red _ _), ← map_mul (red _ _),
        ← map_add (red _ _), ← map_add (red _ _)]
      congr 1
      simp only [Nat.cast_zero]
      ring
    · rw [h0] at hb ⊢
      have e3 : idx % 2 ^ D.dims.v2 / 2 ^ f * 2 ^ f + i = F * (2 ^ f * 2) + (2 ^ f + i) := by rw [hb]; ring
      rw [e3, ← map_one (red P.L P.modulus), ← map_sub (red _ _), ← map_mul (red _ _), ← map_mul (red _ _),
        ← map_add (red _ _), ← map_add (red _ _)]
      congr 1
      simp only [Nat.cast_one]
      ring

/-! ### Packing -/

/-- The noise of `Pack`. -/
noncomputable def packNoise (P : Par) (D : Scheme) (C : KeyCoins) (ct : Nat → Mat) (r c : Nat) : A P.L :=
  ∑ i ∈ range D.n, switchNoise P D.tConv (fun k => (C.pack i).err P r k) ((ct (i * D.n + c)).poly 0 0)

theorem packCol_spec (ok : ParOk P) (so : SchemeOk P D) (hr : KeyOk P 1 skReg) (hg : KeyOk P D.n skGsw)
    (hC : CoinsOk P D C) {K : PublicKeys} (hK : KeysFor P D skReg skGsw C K) {ct : Nat → Mat} {c : Nat} (hct : ∀ i, i < D.n → RawCt P (ct (i * D.n + c))) {m : Nat}
    (hm : m ≤ D.n) :
    let v := (List.range m).foldl (packStep P D K.packing ct c) (.zero (D.n + 1) 1)
    MatOk P v ∧ v.rows = D.n + 1 ∧ v.cols = 1 ∧ ∀ r, r < D.n →
      rmat P skGsw r 0 * mval P v 0 0 + mval P v (r + 1) 0 =
        (if r < m then rph P (rmat P skReg 0 0) (ct (r * D.n + c)) else 0) +
          red _ _ (∑ i ∈ range m, switchNoise P D.tConv (fun k => (C.pack i).err P r k) ((ct (i * D.n + c)).poly 0 0)) := by
  induction m with
  | zero =>
    refine ⟨zero_ok ok _ _, by simp, by simp, fun r hr => ?_⟩
    simp only [List.range_zero, List.foldl_nil, range_zero, sum_empty, map_zero, Nat.not_lt_zero, if_false, add_zero]
    have hz : ∀ r, mval P (Mat.zero (D.n + 1) 1) r 0 = 0 := fun r => zero_mval ok _ _ _ (by omega)
    rw [hz, hz, mul_zero, add_zero]
  | succ m ih =>
    obtain ⟨i1, i2, i3, i4⟩ := ih (by omega)
    simp only [List.range_succ, List.foldl_append, List.foldl_cons, List.foldl_nil] at *
    have hk := hK.packing m (by omega)
    obtain ⟨k1, k2, k3, k4⟩ := packingKey_spec ok hr hg (i := m) (hC.pack m (by omega))
    obtain ⟨s1, s2, s3, s4⟩ := packStep_spec ok so.conv (sk := skGsw) (s := rmat P skReg 0 0)
      (w := K.packing) (ct := ct) (i := m) (j := c) (hct m (by omega)) hk.ok
      (hk.rows.trans k2) (hk.cols.trans k3) (ε := fun r k => (C.pack m).err P r k) (fun r k hr hk' => by
        rw [hk.val 0 k (by omega) (by omega), hk.val (r + 1) k (by omega) (by omega)]
        exact k4 r k hr hk') i1 i2 i3
    refine ⟨s1, s2, s3, fun r hr => ?_⟩
    rw [s4 r hr, i4 r hr, sum_range_succ, map_add (red _ _)]
    by_cases h1 : r = m
    · subst h1
      rw [if_pos rfl, if_neg (by omega), if_pos (by omega)]
      ring
    · rw [if_neg h1]
      by_cases h2 : r < m
      · rw [if_pos h2, if_pos (by omega)]
        ring
      · rw [if_neg h2, if_neg (by omega)]
        ring

theorem packCts_spec (ok : ParOk P) (so : SchemeOk P D) (hr : KeyOk P 1 skReg) (hg : KeyOk P D.n skGsw)
    (hC : CoinsOk P D C) {K : PublicKeys} (hK : KeysFor P D skReg skGsw C K) {ct : Nat → Mat} (hct : ∀ i, i < D.n * D.n → RawCt P (ct i)) :
    let v := packCts P D K.packing ct
    MatOk P v ∧ v.rows = D.n + 1 ∧ v.cols = D.n ∧ ∀ r c, r < D.n → c < D.n →
      rmat P skGsw r 0 * mval P v 0 c + mval P v (r + 1) c =
        rph P (rmat P skReg 0 0) (ct (r * D.n + c)) + red _ _ (packNoise P D C ct r c) := by
  have hcol := fun c (hc : c < D.n) => packCol_spec ok so hr hg hC hK (ct := ct) (c := c) (fun i hi => hct _ (by
    have := Nat.mul_le_mul_right D.n (Nat.succ_le_of_lt hi)
    rw [Nat.succ_mul] at this
    omega)) le_rfl
  unfold packCts
  simp only at hcol ⊢
  refine ⟨copyCols_ok (zero_ok ok _ _) ?_, by simp, by simp, fun r c h1 h2 => ?_⟩
  · intro x hx
    obtain ⟨i, hi, rfl⟩ := List.mem_map.1 hx
    exact (hcol i (List.mem_range.1 hi)).1
  · obtain ⟨c1, c2, c3, c4⟩ := hcol c h2
    generalize hf : (fun j => (List.range D.n).foldl (packStep P D K.packing ct j)
      (.zero (D.n + 1) 1)) = f
    have hfj : ∀ j, (List.range D.n).foldl (packStep P D K.packing ct j)
      (.zero (D.n + 1) 1) = f j := fun j => by rw [← hf]
    simp only [hfj] at hcol c1 c2 c3 c4 ⊢
    have hget : ∀ r, r < D.n + 1 → mval P (copyCols (.zero (D.n + 1) D.n) ((List.range D.n).map fun j => (f j, j))) r c =
        mval P (f c) r 0 := by
      intro r hr
      unfold mval
      rw [copyCols_get (x := (f c, c))]
      · intro x hx
        obtain ⟨i, hi, rfl⟩ := List.mem_map.1 hx
        exact (hcol i (List.mem_range.1 hi)).2.2.1
      · rw [List.map_map]
        have : (Prod.snd ∘ fun i => (f i, i)) = id := rfl
        rw [this, List.map_id]
        exact List.nodup_range
      · exact List.mem_map.2 ⟨c, List.mem_range.2 h2, rfl⟩
      · simpa using h2
      · rw [c2]; exact hr
    rw [hget 0 (by omega), hget (r + 1) (by omega), c4 r h1, if_pos h1]
    rfl

end Psi.Spiral
