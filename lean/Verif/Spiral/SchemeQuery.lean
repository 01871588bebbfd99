import Verif.Spiral.SchemeExpand
import Verif.Spiral.SwitchProps
import Mathlib.Data.Nat.Bitwise

/-!
# The query of Spiral PIR and the ciphertexts it expands to
-/

namespace Psi.Spiral

open Finset

variable {P : Par} {D : Scheme}

/-- The words of `sigma` before the multiplication. -/
def sigmaVal (P : Par) (D : Scheme) (idx z : Nat) : Nat :=
  if z % 2 = 0 then (if z / 2 = idx / 2 ^ D.dims.v2 then P.modulus / D.p else 0)
  else if z / 2 / D.dims.tgsw < D.dims.v2 ∧ (idx % 2 ^ D.dims.v2).testBit (z / 2 / D.dims.tgsw) = true then
    2 ^ (bitsPer P D.dims.tgsw * (z / 2 % D.dims.tgsw)) else 0

theorem sigmaRaw_ok (so : SchemeOk P D) {idx : Nat} (hidx : idx < 2 ^ D.dims.v1 * 2 ^ D.dims.v2) (z : Nat) :
    sigmaRaw P D idx z = .ok (sigmaVal P D idx z) := by
  have h0 : idx / 2 ^ D.dims.v2 < 2 ^ D.dims.v1 := (Nat.div_lt_iff_lt_mul (by positivity)).2 hidx
  unfold sigmaRaw sigmaVal
  by_cases hz : z % 2 = 0
  · rw [if_pos hz, if_pos hz]
    congr 1
    by_cases h : z / 2 = idx / 2 ^ D.dims.v2
    · rw [if_pos ⟨h ▸ h0, h⟩, if_pos h]
    · rw [if_neg (fun h' => h h'.2), if_neg h]
  · rw [if_neg hz, if_neg hz]
    simp only [Nat.one_shiftLeft]
    generalize hl : z / 2 / D.dims.tgsw = l
    have hbit : (idx % 2 ^ D.dims.v2 &&& 2 ^ l = 2 ^ l) ↔ (idx % 2 ^ D.dims.v2).testBit l = true := by
      rw [Nat.and_two_pow]
      have hp : 0 < 2 ^ l := by positivity
      cases (idx % 2 ^ D.dims.v2).testBit l
      · simp only [Bool.toNat_false, Nat.zero_mul, Bool.false_eq_true, iff_false]
        omega
      · simp
    have hk : bitsPer P D.dims.tgsw * (z / 2 % D.dims.tgsw) < 64 := by
      refine lt_of_le_of_lt (Nat.mul_le_mul_left _ ?_) so.bits
      have := Nat.mod_lt (z / 2) so.tgsw_pos
      omega
    by_cases h : l < D.dims.v2 ∧ (idx % 2 ^ D.dims.v2).testBit l = true
    · rw [if_pos ⟨h.1, hbit.2 h.2⟩, if_pos hk, if_pos h]
    · rw [if_neg (fun h' => h ⟨h'.1, hbit.1 h'.2⟩), if_neg h]

theorem sigmaVal_lt (so : SchemeOk P D) (ok : ParOk P) (idx z : Nat) : sigmaVal P D idx z < 2 ^ 64 := by
  have hb := ok.modulus_bounds
  unfold sigmaVal
  split_ifs
  · exact lt_of_le_of_lt (Nat.div_le_self _ _) (by omega)
  · norm_num
  · refine Nat.pow_lt_pow_right (by norm_num) (lt_of_le_of_lt (Nat.mul_le_mul_left _ ?_) so.bits)
    have := Nat.mod_lt (z / 2) so.tgsw_pos
    omega
  · norm_num

/-- The words of `sigma`. -/
def sigmaWord (P : Par) (D : Scheme) (idx invFirst invRest z : Nat) : Nat :=
  sigmaVal P D idx z * (if z % 2 = 0 then invFirst else invRest) % P.modulus

theorem querySigma_ok (ok : ParOk P) (so : SchemeOk P D) {idx invFirst invRest : Nat}
    (hidx : idx < 2 ^ D.dims.v1 * 2 ^ D.dims.v2) (h1 : invFirst < P.modulus) (h2 : invRest < P.modulus) :
    ∃ w, querySigma P D idx invFirst invRest = .ok (.build 1 1 fun _ _ => w) ∧
      ∀ z, z < P.n → w z = sigmaWord P D idx invFirst invRest z := by
  have hb := ok.modulus_bounds
  obtain ⟨c1, c2, c3, -, -⟩ := so.checks
  have h0 : idx / 2 ^ D.dims.v2 < 2 ^ D.dims.v1 := (Nat.div_lt_iff_lt_mul (by positivity)).2 hidx
  obtain ⟨-, -, -, r4⟩ := so.right_bounds
  have hn : 2 * 2 ^ (D.dims.g - 1) ≤ P.n := by
    unfold Par.n
    rw [← Nat.pow_succ']
    exact Nat.pow_le_pow_right (by norm_num) (by omega)
  obtain ⟨w, w1, w2⟩ := resWords_ok (k := P.n) (f := fun z => (sigmaRaw P D idx z).bind fun v =>
      .ok (multiplyUintMod v (if z % 2 = 0 then invFirst else invRest) P.modulus (barrettCrs P.modulus).1
        (barrettCrs P.modulus).2)) (Q := fun z x => x = sigmaWord P D idx invFirst invRest z) (by
    intro z _
    rw [sigmaRaw_ok so hidx, Res.ok_bind]
    refine ⟨_, rfl, ?_⟩
    unfold multiplyUintMod sigmaWord
    refine barrettReductionU128Raw_eq (by omega) (by omega) ?_
    have hv := sigmaVal_lt so ok idx z
    have hi : (if z % 2 = 0 then invFirst else invRest) < 2 ^ 64 := by split_ifs <;> omega
    calc _ < 2 ^ 64 * 2 ^ 64 := Nat.mul_lt_mul'' hv hi
      _ = 2 ^ 128 := by norm_num)
  refine ⟨w, ?_, w2⟩
  unfold querySigma
  rw [if_neg, w1, Res.ok_bind]
  rintro (h | h) <;> omega

/-- What the query of one entry is made of. -/
structure QueryOk (P : Par) (D : Scheme) (skReg : Mat) (idx invFirst invRest : Nat) (s : Nat → Sample) : Prop where
  key : KeyOk P 1 skReg
  idx_lt : idx < 2 ^ D.dims.v1 * 2 ^ D.dims.v2
  first_lt : invFirst < P.modulus
  rest_lt : invRest < P.modulus
  first : 2 ^ D.dims.g * invFirst % P.modulus = 1
  rest : 2 ^ (D.dims.stopRound + 1) * invRest % P.modulus = 1
  sample : SampleOk P 1 1 (s 0)

theorem genQuery_spec (ok : ParOk P) (so : SchemeOk P D) {skReg : Mat} {idx invFirst invRest : Nat} {s : Nat → Sample}
    (h : QueryOk P D skReg idx invFirst invRest s) :
    ∃ query, genQuery P D skReg idx invFirst invRest s = .ok query ∧ RawCt P query ∧
      rph P (rmat P skReg 0 0) query = red _ _ (toA P.L (fun z => (sigmaWord P D idx invFirst invRest z : ℤ)) +
        (s 0).err P 0 0) := by
  have hb := ok.modulus_bounds
  obtain ⟨w, w1, w2⟩ := querySigma_ok ok so h.idx_lt h.first_lt h.rest_lt
  have hp : (Mat.build 1 1 fun _ _ => w).poly 0 0 = w := Mat.build_poly _ _ Nat.one_pos
  have hle : RawLe P (Mat.build 1 1 fun _ _ => w) (2 ^ 64 - 1) := by
    intro r c _ hc z hz
    rw [Mat.build_poly _ _ (by simpa using hc), w2 z hz]
    have : sigmaWord P D idx invFirst invRest z < P.modulus := Nat.mod_lt _ (by omega)
    omega
  obtain ⟨t1, t2⟩ := toNtt_spec ok hle
  obtain ⟨e1, e2⟩ := encryptRegev_spec ok h.key t1 (by simp) (s := s) (by
    intro i hi
    obtain rfl : i = 0 := by simpa using hi
    exact h.sample)
  have hcols : (toNtt P (Mat.build 1 1 fun _ _ => w)).cols = 1 := by simp
  rw [hcols] at e1 e2
  obtain ⟨f1, f2⟩ := e1.toRaw ok (rmat P skReg 0 0)
  refine ⟨_, by unfold genQuery; rw [w1, Res.ok_bind], f1, ?_⟩
  rw [f2, e2 0 (by omega), t2 0 0 (by simp) (by simp)]
  unfold rmat rval
  rw [hp, ← map_add]
  congr 2
  exact toA_congr fun z hz => by rw [w2 z hz]

theorem expandInit_spec (ok : ParOk P) {query : Mat} (hle : RawLe P query P.modulus) (hr : query.rows = 2) (hc : query.cols = 1)
    (s : Rq P.L P.modulus) : CtOk P (expandInit P query 0) 1 ∧ ph P s (expandInit P query 0) 0 = rph P s query := by
  have hb := ok.modulus_bounds
  obtain ⟨t1, t2⟩ := toNtt_spec ok (hle.mono (show P.modulus ≤ 2 ^ 64 - 1 by omega))
  unfold expandInit
  rw [if_pos rfl]
  refine ⟨⟨copyInto_ok (zero_ok ok _ _) t1 0 0, by simp, by simp⟩, ?_⟩
  unfold ph rph
  rw [mval_copyInto _ _ _ _ _ (by simp), mval_copyInto _ _ _ _ _ (by simp), if_pos (by simp [hr, hc]),
    if_pos (by simp [hr, hc]), Nat.sub_zero, t2 0 0 (by omega) (by omega), t2 1 0 (by omega) (by omega)]

/-- A query with the values of the one the client made, its words reduced in one way or another. -/
def SentQuery (P : Par) (D : Scheme) (skReg : Mat) (idx invFirst invRest : Nat) (s : Nat → Sample) (query : Mat) : Prop :=
  ∃ q0, genQuery P D skReg idx invFirst invRest s = .ok q0 ∧ query.rows = q0.rows ∧ query.cols = q0.cols ∧
    RawLe P query P.modulus ∧ ∀ r, r < 2 → rmat P query r 0 = rmat P q0 r 0

theorem sent_spec (ok : ParOk P) (so : SchemeOk P D) {skReg : Mat} {idx invFirst invRest : Nat} {s : Nat → Sample}
    (h : QueryOk P D skReg idx invFirst invRest s) {query : Mat} (hq : SentQuery P D skReg idx invFirst invRest s query) :
    CtOk P (expandInit P query 0) 1 ∧ ph P (rmat P skReg 0 0) (expandInit P query 0) 0 =
      red _ _ (toA P.L (fun z => (sigmaWord P D idx invFirst invRest z : ℤ)) + (s 0).err P 0 0) := by
  obtain ⟨q0, g, e1, e2, e3, e4⟩ := hq
  obtain ⟨q', e, q1, q2⟩ := genQuery_spec ok so h
  rw [g] at e
  obtain rfl : q0 = q' := Res.ok.inj e
  obtain ⟨i1, i2⟩ := expandInit_spec ok e3 (e1.trans q1.rows) (e2.trans q1.cols) (rmat P skReg 0 0)
  refine ⟨i1, i2.trans (Eq.trans ?_ q2)⟩
  unfold rph
  rw [e4 0 (by norm_num), e4 1 (by norm_num)]

/-- The noise of the expanded ciphertexts. -/
noncomputable def queryNoise (P : Par) (D : Scheme) (K : PublicKeys) (C : KeyCoins) (s : Nat → Sample) (query : Mat) :
    Nat → A P.L :=
  expandNoise P D C (expand P D K D.dims.stopRound (D.dims.tgsw * D.dims.v2) (expandInit P query)) ((s 0).err P 0 0) D.dims.g

/-- A word times the power of two the expansion multiplies it with. -/
theorem red_scaled {q L g v inv : Nat} (hinv : 2 ^ g * inv % q = 1) (N : A L) :
    red L q (2 ^ g * (((v * inv % q : Nat) : ℤ) : A L) + N) = red _ _ ((v : A L) + N) := by
  rw [red_eq_iff]
  have h1 := congrArg (Nat.cast : Nat → A L) (Nat.mod_add_div (2 ^ g * inv) q)
  have h2 := congrArg (Nat.cast : Nat → A L) (Nat.mod_add_div (v * inv) q)
  rw [hinv] at h1
  refine ⟨(v : A L) * ((2 ^ g * inv / q : Nat) : A L) - 2 ^ g * ((v * inv / q : Nat) : A L), ?_⟩
  rw [Int.cast_natCast]
  simp only [Nat.cast_add, Nat.cast_mul, Nat.cast_pow, Nat.cast_ofNat, Nat.cast_one] at h1 h2
  linear_combination 2 ^ g * h2 - (v : A L) * h1

variable {skReg skGsw : Mat} {idx invFirst invRest : Nat} {s : Nat → Sample} {C : KeyCoins}

/-- The ciphertexts of the first dimension. -/
theorem expandQuery_even (ok : ParOk P) (so : SchemeOk P D) (h : QueryOk P D skReg idx invFirst invRest s)
    (hC : CoinsOk P D C) {K : PublicKeys} (hK : KeysFor P D skReg skGsw C K) {query : Mat}
    (hq : SentQuery P D skReg idx invFirst invRest s query) {j : Nat}
    (hj : j < 2 ^ D.dims.v1) :
    CtOk P (expandQuery P D K query (2 * j)) 1 ∧
      ph P (rmat P skReg 0 0) (expandQuery P D K query (2 * j)) 0 =
        red _ _ (((if j = idx / 2 ^ D.dims.v2 then P.modulus / D.p else 0 : Nat) : A P.L) +
          queryNoise P D K C s query (2 * j)) := by
  obtain ⟨i1, i2⟩ := sent_spec ok so h hq
  obtain ⟨c1, c2, c3, -, -⟩ := so.checks
  obtain ⟨r1, r2, r3, r4⟩ := so.right_bounds
  have hg : 2 ^ D.dims.g = 2 * 2 ^ (D.dims.g - 1) := by
    rw [← Nat.pow_succ']
    congr 1
    omega
  have hr : rounds D D.dims.g (2 * j) = D.dims.g := by
    unfold rounds
    rw [if_neg (by omega)]
  obtain ⟨x1, x2⟩ := expand_spec ok so h.key hC hK i1 i2 le_rfl (j := 2 * j) (by rw [hr]; omega)
  refine ⟨x1, x2.trans ?_⟩
  rw [hr, part_single]
  · unfold sigmaWord sigmaVal
    rw [if_pos (show 2 * j % 2 = 0 by omega), if_pos (show 2 * j % 2 = 0 by omega), Nat.mul_div_cancel_left _ (by norm_num : 0 < 2)]
    exact red_scaled h.first _
  · intro u hu _
    have h0 : idx / 2 ^ D.dims.v2 < 2 ^ D.dims.v1 := (Nat.div_lt_iff_lt_mul (by positivity)).2 h.idx_lt
    have hm := Nat.le_mul_of_pos_right (2 ^ (D.dims.g - 1)) hu
    have e2 : 2 * j + 2 ^ D.dims.g * u = 2 * (j + 2 ^ (D.dims.g - 1) * u) := by rw [hg]; ring
    unfold sigmaWord sigmaVal
    rw [e2, if_pos (by omega), Nat.mul_div_cancel_left _ (by norm_num : 0 < 2), if_neg (by omega)]
    simp

/-- The ciphertexts of the further dimensions. -/
theorem expandQuery_odd (ok : ParOk P) (so : SchemeOk P D) (h : QueryOk P D skReg idx invFirst invRest s)
    (hC : CoinsOk P D C) {K : PublicKeys} (hK : KeysFor P D skReg skGsw C K) {query : Mat}
    (hq : SentQuery P D skReg idx invFirst invRest s query) {i k : Nat}
    (hi : i < D.dims.v2) (hk : k < D.dims.tgsw) :
    CtOk P (expandQuery P D K query (2 * (i * D.dims.tgsw + k) + 1)) 1 ∧
      ph P (rmat P skReg 0 0) (expandQuery P D K query (2 * (i * D.dims.tgsw + k) + 1)) 0 =
        red _ _ ((if (idx % 2 ^ D.dims.v2).testBit i = true then 1 else 0) * ((2 ^ (bitsPer P D.dims.tgsw * k) : Nat) : A P.L) +
          queryNoise P D K C s query (2 * (i * D.dims.tgsw + k) + 1)) := by
  obtain ⟨i1, i2⟩ := sent_spec ok so h hq
  obtain ⟨r1, r2, r3, r4⟩ := so.right_bounds
  have ht := so.tgsw_pos
  have hlt : i * D.dims.tgsw + k < D.dims.tgsw * D.dims.v2 := by
    have := Nat.mul_le_mul_left D.dims.tgsw (Nat.succ_le_of_lt hi)
    rw [Nat.mul_succ] at this
    rw [Nat.mul_comm]
    omega
  have hdiv : (i * D.dims.tgsw + k) / D.dims.tgsw = i ∧ (i * D.dims.tgsw + k) % D.dims.tgsw = k := by
    rw [Nat.add_comm, Nat.add_mul_div_right _ _ ht, Nat.div_eq_of_lt hk, Nat.zero_add, Nat.add_mul_mod_self_right,
      Nat.mod_eq_of_lt hk]
    exact ⟨rfl, rfl⟩
  generalize hx : i * D.dims.tgsw + k = x at *
  have hr : rounds D D.dims.g (2 * x + 1) = D.dims.stopRound + 1 := by
    unfold rounds
    rw [if_pos (by omega)]
    omega
  obtain ⟨x1, x2⟩ := expand_spec ok so h.key hC hK i1 i2 le_rfl (j := 2 * x + 1) (by
    rw [hr, Nat.pow_succ]
    omega)
  refine ⟨x1, x2.trans ?_⟩
  have e1 : (2 * x + 1) / 2 = x := by omega
  rw [hr, part_single]
  · unfold sigmaWord sigmaVal
    rw [if_neg (show ¬ (2 * x + 1) % 2 = 0 by omega), if_neg (show ¬ (2 * x + 1) % 2 = 0 by omega), e1, hdiv.1, hdiv.2,
      red_scaled h.rest]
    congr 2
    by_cases hb : (idx % 2 ^ D.dims.v2).testBit i = true
    · rw [if_pos ⟨hi, hb⟩, if_pos hb, one_mul]
    · rw [if_neg (fun h' => hb h'.2), if_neg hb, zero_mul, Nat.cast_zero]
  · intro u hu _
    have hm := Nat.le_mul_of_pos_right (2 ^ D.dims.stopRound) hu
    have e2 : 2 * x + 1 + 2 ^ (D.dims.stopRound + 1) * u = 2 * (x + 2 ^ D.dims.stopRound * u) + 1 := by
      rw [Nat.pow_succ]; ring
    have e3 : (2 * (x + 2 ^ D.dims.stopRound * u) + 1) / 2 = x + 2 ^ D.dims.stopRound * u := by omega
    have e4 : D.dims.v2 ≤ (x + 2 ^ D.dims.stopRound * u) / D.dims.tgsw := by
      rw [Nat.le_div_iff_mul_le ht, Nat.mul_comm]
      omega
    unfold sigmaWord sigmaVal
    rw [e2, if_neg (by omega), e3, if_neg (by omega)]
    simp

end Psi.Spiral
