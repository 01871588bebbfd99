import Verif.SealPir.Spec
import Verif.Spiral.PackRows

/-!
# SealPIR: shifts and the expansion of a query
-/

namespace Psi.SealPir

open Psi.Spiral (A xx toA coeff Rq red tau tauQ Res xx_pow Words mapRes)
open Finset (range mem_range sum_congr)

/-! ### Shifts -/

theorem shift_toA (L e : Nat) (he : e ≤ 2 ^ L) (a : Nat → ℤ) :
    toA L (fun k => if e ≤ k then a (k - e) else -a (k + 2 ^ L - e)) = xx L ^ e * toA L a := by
  unfold toA Psi.Spiral.evalAt
  generalize hn : 2 ^ L = n at *
  have hx : xx L ^ n = -1 := by rw [← hn]; exact xx_pow L
  have hl : n = e + (n - e) := by omega
  have hr : n = (n - e) + e := by omega
  conv_lhs => rw [hl, Finset.sum_range_add]
  conv_rhs => rw [hr, Finset.sum_range_add, mul_add, add_comm]
  congr 1
  · rw [Finset.mul_sum]
    refine sum_congr rfl fun k hk => ?_
    rw [mem_range] at hk
    simp only
    rw [if_neg (by omega), show k + (e + (n - e)) - e = n - e + k by omega]
    have : xx L ^ e * xx L ^ (n - e + k) = -xx L ^ k := by
      rw [← pow_add, show e + (n - e + k) = n + k by omega, pow_add, hx]
      ring
    push_cast
    linear_combination (-(a (n - e + k) : A L)) * this
  · rw [Finset.mul_sum]
    refine sum_congr rfl fun k hk => ?_
    simp only
    rw [if_pos (by omega), Nat.add_sub_cancel_left, pow_add]
    ring

theorem val_eq_of_mod {L q : Nat} {c : Plain} {b : Nat → ℤ} (h : ∀ k < 2 ^ L, (c k : ℤ) % q = b k % q) :
    val L q c = red L q (toA L b) := by
  unfold val
  rw [Psi.Spiral.red_eq_coeff]
  intro k hk
  rw [Psi.Spiral.coeff_toA _ hk, Psi.Spiral.coeff_toA _ hk]
  exact h k hk

theorem negShift_le {n q e : Nat} {a : Words} (ha : ∀ k < n, a k ≤ q) {k : Nat} (hk : k < n) :
    negShift n q e a k ≤ q := by
  unfold negShift
  split_ifs with h1 h2
  · exact ha _ (by omega)
  · omega
  · omega

theorem negShift_lt {n q e : Nat} {a : Words} (ha : ∀ k < n, a k < q) {k : Nat} (hk : k < n) :
    negShift n q e a k < q := by
  have h := ha k hk
  unfold negShift
  split_ifs with h1 h2
  · exact ha _ (by omega)
  · omega
  · omega

theorem val_negShift {L q e : Nat} {a : Words} (ha : ∀ k < 2 ^ L, a k ≤ q) (he : e ≤ 2 ^ L) :
    val L q (negShift (2 ^ L) q e a) = xpow L q e * val L q a := by
  unfold xpow
  rw [show val L q a = red L q (toA L fun i => (a i : ℤ)) from rfl, ← map_mul, ← shift_toA L e he]
  refine val_eq_of_mod fun k hk => ?_
  unfold negShift
  split_ifs with h1 h2
  · rfl
  · rw [h2]; simp
  · rw [Nat.cast_sub (ha _ (by omega)), sub_eq_add_neg, Int.add_comm, Int.add_emod_right]

theorem val_neg {L q : Nat} {a : Words} (ha : ∀ k < 2 ^ L, a k ≤ q) : val L q (fun k => q - a k) = -val L q a := by
  rw [show val L q a = red L q (toA L fun i => (a i : ℤ)) from rfl, ← map_neg, ← Psi.Spiral.toA_neg]
  refine val_eq_of_mod fun k hk => ?_
  rw [Nat.cast_sub (ha k hk), sub_eq_add_neg, Int.add_comm, Int.add_emod_right]

theorem xpow_add (L q a b : Nat) : xpow L q (a + b) = xpow L q a * xpow L q b := by
  unfold xpow; rw [pow_add, map_mul]

theorem xpow_n (L q : Nat) : xpow L q (2 ^ L) = -1 := by
  unfold xpow; rw [xx_pow, map_neg, map_one]

theorem xpow_zero (L q : Nat) : xpow L q 0 = 1 := by
  unfold xpow; rw [pow_zero, map_one]

section

variable {S : Seal} (H : Laws S)

theorem n_pos (S : Seal) : 0 < S.n := Nat.pow_pos (by norm_num)

/-- `MultiplyPowerOfX` below the degree. -/
theorem mulPowX_low {a : Nat} {c : S.Ct} {m : Rq S.L S.t} (h : H.Holds a c m) {e : Nat} (he : e < S.n) :
    H.Holds a (mulPowX S c e) (xpow S.L S.t e * m) := by
  unfold mulPowX
  refine H.shift_ok _ e h fun p hp l hl => ?_
  have hw := H.words_ok h p hp l hl
  simp only
  rw [if_neg (by omega), Nat.mod_eq_of_lt he]
  exact ⟨fun k hk => negShift_lt hw hk, val_negShift (fun k hk => (hw k hk).le) he.le⟩

/-- `MultiplyPowerOfX` from the degree on: words may be left unreduced. -/
theorem mulPowX_high {a : Nat} {c : S.Ct} {m : Rq S.L S.t} (h : H.Holds a c m) {e : Nat} (he : S.n ≤ e)
    (he2 : e < 2 * S.n) : H.Loose a (mulPowX S c e) (xpow S.L S.t e * m) := by
  unfold mulPowX
  refine H.shift_loose _ e h fun p hp l hl => ?_
  have hw := H.words_ok h p hp l hl
  simp only
  have hmod : e % S.n = e - S.n := by
    rw [Nat.mod_eq_sub_mod he, Nat.mod_eq_of_lt (by omega)]
  have hlt : e - S.n ≤ S.n := by omega
  rw [if_pos he, hmod]
  have hw2 : ∀ k < S.n, S.qs.getD l 0 - S.data c p l k ≤ S.qs.getD l 0 := fun k _ => Nat.sub_le _ _
  refine ⟨fun k hk => negShift_le hw2 hk, ?_⟩
  have hx := xpow_add S.L (S.qs.getD l 0) S.n (e - S.n)
  rw [show S.n + (e - S.n) = e by omega] at hx
  rw [hx, show xpow S.L (S.qs.getD l 0) S.n = -1 from xpow_n _ _]
  have := val_negShift (L := S.L) (q := S.qs.getD l 0) hw2 hlt
  rw [show 2 ^ S.L = S.n from rfl] at this
  rw [this, val_neg fun k hk => (hw k hk).le]
  ring

/-! ### One round -/

theorem galoisElts_get {i : Nat} (hi : i < S.L) : (galoisElts S)[i]? = some (2 ^ (S.L - i) + 1) := by
  unfold galoisElts
  rw [List.getElem?_map, List.getElem?_range hi]
  show some _ = _
  congr 1
  unfold Seal.n
  have h : 2 ^ S.L = 2 ^ (S.L - i) * 2 ^ i := by rw [← Nat.pow_add, Nat.sub_add_cancel hi.le]
  have h2 : 0 < 2 ^ i := Nat.pow_pos (by norm_num)
  show (2 ^ S.L + 2 ^ i) / 2 ^ i = _
  rw [h, ← Nat.succ_mul]
  exact Nat.mul_div_cancel _ h2

theorem galois_odd {L i : Nat} (hi : i < L) : (2 ^ (L - i) + 1) % 2 = 1 := by
  have : 2 ∣ 2 ^ (L - i) := dvd_pow_self 2 (by omega)
  omega

theorem galois_lt {i : Nat} (hi : i < S.L) : 2 ^ (S.L - i) + 1 < 2 * S.n := by
  unfold Seal.n
  have h1 : 2 ^ (S.L - i) ≤ 2 ^ S.L := Nat.pow_le_pow_right (by norm_num) (by omega)
  have h2 : 2 ^ 1 ≤ 2 ^ S.L := Nat.pow_le_pow_right (by norm_num) (by omega)
  omega

/-- The map of round `i` on a power of `X ^ (2 ^ i)`. -/
theorem tauQ_xpow {L t i : Nat} (hi : i < L) (s : Nat) :
    tauQ L t _ (galois_odd hi) (xpow L t (2 ^ i * s)) = (-1) ^ s * xpow L t (2 ^ i * s) := by
  unfold xpow
  rw [Psi.Spiral.tauQ_red, map_pow, Psi.Spiral.tau_xx, ← pow_mul]
  have h : 2 ^ L = 2 ^ (L - i) * 2 ^ i := by rw [← Nat.pow_add, Nat.sub_add_cancel hi.le]
  have e : (2 ^ (L - i) + 1) * (2 ^ i * s) = 2 ^ L * s + 2 ^ i * s := by rw [h]; ring
  rw [e, pow_add, pow_mul, xx_pow, map_mul, map_pow, map_neg, map_one]

/-- The plaintext of ciphertext `j` after `i` rounds, of a query for `c0 * X ^ r`. -/
noncomputable def roundVal (L t : Nat) (c0 : Rq L t) (r i j : Nat) : Rq L t :=
  if r % 2 ^ i = j then 2 ^ i * c0 * xpow L t (r - j) else 0

theorem expandOne_ok {a i : Nat} (hi : i < S.L) {c : S.Ct} {m : Rq S.L S.t} (h : H.Holds a c m) :
    ∃ x y, expandOne S (galoisElts S) i c = .ok (x, y) ∧
      H.Holds (2 * a + H.ks) x (m + tauQ S.L S.t _ (galois_odd hi) m) ∧
      H.Holds (2 * a + H.ks) y (xpow S.L S.t (2 * S.n - 2 ^ i) * (m - tauQ S.L S.t _ (galois_odd hi) m)) := by
  have hp : 0 < 2 ^ i := Nat.pow_pos (by norm_num)
  have hlt : 2 ^ i < S.n := Nat.pow_lt_pow_right (by norm_num) hi
  have hidx : (2 * S.n - 2 ^ i + S.n) % (2 * S.n) = S.n - 2 ^ i := by
    rw [show 2 * S.n - 2 ^ i + S.n = S.n - 2 ^ i + 2 * S.n by omega, Nat.add_mod_right, Nat.mod_eq_of_lt (by omega)]
  unfold expandOne
  simp only [galoisElts_get hi, hidx]
  have hmem : 2 ^ (S.L - i) + 1 ∈ galoisElts S := List.mem_of_getElem? (galoisElts_get hi)
  have hap : applyGalois S (galoisElts S) c (2 ^ (S.L - i) + 1) = .ok (S.galois c (2 ^ (S.L - i) + 1)) := by
    unfold applyGalois
    rw [if_pos hmem]
  rw [hap]
  have hg := H.galois_ok _ (galois_odd hi) (galois_lt hi) h
  refine ⟨_, _, rfl, ?_, ?_⟩
  · have := H.add_ok (H.loose h) hg
    rwa [show a + (a + H.ks) = 2 * a + H.ks by ring] at this
  · have := H.add_ok (mulPowX_high H h (e := 2 * S.n - 2 ^ i) (by omega) (by omega))
      (mulPowX_low H hg (e := S.n - 2 ^ i) (by omega))
    rw [show a + (a + H.ks) = 2 * a + H.ks by ring] at this
    have hx := xpow_add S.L S.t S.n (S.n - 2 ^ i)
    rw [show S.n + (S.n - 2 ^ i) = 2 * S.n - 2 ^ i by omega,
      show xpow S.L S.t S.n = -1 from xpow_n _ _] at hx
    convert this using 1
    rw [hx]
    ring

theorem xpow_inv {L t i : Nat} (hi : i < L) {k : Nat} (hk : 2 ^ i ≤ k) :
    xpow L t (2 * 2 ^ L - 2 ^ i) * xpow L t k = xpow L t (k - 2 ^ i) := by
  have hlt : 2 ^ i < 2 ^ L := Nat.pow_lt_pow_right (by norm_num) hi
  rw [← xpow_add, show 2 * 2 ^ L - 2 ^ i + k = 2 ^ L + (2 ^ L + (k - 2 ^ i)) by omega, xpow_add, xpow_add, xpow_n]
  ring

/-- The effect of a round on the plaintexts. -/
theorem round_vals {L t i : Nat} (hi : i < L) (c0 : Rq L t) (hc : ∀ g hg, tauQ L t g hg c0 = c0) (r : Nat) {j : Nat}
    (hj : j < 2 ^ i) :
    roundVal L t c0 r i j + tauQ L t _ (galois_odd hi) (roundVal L t c0 r i j) = roundVal L t c0 r (i + 1) j ∧
    xpow L t (2 * 2 ^ L - 2 ^ i) * (roundVal L t c0 r i j - tauQ L t _ (galois_odd hi) (roundVal L t c0 r i j)) =
      roundVal L t c0 r (i + 1) (j + 2 ^ i) := by
  have hp : 0 < 2 ^ i := Nat.pow_pos (by norm_num)
  have hmod : r % 2 ^ (i + 1) = r % 2 ^ i + 2 ^ i * (r / 2 ^ i % 2) := by
    rw [Nat.pow_succ]; exact Nat.mod_mul
  have hdm := Nat.div_add_mod r (2 ^ i)
  by_cases h : r % 2 ^ i = j
  · have hs : r - j = 2 ^ i * (r / 2 ^ i) := by omega
    have hv : roundVal L t c0 r i j = 2 ^ i * c0 * xpow L t (2 ^ i * (r / 2 ^ i)) := by
      unfold roundVal; rw [if_pos h, hs]
    have ht : tauQ L t _ (galois_odd hi) (roundVal L t c0 r i j) = (-1) ^ (r / 2 ^ i) * roundVal L t c0 r i j := by
      rw [hv, map_mul, map_mul, tauQ_xpow hi, hc, map_pow, map_ofNat]
      ring
    rw [ht]
    by_cases hpar : r / 2 ^ i % 2 = 0
    · rw [Even.neg_one_pow (Nat.even_iff.2 hpar)]
      rw [hpar] at hmod
      refine ⟨?_, ?_⟩
      · rw [hv]
        unfold roundVal
        rw [if_pos (by omega), hs]
        ring
      · unfold roundVal
        rw [if_neg (c := r % 2 ^ (i + 1) = j + 2 ^ i) (by omega)]
        ring
    · have h1 : r / 2 ^ i % 2 = 1 := by omega
      rw [Odd.neg_one_pow (Nat.odd_iff.2 h1)]
      rw [h1, Nat.mul_one] at hmod
      refine ⟨?_, ?_⟩
      · rw [show roundVal L t c0 r (i + 1) j = 0 by unfold roundVal; rw [if_neg (by omega)]]
        ring
      · have hge : 2 ^ i ≤ 2 ^ i * (r / 2 ^ i) := Nat.le_mul_of_pos_right _ (by
          rcases Nat.eq_zero_or_pos (r / 2 ^ i) with h0 | h0
          · rw [h0] at h1; omega
          · exact h0)
        have hx := xpow_inv (t := t) hi hge
        rw [hv]
        unfold roundVal
        rw [if_pos (by omega), show r - (j + 2 ^ i) = 2 ^ i * (r / 2 ^ i) - 2 ^ i by omega, ← hx]
        ring
  · have hv : roundVal L t c0 r i j = 0 := by unfold roundVal; rw [if_neg h]
    rw [hv, map_zero]
    have hb : r / 2 ^ i % 2 = 0 ∨ r / 2 ^ i % 2 = 1 := by omega
    have hlt : r % 2 ^ i < 2 ^ i := Nat.mod_lt _ hp
    unfold roundVal
    rcases hb with hb | hb <;> rw [hb] at hmod
    · rw [if_neg (by omega), if_neg (by omega)]
      exact ⟨by ring, by ring⟩
    · rw [if_neg (by omega), if_neg (by omega)]
      exact ⟨by ring, by ring⟩

/-! ### All rounds -/

theorem mapRes_forall {α β : Type} {f : α → Res β} : ∀ (l : List α) (Q : Nat → β → Prop),
    (∀ i (h : i < l.length), ∃ y, f l[i] = .ok y ∧ Q i y) →
    ∃ ys, mapRes f l = .ok ys ∧ ys.length = l.length ∧ ∀ i (h : i < ys.length), Q i ys[i]
  | [], _, _ => ⟨[], rfl, rfl, fun i h => absurd h (by simp)⟩
  | x :: l, Q, h => by
    obtain ⟨y, h1, h2⟩ := h 0 (by simp)
    obtain ⟨ys, g1, g2, g3⟩ := mapRes_forall l (fun i => Q (i + 1)) fun i hi =>
      h (i + 1) (by simpa using hi)
    refine ⟨y :: ys, ?_, by simp [g2], fun i hi => ?_⟩
    · unfold mapRes
      rw [show f x = .ok y from h1, g1]
      rfl
    · cases i with
      | zero => exact h2
      | succ i => exact g3 i (by simpa using hi)

/-- The ciphertexts hold the plaintexts of a round. -/
def RoundOk (c0 : Rq S.L S.t) (r i : Nat) (tmp : List S.Ct) : Prop :=
  tmp.length = 2 ^ i ∧ ∀ j (h : j < tmp.length),
    H.Holds (expNoise H.fresh H.ks i) tmp[j] (roundVal S.L S.t c0 r i j)

theorem expandRound_ok {c0 : Rq S.L S.t} (hc : ∀ g hg, tauQ S.L S.t g hg c0 = c0) {r i : Nat} (hi : i < S.L)
    {tmp : List S.Ct} (h : RoundOk H c0 r i tmp) :
    ∃ tmp', expandRound S (galoisElts S) i tmp = .ok tmp' ∧ RoundOk H c0 r (i + 1) tmp' := by
  obtain ⟨hlen, hh⟩ := h
  obtain ⟨ys, g1, g2, g3⟩ := mapRes_forall (f := expandOne S (galoisElts S) i) tmp
    (fun j y => H.Holds (expNoise H.fresh H.ks (i + 1)) y.1 (roundVal S.L S.t c0 r (i + 1) j) ∧
      H.Holds (expNoise H.fresh H.ks (i + 1)) y.2 (roundVal S.L S.t c0 r (i + 1) (j + 2 ^ i))) (fun j hj => by
      obtain ⟨x, y, e1, e2, e3⟩ := expandOne_ok H hi (hh j hj)
      obtain ⟨v1, v2⟩ := round_vals hi c0 hc r (j := j) (by omega)
      rw [v1] at e2
      rw [show S.n = 2 ^ S.L from rfl, v2] at e3
      exact ⟨(x, y), e1, e2, e3⟩)
  unfold expandRound
  rw [g1]
  refine ⟨_, rfl, ?_, fun j hj => ?_⟩
  · rw [List.length_append, List.length_map, List.length_map, g2, hlen, Nat.pow_succ]
    omega
  · rw [List.getElem_append]
    split_ifs with hlt
    · rw [List.getElem_map]
      exact (g3 j _).1
    · rw [List.getElem_map]
      rw [List.length_append, List.length_map] at hj
      rw [List.length_map] at hlt
      simp only [List.length_map] at hj ⊢
      have := (g3 (j - ys.length) (by omega)).2
      rwa [show j - ys.length + 2 ^ i = j by omega] at this

theorem expandRounds_ok {c0 : Rq S.L S.t} (hc : ∀ g hg, tauQ S.L S.t g hg c0 = c0) {r : Nat} : ∀ (k i : Nat)
    {tmp : List S.Ct}, i + k ≤ S.L → RoundOk H c0 r i tmp →
    ∃ tmp', expandRounds S (galoisElts S) k i tmp = .ok tmp' ∧ RoundOk H c0 r (i + k) tmp'
  | 0, i, tmp, _, h => ⟨tmp, rfl, h⟩
  | k + 1, i, tmp, hk, h => by
    obtain ⟨t1, e1, h1⟩ := expandRound_ok H hc (by omega) h
    obtain ⟨t2, e2, h2⟩ := expandRounds_ok hc k (i + 1) (by omega) h1
    refine ⟨t2, ?_, by rwa [show i + (k + 1) = i + 1 + k by omega]⟩
    unfold expandRounds
    rw [e1]
    exact e2

theorem expNoise_mono {f k i j : Nat} (h : i ≤ j) : expNoise f k i ≤ expNoise f k j := by
  induction h with
  | refl => exact Nat.le_refl _
  | step _ ih =>
    refine ih.trans ?_
    show _ ≤ 2 * _ + _
    omega

theorem val_two (L t : Nat) : val L t two = 2 := by
  have h : toA L (fun i => (two i : ℤ)) = 2 := by
    have := Psi.Spiral.toA_single L 2 (j := 0) (Nat.pow_pos (by norm_num))
    rw [pow_zero, mul_one] at this
    have e : (fun i => (two i : ℤ)) = fun i => if i = 0 then 2 else 0 := by
      funext i
      unfold two
      split_ifs <;> rfl
    rw [e, this]
    norm_num
  unfold val
  rw [h, map_ofNat]

theorem sum_two {n : Nat} (hn : 0 < n) : ((List.range n).map two).sum = 2 := by
  obtain ⟨m, rfl⟩ : ∃ m, n = m + 1 := ⟨n - 1, by omega⟩
  rw [List.range_succ_eq_map, List.map_cons, List.sum_cons, List.map_map]
  have : ((List.range m).map (two ∘ Nat.succ)).sum = 0 := by
    refine List.sum_eq_zero fun x hx => ?_
    obtain ⟨k, -, rfl⟩ := List.mem_map.1 hx
    rfl
  rw [this]
  rfl

theorem multiplyPlain_two (h3 : 3 ≤ S.t) {a : Nat} {c : S.Ct} {m : Rq S.L S.t} (h : H.Holds a c m) :
    ∃ y, multiplyPlain S c two = .ok y ∧ H.Holds (2 * a) y (m * 2) := by
  have hne : ¬ (S.throwOnTransparent = true ∧ ∀ k < S.n, two k = 0) := fun hh => by
    have := hh.2 0 (n_pos S)
    simp [two] at this
  unfold multiplyPlain
  rw [if_neg hne]
  refine ⟨_, rfl, ?_⟩
  have := H.mul_ok two 2 (fun k _ => by unfold two; split_ifs <;> omega) (sum_two (n_pos S)).le h
  rwa [val_two] at this

/-- The last round. -/
theorem expandLast_ok (h3 : 3 ≤ S.t) {c0 : Rq S.L S.t} (hc : ∀ g hg, tauQ S.L S.t g hg c0 = c0) {r k m : Nat}
    (hk : k < S.L) (hm1 : 2 ^ k < m) (hm2 : m ≤ 2 ^ (k + 1)) (hr : r < m) {tmp : List S.Ct} (h : RoundOk H c0 r k tmp) :
    ∃ out, expandLast S (galoisElts S) m k tmp = .ok out ∧ out.length = m ∧ ∀ j (hj : j < out.length),
      H.Holds (expNoise H.fresh H.ks (k + 1)) out[j] (if j = r then 2 ^ (k + 1) * c0 else 0) := by
  obtain ⟨hlen, hh⟩ := h
  rw [Nat.pow_succ] at hm2
  have hp : 0 < 2 ^ k := Nat.pow_pos (by norm_num)
  have hfin : ∀ j, j < m → roundVal S.L S.t c0 r (k + 1) j = if j = r then 2 ^ (k + 1) * c0 else 0 := by
    intro j hj
    have hmod : r % 2 ^ (k + 1) = r := Nat.mod_eq_of_lt (by rw [Nat.pow_succ]; omega)
    unfold roundVal
    rw [hmod]
    by_cases hjr : j = r
    · rw [if_pos hjr.symm, if_pos hjr, hjr, Nat.sub_self, xpow_zero, mul_one]
    · rw [if_neg (Ne.symm hjr), if_neg hjr]
  obtain ⟨ys, g1, g2, g3⟩ := mapRes_forall (f := expandOne S (galoisElts S) k) (tmp.take (m - 2 ^ k))
    (fun j y => H.Holds (expNoise H.fresh H.ks (k + 1)) y.1 (roundVal S.L S.t c0 r (k + 1) j) ∧
      H.Holds (expNoise H.fresh H.ks (k + 1)) y.2 (roundVal S.L S.t c0 r (k + 1) (j + 2 ^ k))) (fun j hj => by
      have hj' : j < tmp.length := by rw [List.length_take] at hj; omega
      obtain ⟨x, y, e1, e2, e3⟩ := expandOne_ok H hk (hh j hj')
      obtain ⟨v1, v2⟩ := round_vals hk c0 hc r (j := j) (by omega)
      rw [v1] at e2
      rw [show S.n = 2 ^ S.L from rfl, v2] at e3
      exact ⟨(x, y), by rw [List.getElem_take]; exact e1, e2, e3⟩)
  obtain ⟨zs, d1, d2, d3⟩ := mapRes_forall (f := fun c => multiplyPlain S c two) (tmp.drop (m - 2 ^ k))
    (fun j y => H.Holds (expNoise H.fresh H.ks (k + 1)) y
      (if m - 2 ^ k + j = r then 2 ^ (k + 1) * c0 else 0)) (fun j hj => by
      rw [List.length_drop] at hj
      obtain ⟨y, e1, e2⟩ := multiplyPlain_two H h3 (hh (m - 2 ^ k + j) (by omega))
      refine ⟨y, by rw [List.getElem_drop]; exact e1, ?_⟩
      refine H.mono (a := 2 * expNoise H.fresh H.ks k) ?_ (by show _ ≤ 2 * _ + _; omega)
      convert e2 using 1
      unfold roundVal
      have hdm := Nat.div_add_mod r (2 ^ k)
      have hq : r / 2 ^ k < 2 := by rw [Nat.div_lt_iff_lt_mul hp]; omega
      have hmlt := Nat.mod_lt r hp
      by_cases he : m - 2 ^ k + j = r
      · have : r % 2 ^ k = m - 2 ^ k + j := by rw [Nat.mod_eq_of_lt (by omega)]; omega
        rw [if_pos he, if_pos this, he, Nat.sub_self, xpow_zero, pow_succ]
        ring
      · have : ¬ r % 2 ^ k = m - 2 ^ k + j := by
          intro hx
          rcases Nat.lt_or_ge (r / 2 ^ k) 1 with h0 | h0
          · have : r / 2 ^ k = 0 := Nat.lt_one_iff.1 h0
            rw [this] at hdm
            omega
          · have : r / 2 ^ k = 1 := Nat.le_antisymm (Nat.lt_succ_iff.1 hq) h0
            rw [this] at hdm
            omega
        rw [if_neg he, if_neg this, zero_mul])
  rw [List.length_take] at g2
  rw [List.length_drop] at d2
  unfold expandLast
  simp only [g1, d1]
  have hl : (ys.map Prod.fst ++ zs ++ ys.map Prod.snd).length = m := by
    simp only [List.length_append, List.length_map]
    omega
  refine ⟨_, rfl, by rw [List.length_take, hl, Nat.min_self], fun j hj => ?_⟩
  have hjm : j < m := by rw [List.length_take, hl] at hj; omega
  rw [List.getElem_take, ← hfin j hjm]
  rw [List.getElem_append]
  split_ifs with hlt
  · rw [List.getElem_append]
    split_ifs with hlt2
    · rw [List.getElem_map]
      exact (g3 j _).1
    · simp only [List.length_append, List.length_map] at hlt hlt2
      rw [hfin j hjm]
      have := d3 (j - (ys.map Prod.fst).length) (by simp only [List.length_map]; omega)
      rwa [show m - 2 ^ k + (j - (ys.map Prod.fst).length) = j by simp only [List.length_map]; omega] at this
  · rw [List.getElem_map]
    have hlen2 : (ys.map Prod.fst ++ zs).length = 2 ^ k := by
      simp only [List.length_append, List.length_map]; omega
    rw [hlen2] at hlt
    have := (g3 (j - 2 ^ k) (by omega)).2
    rw [show j - 2 ^ k + 2 ^ k = j by omega] at this
    convert this using 2
    simp only [hlen2]

/-- **Expansion.**  A ciphertext of `c0 * X ^ r` becomes `m` ciphertexts, of `2 ^ ceil(log2 m) * c0` in place `r` and of
zero elsewhere. -/
theorem expandQuery_ok (h3 : 3 ≤ S.t) {c0 : Rq S.L S.t} (hc : ∀ g hg, tauQ S.L S.t g hg c0 = c0) {r m : Nat}
    (hm : 0 < m) (hmn : m ≤ S.n) (hr : r < m) {c : S.Ct} (h : H.Holds H.fresh c (c0 * xpow S.L S.t r)) :
    ∃ out, expandQuery S (galoisElts S) c m = .ok out ∧ out.length = m ∧ ∀ j (hj : j < out.length),
      H.Holds (expNoise H.fresh H.ks (Nat.clog 2 m)) out[j] (if j = r then 2 ^ Nat.clog 2 m * c0 else 0) := by
  unfold expandQuery
  have hlog : Nat.clog 2 m ≤ S.L := Nat.clog_le_of_le_pow hmn
  simp only
  rw [if_neg (by omega)]
  split_ifs with h0
  · have : m ≤ 2 ^ Nat.clog 2 m := Nat.le_pow_clog (by norm_num) m
    rw [h0] at this
    have hm1 : m = 1 := by omega
    refine ⟨[c], rfl, by simp [hm1], fun j hj => ?_⟩
    have hj0 : j = 0 := by simpa using hj
    have hr0 : r = 0 := by omega
    subst hj0 hr0
    rw [h0, if_pos rfl, pow_zero, one_mul]
    rw [xpow_zero, mul_one] at h
    exact h
  · obtain ⟨k, hk⟩ : ∃ k, Nat.clog 2 m = k + 1 := ⟨Nat.clog 2 m - 1, by omega⟩
    have hm2 : m ≤ 2 ^ (k + 1) := by rw [← hk]; exact Nat.le_pow_clog (by norm_num) m
    have hm1 : 2 ^ k < m := by
      by_contra hcon
      have := Nat.clog_le_of_le_pow (b := 2) (x := m) (y := k) (by omega)
      omega
    rw [hk, Nat.add_sub_cancel]
    have hR : RoundOk H c0 r 0 [c] := ⟨rfl, fun j hj => by
      have hj0 : j = 0 := by simpa using hj
      subst hj0
      unfold roundVal
      rw [pow_zero, Nat.mod_one, if_pos rfl, pow_zero, one_mul, Nat.sub_zero]
      exact h⟩
    obtain ⟨tmp, e1, e2⟩ := expandRounds_ok H hc k 0 (by omega) hR
    rw [Nat.zero_add] at e2
    rw [e1]
    exact expandLast_ok H h3 hc (by omega) hm1 hm2 hr e2

end

end Psi.SealPir
