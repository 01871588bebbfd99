import Verif.Spiral.SwitchModel
import Verif.Spiral.ArithProps
import Verif.Spiral.RingProps

/-!
# Lemmas on modulus switching and decoding
-/

namespace Psi.Spiral

open Finset

theorem Res.ok_bind {α β : Type} (a : α) (f : α → Res β) : (Res.ok a).bind f = f a := id rfl

theorem resWords_ok {k : Nat} {f : Nat → Res Nat} {Q : Nat → Nat → Prop} (h : ∀ i, i < k → ∃ x, f i = .ok x ∧ Q i x) :
    ∃ w, resWords k f = .ok w ∧ ∀ i, i < k → Q i (w i) := by
  induction k with
  | zero => exact ⟨_, rfl, fun i hi => by omega⟩
  | succ k ih =>
    obtain ⟨w, h1, h2⟩ := ih fun i hi => h i (by omega)
    obtain ⟨x, h3, h4⟩ := h k (by omega)
    refine ⟨upd w k x, ?_, fun i hi => ?_⟩
    · unfold resWords
      rw [h1, Res.ok_bind, h3, Res.ok_bind]
    · unfold upd
      by_cases e : i = k
      · rw [if_pos e, e]
        exact h4
      · rw [if_neg e]
        exact h2 i (by omega)

theorem resMat_ok {n rows cols : Nat} {f : Nat → Nat → Nat → Res Nat} {Q : Nat → Nat → Nat → Nat → Prop}
    (h : ∀ r c z, r < rows → c < cols → z < n → ∃ x, f r c z = .ok x ∧ Q r c z x) :
    ∃ M, resMat n rows cols f = .ok M ∧ M.rows = rows ∧ M.cols = cols ∧
      ∀ r c z, r < rows → c < cols → z < n → Q r c z (M.poly r c z) := by
  obtain ⟨w, h1, h2⟩ := resWords_ok (k := rows * cols * n)
    (f := fun i => f (i / n / cols) (i / n % cols) (i % n))
    (Q := fun i x => Q (i / n / cols) (i / n % cols) (i % n) x) (by
      intro i hi
      have hn : 0 < n := Nat.pos_of_ne_zero fun e => by simp [e] at hi
      have hc : 0 < cols := Nat.pos_of_ne_zero fun e => by simp [e] at hi
      have h3 : i / n < rows * cols := (Nat.div_lt_iff_lt_mul hn).2 hi
      exact h _ _ _ ((Nat.div_lt_iff_lt_mul hc).2 h3) (Nat.mod_lt _ hc) (Nat.mod_lt _ hn))
  refine ⟨_, by unfold resMat; rw [h1, Res.ok_bind], rfl, rfl, fun r c z hr hc hz => ?_⟩
  rw [Mat.build_poly _ _ hc]
  have h3 : (r * cols + c) * n + z < rows * cols * n := by
    have a1 : (r + 1) * cols ≤ rows * cols := Nat.mul_le_mul_right _ hr
    have a2 : (r * cols + c + 1) * n ≤ rows * cols * n := Nat.mul_le_mul_right _ (by rw [Nat.succ_mul] at a1; omega)
    rw [Nat.succ_mul] at a2
    omega
  have := h2 _ h3
  rw [(div_add n (r * cols + c) z hz).1, (div_add n (r * cols + c) z hz).2, (div_add cols r c hc).1,
    (div_add cols r c hc).2] at this
  exact this

/-- Rounding to the nearest multiple by adding half and truncating. -/
theorem round_trunc {r M D : ℤ} (hD : 0 < D) (h2 : D % 2 = 0) (h : 2 * |r - D * M| < D) :
    (r + (if r ≥ 0 then 1 else -1) * (D.tdiv 2)).tdiv D = M := by
  have e : D.tdiv 2 = D / 2 := Int.tdiv_eq_ediv_of_nonneg hD.le
  have e2 : 2 * (D / 2) = D := by omega
  obtain ⟨a1, a2⟩ := abs_lt.1 (show |r - D * M| < D / 2 + 0 by omega)
  rw [e]
  by_cases hr : r ≥ 0
  · rw [if_pos hr, Int.tdiv_eq_ediv_of_nonneg (by omega)]
    rw [Int.ediv_eq_iff_of_pos hD]
    constructor <;> nlinarith
  · rw [if_neg hr, ← Int.neg_neg M, ← Int.neg_neg (r + -1 * (D / 2)), Int.neg_tdiv]
    congr 1
    rw [Int.tdiv_eq_ediv_of_nonneg (by omega), Int.ediv_eq_iff_of_pos hD]
    constructor <;> nlinarith

/-- The value next to zero the code takes. -/
def centre (val q : Nat) : ℤ := if val ≥ q / 2 then (val : ℤ) - q else val

theorem centre_bounds {val q : Nat} (hv : val < q) :
    centre val q % q = (val : ℤ) % q ∧ 2 * |centre val q| ≤ q + 1 := centred_bounds hv

theorem centre_i64 {val q : Nat} (hv : val < q) (hq : q < 2 ^ 62) :
    (if toI64 val ≥ (toI64 q).tdiv 2 then i64 (toI64 val - toI64 q) else .ok (toI64 val) : Res Int) =
      .ok (centre val q) := by
  rw [toI64_of_lt (show val < 2 ^ 63 by omega), toI64_of_lt (show q < 2 ^ 63 by omega)]
  have e0 : (q : Int).tdiv 2 = ((q / 2 : Nat) : Int) := (Int.ofNat_tdiv q 2).symm
  rw [e0]
  unfold centre
  by_cases h : val ≥ q / 2
  · rw [if_pos h, if_pos (by omega)]
    exact i64_ok (by omega) (by omega)
  · rw [if_neg h, if_neg (by omega)]

/-- The decoded word, when the combined value is near a multiple of the denominator. -/
theorem decodeWord_eq {p q2 first rest : Nat} (hp : 0 < p) (hq2 : 0 < q2) (hbig : p * q2 < 2 ^ 57)
    (hf : first < q2) (hr : rest < 4 * p) {M : ℤ}
    (h : 2 * |centre first q2 * (4 * p) + centre rest (4 * p) * q2 - 4 * q2 * M| < 4 * q2) :
    decodeWord p q2 first rest = .ok ((M + (4 * q2 / p : Nat)) % p).toNat := by
  have hp57 : p < 2 ^ 57 := lt_of_le_of_lt (Nat.le_mul_of_pos_right p hq2) hbig
  have hq57 : q2 < 2 ^ 57 := lt_of_le_of_lt (Nat.le_mul_of_pos_left q2 hp) hbig
  have b1 := (centre_bounds hf).2
  have b2 := (centre_bounds hr).2
  push_cast at b2
  unfold decodeWord
  simp only [w64_of_lt (show 4 * p < 2 ^ 64 by omega)]
  rw [quot_ok (by norm_num)]
  simp only [Res.pure_bind]
  rw [centre_i64 hf (by omega)]
  simp only [Res.pure_bind]
  rw [quot_ok (by norm_num)]
  simp only [Res.pure_bind]
  rw [centre_i64 hr (by omega)]
  simp only [Res.pure_bind]
  rw [if_neg (by omega), Nat.mul_div_cancel _ hp, w64_of_lt (show q2 * 4 < 2 ^ 64 by omega),
    toI64_of_lt (show q2 * 4 < 2 ^ 63 by omega), toI64_of_lt (show 4 * p < 2 ^ 63 by omega),
    toI64_of_lt (show q2 < 2 ^ 63 by omega)]
  generalize centre first q2 = vf at *
  generalize centre rest (4 * p) = vr at *
  obtain ⟨b3, b4⟩ := abs_le.1 (show |vf| ≤ q2 by omega)
  obtain ⟨b5, b6⟩ := abs_le.1 (show |vr| ≤ 4 * p by omega)
  have hbig' : (p : ℤ) * q2 < 2 ^ 57 := by exact_mod_cast hbig
  have hp' : (0 : ℤ) < p := by exact_mod_cast hp
  have hq' : (0 : ℤ) < q2 := by exact_mod_cast hq2
  have e1 : ((q2 : ℤ) * 4).tdiv p = ((4 * q2 / p : Nat) : ℤ) := by
    rw [Nat.mul_comm, Int.ofNat_tdiv]
    push_cast
    rfl
  have hm : 4 * q2 / p ≤ 4 * q2 := Nat.div_le_self _ _
  generalize 4 * q2 / p = mid at *
  push_cast
  have c1 : -2 ^ 59 < vf * (4 * p) ∧ vf * (4 * p) < 2 ^ 59 := by
    constructor <;> nlinarith
  have c2 : -2 ^ 59 < vr * q2 ∧ vr * q2 < 2 ^ 59 := by
    constructor <;> nlinarith
  -- the quotient is above minus three times the modulus
  have c3 : -(2 * (p : ℤ)) ≤ M ∧ M ≤ 2 * p := by
    obtain ⟨d1, d2⟩ := abs_lt.1 (show |vf * (4 * p) + vr * q2 - 4 * q2 * M| < 2 * q2 by omega)
    obtain ⟨f1, f2⟩ := abs_le.1 (show |2 * vf| ≤ q2 + 1 by rw [abs_mul]; simpa using b1)
    obtain ⟨f3, f4⟩ := abs_le.1 (show |2 * vr| ≤ 4 * p + 1 by rw [abs_mul]; simpa using b2)
    constructor
    · by_contra hlt
      have : M + 1 ≤ -(2 * (p : ℤ)) := by omega
      nlinarith
    · by_contra hlt
      have : 2 * (p : ℤ) + 1 ≤ M := by omega
      nlinarith
  rw [i64_ok (by omega) (by omega)]
  simp only [Res.pure_bind]
  rw [i64_ok (by omega) (by omega)]
  simp only [Res.pure_bind]
  rw [i64_ok (by omega) (by omega)]
  simp only [Res.pure_bind]
  rw [quot_ok (by norm_num)]
  simp only [Res.pure_bind]
  have hrt := round_trunc (r := vf * (4 * p) + vr * q2) (M := M) (D := (q2 : ℤ) * 4) (by omega) (by omega)
    (by rw [Int.mul_comm (q2 : ℤ) 4]; exact h)
  have e0 : ((q2 : ℤ) * 4).tdiv 2 = ((q2 * 4 / 2 : Nat) : ℤ) := by
    rw [Int.tdiv_eq_ediv_of_nonneg (by omega)]
    omega
  have hs : -(2 : ℤ) ^ 60 < (if vf * (4 * p) + vr * q2 ≥ 0 then 1 else -1) * (((q2 : ℤ) * 4).tdiv 2) ∧
      (if vf * (4 * p) + vr * q2 ≥ 0 then 1 else -1) * (((q2 : ℤ) * 4).tdiv 2) < 2 ^ 60 := by
    rw [e0]
    split_ifs <;> omega
  rw [i64_ok (by omega) (by omega)]
  simp only [Res.pure_bind]
  rw [i64_ok (by omega) (by omega)]
  simp only [Res.pure_bind]
  rw [quot_ok (by omega), hrt]
  simp only [Res.pure_bind]
  rw [quot_ok (by omega)]
  simp only [Res.pure_bind]
  rw [e1]
  rw [i128_ok (by omega) (by omega)]
  simp only [Res.pure_bind]
  rw [i128_ok (by omega) (by omega)]
  simp only [Res.pure_bind]
  rw [i128_ok (by omega) (by omega)]
  simp only [Res.pure_bind]
  rw [rem_ok (by omega), Int.tmod_eq_emod_of_nonneg (by omega)]
  simp only [Res.pure_bind]
  rw [show M + (mid : ℤ) + 2 * (p : ℤ) = M + mid + p * 2 by ring, Int.add_mul_emod_self_left]
  have h0 := Int.emod_nonneg (M + mid) hp'.ne'
  have h1 := Int.emod_lt_of_pos (M + mid) hp'
  rw [toU64_of_nonneg h0 (by omega)]

end Psi.Spiral
