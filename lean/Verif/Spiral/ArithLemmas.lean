import Mathlib.Tactic.Linarith
import Mathlib.Tactic.Ring
import Mathlib.Tactic.Zify
import Mathlib.Data.Nat.ModEq
import Mathlib.Algebra.Order.Ring.Abs
import Mathlib.Data.Int.ModEq
import Verif.Spiral.ArithModel

/-!
# Lemmas on the modular arithmetic of Spiral
-/

namespace Psi.Spiral

theorem w64_lt (x : Nat) : w64 x < 2 ^ 64 := Nat.mod_lt _ (by decide)

theorem w64_of_lt {x : Nat} (h : x < 2 ^ 64) : w64 x = x := Nat.mod_eq_of_lt h

theorem sub64_lt (x y : Nat) : sub64 x y < 2 ^ 64 := Nat.mod_lt _ (by decide)

/-- Subtraction does not wrap when the true difference is a word. -/
theorem sub64_of_le {x y : Nat} (hx : x < 2 ^ 64) (h : y ≤ x) : sub64 x y = x - y := by
  unfold sub64
  rw [Nat.mod_eq_of_lt (show y < 2 ^ 64 by omega)]
  have : x + 2 ^ 64 - y = (x - y) + 2 ^ 64 := by omega
  rw [this, Nat.add_mod_right, Nat.mod_eq_of_lt (by omega)]

/-- The general form: the result is the word congruent to the difference. -/
theorem sub64_eq {x y z : Nat} (hz : z < 2 ^ 64) (h : (z + y) % 2 ^ 64 = x % 2 ^ 64) : sub64 x y = z := by
  unfold sub64
  omega

/-- Barrett's estimate of a quotient, for any word size. -/
theorem barrett_estimate {x m b : Nat} (hm : 0 < m) (hx : x < b) :
    x * (b / m) / b ≤ x / m ∧ x / m ≤ x * (b / m) / b + 1 := by
  have hb : 0 < b := by omega
  constructor
  · rw [Nat.le_div_iff_mul_le hm]
    have h1 : x * (b / m) / b * b ≤ x * (b / m) := Nat.div_mul_le_self _ _
    have h2 : b / m * m ≤ b := Nat.div_mul_le_self _ _
    by_contra hc
    have hc' : x + 1 ≤ x * (b / m) / b * m := by omega
    have h3 : (x + 1) * b ≤ x * (b / m) / b * b * m := by
      calc (x + 1) * b ≤ (x * (b / m) / b * m) * b := Nat.mul_le_mul_right _ hc'
        _ = x * (b / m) / b * b * m := by ring
    have h4 : x * (b / m) / b * b * m ≤ x * b := by
      calc x * (b / m) / b * b * m ≤ x * (b / m) * m := Nat.mul_le_mul_right _ h1
        _ = x * (b / m * m) := by ring
        _ ≤ x * b := Nat.mul_le_mul_left _ h2
    have h5 : (x + 1) * b = x * b + b := by ring
    omega
  · have h1 := Nat.div_add_mod x m
    have h2 := Nat.mod_lt x hm
    have h3 := Nat.div_add_mod b m
    have h4 := Nat.mod_lt b hm
    have h5 := Nat.div_add_mod (x * (b / m)) b
    have h6 := Nat.mod_lt (x * (b / m)) hb
    generalize hE : x * (b / m) / b = E at *
    generalize x * (b / m) % b = r at *
    generalize hR : b / m = R at *
    generalize b % m = rb at *
    generalize hQ : x / m = Q at *
    generalize x % m = rx at *
    by_contra hc
    have hc' : E + 2 ≤ Q := by omega
    -- Q * b ≤ x * b / m ... multiply everything by m
    have e1 : m * Q ≤ x := by omega
    have e2 : m * (E + 2) ≤ x := le_trans (Nat.mul_le_mul_left _ hc') e1
    have e3 : x * R < b * (E + 1) := by
      have : b * (E + 1) = b * E + b := by ring
      omega
    have e4 : x * (m * R) < b * (m * (E + 1)) := by
      have := Nat.mul_lt_mul_of_pos_left e3 hm
      calc x * (m * R) = m * (x * R) := by ring
        _ < m * (b * (E + 1)) := this
        _ = b * (m * (E + 1)) := by ring
    have e5 : m * R = b - rb := by omega
    have e6 : b * (m * (E + 1)) + b * m ≤ b * x := by
      calc b * (m * (E + 1)) + b * m = b * (m * (E + 2)) := by ring
        _ ≤ b * x := Nat.mul_le_mul_left _ e2
    have e7 : x * (m * R) + x * rb = x * b := by
      rw [← Nat.mul_add]
      congr 1
    have e8 : x * rb ≤ b * m := Nat.mul_le_mul (by omega) (by omega)
    have e9 : b * x = x * b := by ring
    omega

/-- The remainder after subtracting a quotient that is at most one too small. -/
theorem remainder_of_estimate {x m q : Nat} (hm : 0 < m) (h1 : q ≤ x / m) (h2 : x / m ≤ q + 1) :
    q * m ≤ x ∧ x - q * m < 2 * m ∧ (if x - q * m ≥ m then x - q * m - m else x - q * m) = x % m := by
  have h3 := Nat.div_add_mod x m
  have h4 := Nat.mod_lt x hm
  rcases Nat.lt_or_ge q (x / m) with h | h
  · have hq : x / m = q + 1 := by omega
    rw [hq] at h3
    have : m * (q + 1) = q * m + m := by ring
    refine ⟨by omega, by omega, ?_⟩
    rw [if_pos (by omega)]
    omega
  · have hq : x / m = q := by omega
    rw [hq] at h3
    have : m * q = q * m := by ring
    refine ⟨by omega, by omega, ?_⟩
    rw [if_neg (by omega)]
    omega

theorem split64 (x : Nat) : x / 2 ^ 64 * 2 ^ 64 + w64 x = x := by
  unfold w64
  omega

theorem w64_mul_w64 (q m : Nat) : w64 (w64 q * m) = w64 (q * m) := by
  unfold w64
  rw [Nat.mod_mul_mod]

theorem sub64_w64 {x z y : Nat} (hz : z < 2 ^ 64) (h : z + y = x) : sub64 (w64 x) (w64 y) = z := by
  apply sub64_eq hz
  unfold w64
  omega

/-- The correction at the end of `BarrettReductionU128Raw`. -/
theorem correction {r m v : Nat} (hr : r < 2 * m) (hm : m ≤ 2 ^ 63) (h : (if r ≥ m then r - m else r) = v) :
    sub64 r (w64 (m * if r ≥ m then 1 else 0)) = v := by
  by_cases hc : r ≥ m
  · rw [if_pos hc] at h ⊢
    rw [Nat.mul_one, w64_of_lt (by omega), sub64_of_le (by omega) hc, h]
  · rw [if_neg hc] at h ⊢
    rw [Nat.mul_zero, w64_of_lt (by omega), sub64_of_le (by omega) (by omega), ← h]
    omega

theorem barrettCrs_snd {m : Nat} (hm : 2 ≤ m) : (barrettCrs m).2 = 2 ^ 64 / m := by
  unfold barrettCrs w64
  have h : (2 : Nat) ^ 128 / m / 2 ^ 64 = 2 ^ 64 / m := by
    rw [Nat.div_div_eq_div_mul, Nat.mul_comm, ← Nat.div_div_eq_div_mul]
    norm_num
  simp only [h]
  apply Nat.mod_eq_of_lt
  exact Nat.div_lt_self (by decide) hm

theorem barrettCrs_words {m : Nat} (hm : 2 ≤ m) :
    (barrettCrs m).2 * 2 ^ 64 + (barrettCrs m).1 = 2 ^ 128 / m ∧
      (barrettCrs m).1 < 2 ^ 64 ∧ (barrettCrs m).2 < 2 ^ 64 := by
  have hlt : (2 : Nat) ^ 128 / m < 2 ^ 128 := Nat.div_lt_self (by decide) hm
  unfold barrettCrs w64
  generalize (2 : Nat) ^ 128 / m = R at *
  simp only
  omega

/-- `BarrettRawU64` is the exact remainder. -/
theorem barrettRawU64_eq {x m : Nat} (hm : 2 ≤ m) (hx : x < 2 ^ 64) :
    barrettRawU64 x (barrettCrs m).2 m = x % m := by
  rw [barrettCrs_snd hm]
  unfold barrettRawU64
  obtain ⟨h1, h2⟩ := barrett_estimate (x := x) (m := m) (b := 2 ^ 64) (by omega) hx
  obtain ⟨h3, h4, h5⟩ := remainder_of_estimate (by omega) h1 h2
  simp only
  rw [w64_of_lt (by omega), sub64_of_le hx h3]
  exact h5

/-- The word computation of `BarrettRawU128` yields the low word of the full quotient estimate. -/
theorem barrett_words (h l c1 c0 : Nat) :
    w64 (h * c1 + w64 (l * c1 / 2 ^ 64 + (w64 (l * c1) + l * c0 / 2 ^ 64) / 2 ^ 64) +
      w64 (h * c0 / 2 ^ 64 + (w64 (w64 (l * c1) + l * c0 / 2 ^ 64) + w64 (h * c0)) / 2 ^ 64)) =
    w64 ((h * 2 ^ 64 + l) * (c1 * 2 ^ 64 + c0) / 2 ^ 128) := by
  have e : (h * 2 ^ 64 + l) * (c1 * 2 ^ 64 + c0) =
      h * c1 * 2 ^ 128 + (l * c1 + h * c0) * 2 ^ 64 + l * c0 := by ring
  rw [e]
  unfold w64
  generalize h * c1 = A
  generalize l * c1 = B
  generalize h * c0 = C
  generalize l * c0 = D
  omega

theorem barrettRawU128_spec {x m : Nat} (hm : 2 ≤ m) (hm2 : m ≤ 2 ^ 63) (hx : x < 2 ^ 128) :
    barrettRawU128 x (barrettCrs m).1 (barrettCrs m).2 m < 2 * m ∧
      (if barrettRawU128 x (barrettCrs m).1 (barrettCrs m).2 m ≥ m then
        barrettRawU128 x (barrettCrs m).1 (barrettCrs m).2 m - m
        else barrettRawU128 x (barrettCrs m).1 (barrettCrs m).2 m) = x % m := by
  obtain ⟨hR, hc0, hc1⟩ := barrettCrs_words hm
  obtain ⟨h1, h2⟩ := barrett_estimate (x := x) (m := m) (b := 2 ^ 128) (by omega) hx
  obtain ⟨h3, h4, h5⟩ := remainder_of_estimate (by omega) h1 h2
  have key : barrettRawU128 x (barrettCrs m).1 (barrettCrs m).2 m = x - x * (2 ^ 128 / m) / 2 ^ 128 * m := by
    unfold barrettRawU128
    simp only
    rw [barrett_words, hR]
    rw [split64, w64_mul_w64]
    exact sub64_w64 (by omega) (by omega)
  rw [key]
  exact ⟨h4, h5⟩

/-- `BarrettReductionU128Raw` is the exact remainder. -/
theorem barrettReductionU128Raw_eq {x m : Nat} (hm : 2 ≤ m) (hm2 : m ≤ 2 ^ 63) (hx : x < 2 ^ 128) :
    barrettReductionU128Raw x (barrettCrs m).1 (barrettCrs m).2 m = x % m := by
  obtain ⟨h1, h2⟩ := barrettRawU128_spec hm hm2 hx
  exact correction h1 hm2 h2

theorem barrettCoeffU64_eq {m x : Nat} (hm : 2 ≤ m) (hx : x < 2 ^ 64) : barrettCoeffU64 m x = x % m :=
  barrettRawU64_eq hm hx

theorem multiplyModular_eq {m a b : Nat} (hm : 2 ≤ m) (h : a * b < 2 ^ 64) :
    multiplyModular m a b = a * b % m := by
  unfold multiplyModular
  rw [w64_of_lt h, barrettCoeffU64_eq hm h]

theorem multiplyAddModular_eq {m a b x : Nat} (hm : 2 ≤ m) (h : a * b + x < 2 ^ 64) :
    multiplyAddModular m a b x = (a * b + x) % m := by
  unfold multiplyAddModular
  rw [w64_of_lt (show a * b < 2 ^ 64 by omega), w64_of_lt h, barrettCoeffU64_eq hm h]

theorem addModular_eq {m a b : Nat} (hm : 2 ≤ m) (h : a + b < 2 ^ 64) : addModular m a b = (a + b) % m := by
  unfold addModular
  rw [w64_of_lt h, barrettCoeffU64_eq hm h]

namespace Crt

variable {c : Crt}

theorem modulus_eq (h : c.Ok) : c.modulus = c.mod0 * c.mod1 := by
  obtain ⟨h0, h1, hq, -⟩ := h
  have : c.mod0 * 1 ≤ c.mod0 * c.mod1 := Nat.mul_le_mul_left _ (by omega)
  unfold modulus
  rw [Nat.one_mul, w64_of_lt (x := c.mod0) (by omega), w64_of_lt (by omega)]

theorem mod0InvMod1_eq (h : c.Ok) : c.mod0InvMod1 = c.mod0 * c.inv01 := by
  obtain ⟨h0, h1, hq, hi, -⟩ := h
  have : c.mod0 * c.inv01 ≤ c.mod0 * c.mod1 := Nat.mul_le_mul_left _ (by omega)
  exact w64_of_lt (by omega)

theorem mod1InvMod0_eq (h : c.Ok) : c.mod1InvMod0 = c.mod1 * c.inv10 := by
  obtain ⟨h0, h1, hq, -, hi, -⟩ := h
  have : c.mod1 * c.inv10 ≤ c.mod1 * c.mod0 := Nat.mul_le_mul_left _ (by omega)
  have e : c.mod1 * c.mod0 = c.mod0 * c.mod1 := Nat.mul_comm _ _
  exact w64_of_lt (by omega)

theorem modulus_bounds (h : c.Ok) : 2 ≤ c.modulus ∧ c.modulus ≤ 2 ^ 63 := by
  rw [modulus_eq h]
  obtain ⟨h0, h1, hq, -⟩ := h
  have : 2 * 2 ≤ c.mod0 * c.mod1 := Nat.mul_le_mul h0 h1
  omega

theorem mod0_le (h : c.Ok) : c.mod0 ≤ 2 ^ 62 ∧ c.mod1 ≤ 2 ^ 62 := by
  obtain ⟨h0, h1, hq, -⟩ := h
  have e1 : c.mod0 * 2 ≤ c.mod0 * c.mod1 := Nat.mul_le_mul_left _ h1
  have e2 : 2 * c.mod1 ≤ c.mod0 * c.mod1 := Nat.mul_le_mul_right _ h0
  omega

/-- `CrtCompose2` computes the weighted sum modulo the product. -/
theorem compose_eq (h : c.Ok) {x y : Nat} (hx : x < 2 ^ 64) (hy : y < 2 ^ 64) :
    c.compose x y = (x * (c.mod1 * c.inv10) + y * (c.mod0 * c.inv01)) % (c.mod0 * c.mod1) := by
  have hq := h.2.2.1
  have hi0 : c.mod0 * c.inv01 ≤ c.mod0 * c.mod1 := Nat.mul_le_mul_left _ (Nat.le_of_lt h.2.2.2.1)
  have hi1 : c.mod1 * c.inv10 ≤ c.mod0 * c.mod1 := by
    rw [Nat.mul_comm c.mod0]; exact Nat.mul_le_mul_left _ (Nat.le_of_lt h.2.2.2.2.1)
  have b1 : x * (c.mod1 * c.inv10) < 2 ^ 127 := by
    calc x * (c.mod1 * c.inv10) ≤ x * 2 ^ 63 := Nat.mul_le_mul_left _ (by omega)
      _ < 2 ^ 64 * 2 ^ 63 := Nat.mul_lt_mul_of_pos_right hx (by decide)
      _ = 2 ^ 127 := by norm_num
  have b2 : y * (c.mod0 * c.inv01) < 2 ^ 127 := by
    calc y * (c.mod0 * c.inv01) ≤ y * 2 ^ 63 := Nat.mul_le_mul_left _ (by omega)
      _ < 2 ^ 64 * 2 ^ 63 := Nat.mul_lt_mul_of_pos_right hy (by decide)
      _ = 2 ^ 127 := by norm_num
  unfold compose
  obtain ⟨m1, m2⟩ := modulus_bounds h
  simp only
  rw [mod0InvMod1_eq h, mod1InvMod0_eq h]
  rw [Nat.mod_eq_of_lt (a := x * (c.mod1 * c.inv10)) (by omega),
    Nat.mod_eq_of_lt (a := y * (c.mod0 * c.inv01)) (by omega), Nat.mod_eq_of_lt (b := 2 ^ 128) (by omega),
    barrettReductionU128Raw_eq m1 m2 (by omega), modulus_eq h]

theorem compose_mod0 (h : c.Ok) {x y : Nat} (hx : x < 2 ^ 64) (hy : y < 2 ^ 64) :
    c.compose x y % c.mod0 = x % c.mod0 := by
  rw [compose_eq h hx hy, Nat.mod_mul_right_mod, Nat.add_mod]
  have e1 : y * (c.mod0 * c.inv01) % c.mod0 = 0 := by
    rw [show y * (c.mod0 * c.inv01) = c.mod0 * (y * c.inv01) by ring]; simp
  have e2 : x * (c.mod1 * c.inv10) % c.mod0 = x % c.mod0 := by
    rw [Nat.mul_mod, h.2.2.2.2.2.2, Nat.mul_one, Nat.mod_mod]
  rw [e1, e2, Nat.add_zero, Nat.mod_mod]

theorem compose_mod1 (h : c.Ok) {x y : Nat} (hx : x < 2 ^ 64) (hy : y < 2 ^ 64) :
    c.compose x y % c.mod1 = y % c.mod1 := by
  rw [compose_eq h hx hy, Nat.mod_mul_left_mod, Nat.add_mod]
  have e1 : x * (c.mod1 * c.inv10) % c.mod1 = 0 := by
    rw [show x * (c.mod1 * c.inv10) = c.mod1 * (x * c.inv10) by ring]; simp
  have e2 : y * (c.mod0 * c.inv01) % c.mod1 = y % c.mod1 := by
    rw [Nat.mul_mod, h.2.2.2.2.2.1, Nat.mul_one, Nat.mod_mod]
  rw [e1, e2, Nat.zero_add, Nat.mod_mod]

theorem compose_lt (h : c.Ok) {x y : Nat} (hx : x < 2 ^ 64) (hy : y < 2 ^ 64) :
    c.compose x y < c.mod0 * c.mod1 := by
  rw [compose_eq h hx hy]
  have := modulus_bounds h
  rw [modulus_eq h] at this
  exact Nat.mod_lt _ (by omega)

theorem coprime (h : c.Ok) : Nat.Coprime c.mod0 c.mod1 := by
  have h1 := h.2.2.2.2.2.1
  rw [Nat.Coprime]
  have d1 : Nat.gcd c.mod0 c.mod1 ∣ 1 := by
    rw [← h1]
    exact (Nat.dvd_mod_iff (Nat.gcd_dvd_right _ _)).2 (Nat.dvd_mul_right_of_dvd (Nat.gcd_dvd_left _ _) _)
  exact Nat.dvd_one.1 d1

end Crt

/-! ### Signed arithmetic -/

theorem Res.pure_bind {α β : Type} (a : α) (f : α → Res β) : (Res.ok a >>= f) = f a := id rfl

theorem toI64_of_lt {x : Nat} (h : x < 2 ^ 63) : toI64 x = x := if_pos h

theorem i64_ok {x : Int} (h1 : -2 ^ 63 ≤ x) (h2 : x < 2 ^ 63) : i64 x = .ok x := if_pos ⟨h1, h2⟩

theorem i128_ok {x : Int} (h1 : -2 ^ 127 ≤ x) (h2 : x < 2 ^ 127) : i128 x = .ok x := if_pos ⟨h1, h2⟩

theorem quot_ok {x y : Int} (h : y ≠ 0) : quot x y = .ok (x.tdiv y) := if_neg h

theorem rem_ok {x y : Int} (h : y ≠ 0) : rem x y = .ok (x.tmod y) := if_neg h

theorem toU64_of_nonneg {x : Int} (h1 : 0 ≤ x) (h2 : x < 2 ^ 64) : toU64 x = x.toNat := by
  unfold toU64
  rw [Int.emod_eq_of_lt h1 h2]

/-- A value moved next to zero: what `Recenter` and `Rescale` do first. -/
theorem centred_bounds {val q : Nat} (hv : val < q) :
    let v : Int := if val ≥ q / 2 then (val : Int) - q else val
    v % q = (val : Int) % q ∧ 2 * |v| ≤ q + 1 := by
  intro v
  by_cases h : val ≥ q / 2
  · have hv' : v = (val : Int) - q := if_pos h
    rw [hv', abs_of_nonpos (by omega)]
    refine ⟨?_, by omega⟩
    rw [← Int.add_emod_right, sub_add_cancel]
  · have hv' : v = (val : Int) := if_neg h
    rw [hv', abs_of_nonneg (by omega)]
    exact ⟨rfl, by omega⟩

theorem recenter_eq {val f t : Nat} (hv : val < f) (ht : 0 < t) (htf : t ≤ f) (hf : f < 2 ^ 61) :
    recenter val f t = .ok ((if val ≥ f / 2 then (val : Int) - f else val) % t).toNat := by
  unfold recenter
  rw [if_neg (by omega)]
  simp only [toI64_of_lt (show f < 2 ^ 63 by omega), toI64_of_lt (show t < 2 ^ 63 by omega),
    toI64_of_lt (show val < 2 ^ 63 by omega)]
  have hA : (if val ≥ f / 2 then i64 ((val : Int) - f) else Res.ok (val : Int)) =
      .ok (if val ≥ f / 2 then (val : Int) - f else val) := by
    split_ifs
    · exact i64_ok (by omega) (by omega)
    · rfl
  rw [hA]
  generalize hv' : (if val ≥ f / 2 then (val : Int) - f else (val : Int)) = v
  have hb : -(f : Int) ≤ v ∧ v < f ∧ -(f : Int) ≤ 2 * v + 1 := by
    rw [← hv']
    split_ifs <;> omega
  obtain ⟨b1, b2, b3⟩ := hb
  have hd := Nat.div_add_mod f t
  have hd' := Nat.mod_lt f ht
  have e0 : ((f : Int).tdiv t) * t = ((f / t * t : Nat) : Int) := by
    rw [← Int.ofNat_tdiv]
    exact (Nat.cast_mul (f / t) t).symm
  have e1 : f / t * t ≤ f := Nat.div_mul_le_self _ _
  have e2 : f < f / t * t + t := by
    have : t * (f / t) = f / t * t := Nat.mul_comm _ _
    omega
  simp only [Res.pure_bind]
  rw [quot_ok (by omega)]
  simp only [Res.pure_bind]
  rw [e0]
  generalize hz : f / t * t = z at *
  rw [i64_ok (by omega) (by omega)]
  simp only [Res.pure_bind]
  rw [i64_ok (by omega) (by omega)]
  simp only [Res.pure_bind]
  rw [i64_ok (by omega) (by omega)]
  simp only [Res.pure_bind]
  rw [i64_ok (by omega) (by omega)]
  simp only [Res.pure_bind]
  rw [rem_ok (by omega)]
  simp only [Res.pure_bind]
  have hn : 0 ≤ v + z + 2 * (t : Int) := by omega
  rw [Int.tmod_eq_emod_of_nonneg hn]
  have hz' : (z : Int) = (t : Int) * (f / t : Nat) := by
    rw [← hz]
    push_cast
    ring
  have hm : (v + z + 2 * (t : Int)) % t = v % t := by
    rw [hz', show v + (t : Int) * (f / t : Nat) + 2 * t = v + t * ((f / t : Nat) + 2) by ring,
      Int.add_mul_emod_self_left]
  rw [hm]
  have h0 : 0 ≤ v % t := Int.emod_nonneg _ (by omega)
  have h1 : v % t < t := Int.emod_lt_of_pos _ (by omega)
  rw [toU64_of_nonneg h0 (by omega)]

theorem recenertMod_eq {val s l : Nat} (hv : val < s) (hs : s < 2 ^ 63) (hl : l < 2 ^ 63) (hsl : s ≤ l) :
    recenertMod val s l = .ok (if val > s / 2 then l + val - s else val) := by
  unfold recenertMod
  rw [if_neg (by omega)]
  simp only [toI64_of_lt (show s < 2 ^ 63 by omega), toI64_of_lt (show l < 2 ^ 63 by omega),
    toI64_of_lt (show val < 2 ^ 63 by omega)]
  rw [quot_ok (by omega)]
  simp only [Res.pure_bind]
  have e0 : (s : Int).tdiv 2 = ((s / 2 : Nat) : Int) := (Int.ofNat_tdiv s 2).symm
  rw [e0]
  by_cases h : val > s / 2
  · rw [if_pos (by omega), i64_ok (by omega) (by omega)]
    simp only [Res.pure_bind]
    rw [if_pos (by omega), i64_ok (by omega) (by omega)]
    simp only [Res.pure_bind]
    rw [if_pos h, toU64_of_nonneg (by omega) (by omega)]
    congr 1
    omega
  · rw [if_neg (by omega)]
    simp only [Res.pure_bind]
    rw [if_neg (by omega)]
    simp only [Res.pure_bind]
    rw [if_neg h, toU64_of_nonneg (by omega) (by omega)]
    congr 1

/-- Rounding to nearest by adding half of the divisor with the sign of the dividend. -/
theorem round_nearest {x : Int} {d : Nat} (hd : 0 < d) :
    let r := (x + (if x ≥ 0 then 1 else -1) * (d / 2 : Nat)).tdiv d
    2 * |r * d - x| ≤ d ∧ |r| ≤ |x| + 1 := by
  intro r
  have key : ∀ y : Int, 0 ≤ y → 2 * |(y + (d / 2 : Nat)).tdiv d * d - y| ≤ d ∧
      0 ≤ (y + (d / 2 : Nat)).tdiv d ∧ (y + (d / 2 : Nat)).tdiv d ≤ y + 1 := by
    intro y hy
    have hn : 0 ≤ y + (d / 2 : Nat) := by omega
    rw [Int.tdiv_eq_ediv_of_nonneg hn]
    have h1 := Int.emod_add_mul_ediv (y + (d / 2 : Nat)) d
    have h2 := Int.emod_nonneg (y + (d / 2 : Nat)) (show (d : Int) ≠ 0 by omega)
    have h3 := Int.emod_lt_of_pos (y + (d / 2 : Nat)) (show (0 : Int) < d by omega)
    have h4 : 0 ≤ (y + (d / 2 : Nat)) / (d : Int) := Int.ediv_nonneg hn (by omega)
    generalize (y + (d / 2 : Nat)) / (d : Int) = k at *
    generalize (y + (d / 2 : Nat)) % (d : Int) = m at *
    have h5 : k * d = d * k := mul_comm _ _
    have h6 : k ≤ d * k := by nlinarith
    have h7 : k * d - y ≤ (d / 2 : Nat) := by omega
    have h8 : -((d : Int)) ≤ 2 * (k * d - y) := by omega
    refine ⟨?_, h4, ?_⟩
    · rw [show 2 * |k * (d : Int) - y| = |2 * (k * d - y)| by rw [abs_mul]; norm_num]
      rw [abs_le]
      omega
    · by_contra hc
      have hk : y + 2 ≤ k := by omega
      have : (y + 2) * d ≤ k * d := by nlinarith
      have h9 : (y + 2) * (d : Int) = y * d + 2 * d := by ring
      have h10 : y ≤ y * d := by nlinarith
      omega
  by_cases hx : x ≥ 0
  · have hr : r = (x + (d / 2 : Nat)).tdiv d := by
      show (x + (if x ≥ 0 then 1 else -1) * (d / 2 : Nat)).tdiv d = _
      rw [if_pos hx, one_mul]
    rw [hr]
    obtain ⟨k1, k2, k3⟩ := key x hx
    refine ⟨k1, ?_⟩
    rw [abs_of_nonneg k2, abs_of_nonneg hx]
    exact k3
  · have hr : r = -((-x + (d / 2 : Nat)).tdiv d) := by
      show (x + (if x ≥ 0 then 1 else -1) * (d / 2 : Nat)).tdiv d = _
      rw [if_neg hx, ← Int.neg_tdiv]
      congr 1
      ring
    rw [hr]
    obtain ⟨k1, k2, k3⟩ := key (-x) (by omega)
    refine ⟨?_, ?_⟩
    · rw [show -((-x + (d / 2 : Nat)).tdiv d) * (d : Int) - x =
        -((-x + (d / 2 : Nat)).tdiv d * d - -x) by ring, abs_neg]
      exact k1
    · rw [abs_neg, abs_of_nonneg k2, abs_of_nonpos (by omega)]
      exact k3

theorem rescale_eq {a i o : Nat} (hi : 0 < i) (hi2 : i < 2 ^ 63) (ho : 0 < o) (ho2 : o < 2 ^ 64) :
    ∃ v r : Int, v % i = (a : Int) % i ∧ 2 * |v| ≤ i + 1 ∧ 2 * |r * i - v * o| ≤ i ∧
      rescale a i o = .ok (r % o).toNat := by
  have hlt := Nat.mod_lt a hi
  obtain ⟨c1, c2⟩ := centred_bounds hlt
  generalize hv : (if a % i ≥ i / 2 then ((a % i : Nat) : Int) - i else ((a % i : Nat) : Int)) = v at c1 c2
  have hvb : -((2 : Int) ^ 62) ≤ v ∧ v ≤ 2 ^ 62 := by
    rw [← abs_le]
    omega
  have hsign : (if v * o ≥ 0 then (1 : Int) else -1) = if v ≥ 0 then 1 else -1 := by
    by_cases h : v ≥ 0
    · rw [if_pos h, if_pos (by positivity)]
    · rw [if_neg h, if_neg]
      have : v * (o : Int) < 0 := mul_neg_of_neg_of_pos (by omega) (by omega)
      omega
  obtain ⟨n1, n2⟩ := round_nearest (x := v * o) hi
  simp only [hsign] at n1 n2
  refine ⟨v, ((v * o + (if v ≥ 0 then 1 else -1) * (i / 2 : Nat)).tdiv i), ?_, c2, n1, ?_⟩
  · rw [c1]
    push_cast
    exact Int.emod_emod_of_dvd _ (dvd_refl _)
  have hvo : -((2 : Int) ^ 126) ≤ v * o ∧ v * o ≤ 2 ^ 126 := by
    constructor <;> nlinarith
  have hab : |v * (o : Int)| ≤ 2 ^ 126 := abs_le.2 hvo
  generalize hr : ((v * o + (if v ≥ 0 then 1 else -1) * (i / 2 : Nat)).tdiv i) = r at *
  have hrb : -((2 : Int) ^ 126 + 1) ≤ r ∧ r ≤ 2 ^ 126 + 1 := by
    rw [← abs_le]
    omega
  have hlow : -(2 * (o : Int)) ≤ r := by
    have h1 := abs_le.1 (show |2 * (r * i - v * o)| ≤ (i : Int) by rw [abs_mul]; norm_num; exact n1)
    have h2 := abs_le.1 (show |2 * v| ≤ (i : Int) + 1 by rw [abs_mul]; norm_num; exact c2)
    by_contra hc
    have hr2 : r ≤ -(2 * (o : Int)) - 1 := by omega
    have h3 : r * i ≤ (-(2 * (o : Int)) - 1) * i := by nlinarith
    have h4 : -((i : Int) + 1) * o ≤ 2 * v * o := by nlinarith
    nlinarith
  unfold rescale
  rw [if_neg (by omega)]
  simp only [toI64_of_lt hi2, toI64_of_lt (show a % i < 2 ^ 63 by omega)]
  rw [quot_ok (by omega)]
  simp only [Res.pure_bind]
  have e0 : (i : Int).tdiv 2 = ((i / 2 : Nat) : Int) := (Int.ofNat_tdiv i 2).symm
  rw [e0]
  have hA : (if ((a % i : Nat) : Int) ≥ ((i / 2 : Nat) : Int) then i64 (((a % i : Nat) : Int) - i)
      else Res.ok ((a % i : Nat) : Int)) = .ok v := by
    rw [← hv]
    by_cases h : a % i ≥ i / 2
    · rw [if_pos h, if_pos (by omega)]
      exact i64_ok (by omega) (by omega)
    · rw [if_neg h, if_neg (by omega)]
  rw [hA]
  simp only [Res.pure_bind]
  rw [i128_ok (by omega) (by omega)]
  simp only [Res.pure_bind]
  have hs1 : -(2 : Int) ^ 62 ≤ (if v ≥ 0 then 1 else -1) * ((i / 2 : Nat) : Int) ∧
      (if v ≥ 0 then 1 else -1) * ((i / 2 : Nat) : Int) ≤ 2 ^ 62 := by
    split_ifs <;> omega
  rw [i64_ok (by omega) (by omega)]
  simp only [Res.pure_bind]
  rw [i128_ok (by omega) (by omega)]
  simp only [Res.pure_bind]
  rw [quot_ok (by omega), hr]
  simp only [Res.pure_bind]
  rw [i128_ok (by omega) (by omega)]
  simp only [Res.pure_bind]
  have e1 : i / o * o ≤ i := Nat.div_mul_le_self _ _
  rw [w64_of_lt (by omega)]
  rw [i128_ok (by omega) (by omega)]
  simp only [Res.pure_bind]
  rw [i128_ok (by omega) (by omega)]
  simp only [Res.pure_bind]
  rw [rem_ok (by omega)]
  simp only [Res.pure_bind]
  have hn : 0 ≤ r + ((i / o * o : Nat) : Int) + 2 * (o : Int) := by omega
  rw [Int.tmod_eq_emod_of_nonneg hn]
  have hm : (r + ((i / o * o : Nat) : Int) + 2 * (o : Int)) % o = r % o := by
    push_cast
    rw [show r + (i : Int) / o * o + 2 * o = r + o * ((i : Int) / o + 2) by ring,
      Int.add_mul_emod_self_left]
  rw [hm]
  have h0 : 0 ≤ r % o := Int.emod_nonneg _ (by omega)
  have h1 : r % o < o := Int.emod_lt_of_pos _ (by omega)
  rw [if_neg (by omega), i128_ok (by omega) (by omega)]
  simp only [Res.pure_bind]
  rw [rem_ok (by omega)]
  simp only [Res.pure_bind]
  rw [Int.tmod_eq_emod_of_nonneg (by omega), Int.add_emod_right, Int.emod_emod_of_dvd _ (dvd_refl _),
    toU64_of_nonneg h0 (by omega)]

end Psi.Spiral
