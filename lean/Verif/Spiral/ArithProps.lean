import Verif.Spiral.ArithLemmas

/-!
# Modular arithmetic of Spiral PIR (C60, C61)

The specification is ordinary arithmetic on `Nat` and `Int`: remainders, congruences and distances.
-/

namespace Psi.Spiral

/-- The two default moduli with their inverses. -/
def Crt.default : Crt := ⟨268369921, 249561089, 97389680, 163640210⟩

/-! ### C60 -/

/-- **C60** Barrett reduction of a word is the exact remainder, for every modulus a word holds. -/
theorem barrett_word_exact {m : Nat} (hm : 2 ≤ m) {x : Nat} (hx : x < 2 ^ 64) :
    barrettCoeffU64 m x = x % m :=
  barrettCoeffU64_eq hm hx

example : barrettCoeffU64 268369921 18446744073709551615 = 18446744073709551615 % 268369921 :=
  barrett_word_exact (by norm_num) (by norm_num)

/-- **C60** Barrett reduction of a double word is the exact remainder. -/
theorem barrett_double_exact {m : Nat} (hm : 2 ≤ m) (hm2 : m ≤ 2 ^ 63) {x : Nat} (hx : x < 2 ^ 128) :
    barrettReductionU128Raw x (barrettCrs m).1 (barrettCrs m).2 m = x % m :=
  barrettReductionU128Raw_eq hm hm2 hx

example : barrettReductionU128Raw (2 ^ 127 + 12345) (barrettCrs 66974689739603969).1
    (barrettCrs 66974689739603969).2 66974689739603969 = (2 ^ 127 + 12345) % 66974689739603969 :=
  barrett_double_exact (by norm_num) (by norm_num) (by norm_num)

/-- **C60** the modular operations on coefficients are exact whenever the product and sum are words. -/
theorem modular_ops_exact {m : Nat} (hm : 2 ≤ m) {a b x : Nat} (h : a * b + x < 2 ^ 64) :
    multiplyModular m a b = a * b % m ∧ multiplyAddModular m a b x = (a * b + x) % m ∧
      (a + b < 2 ^ 64 → addModular m a b = (a + b) % m) :=
  ⟨multiplyModular_eq hm (by omega), multiplyAddModular_eq hm h, addModular_eq hm⟩

example : multiplyModular 268369921 268369920 268369919 = 268369920 * 268369919 % 268369921 :=
  (modular_ops_exact (x := 0) (by norm_num) (by norm_num)).1

/-- **C60** limit: with modulus 1 the ratio words are 0 and the result is not a remainder. -/
theorem barrett_one_wrong : barrettCoeffU64 1 5 = 4 ∧ 5 % 1 = 0 := by decide

/-- **C60** limit: a sum that leaves the word is reduced after it has wrapped. -/
theorem modular_wraps : addModular 268369921 (2 ^ 64 - 1) 1 ≠ (2 ^ 64 - 1 + 1) % 268369921 := by decide +kernel

/-- **C60** `CrtCompose2` is the one number below the product with the two given remainders. -/
theorem crt_compose_exact {c : Crt} (h : c.Ok) {x y : Nat} (hx : x < 2 ^ 64) (hy : y < 2 ^ 64) :
    (c.compose x y < c.mod0 * c.mod1 ∧ c.compose x y % c.mod0 = x % c.mod0 ∧
      c.compose x y % c.mod1 = y % c.mod1) ∧
    ∀ r, r < c.mod0 * c.mod1 → r % c.mod0 = x % c.mod0 → r % c.mod1 = y % c.mod1 → r = c.compose x y := by
  refine ⟨⟨Crt.compose_lt h hx hy, Crt.compose_mod0 h hx hy, Crt.compose_mod1 h hx hy⟩, ?_⟩
  intro r hr h0 h1
  have e := (Nat.modEq_and_modEq_iff_modEq_mul (Crt.coprime h)).1
    ⟨h0.trans (Crt.compose_mod0 h hx hy).symm, h1.trans (Crt.compose_mod1 h hx hy).symm⟩
  exact Nat.ModEq.eq_of_lt_of_lt e hr (Crt.compose_lt h hx hy)

theorem Crt.default_ok : Crt.default.Ok := by decide +kernel

/-- Splitting a coefficient and composing it again gives it back. -/
theorem crt_round_trip {c : Crt} (h : c.Ok) {r : Nat} (hr : r < c.mod0 * c.mod1) :
    c.compose (r % c.mod0) (r % c.mod1) = r := by
  have hb := h.2.2.1
  have h0 := Nat.mod_le r c.mod0
  have h1 := Nat.mod_le r c.mod1
  exact ((crt_compose_exact h (x := r % c.mod0) (y := r % c.mod1) (by omega) (by omega)).2 r hr
    (Nat.mod_mod _ _).symm (Nat.mod_mod _ _).symm).symm

example : Crt.default.compose (12345678901234 % 268369921) (12345678901234 % 249561089) = 12345678901234 :=
  crt_round_trip Crt.default_ok (by decide +kernel)

example := crt_compose_exact Crt.default_ok (x := 2 ^ 64 - 1) (y := 12345678901234) (by norm_num) (by norm_num)

/-! ### C61 -/

/-- **C61** `Recenter` takes the representative of the value next to zero and reduces it modulo the smaller
modulus; nothing overflows. -/
theorem recenter_exact {val f t : Nat} (hv : val < f) (ht : 0 < t) (htf : t ≤ f) (hf : f < 2 ^ 61) :
    ∃ (v : Int) (r : Nat), recenter val f t = .ok r ∧ v % f = (val : Int) % f ∧ 2 * |v| ≤ f + 1 ∧
      r < t ∧ (r : Int) % t = v % t := by
  obtain ⟨c1, c2⟩ := centred_bounds hv
  have h0 := Int.emod_nonneg (if val ≥ f / 2 then (val : Int) - f else val) (show (t : Int) ≠ 0 by omega)
  have h1 := Int.emod_lt_of_pos (if val ≥ f / 2 then (val : Int) - f else val) (show (0 : Int) < t by omega)
  refine ⟨_, _, recenter_eq hv ht htf hf, c1, c2, by omega, ?_⟩
  rw [Int.toNat_of_nonneg h0, Int.emod_emod_of_dvd _ (dvd_refl _)]

example : ∃ (v : Int) (r : Nat), recenter 66974689739603960 66974689739603969 268369921 = .ok r ∧
    v % (66974689739603969 : Nat) = ((66974689739603960 : Nat) : Int) % (66974689739603969 : Nat) ∧
    2 * |v| ≤ (66974689739603969 : Nat) + 1 ∧ r < 268369921 ∧
    (r : Int) % (268369921 : Nat) = v % (268369921 : Nat) :=
  recenter_exact (by norm_num) (by norm_num) (by norm_num) (by norm_num)

/-- **C61** `RecenertMod` moves a value to a larger modulus without changing the number next to zero it
stands for. -/
theorem recenertMod_exact {val s l : Nat} (hv : val < s) (hs : s < 2 ^ 63) (hl : l < 2 ^ 63) (hsl : s ≤ l) :
    ∃ (v : Int) (r : Nat), recenertMod val s l = .ok r ∧ v % s = (val : Int) % s ∧ 2 * |v| ≤ s ∧
      r < l ∧ (r : Int) % l = v % l := by
  rw [recenertMod_eq hv hs hl hsl]
  by_cases h : val > s / 2
  · rw [if_pos h]
    refine ⟨(val : Int) - s, _, rfl, ?_, ?_, by omega, ?_⟩
    · rw [← Int.add_emod_right, sub_add_cancel]
    · rw [abs_of_nonpos (by omega)]
      omega
    · rw [show ((l + val - s : Nat) : Int) = (val : Int) - s + l by omega, Int.add_emod_right]
  · rw [if_neg h]
    refine ⟨val, _, rfl, rfl, ?_, by omega, rfl⟩
    rw [abs_of_nonneg (by omega)]
    omega

example : recenertMod 255 256 66974689739603969 = .ok 66974689739603968 ∧
    ∃ (v : Int) (r : Nat), recenertMod 255 256 66974689739603969 = .ok r ∧
      v % (256 : Nat) = ((255 : Nat) : Int) % (256 : Nat) ∧ 2 * |v| ≤ (256 : Nat) ∧
      r < 66974689739603969 ∧ (r : Int) % (66974689739603969 : Nat) = v % (66974689739603969 : Nat) :=
  ⟨by decide +kernel, recenertMod_exact (by norm_num) (by norm_num) (by norm_num) (by norm_num)⟩

/-- **C61** `Rescale` takes the value next to zero, multiplies by `out / in` and rounds to a nearest integer,
modulo `out`; it neither overflows nor fails its enforce. -/
theorem rescale_nearest (a : Nat) {i o : Nat} (hi : 0 < i) (hi2 : i < 2 ^ 63) (ho : 0 < o)
    (ho2 : o < 2 ^ 64) :
    ∃ (v r : Int) (res : Nat), rescale a i o = .ok res ∧ v % i = (a : Int) % i ∧ 2 * |v| ≤ i + 1 ∧
      2 * |r * i - v * o| ≤ i ∧ res < o ∧ (res : Int) % o = r % o := by
  obtain ⟨v, r, h1, h2, h3, h4⟩ := rescale_eq (a := a) hi hi2 ho ho2
  have h0 := Int.emod_nonneg r (show (o : Int) ≠ 0 by omega)
  have h5 := Int.emod_lt_of_pos r (show (0 : Int) < o by omega)
  refine ⟨v, r, _, h4, h1, h2, h3, by omega, ?_⟩
  rw [Int.toNat_of_nonneg h0, Int.emod_emod_of_dvd _ (dvd_refl _)]

example : rescale 33487344869801985 66974689739603969 786433 = .ok 393217 ∧
    ∃ (v r : Int) (res : Nat), rescale 33487344869801985 66974689739603969 786433 = .ok res ∧
      v % (66974689739603969 : Nat) = ((33487344869801985 : Nat) : Int) % (66974689739603969 : Nat) ∧
      2 * |v| ≤ (66974689739603969 : Nat) + 1 ∧
      2 * |r * (66974689739603969 : Nat) - v * (786433 : Nat)| ≤ (66974689739603969 : Nat) ∧
      res < 786433 ∧ (res : Int) % (786433 : Nat) = r % (786433 : Nat) :=
  ⟨by decide +kernel, rescale_nearest _ (by norm_num) (by norm_num) (by norm_num) (by norm_num)⟩

end Psi.Spiral
