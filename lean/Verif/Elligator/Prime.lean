import Mathlib.NumberTheory.LucasPrimality
import Mathlib.Tactic.NormNum.Prime
import Mathlib.Data.Nat.Log

/-!
# Primality of `2 ^ 255 - 19`

The hash to Curve25519 works modulo `2 ^ 255 - 19`.  That this number is prime is proved here from
Lucas certificates; nothing about it is assumed.
-/

namespace Psi.Elligator

/-- Square and multiply, from the low bit of the exponent up.  `fuel` bounds the number of bits. -/
def powAux (m : Nat) : Nat → Nat → Nat → Nat → Nat
  | 0, _, _, acc => acc
  | fuel + 1, b, e, acc =>
    powAux m fuel (b * b % m) (e / 2) (if e % 2 = 1 then acc * b % m else acc)

/-- `b ^ e` modulo `m`. -/
def pw (m b e : Nat) : Nat := powAux m (Nat.log2 e + 1) b e 1

theorem powAux_mod (m : Nat) : ∀ (fuel b e acc : Nat), e < 2 ^ fuel →
    powAux m fuel b e acc % m = acc * b ^ e % m := by
  intro fuel
  induction fuel with
  | zero => intro b e acc h; have : e = 0 := by simpa using h
            subst this; simp [powAux]
  | succ f ih =>
    intro b e acc h
    have h2 : e / 2 < 2 ^ f := by rw [Nat.pow_succ] at h; omega
    have hb : (b * b % m) ^ (e / 2) % m = (b * b) ^ (e / 2) % m := (Nat.pow_mod _ _ _).symm
    have he : e = 2 * (e / 2) + e % 2 := by omega
    have hp : (b * b) ^ (e / 2) = b ^ (2 * (e / 2)) := by rw [← Nat.pow_two, ← Nat.pow_mul]
    rw [powAux, ih _ _ _ h2, Nat.mul_mod, hb, ← Nat.mul_mod, hp]
    by_cases h1 : e % 2 = 1
    · rw [if_pos h1, Nat.mod_mul_mod]
      conv_rhs => rw [he, h1, Nat.pow_succ]
      congr 1; ring
    · have h0 : e % 2 = 0 := by omega
      rw [if_neg h1]
      conv_rhs => rw [he, h0, Nat.add_zero]

theorem powAux_lt {m : Nat} (hm : 0 < m) : ∀ (fuel b e acc : Nat), acc < m →
    powAux m fuel b e acc < m := by
  intro fuel
  induction fuel with
  | zero => intro b e acc h; exact h
  | succ f ih =>
    intro b e acc h
    rw [powAux]
    apply ih
    split
    · exact Nat.mod_lt _ hm
    · exact h

theorem pw_eq {m : Nat} (hm : 1 < m) (b e : Nat) : pw m b e = b ^ e % m := by
  have h := powAux_mod m (Nat.log2 e + 1) b e 1 Nat.lt_log2_self
  rw [Nat.mod_eq_of_lt (powAux_lt (by omega) _ _ _ _ hm), Nat.one_mul] at h
  exact h

/-- Lucas' test: `a` has order `n - 1` modulo `n`, where `l` lists the prime factors of `n - 1`. -/
theorem lucas (n a : Nat) (l : List Nat) (hn : 1 < n) (hl : l.prod = n - 1)
    (hp : ∀ q ∈ l, q.Prime) (h1 : pw n a (n - 1) = 1) (h2 : ∀ q ∈ l, pw n a ((n - 1) / q) ≠ 1) :
    n.Prime := by
  have key : ∀ e, pw n a e = 1 ↔ (a : ZMod n) ^ e = 1 := by
    intro e
    rw [pw_eq hn]
    have h := ZMod.natCast_eq_natCast_iff (a ^ e) 1 n
    rw [Nat.ModEq, Nat.mod_eq_of_lt hn, Nat.cast_pow, Nat.cast_one] at h
    exact h.symm
  refine lucas_primality n (a : ZMod n) ((key _).mp h1) ?_
  intro q hq hd h
  rw [← hl] at hd
  obtain ⟨r, hr, hqr⟩ := (Nat.Prime.prime hq).dvd_prod_iff.mp hd
  have : q = r := (Nat.prime_dvd_prime_iff_eq hq (hp r hr)).mp hqr
  subst this
  exact h2 q hr ((key _).mpr h)

set_option maxRecDepth 10000

theorem prime_0 : Nat.Prime (31757755568855353) := by
  refine lucas _ 10 [2, 2, 2, 3, 31, 107, 223, 4153, 430751] (by norm_num) (by norm_num) ?_ (by decide +kernel) (by decide +kernel)
  intro q hq
  simp only [List.mem_cons, List.not_mem_nil, or_false] at hq
  rcases hq with rfl | rfl | rfl | rfl | rfl | rfl | rfl | rfl | rfl
  · norm_num
  · norm_num
  · norm_num
  · norm_num
  · norm_num
  · norm_num
  · norm_num
  · norm_num
  · norm_num

theorem prime_1 : Nat.Prime (2773320623) := by
  refine lucas _ 5 [2, 2437, 569003] (by norm_num) (by norm_num) ?_ (by decide +kernel) (by decide +kernel)
  intro q hq
  simp only [List.mem_cons, List.not_mem_nil, or_false] at hq
  rcases hq with rfl | rfl | rfl
  · norm_num
  · norm_num
  · norm_num

theorem prime_2 : Nat.Prime (72106336199) := by
  refine lucas _ 7 [2, 13, 2773320623] (by norm_num) (by norm_num) ?_ (by decide +kernel) (by decide +kernel)
  intro q hq
  simp only [List.mem_cons, List.not_mem_nil, or_false] at hq
  rcases hq with rfl | rfl | rfl
  · norm_num
  · norm_num
  · exact prime_1

theorem prime_3 : Nat.Prime (1919519569386763) := by
  refine lucas _ 2 [2, 3, 7, 19, 47, 47, 127, 8574133] (by norm_num) (by norm_num) ?_ (by decide +kernel) (by decide +kernel)
  intro q hq
  simp only [List.mem_cons, List.not_mem_nil, or_false] at hq
  rcases hq with rfl | rfl | rfl | rfl | rfl | rfl | rfl | rfl
  · norm_num
  · norm_num
  · norm_num
  · norm_num
  · norm_num
  · norm_num
  · norm_num
  · norm_num

theorem prime_4 : Nat.Prime (75445702479781427272750846543864801) := by
  refine lucas _ 7 [2, 2, 2, 2, 2, 3, 3, 5, 5, 75707, 72106336199, 1919519569386763] (by norm_num) (by norm_num) ?_ (by decide +kernel) (by decide +kernel)
  intro q hq
  simp only [List.mem_cons, List.not_mem_nil, or_false] at hq
  rcases hq with rfl | rfl | rfl | rfl | rfl | rfl | rfl | rfl | rfl | rfl | rfl | rfl
  · norm_num
  · norm_num
  · norm_num
  · norm_num
  · norm_num
  · norm_num
  · norm_num
  · norm_num
  · norm_num
  · norm_num
  · exact prime_2
  · exact prime_3

theorem prime_5 : Nat.Prime (74058212732561358302231226437062788676166966415465897661863160754340907) := by
  refine lucas _ 2 [2, 3, 353, 57467, 132049, 1923133, 31757755568855353, 75445702479781427272750846543864801] (by norm_num) (by norm_num) ?_ (by decide +kernel) (by decide +kernel)
  intro q hq
  simp only [List.mem_cons, List.not_mem_nil, or_false] at hq
  rcases hq with rfl | rfl | rfl | rfl | rfl | rfl | rfl | rfl
  · norm_num
  · norm_num
  · norm_num
  · norm_num
  · norm_num
  · norm_num
  · exact prime_0
  · exact prime_4

theorem prime_p : Nat.Prime (2 ^ 255 - 19) := by
  refine lucas _ 2 [2, 2, 3, 65147, 74058212732561358302231226437062788676166966415465897661863160754340907] (by norm_num) (by norm_num) ?_ (by decide +kernel) (by decide +kernel)
  intro q hq
  simp only [List.mem_cons, List.not_mem_nil, or_false] at hq
  rcases hq with rfl | rfl | rfl | rfl | rfl
  · norm_num
  · norm_num
  · norm_num
  · norm_num
  · exact prime_5

end Psi.Elligator
