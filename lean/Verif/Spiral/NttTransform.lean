import Mathlib.Algebra.BigOperators.Ring.Finset
import Verif.Spiral.NttButterfly

/-!
# What the transforms compute
-/

namespace Psi.Spiral

open Finset

section Ring

variable {R : Type} [CommRing R]

/-- A table of roots in bit-reversed order. -/
structure RootTable (W : Nat → R) (L : Nat) : Prop where
  one : 0 < L → W 1 ^ 2 = -1
  even : ∀ k, 1 ≤ k → 2 * k < 2 ^ L → W (2 * k) ^ 2 = W k
  odd : ∀ k, 1 ≤ k → 2 * k < 2 ^ L → W (2 * k + 1) ^ 2 = -W k

/-- The point block `i` is evaluated at after `mm` levels. -/
def rootAt (W : Nat → R) : Nat → Nat → R
  | 0, _ => -1
  | mm + 1, i => if i % 2 = 0 then W (2 ^ mm + i / 2) else -W (2 ^ mm + i / 2)

theorem rootAt_even (W : Nat → R) (mm i : Nat) : rootAt W (mm + 1) (2 * i) = W (2 ^ mm + i) := by
  rw [rootAt, if_pos (by omega), show 2 * i / 2 = i by omega]

theorem rootAt_odd (W : Nat → R) (mm i : Nat) : rootAt W (mm + 1) (2 * i + 1) = -W (2 ^ mm + i) := by
  rw [rootAt, if_neg (by omega), show (2 * i + 1) / 2 = i by omega]

theorem root_sq {W : Nat → R} {L : Nat} (hW : RootTable W L) {mm i : Nat} (hm : mm < L) (hi : i < 2 ^ mm) :
    W (2 ^ mm + i) ^ 2 = rootAt W mm i := by
  cases mm with
  | zero =>
    have : i = 0 := by simpa using hi
    subst this
    exact hW.one (by omega)
  | succ mm =>
    have hL : 2 ^ (mm + 2) ≤ 2 ^ L := Nat.pow_le_pow_right (by decide) (by omega)
    have e2 : 2 ^ (mm + 2) = 4 * 2 ^ mm := by rw [pow_add]; ring
    have e1 : 2 ^ (mm + 1) = 2 * 2 ^ mm := by rw [pow_succ]; ring
    have hp : 1 ≤ 2 ^ mm := Nat.one_le_two_pow
    rcases Nat.mod_two_eq_zero_or_one i with h | h
    · obtain ⟨j, rfl⟩ : ∃ j, i = 2 * j := ⟨i / 2, by omega⟩
      rw [rootAt_even, show 2 ^ (mm + 1) + 2 * j = 2 * (2 ^ mm + j) by omega]
      exact hW.even _ (by omega) (by omega)
    · obtain ⟨j, rfl⟩ : ∃ j, i = 2 * j + 1 := ⟨i / 2, by omega⟩
      rw [rootAt_odd, show 2 ^ (mm + 1) + (2 * j + 1) = 2 * (2 ^ mm + j) + 1 by omega]
      exact hW.odd _ (by omega) (by omega)

/-- The points are roots of `X ^ n + 1`. -/
theorem rootAt_pow {W : Nat → R} {L : Nat} (hW : RootTable W L) (mm : Nat) (hm : mm ≤ L) {i : Nat}
    (hi : i < 2 ^ mm) : rootAt W mm i ^ 2 ^ mm = -1 := by
  induction mm generalizing i with
  | zero => simp [rootAt]
  | succ mm ih =>
    have e1 : 2 ^ (mm + 1) = 2 * 2 ^ mm := by rw [pow_succ]; ring
    have hi2 : i / 2 < 2 ^ mm := by omega
    have hsq : rootAt W (mm + 1) i ^ 2 = rootAt W mm (i / 2) := by
      rw [← root_sq hW (by omega) hi2, rootAt]
      split_ifs
      · rfl
      · rw [neg_pow_two]
    rw [e1, pow_mul, hsq, ih (by omega) hi2]

/-- One forward level, on ring elements. -/
def FwdStep (W : Nat → R) (L mm : Nat) (V V' : Nat → R) : Prop :=
  ∀ i, i < 2 ^ mm → ∀ j, j < 2 ^ L / 2 ^ (mm + 1) →
    V' (i * (2 * (2 ^ L / 2 ^ (mm + 1))) + j) =
      V (i * (2 * (2 ^ L / 2 ^ (mm + 1))) + j) +
        W (2 ^ mm + i) * V (i * (2 * (2 ^ L / 2 ^ (mm + 1))) + (2 ^ L / 2 ^ (mm + 1) + j)) ∧
    V' (i * (2 * (2 ^ L / 2 ^ (mm + 1))) + (2 ^ L / 2 ^ (mm + 1) + j)) =
      V (i * (2 * (2 ^ L / 2 ^ (mm + 1))) + j) -
        W (2 ^ mm + i) * V (i * (2 * (2 ^ L / 2 ^ (mm + 1))) + (2 ^ L / 2 ^ (mm + 1) + j))

/-- One inverse level, on ring elements. -/
def InvStep (W' : Nat → R) (L mm : Nat) (V V' : Nat → R) : Prop :=
  ∀ i, i < 2 ^ mm → ∀ j, j < 2 ^ L / 2 ^ (mm + 1) →
    2 * V' (i * (2 * (2 ^ L / 2 ^ (mm + 1))) + j) =
      V (i * (2 * (2 ^ L / 2 ^ (mm + 1))) + j) +
        V (i * (2 * (2 ^ L / 2 ^ (mm + 1))) + (2 ^ L / 2 ^ (mm + 1) + j)) ∧
    V' (i * (2 * (2 ^ L / 2 ^ (mm + 1))) + (2 ^ L / 2 ^ (mm + 1) + j)) =
      W' (2 ^ mm + i) * (V (i * (2 * (2 ^ L / 2 ^ (mm + 1))) + j) -
        V (i * (2 * (2 ^ L / 2 ^ (mm + 1))) + (2 ^ L / 2 ^ (mm + 1) + j)))

/-- The words of block number `i` of size `s` at offset `j`, after `mm` levels. -/
def PartialEval (W : Nat → R) (L mm : Nat) (a V : Nat → R) : Prop :=
  ∀ i, i < 2 ^ mm → ∀ j, j < 2 ^ L / 2 ^ mm →
    V (i * (2 ^ L / 2 ^ mm) + j) =
      ∑ l ∈ range (2 ^ mm), a (l * (2 ^ L / 2 ^ mm) + j) * rootAt W mm i ^ l

theorem half_size {L mm : Nat} (h : mm < L) : 2 ^ L / 2 ^ mm = 2 * (2 ^ L / 2 ^ (mm + 1)) ∧
    0 < 2 ^ L / 2 ^ (mm + 1) := by
  rw [Nat.pow_div (by omega) (by decide), Nat.pow_div (by omega) (by decide),
    show L - mm = (L - (mm + 1)) + 1 by omega, pow_succ, Nat.mul_comm]
  exact ⟨rfl, by positivity⟩

theorem sum_range_double (f : Nat → R) (n : Nat) :
    ∑ l ∈ range (2 * n), f l = ∑ l ∈ range n, (f (2 * l) + f (2 * l + 1)) := by
  induction n with
  | zero => rfl
  | succ n ih =>
    rw [show 2 * (n + 1) = 2 * n + 1 + 1 by ring, sum_range_succ, sum_range_succ, ih, sum_range_succ]
    ring

theorem partialEval_step {W : Nat → R} {L mm : Nat} (hW : RootTable W L) (hm : mm < L) {a V V' : Nat → R}
    (hV : PartialEval W L mm a V) (hs : FwdStep W L mm V V') : PartialEval W L (mm + 1) a V' := by
  obtain ⟨e, ht⟩ := half_size hm
  have e1 : 2 ^ (mm + 1) = 2 * 2 ^ mm := by rw [pow_succ]; ring
  intro i hi j hj
  unfold PartialEval at hV
  unfold FwdStep at hs
  rw [e] at hV
  generalize 2 ^ L / 2 ^ (mm + 1) = t at *
  have hi2 : i / 2 < 2 ^ mm := by omega
  have x1 := hV (i / 2) hi2 j (by omega)
  have x2 := hV (i / 2) hi2 (t + j) (by omega)
  obtain ⟨s1, s2⟩ := hs (i / 2) hi2 j hj
  rw [e1, sum_range_double]
  rcases Nat.mod_two_eq_zero_or_one i with h | h
  · obtain ⟨k, rfl⟩ : ∃ k, i = 2 * k := ⟨i / 2, by omega⟩
    rw [show 2 * k / 2 = k by omega] at *
    have hsq := root_sq hW hm hi2
    rw [rootAt_even]
    rw [show 2 * k * t + j = k * (2 * t) + j by ring, s1, x1, x2, mul_sum, ← sum_add_distrib]
    apply sum_congr rfl
    intro l _
    rw [← hsq, show 2 * l * t + j = l * (2 * t) + j by ring,
      show (2 * l + 1) * t + j = l * (2 * t) + (t + j) by ring, ← pow_mul, pow_succ]
    ring
  · obtain ⟨k, rfl⟩ : ∃ k, i = 2 * k + 1 := ⟨i / 2, by omega⟩
    rw [show (2 * k + 1) / 2 = k by omega] at *
    have hsq := root_sq hW hm hi2
    rw [rootAt_odd]
    rw [show (2 * k + 1) * t + j = k * (2 * t) + (t + j) by ring, s2, x1, x2, mul_sum, ← sum_sub_distrib]
    apply sum_congr rfl
    intro l _
    rw [← hsq, show 2 * l * t + j = l * (2 * t) + j by ring,
      show (2 * l + 1) * t + j = l * (2 * t) + (t + j) by ring, ← pow_mul, pow_succ, pow_mul (-_), neg_pow_two,
      ← pow_mul]
    ring

theorem partialEval_zero (W : Nat → R) (L : Nat) (a : Nat → R) : PartialEval W L 0 a a := by
  intro i hi j _
  have : i = 0 := by simpa using hi
  subst this
  simp

/-- The value of a polynomial with `n` coefficients. -/
def evalAt (a : Nat → R) (n : Nat) (x : R) : R := ∑ l ∈ range n, a l * x ^ l

theorem partialEval_full {W : Nat → R} {L : Nat} {a V : Nat → R} (h : PartialEval W L L a V) {k : Nat}
    (hk : k < 2 ^ L) : V k = evalAt a (2 ^ L) (rootAt W L k) := by
  have := h k hk 0 (by rw [Nat.div_self (by positivity)]; decide)
  rw [Nat.div_self (by positivity)] at this
  simpa [evalAt] using this

theorem full_partialEval {W : Nat → R} {L : Nat} {a V : Nat → R}
    (h : ∀ k, k < 2 ^ L → V k = evalAt a (2 ^ L) (rootAt W L k)) : PartialEval W L L a V := by
  intro i hi j hj
  rw [Nat.div_self (by positivity)] at *
  have : j = 0 := by omega
  subst this
  simpa [evalAt] using h i hi

/-- Splitting an index of a level. -/
theorem level_index {h t k : Nat} (hk : k < h * (2 * t)) :
    ∃ i, i < h ∧ ∃ j, j < t ∧ (k = i * (2 * t) + j ∨ k = i * (2 * t) + (t + j)) := by
  have ht : 0 < 2 * t := by
    rcases Nat.eq_zero_or_pos (2 * t) with h0 | h0
    · rw [h0] at hk; omega
    · exact h0
  have hi : k / (2 * t) < h := (Nat.div_lt_iff_lt_mul ht).2 hk
  have hd := Nat.div_add_mod k (2 * t)
  have hr := Nat.mod_lt k ht
  rw [Nat.mul_comm] at hd
  refine ⟨k / (2 * t), hi, ?_⟩
  by_cases hc : k % (2 * t) < t
  · exact ⟨k % (2 * t), hc, Or.inl (by omega)⟩
  · exact ⟨k % (2 * t) - t, by omega, Or.inr (by omega)⟩

theorem level_size {L mm : Nat} (h : mm < L) : 2 ^ mm * (2 * (2 ^ L / 2 ^ (mm + 1))) = 2 ^ L := by
  rw [← (half_size h).1, Nat.pow_div (by omega) (by decide), ← pow_add]
  congr 1
  omega

/-- An inverse level undoes the forward level. -/
theorem inv_of_fwd {W W' : Nat → R} {L mm : Nat} (hm : mm < L) (h2 : ∀ x y : R, 2 * x = 2 * y → x = y)
    (hW : ∀ k, k < 2 ^ L → 2 * W' k * W k = 1) {U V V' : Nat → R} (hf : FwdStep W L mm U V)
    (hi : InvStep W' L mm V V') {k : Nat} (hk : k < 2 ^ L) : V' k = U k := by
  rw [← level_size hm] at hk
  have hp : 2 ^ (mm + 1) ≤ 2 ^ L := Nat.pow_le_pow_right (by decide) (by omega)
  rw [pow_succ] at hp
  obtain ⟨i, hi', j, hj, h | h⟩ := level_index hk
  · obtain ⟨f1, f2⟩ := hf i hi' j hj
    obtain ⟨g1, -⟩ := hi i hi' j hj
    rw [h]
    apply h2
    rw [g1, f1, f2]
    ring
  · obtain ⟨f1, f2⟩ := hf i hi' j hj
    obtain ⟨-, g2⟩ := hi i hi' j hj
    rw [h, g2, f1, f2]
    have := hW (2 ^ mm + i) (by omega)
    generalize 2 ^ L / 2 ^ (mm + 1) = t at *
    linear_combination U (i * (2 * t) + (t + j)) * this

/-- A forward level exists from any values. -/
theorem fwdStep_exists (W : Nat → R) {L mm : Nat} (hm : mm < L) (V : Nat → R) : ∃ V', FwdStep W L mm V V' := by
  obtain ⟨-, ht⟩ := half_size hm
  unfold FwdStep
  generalize 2 ^ L / 2 ^ (mm + 1) = t at *
  refine ⟨fun k => if k % (2 * t) < t then V k + W (2 ^ mm + k / (2 * t)) * V (k + t)
    else V (k - t) - W (2 ^ mm + k / (2 * t)) * V k, fun i _ j hj => ?_⟩
  have e1 : (i * (2 * t) + j) % (2 * t) = j := by
    rw [Nat.mul_comm, Nat.mul_add_mod, Nat.mod_eq_of_lt (by omega)]
  have e2 : (i * (2 * t) + j) / (2 * t) = i := by
    rw [Nat.mul_comm, Nat.mul_add_div (by omega), Nat.div_eq_of_lt (by omega), Nat.add_zero]
  have e3 : (i * (2 * t) + (t + j)) % (2 * t) = t + j := by
    rw [Nat.mul_comm, Nat.mul_add_mod, Nat.mod_eq_of_lt (by omega)]
  have e4 : (i * (2 * t) + (t + j)) / (2 * t) = i := by
    rw [Nat.mul_comm, Nat.mul_add_div (by omega), Nat.div_eq_of_lt (by omega), Nat.add_zero]
  constructor
  · simp only [e1, e2]
    rw [if_pos hj, show i * (2 * t) + j + t = i * (2 * t) + (t + j) by ring]
  · simp only [e3, e4]
    rw [if_neg (by omega), show i * (2 * t) + (t + j) - t = i * (2 * t) + j by omega]

/-- A forward level leads to any values. -/
theorem fwdStep_onto {W W' : Nat → R} {half : R} {L mm : Nat} (hm : mm < L) (h2 : 2 * half = 1)
    (hW : ∀ k, k < 2 ^ L → 2 * W' k * W k = 1) (V' : Nat → R) : ∃ V, FwdStep W L mm V V' := by
  obtain ⟨-, ht⟩ := half_size hm
  have hp : 2 ^ (mm + 1) ≤ 2 ^ L := Nat.pow_le_pow_right (by decide) (by omega)
  rw [pow_succ] at hp
  unfold FwdStep
  generalize 2 ^ L / 2 ^ (mm + 1) = t at *
  refine ⟨fun k => if k % (2 * t) < t then half * (V' k + V' (k + t))
    else W' (2 ^ mm + k / (2 * t)) * (V' (k - t) - V' k), fun i hi j hj => ?_⟩
  have e1 : (i * (2 * t) + j) % (2 * t) = j := by
    rw [Nat.mul_comm, Nat.mul_add_mod, Nat.mod_eq_of_lt (by omega)]
  have e3 : (i * (2 * t) + (t + j)) % (2 * t) = t + j := by
    rw [Nat.mul_comm, Nat.mul_add_mod, Nat.mod_eq_of_lt (by omega)]
  have e4 : (i * (2 * t) + (t + j)) / (2 * t) = i := by
    rw [Nat.mul_comm, Nat.mul_add_div (by omega), Nat.div_eq_of_lt (by omega), Nat.add_zero]
  simp only [e1, e3, e4]
  rw [if_pos hj, if_neg (by omega), show i * (2 * t) + j + t = i * (2 * t) + (t + j) by ring,
    show i * (2 * t) + (t + j) - t = i * (2 * t) + j by omega]
  have hw := hW (2 ^ mm + i) (by omega)
  generalize V' (i * (2 * t) + j) = x at *
  generalize V' (i * (2 * t) + (t + j)) = y at *
  generalize W (2 ^ mm + i) = w at *
  generalize W' (2 ^ mm + i) = w' at *
  have hw2 : w * w' = half := by linear_combination half * hw - w * w' * h2
  constructor
  · linear_combination -x * h2 - (x - y) * hw2
  · linear_combination -y * h2 + (x - y) * hw2

/-- Any values are the values of a polynomial at the points. -/
theorem eval_onto {W W' : Nat → R} {half : R} {L : Nat} (hR : RootTable W L) (h2 : 2 * half = 1)
    (hW : ∀ k, k < 2 ^ L → 2 * W' k * W k = 1) (V : Nat → R) :
    ∃ a : Nat → R, ∀ k, k < 2 ^ L → V k = evalAt a (2 ^ L) (rootAt W L k) := by
  have key : ∀ mm, mm ≤ L → ∀ V, ∃ a, PartialEval W L mm a V := by
    intro mm
    induction mm with
    | zero => exact fun _ V => ⟨V, partialEval_zero W L V⟩
    | succ mm ih =>
      intro hm V
      obtain ⟨U, hU⟩ := fwdStep_onto (mm := mm) (by omega) h2 hW V
      obtain ⟨a, ha⟩ := ih (by omega) U
      exact ⟨a, partialEval_step hR (by omega) ha hU⟩
  obtain ⟨a, ha⟩ := key L (le_refl L) V
  exact ⟨a, fun k hk => partialEval_full ha hk⟩

end Ring

/-! ### Good tables -/

/-- What the proofs need of the tables. -/
structure GoodTables (tb : Tables) (L : Nat) : Prop where
  small : SmallMod tb.modulus
  odd : tb.modulus % 2 = 1
  fwdLt : ∀ k, k < 2 ^ L → tb.fwd k < tb.modulus
  fwdPrime : ∀ k, k < 2 ^ L → tb.fwdPrime k = scalePower tb.modulus (tb.fwd k)
  invLt : ∀ k, k < 2 ^ L → tb.inv k < tb.modulus
  invPrime : ∀ k, k < 2 ^ L → tb.invPrime k = scalePower tb.modulus (tb.inv k)
  roots : RootTable (fun k => ((tb.fwd k : Nat) : ZMod tb.modulus)) L
  inverse : ∀ k, k < 2 ^ L → 2 * ((tb.inv k : Nat) : ZMod tb.modulus) * ((tb.fwd k : Nat) : ZMod tb.modulus) = 1

/-- The words modulo the modulus. -/
def residues (m : Nat) (v : Words) : Nat → ZMod m := fun k => (v k : ZMod m)

/-- The roots of a table. -/
def Tables.roots (tb : Tables) : Nat → ZMod tb.modulus := fun k => ((tb.fwd k : Nat) : ZMod tb.modulus)

/-- The point that word `k` of the transformed polynomial belongs to. -/
def Tables.point (tb : Tables) (L k : Nat) : ZMod tb.modulus := rootAt tb.roots L k

variable {tb : Tables} {L : Nat}

theorem ZMod.double_inj {m : Nat} (hodd : m % 2 = 1) (x y : ZMod m) (h : 2 * x = 2 * y) : x = y := by
  have hc : ((2 : Nat) : ZMod m) * (((m + 1) / 2 : Nat) : ZMod m) = 1 := by
    rw [← Nat.cast_mul, show 2 * ((m + 1) / 2) = m + 1 by omega]
    push_cast
    rw [ZMod.natCast_self]
    ring
  push_cast at hc
  linear_combination (((m + 1) / 2 : Nat) : ZMod m) * h - (x - y) * hc

theorem ZMod.half_exists {m : Nat} (hodd : m % 2 = 1) : ∃ half : ZMod m, 2 * half = 1 := by
  refine ⟨(((m + 1) / 2 : Nat) : ZMod m), ?_⟩
  have hc : ((2 : Nat) : ZMod m) * (((m + 1) / 2 : Nat) : ZMod m) = 1 := by
    rw [← Nat.cast_mul, show 2 * ((m + 1) / 2) = m + 1 by omega]
    push_cast
    rw [ZMod.natCast_self]
    ring
  push_cast at hc ⊢
  exact hc

theorem cast_mod (m x : Nat) : ((x % m : Nat) : ZMod m) = x := by
  rw [ZMod.natCast_mod]

/-- The butterfly of a level. -/
theorem fwdBf_out (hg : GoodTables tb L) (avx : Bool) (t : Nat) {k x y : Nat} (hk : k < 2 ^ L)
    (hx : x ≤ 4 * tb.modulus) (hy : y ≤ 4 * tb.modulus) :
    ∃ curr q Q, FwdOut tb.modulus (tb.fwd k) x y
      ((if avx && decide (4 ≤ t) then fwdAvx tb.modulus (tb.fwd k) (tb.fwdPrime k)
        else fwdScalar tb.modulus (tb.fwd k) (tb.fwdPrime k)) x y) curr q Q ∧
      (avx = false → x < 4 * tb.modulus → curr < 2 * tb.modulus) := by
  rw [hg.fwdPrime k hk]
  by_cases h : (avx && decide (4 ≤ t)) = true
  · rw [if_pos h]
    obtain ⟨c, q, Q, ho⟩ := fwdAvx_out hg.small (hg.fwdLt k hk) hx hy
    refine ⟨c, q, Q, ho, fun ha => ?_⟩
    rw [ha] at h
    exact absurd h (by simp)
  · rw [if_neg h]
    obtain ⟨c, q, Q, ho, hc⟩ := fwdScalar_out hg.small (hg.fwdLt k hk) hx hy
    exact ⟨c, q, Q, ho, fun _ => hc⟩

/-- Bound on the words between the levels. -/
def Bound (avx : Bool) (m x : Nat) : Prop := if avx then x ≤ 4 * m else x < m

theorem fwdLevel_spec (hg : GoodTables tb L) (avx : Bool) {mm : Nat} (hm : mm < L) (v : Words)
    (hv : ∀ k, k < 2 ^ L → if avx then v k ≤ 4 * tb.modulus else v k < 4 * tb.modulus) :
    (∀ k, k < 2 ^ L → Bound avx tb.modulus (fwdLevel avx tb L v mm k)) ∧
      FwdStep tb.roots L mm (residues tb.modulus v) (residues tb.modulus (fwdLevel avx tb L v mm)) := by
  obtain ⟨-, ht⟩ := half_size hm
  have hsz := level_size hm
  have hm2 := hg.small.two
  have hp : 2 ^ (mm + 1) ≤ 2 ^ L := Nat.pow_le_pow_right (by decide) (by omega)
  rw [pow_succ] at hp
  have hle : ∀ k, k < 2 ^ L → v k ≤ 4 * tb.modulus := by
    intro k hk
    have := hv k hk
    split_ifs at this <;> omega
  unfold FwdStep
  generalize htt : 2 ^ L / 2 ^ (mm + 1) = t at *
  -- the level itself
  let bf := fun i => if avx && decide (4 ≤ t)
    then fwdAvx tb.modulus (tb.fwd (2 ^ mm + i)) (tb.fwdPrime (2 ^ mm + i))
    else fwdScalar tb.modulus (tb.fwd (2 ^ mm + i)) (tb.fwdPrime (2 ^ mm + i))
  have hl := (level_spec bf t v (2 ^ mm)).1
  have hidx : ∀ i, i < 2 ^ mm → ∀ j, j < t → i * (2 * t) + (t + j) < 2 ^ L := by
    intro i hi j hj
    have : (i + 1) * (2 * t) ≤ 2 ^ mm * (2 * t) := Nat.mul_le_mul_right _ (by omega)
    rw [Nat.succ_mul] at this
    omega
  have hout : ∀ i, i < 2 ^ mm → ∀ j, j < t → ∃ curr q Q,
      FwdOut tb.modulus (tb.fwd (2 ^ mm + i)) (v (i * (2 * t) + j)) (v (i * (2 * t) + (t + j)))
        (level bf (2 ^ mm) t v (i * (2 * t) + j), level bf (2 ^ mm) t v (i * (2 * t) + (t + j))) curr q Q ∧
      (avx = false → curr < 2 * tb.modulus) := by
    intro i hi j hj
    have hlt := hidx i hi j hj
    obtain ⟨e1, e2⟩ := hl i hi j hj
    obtain ⟨c, q, Q, ho, hc⟩ := fwdBf_out hg avx t (k := 2 ^ mm + i) (by omega)
      (hle (i * (2 * t) + j) (by omega)) (hle (i * (2 * t) + (t + j)) hlt)
    refine ⟨c, q, Q, ?_, fun ha => hc ha ?_⟩
    · rw [e1, e2]
      exact ho
    · have := hv (i * (2 * t) + j) (by omega)
      rw [ha] at this
      simpa using this
  have hlev : ∀ k, k < 2 ^ L → (level bf (2 ^ mm) t v k ≤ 4 * tb.modulus) ∧
      (avx = false → level bf (2 ^ mm) t v k < 4 * tb.modulus) := by
    intro k hk
    rw [← hsz] at hk
    obtain ⟨i, hi, j, hj, h | h⟩ := level_index hk
    · obtain ⟨c, q, Q, ho, hc⟩ := hout i hi j hj
      rw [h]
      exact ⟨ho.le.1, fun ha => (ho.lt (hc ha)).1⟩
    · obtain ⟨c, q, Q, ho, hc⟩ := hout i hi j hj
      rw [h]
      exact ⟨ho.le.2, fun ha => (ho.lt (hc ha)).2⟩
  have hdef : fwdLevel avx tb L v mm =
      if avx then level bf (2 ^ mm) t v
      else mapWords (reduceScalar tb.modulus) (2 ^ L) (level bf (2 ^ mm) t v) := by
    subst htt
    rfl
  have hres : ∀ k, k < 2 ^ L →
      residues tb.modulus (fwdLevel avx tb L v mm) k = residues tb.modulus (level bf (2 ^ mm) t v) k := by
    intro k hk
    unfold residues
    rw [hdef]
    cases avx with
    | true => rfl
    | false =>
      rw [if_neg (by decide), mapWords_apply, if_pos hk, reduceScalar_eq hg.small ((hlev k hk).2 rfl), cast_mod]
  refine ⟨fun k hk => ?_, fun i hi j hj => ?_⟩
  · unfold Bound
    rw [hdef]
    cases avx with
    | true => exact (hlev k hk).1
    | false =>
      rw [if_neg (by decide), if_neg (by decide), mapWords_apply, if_pos hk,
        reduceScalar_eq hg.small ((hlev k hk).2 rfl)]
      exact Nat.mod_lt _ (by omega)
  · have hlt := hidx i hi j hj
    obtain ⟨c, q, Q, ho, -⟩ := hout i hi j hj
    rw [hres _ (by omega), hres _ hlt]
    exact ho.cast

/-- What the levels of the forward transform compute. -/
theorem fwdLevels_spec (hg : GoodTables tb L) (avx : Bool) (v : Words)
    (hv : ∀ k, k < 2 ^ L → if avx then v k ≤ 4 * tb.modulus else v k < 4 * tb.modulus) (mm : Nat) (hm : mm ≤ L) :
    (∀ k, k < 2 ^ L → (0 < mm → Bound avx tb.modulus ((List.range mm).foldl (fwdLevel avx tb L) v k)) ∧
      if avx then (List.range mm).foldl (fwdLevel avx tb L) v k ≤ 4 * tb.modulus
        else (List.range mm).foldl (fwdLevel avx tb L) v k < 4 * tb.modulus) ∧
      PartialEval tb.roots L mm (residues tb.modulus v)
        (residues tb.modulus ((List.range mm).foldl (fwdLevel avx tb L) v)) := by
  induction mm with
  | zero => exact ⟨fun k hk => ⟨fun h => absurd h (by omega), hv k hk⟩, partialEval_zero _ _ _⟩
  | succ mm ih =>
    obtain ⟨h1, h2⟩ := ih (by omega)
    obtain ⟨h3, h4⟩ := fwdLevel_spec hg avx (show mm < L by omega) _ (fun k hk => (h1 k hk).2)
    rw [List.range_succ, List.foldl_append]
    simp only [List.foldl_cons, List.foldl_nil]
    refine ⟨fun k hk => ⟨fun _ => h3 k hk, ?_⟩, partialEval_step hg.roots (by omega) h2 h4⟩
    have := h3 k hk
    unfold Bound at this
    cases avx with
    | true => simpa using this
    | false =>
      simp only [Bool.false_eq_true, if_false] at this ⊢
      omega

theorem nttForward_spec (hg : GoodTables tb L) (avx : Bool) (v : Words)
    (hv : ∀ k, k < 2 ^ L → v k < 4 * tb.modulus) {k : Nat} (hk : k < 2 ^ L) :
    ((nttForward avx tb L v k : Nat) : ZMod tb.modulus) =
      evalAt (residues tb.modulus v) (2 ^ L) (tb.point L k) ∧
    nttForward avx tb L v k ≤ 4 * tb.modulus ∧
    (avx = true → 2 ≤ L → nttForward avx tb L v k ≤ tb.modulus) ∧
    (avx = false → 1 ≤ L → nttForward avx tb L v k < tb.modulus) := by
  have hv' : ∀ k, k < 2 ^ L → if avx then v k ≤ 4 * tb.modulus else v k < 4 * tb.modulus := by
    intro k hk
    have := hv k hk
    split_ifs <;> omega
  obtain ⟨h1, h2⟩ := fwdLevels_spec hg avx v hv' L (le_refl L)
  have he := partialEval_full h2 hk
  obtain ⟨b1, b2⟩ := h1 k hk
  have hm2 := hg.small.two
  cases avx with
  | false =>
    have hd : nttForward false tb L v = (List.range L).foldl (fwdLevel false tb L) v := rfl
    rw [hd]
    simp only [Bool.false_eq_true, if_false] at b2
    refine ⟨he, by omega, fun h => absurd h (by decide), fun _ hL => ?_⟩
    have := b1 (by omega)
    unfold Bound at this
    simpa using this
  | true =>
    have hd : nttForward true tb L v =
        mapWords (reduceAvx tb.modulus) (2 ^ L / 4 * 4) ((List.range L).foldl (fwdLevel true tb L) v) := rfl
    have b2' : (List.range L).foldl (fwdLevel true tb L) v k ≤ 4 * tb.modulus := by simpa using b2
    obtain ⟨r1, r2⟩ := reduceAvx_spec hg.small b2'
    rw [hd, mapWords_apply]
    have hcast : ((reduceAvx tb.modulus ((List.range L).foldl (fwdLevel true tb L) v k) : Nat) :
        ZMod tb.modulus) = (((List.range L).foldl (fwdLevel true tb L) v k : Nat) : ZMod tb.modulus) := by
      rw [← cast_mod, r2, cast_mod]
    refine ⟨?_, ?_, fun _ hL => ?_, fun h => absurd h (by decide)⟩
    · split_ifs
      · rw [hcast]; exact he
      · exact he
    · split_ifs <;> omega
    · have h4 : 2 ^ L / 4 * 4 = 2 ^ L := by
        obtain ⟨L', rfl⟩ : ∃ L', L = L' + 2 := ⟨L - 2, by omega⟩
        rw [pow_add]
        omega
      rw [h4, if_pos hk]
      exact r1

/-- The butterfly of an inverse level. -/
theorem invBf_out (hg : GoodTables tb L) (avx : Bool) (t : Nat) {k x y : Nat} (hk : k < 2 ^ L)
    (hx : x ≤ 2 * tb.modulus) (hy : y ≤ 2 * tb.modulus) :
    ∃ Q, InvOut tb.modulus (tb.inv k) x y
      ((if avx && decide (4 ≤ t) then invAvx tb.modulus (tb.inv k) (tb.invPrime k)
        else invScalar tb.modulus (tb.inv k) (tb.invPrime k)) x y) Q := by
  rw [hg.invPrime k hk]
  by_cases h : (avx && decide (4 ≤ t)) = true
  · rw [if_pos h]
    exact invAvx_out hg.small hg.odd (hg.invLt k hk) hx hy
  · rw [if_neg h]
    exact invScalar_out hg.small hg.odd (hg.invLt k hk) hx hy

theorem invLevel_spec (hg : GoodTables tb L) (avx : Bool) {mm : Nat} (hm : mm < L) (v : Words)
    (hv : ∀ k, k < 2 ^ L → v k ≤ 2 * tb.modulus) :
    (∀ k, k < 2 ^ L → invLevel avx tb L v mm k ≤ 2 * tb.modulus) ∧
      InvStep (residues tb.modulus tb.inv) L mm (residues tb.modulus v)
        (residues tb.modulus (invLevel avx tb L v mm)) := by
  have hsz := level_size hm
  have hp : 2 ^ (mm + 1) ≤ 2 ^ L := Nat.pow_le_pow_right (by decide) (by omega)
  rw [pow_succ] at hp
  unfold InvStep
  generalize htt : 2 ^ L / 2 ^ (mm + 1) = t at *
  let bf := fun i => if avx && decide (4 ≤ t)
    then invAvx tb.modulus (tb.inv (2 ^ mm + i)) (tb.invPrime (2 ^ mm + i))
    else invScalar tb.modulus (tb.inv (2 ^ mm + i)) (tb.invPrime (2 ^ mm + i))
  have hl := (level_spec bf t v (2 ^ mm)).1
  have hidx : ∀ i, i < 2 ^ mm → ∀ j, j < t → i * (2 * t) + (t + j) < 2 ^ L := by
    intro i hi j hj
    have : (i + 1) * (2 * t) ≤ 2 ^ mm * (2 * t) := Nat.mul_le_mul_right _ (by omega)
    rw [Nat.succ_mul] at this
    omega
  have hdef : invLevel avx tb L v mm = level bf (2 ^ mm) t v := by
    subst htt
    rfl
  have hout : ∀ i, i < 2 ^ mm → ∀ j, j < t → ∃ Q,
      InvOut tb.modulus (tb.inv (2 ^ mm + i)) (v (i * (2 * t) + j)) (v (i * (2 * t) + (t + j)))
        (level bf (2 ^ mm) t v (i * (2 * t) + j), level bf (2 ^ mm) t v (i * (2 * t) + (t + j))) Q := by
    intro i hi j hj
    have hlt := hidx i hi j hj
    obtain ⟨e1, e2⟩ := hl i hi j hj
    obtain ⟨Q, ho⟩ := invBf_out hg avx t (k := 2 ^ mm + i) (by omega)
      (hv (i * (2 * t) + j) (by omega)) (hv (i * (2 * t) + (t + j)) hlt)
    refine ⟨Q, ?_⟩
    rw [e1, e2]
    exact ho
  rw [hdef]
  refine ⟨fun k hk => ?_, fun i hi j hj => ?_⟩
  · rw [← hsz] at hk
    obtain ⟨i, hi, j, hj, h | h⟩ := level_index hk
    · obtain ⟨Q, ho⟩ := hout i hi j hj
      rw [h]
      exact ho.fstLe
    · obtain ⟨Q, ho⟩ := hout i hi j hj
      rw [h]
      exact ho.sndLe
  · obtain ⟨Q, ho⟩ := hout i hi j hj
    exact ho.cast (hv _ (hidx i hi j hj))

/-- The words between the levels of the forward transform, as ring elements. -/
theorem levels_exist (W : Nat → ZMod m) (L : Nat) (a : Nat → ZMod m) :
    ∃ U : Nat → Nat → ZMod m, U 0 = a ∧ ∀ mm, mm < L → FwdStep W L mm (U mm) (U (mm + 1)) := by
  have key : ∀ n, n ≤ L → ∃ U : Nat → Nat → ZMod m, U 0 = a ∧
      ∀ mm, mm < n → FwdStep W L mm (U mm) (U (mm + 1)) := by
    intro n
    induction n with
    | zero => exact fun _ => ⟨fun _ => a, rfl, fun mm h => absurd h (by omega)⟩
    | succ n ih =>
      intro hn
      obtain ⟨U, h0, hU⟩ := ih (by omega)
      obtain ⟨V, hV⟩ := fwdStep_exists W (show n < L by omega) (U n)
      refine ⟨fun i => if i = n + 1 then V else U i, ?_, fun mm hmm => ?_⟩
      · simp only
        rw [if_neg (by omega)]
        exact h0
      · simp only
        rw [if_neg (show ¬mm = n + 1 by omega)]
        by_cases hc : mm = n
        · subst hc
          rw [if_pos rfl]
          exact hV
        · rw [if_neg (by omega)]
          exact hU mm (by omega)
  exact key L (le_refl L)

theorem InvStep.congr {R : Type} [CommRing R] {W : Nat → R} {L mm : Nat} {V V1 V' : Nat → R} (hm : mm < L)
    (h : InvStep W L mm V V') (he : ∀ k, k < 2 ^ L → V k = V1 k) : InvStep W L mm V1 V' := by
  have hsz := level_size hm
  unfold InvStep at *
  generalize 2 ^ L / 2 ^ (mm + 1) = t at *
  intro i hi j hj
  have : (i + 1) * (2 * t) ≤ 2 ^ mm * (2 * t) := Nat.mul_le_mul_right _ (by omega)
  rw [Nat.succ_mul] at this
  rw [← he _ (by omega), ← he _ (by omega)]
  exact h i hi j hj

theorem nttInverse_spec (hg : GoodTables tb L) (avx : Bool) (v : Words) (a : Nat → ZMod tb.modulus)
    (hv : ∀ k, k < 2 ^ L → v k ≤ 2 * tb.modulus)
    (ha : ∀ k, k < 2 ^ L → ((v k : Nat) : ZMod tb.modulus) = evalAt a (2 ^ L) (tb.point L k)) {k : Nat}
    (hk : k < 2 ^ L) :
    ((nttInverse avx tb L v k : Nat) : ZMod tb.modulus) = a k ∧ nttInverse avx tb L v k < tb.modulus := by
  obtain ⟨U, hU0, hU⟩ := levels_exist tb.roots L a
  have hUev : ∀ mm, mm ≤ L → PartialEval tb.roots L mm a (U mm) := by
    intro mm
    induction mm with
    | zero => intro _; rw [hU0]; exact partialEval_zero _ _ _
    | succ mm ih =>
      intro hm
      exact partialEval_step hg.roots (by omega) (ih (by omega)) (hU mm (by omega))
  have hdown : ∀ n, n ≤ L →
      (∀ k, k < 2 ^ L → ((List.range' (L - n) n).reverse.foldl (invLevel avx tb L) v) k ≤ 2 * tb.modulus) ∧
      ∀ k, k < 2 ^ L → residues tb.modulus ((List.range' (L - n) n).reverse.foldl (invLevel avx tb L) v) k =
        U (L - n) k := by
    intro n
    induction n with
    | zero =>
      intro _
      refine ⟨hv, fun k hk => ?_⟩
      rw [Nat.sub_zero]
      exact (ha k hk).trans (partialEval_full (hUev L (le_refl L)) hk).symm
    | succ n ih =>
      intro hn
      obtain ⟨b, c⟩ := ih (by omega)
      have hr : (List.range' (L - (n + 1)) (n + 1)).reverse =
          (List.range' (L - n) n).reverse ++ [L - (n + 1)] := by
        rw [List.range'_succ, List.reverse_cons, show L - (n + 1) + 1 = L - n by omega]
      rw [hr, List.foldl_append]
      simp only [List.foldl_cons, List.foldl_nil]
      obtain ⟨d1, d2⟩ := invLevel_spec hg avx (show L - (n + 1) < L by omega) _ b
      refine ⟨d1, fun k hk => ?_⟩
      have hstep := hU (L - (n + 1)) (by omega)
      rw [show L - (n + 1) + 1 = L - n by omega] at hstep
      exact inv_of_fwd (by omega) (ZMod.double_inj hg.odd) hg.inverse hstep
        (d2.congr (by omega) c) hk
  obtain ⟨b, c⟩ := hdown L (le_refl L)
  rw [Nat.sub_self, ← List.range_eq_range'] at b c
  have hd : nttInverse avx tb L v =
      mapWords (reduceInv tb.modulus) (2 ^ L) ((List.range L).reverse.foldl (invLevel avx tb L) v) := rfl
  rw [hd, mapWords_apply, if_pos hk, reduceInv_eq hg.small (b k hk)]
  refine ⟨?_, Nat.mod_lt _ (by have := hg.small.two; omega)⟩
  rw [cast_mod, ← hU0]
  exact c k hk

/-! ### The tables the code builds -/

theorem rootTable_of_powers {R : Type} [CommRing R] {W : Nat → R} {x : R} {L : Nat}
    (h : ∀ k, k < 2 ^ L → W k = x ^ brv L k) (hx : x ^ 2 ^ L = -1) : RootTable W L := by
  refine ⟨?_, ?_, ?_⟩
  · intro hL
    obtain ⟨L', rfl⟩ : ∃ L', L = L' + 1 := ⟨L - 1, by omega⟩
    rw [h 1 (Nat.one_lt_two_pow (by omega)), brv_one, ← pow_mul, ← pow_succ]
    exact hx
  · intro k hk1 hk
    obtain ⟨L', rfl⟩ : ∃ L', L = L' + 1 := by
      cases L with
      | zero => simp at hk; omega
      | succ n => exact ⟨n, rfl⟩
    have hk' : k < 2 ^ L' := by rw [pow_succ] at hk; omega
    rw [h _ hk, h k (by omega), brv_two_mul, brv_low L' k hk', ← pow_mul, Nat.mul_comm]
  · intro k hk1 hk
    obtain ⟨L', rfl⟩ : ∃ L', L = L' + 1 := by
      cases L with
      | zero => simp at hk; omega
      | succ n => exact ⟨n, rfl⟩
    have hk' : k < 2 ^ L' := by rw [pow_succ] at hk; omega
    have hk'' : 2 * k + 1 < 2 ^ (L' + 1) := by rw [pow_succ] at hk ⊢; omega
    rw [h _ hk'', h k (by omega), brv_two_mul_add_one, brv_low L' k hk', ← pow_mul, Nat.add_mul, pow_add,
      ← pow_succ, hx, Nat.mul_comm (brv L' k)]
    ring

theorem buildTables_good {m L root invRoot : Nat} (hm : SmallMod m) (hodd : m % 2 = 1) (hr : root < m)
    (hi : invRoot < m) (hroot : root ^ 2 ^ L % m = m - 1) (hinv : root * invRoot % m = 1) :
    GoodTables (buildTables m L root invRoot) L := by
  have h2 := hm.two
  have hf : ∀ k, k < 2 ^ L → (buildTables m L root invRoot).fwd k = root ^ brv L k % m :=
    fun k hk => powersOfRoot_apply (by omega) hr hk
  have hv : ∀ k, k < 2 ^ L → (buildTables m L root invRoot).inv k = div2Mod m (invRoot ^ brv L k % m) := by
    intro k hk
    show div2Mod m (powersOfRoot invRoot m L k) = _
    rw [powersOfRoot_apply (by omega) hi hk]
  have hfc : ∀ k, k < 2 ^ L → (((buildTables m L root invRoot).fwd k : Nat) : ZMod m) =
      (root : ZMod m) ^ brv L k := by
    intro k hk
    rw [hf k hk, cast_mod]
    push_cast
    rfl
  have hone : (root : ZMod m) ^ 2 ^ L = -1 := by
    have := congrArg (Nat.cast : Nat → ZMod m) hroot
    rw [cast_mod, Nat.cast_sub (by omega), ZMod.natCast_self] at this
    push_cast at this
    rw [this]
    ring
  have hmul : (root : ZMod m) * (invRoot : ZMod m) = 1 := by
    have := congrArg (Nat.cast : Nat → ZMod m) hinv
    rw [cast_mod] at this
    push_cast at this
    exact this
  have hdiv : ∀ x, x < m → div2Mod m x < m ∧ 2 * ((div2Mod m x : Nat) : ZMod m) = x := by
    intro x hx
    unfold div2Mod
    split_ifs with h
    · refine ⟨by omega, ?_⟩
      have e : 2 * ((x + m) / 2) = x + m := by omega
      have := congrArg (Nat.cast : Nat → ZMod m) e
      push_cast at this
      rw [this, ZMod.natCast_self, add_zero]
    · refine ⟨by omega, ?_⟩
      have e : 2 * (x / 2) = x := by omega
      have := congrArg (Nat.cast : Nat → ZMod m) e
      push_cast at this
      exact this
  refine ⟨hm, hodd, ?_, fun k _ => rfl, ?_, fun k _ => rfl, ?_, ?_⟩
  · intro k hk
    rw [hf k hk]
    exact Nat.mod_lt _ (by show 0 < m; omega)
  · intro k hk
    rw [hv k hk]
    exact (hdiv _ (Nat.mod_lt _ (by omega))).1
  · exact rootTable_of_powers (R := ZMod m) hfc hone
  · intro k hk
    show 2 * (((buildTables m L root invRoot).inv k : Nat) : ZMod m) *
      (((buildTables m L root invRoot).fwd k : Nat) : ZMod m) = 1
    rw [hfc k hk, hv k hk, (hdiv _ (Nat.mod_lt _ (by omega))).2, cast_mod]
    push_cast
    rw [← mul_pow, mul_comm, hmul, one_pow]

end Psi.Spiral
