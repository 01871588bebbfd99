import Verif.Spiral.NttProps
import Mathlib.RingTheory.AdjoinRoot
import Mathlib.RingTheory.Ideal.Quotient.Operations

/-!
# The ring of Spiral PIR

`A L` is `ℤ[X] / (X ^ n + 1)` with `n = 2 ^ L`, `Rq L q` is `A L` modulo `q`.  Proof device: the theorems about
the code are about coefficients, linked to this ring by `coeff_toA`, `toA_coeff` and `coeff_mul`.
-/

namespace Psi.Spiral

open Polynomial Finset

/-- `X ^ n + 1`. -/
noncomputable def cyc (L : Nat) : ℤ[X] := X ^ (2 ^ L) + 1

theorem cyc_monic (L : Nat) : (cyc L).Monic := by
  unfold cyc
  have := monic_X_pow_add_C (1 : ℤ) (n := 2 ^ L) (by positivity)
  simpa using this

theorem cyc_degree (L : Nat) : (cyc L).degree = (2 ^ L : Nat) := by
  unfold cyc
  have := degree_X_pow_add_C (n := 2 ^ L) (by positivity) (1 : ℤ)
  simpa using this

/-- `ℤ[X] / (X ^ n + 1)`. -/
abbrev A (L : Nat) := AdjoinRoot (cyc L)

/-- The class of `X`. -/
noncomputable def xx (L : Nat) : A L := AdjoinRoot.root (cyc L)

theorem xx_pow (L : Nat) : xx L ^ 2 ^ L = -1 := by
  have := AdjoinRoot.eval₂_root (cyc L)
  unfold cyc at this
  simp only [eval₂_add, eval₂_pow, eval₂_X, eval₂_one] at this
  exact eq_neg_of_add_eq_zero_left this

/-- The element with given coefficients. -/
noncomputable def toA (L : Nat) (a : Nat → ℤ) : A L := evalAt (fun i => (a i : A L)) (2 ^ L) (xx L)

/-- Coefficient `k`. -/
noncomputable def coeff {L : Nat} (x : A L) (k : Nat) : ℤ := (AdjoinRoot.modByMonicHom (cyc_monic L) x).coeff k

theorem toA_mk (L : Nat) (a : Nat → ℤ) :
    toA L a = AdjoinRoot.mk (cyc L) (∑ i ∈ range (2 ^ L), C (a i) * X ^ i) := by
  rw [map_sum]
  unfold toA evalAt xx
  refine sum_congr rfl fun i _ => ?_
  rw [map_mul, map_pow, AdjoinRoot.mk_X, AdjoinRoot.mk_C]
  simp

theorem coeff_sum_X (a : Nat → ℤ) (n k : Nat) (hk : k < n) :
    (∑ i ∈ range n, C (a i) * X ^ i : ℤ[X]).coeff k = a k := by
  rw [finsetSum_coeff, sum_eq_single k]
  · simp
  · intro i _ hne
    rw [coeff_C_mul, coeff_X_pow, if_neg (Ne.symm hne), mul_zero]
  · intro h
    exact absurd (mem_range.2 hk) h

theorem coeff_toA {L : Nat} (a : Nat → ℤ) {k : Nat} (hk : k < 2 ^ L) : coeff (toA L a) k = a k := by
  unfold coeff
  rw [toA_mk, AdjoinRoot.modByMonicHom_mk, (modByMonic_eq_self_iff (cyc_monic L)).2]
  · exact coeff_sum_X a _ k hk
  · rw [cyc_degree]
    refine lt_of_le_of_lt (degree_sum_le _ _) ?_
    rw [Finset.sup_lt_iff (WithBot.bot_lt_coe _)]
    intro i hi
    refine lt_of_le_of_lt (degree_C_mul_X_pow_le _ _) ?_
    exact_mod_cast mem_range.1 hi

theorem toA_coeff {L : Nat} (x : A L) : toA L (coeff x) = x := by
  rw [toA_mk]
  conv_rhs => rw [← AdjoinRoot.mk_leftInverse (cyc_monic L) x]
  congr 1
  set p := AdjoinRoot.modByMonicHom (cyc_monic L) x with hp
  have hd : p.natDegree < 2 ^ L := by
    have : p.degree < (2 ^ L : Nat) := by
      rw [← cyc_degree]
      obtain ⟨f, rfl⟩ := AdjoinRoot.mk_surjective x
      rw [hp, AdjoinRoot.modByMonicHom_mk]
      exact degree_modByMonic_lt _ (cyc_monic L)
    by_cases h0 : p = 0
    · rw [h0, natDegree_zero]
      positivity
    · exact (natDegree_lt_iff_degree_lt h0).2 this
  exact (p.as_sum_range_C_mul_X_pow' hd).symm

theorem coeff_add {L : Nat} (x y : A L) (k : Nat) : coeff (x + y) k = coeff x k + coeff y k := by
  unfold coeff
  rw [map_add, Polynomial.coeff_add]

theorem coeff_neg {L : Nat} (x : A L) (k : Nat) : coeff (-x) k = -coeff x k := by
  unfold coeff
  rw [map_neg, Polynomial.coeff_neg]

theorem coeff_sub {L : Nat} (x y : A L) (k : Nat) : coeff (x - y) k = coeff x k - coeff y k := by
  unfold coeff
  rw [map_sub, Polynomial.coeff_sub]

theorem coeff_zero {L : Nat} (k : Nat) : coeff (0 : A L) k = 0 := by
  unfold coeff
  rw [map_zero, Polynomial.coeff_zero]

theorem coeff_sum {L : Nat} {ι : Type} (s : Finset ι) (f : ι → A L) (k : Nat) :
    coeff (∑ i ∈ s, f i) k = ∑ i ∈ s, coeff (f i) k := by
  unfold coeff
  rw [map_sum, Polynomial.finsetSum_coeff]

theorem coeff_int_mul {L : Nat} (c : ℤ) (x : A L) (k : Nat) : coeff ((c : A L) * x) k = c * coeff x k := by
  unfold coeff
  rw [← zsmul_eq_mul, map_zsmul, Polynomial.coeff_smul, zsmul_eq_mul, Int.cast_id]

theorem toA_congr {L : Nat} {a b : Nat → ℤ} (h : ∀ k, k < 2 ^ L → a k = b k) : toA L a = toA L b := by
  unfold toA evalAt
  exact sum_congr rfl fun i hi => by simp only [h i (mem_range.1 hi)]

theorem ext_coeff {L : Nat} {x y : A L} (h : ∀ k, k < 2 ^ L → coeff x k = coeff y k) : x = y := by
  rw [← toA_coeff x, ← toA_coeff y]
  exact toA_congr h

/-- The product has the coefficients of the product modulo `X ^ n + 1`. -/
theorem toA_mul (L : Nat) (a b : Nat → ℤ) : toA L a * toA L b = toA L (negacyclic a b (2 ^ L)) := by
  unfold toA
  rw [← evalAt_negacyclic _ _ _ _ (xx_pow L)]
  unfold negacyclic
  congr 1
  funext k
  push_cast
  refine sum_congr rfl fun i _ => sum_congr rfl fun j _ => ?_
  split_ifs <;> simp

theorem coeff_mul {L : Nat} (x y : A L) {k : Nat} (hk : k < 2 ^ L) :
    coeff (x * y) k = negacyclic (coeff x) (coeff y) (2 ^ L) k := by
  conv_lhs => rw [← toA_coeff x, ← toA_coeff y, toA_mul]
  rw [coeff_toA _ hk]

theorem toA_add (L : Nat) (a b : Nat → ℤ) : toA L (fun i => a i + b i) = toA L a + toA L b := by
  unfold toA evalAt
  rw [← sum_add_distrib]
  exact sum_congr rfl fun i _ => by push_cast; ring

theorem toA_neg (L : Nat) (a : Nat → ℤ) : toA L (fun i => -a i) = -toA L a := by
  unfold toA evalAt
  rw [← sum_neg_distrib]
  exact sum_congr rfl fun i _ => by push_cast; ring

theorem toA_int_mul (L : Nat) (c : ℤ) (a : Nat → ℤ) : toA L (fun i => c * a i) = c * toA L a := by
  unfold toA evalAt
  rw [mul_sum]
  exact sum_congr rfl fun i _ => by push_cast; ring

theorem toA_sum {L : Nat} {ι : Type} (s : Finset ι) (f : ι → Nat → ℤ) :
    toA L (fun i => ∑ j ∈ s, f j i) = ∑ j ∈ s, toA L (f j) := by
  unfold toA evalAt
  rw [sum_comm]
  refine sum_congr rfl fun i _ => ?_
  push_cast
  rw [sum_mul]

theorem toA_zero (L : Nat) : toA L (fun _ => 0) = 0 := by
  unfold toA evalAt
  simp

theorem toA_single (L : Nat) (c : ℤ) {j : Nat} (hj : j < 2 ^ L) :
    toA L (fun i => if i = j then c else 0) = c * xx L ^ j := by
  unfold toA evalAt
  rw [sum_eq_single j]
  · simp
  · intro i _ hne
    simp [hne]
  · intro h
    exact absurd (mem_range.2 hj) h

/-- A bound on the coefficients of a product. -/
theorem coeff_mul_le {L : Nat} (x y : A L) {S B : ℤ} (hS : ∑ i ∈ range (2 ^ L), |coeff x i| ≤ S) (hB0 : 0 ≤ B)
    (hB : ∀ j, j < 2 ^ L → |coeff y j| ≤ B) {k : Nat} (hk : k < 2 ^ L) : |coeff (x * y) k| ≤ S * B := by
  rw [coeff_mul x y hk]
  unfold negacyclic
  have key : ∀ i ∈ range (2 ^ L), |∑ j ∈ range (2 ^ L), (if i + j = k then coeff x i * coeff y j
      else if i + j = k + 2 ^ L then -(coeff x i * coeff y j) else 0)| ≤ |coeff x i| * B := by
    intro i hi
    rw [mem_range] at hi
    by_cases h : i ≤ k
    · rw [sum_eq_single (k - i)]
      · rw [if_pos (by omega), abs_mul]
        exact mul_le_mul_of_nonneg_left (hB _ (by omega)) (abs_nonneg _)
      · intro j hj hne
        rw [mem_range] at hj
        rw [if_neg (by omega), if_neg (by omega)]
      · intro hc
        exact absurd (mem_range.2 (by omega)) hc
    · rw [sum_eq_single (k + 2 ^ L - i)]
      · rw [if_neg (by omega), if_pos (by omega), abs_neg, abs_mul]
        exact mul_le_mul_of_nonneg_left (hB _ (by omega)) (abs_nonneg _)
      · intro j hj hne
        rw [mem_range] at hj
        rw [if_neg (by omega), if_neg (by omega)]
      · intro hc
        exact absurd (mem_range.2 (by omega)) hc
  refine (abs_sum_le_sum_abs _ _).trans ((sum_le_sum key).trans ?_)
  rw [← sum_mul]
  exact mul_le_mul_of_nonneg_right hS hB0

/-! ### Evaluation -/

section Eval

variable {R : Type} [CommRing R] {L : Nat}

/-- Evaluation at a root of `X ^ n + 1`. -/
noncomputable def evalHom (x : R) (hx : x ^ 2 ^ L = -1) : A L →+* R :=
  AdjoinRoot.lift (Int.castRingHom R) x (by
    unfold cyc
    simp only [eval₂_add, eval₂_pow, eval₂_X, eval₂_one, hx]
    ring)

theorem evalHom_xx (x : R) (hx : x ^ 2 ^ L = -1) : evalHom x hx (xx L) = x := AdjoinRoot.lift_root _

theorem evalHom_toA (x : R) (hx : x ^ 2 ^ L = -1) (a : Nat → ℤ) :
    evalHom x hx (toA L a) = evalAt (fun i => (a i : R)) (2 ^ L) x := by
  unfold toA evalAt
  rw [map_sum]
  refine sum_congr rfl fun i _ => ?_
  rw [map_mul, map_pow, evalHom_xx, map_intCast]

theorem odd_pow_neg_one {x : R} {n t : Nat} (hx : x ^ n = -1) (ht : t % 2 = 1) : (x ^ t) ^ n = -1 := by
  rw [← pow_mul, mul_comm, pow_mul, hx]
  exact Odd.neg_one_pow (Nat.odd_iff.2 ht)

end Eval

/-- `X ↦ X ^ t`. -/
noncomputable def tau (L t : Nat) (ht : t % 2 = 1) : A L →+* A L :=
  evalHom (xx L ^ t) (odd_pow_neg_one (xx_pow L) ht)

theorem tau_xx (L t : Nat) (ht : t % 2 = 1) : tau L t ht (xx L) = xx L ^ t := evalHom_xx _ _

/-! ### Modulo q -/

/-- `A L` modulo `q`. -/
abbrev Rq (L q : Nat) := A L ⧸ Ideal.span {((q : Nat) : A L)}

/-- Reduction modulo `q`. -/
noncomputable def red (L q : Nat) : A L →+* Rq L q := Ideal.Quotient.mk _

theorem red_surjective (L q : Nat) : Function.Surjective (red L q) := Ideal.Quotient.mk_surjective

theorem red_eq_iff {L q : Nat} {x y : A L} : red L q x = red L q y ↔ ∃ z, x = y + q * z := by
  unfold red
  rw [Ideal.Quotient.eq, Ideal.mem_span_singleton]
  constructor
  · rintro ⟨z, hz⟩
    exact ⟨z, by linear_combination hz⟩
  · rintro ⟨z, hz⟩
    exact ⟨z, by linear_combination hz⟩

/-- Equality modulo `q` is congruence of the coefficients. -/
theorem red_eq_coeff {L q : Nat} {x y : A L} :
    red L q x = red L q y ↔ ∀ k, k < 2 ^ L → coeff x k % q = coeff y k % q := by
  rw [red_eq_iff]
  constructor
  · rintro ⟨z, rfl⟩ k _
    have : coeff (y + (q : A L) * z) k = coeff y k + q * coeff z k := by
      rw [coeff_add]
      have := coeff_int_mul (q : ℤ) z k
      rw [Int.cast_natCast] at this
      rw [this]
    rw [this, Int.add_mul_emod_self_left]
  · intro h
    refine ⟨toA L fun k => (coeff x k - coeff y k) / q, ?_⟩
    have := toA_int_mul L q fun k => (coeff x k - coeff y k) / q
    rw [Int.cast_natCast] at this
    rw [← this]
    refine ext_coeff fun k hk => ?_
    rw [coeff_add, coeff_toA _ hk, Int.mul_ediv_cancel' (Int.ModEq.dvd (h k hk).symm)]
    ring

/-- Evaluation modulo a divisor of `q`. -/
noncomputable def evalQ {L q m : Nat} (hd : m ∣ q) (x : ZMod m) (hx : x ^ 2 ^ L = -1) : Rq L q →+* ZMod m :=
  Ideal.Quotient.lift _ (evalHom x hx) (by
    intro a ha
    obtain ⟨z, rfl⟩ := Ideal.mem_span_singleton.1 ha
    rw [map_mul, map_natCast, (ZMod.natCast_eq_zero_iff _ _).2 hd, zero_mul])

theorem evalQ_red {L q m : Nat} (hd : m ∣ q) (x : ZMod m) (hx : x ^ 2 ^ L = -1) (y : A L) :
    evalQ hd x hx (red L q y) = evalHom x hx y := Ideal.Quotient.lift_mk _ _ _

/-- `X ↦ X ^ t` modulo `q`. -/
noncomputable def tauQ (L q t : Nat) (ht : t % 2 = 1) : Rq L q →+* Rq L q :=
  Ideal.Quotient.lift _ ((red L q).comp (tau L t ht)) (by
    intro a ha
    obtain ⟨z, rfl⟩ := Ideal.mem_span_singleton.1 ha
    rw [RingHom.comp_apply, map_mul, map_natCast]
    have : red L q ((q : A L)) = 0 := by
      have := (red_eq_iff (L := L) (q := q) (x := (q : A L)) (y := 0)).2 ⟨1, by ring⟩
      rwa [map_zero] at this
    rw [map_mul, this, zero_mul])

theorem tauQ_red (L q t : Nat) (ht : t % 2 = 1) (y : A L) :
    tauQ L q t ht (red L q y) = red L q (tau L t ht y) := Ideal.Quotient.lift_mk _ _ _

/-- The values at the points of a table determine the coefficients. -/
theorem eval_injective {tb : Tables} {L : Nat} (hg : GoodTables tb L) {a b : Nat → ZMod tb.modulus}
    (h : ∀ k, k < 2 ^ L → evalAt a (2 ^ L) (tb.point L k) = evalAt b (2 ^ L) (tb.point L k)) {k : Nat}
    (hk : k < 2 ^ L) : a k = b k := by
  have hpos : 0 < tb.modulus := by have := hg.small.1; omega
  have : NeZero tb.modulus := ⟨by omega⟩
  let v : Words := fun k => (evalAt a (2 ^ L) (tb.point L k)).val
  have hv : ∀ k, k < 2 ^ L → v k ≤ 2 * tb.modulus := fun k _ => by
    have := ZMod.val_lt (evalAt a (2 ^ L) (tb.point L k))
    show (evalAt a (2 ^ L) (tb.point L k)).val ≤ _
    omega
  have hv1 : ∀ k, k < 2 ^ L → ((v k : Nat) : ZMod tb.modulus) = evalAt a (2 ^ L) (tb.point L k) := fun k _ =>
    ZMod.natCast_zmod_val _
  have h1 := (nttInverse_spec hg false v a hv hv1 hk).1
  have h2 := (nttInverse_spec hg false v b hv (fun k hk => (hv1 k hk).trans (h k hk)) hk).1
  rw [← h1, h2]

end Psi.Spiral
