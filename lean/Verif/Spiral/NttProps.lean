import Verif.Spiral.NttTransform

/-!
# The number theoretic transform of Spiral PIR (C62)

The specification is stated with plain sums: values at powers of the root, and the product of two polynomials
modulo `X ^ n + 1` (`negacyclic`).
-/

namespace Psi.Spiral

open Finset

/-- Coefficient `k` of the product of two polynomials modulo `X ^ n + 1`. -/
def negacyclic {R : Type} [CommRing R] (a b : Nat → R) (n k : Nat) : R :=
  ∑ i ∈ range n, ∑ j ∈ range n, if i + j = k then a i * b j else if i + j = k + n then -(a i * b j) else 0

/-- A root and its inverse as SEAL returns them for modulus `m` and `2 ^ L` coefficients. -/
structure RootOk (m L root invRoot : Nat) : Prop where
  two : 2 ≤ m
  small : 4 * m < 2 ^ 32
  odd : m % 2 = 1
  rootLt : root < m
  invLt : invRoot < m
  power : root ^ 2 ^ L % m = m - 1
  inverse : root * invRoot % m = 1

theorem RootOk.good {m L root invRoot : Nat} (h : RootOk m L root invRoot) :
    GoodTables (buildTables m L root invRoot) L :=
  buildTables_good ⟨h.two, h.small⟩ h.odd h.rootLt h.invLt h.power h.inverse

/-- The points in terms of the root. -/
theorem rootAt_powers {R : Type} [CommRing R] {W : Nat → R} {x : R} {L : Nat}
    (h : ∀ k, k < 2 ^ L → W k = x ^ brv L k) (hx : x ^ 2 ^ L = -1) {k : Nat} (hk : k < 2 ^ L) :
    rootAt W L k = x ^ (2 * brv L k + 1) := by
  cases L with
  | zero =>
    simp only [brv, rootAt, pow_zero, pow_one] at *
    simpa using hx.symm
  | succ L =>
    have hk2 : k / 2 < 2 ^ L := by rw [pow_succ] at hk; omega
    have e : brv (L + 1) (2 ^ L + k / 2) = 1 + 2 * brv L (k / 2) := by
      have := brv_top L 1 (k / 2) (by decide) hk2
      rwa [Nat.one_mul] at this
    have hlt : 2 ^ L + k / 2 < 2 ^ (L + 1) := by rw [pow_succ]; omega
    rw [rootAt, h _ hlt, e]
    rcases Nat.mod_two_eq_zero_or_one k with hc | hc
    · rw [if_pos hc, brv, hc, Nat.zero_mul, Nat.zero_add, Nat.add_comm]
    · rw [if_neg (by omega), brv, hc, Nat.one_mul,
        show 2 * (2 ^ L + brv L (k / 2)) + 1 = 2 ^ (L + 1) + (1 + 2 * brv L (k / 2)) by rw [pow_succ]; ring,
        pow_add x (2 ^ (L + 1)), hx]
      ring

theorem RootOk.cast_root {m L root invRoot : Nat} (h : RootOk m L root invRoot) :
    (root : ZMod m) ^ 2 ^ L = -1 := by
  have := congrArg (Nat.cast : Nat → ZMod m) h.power
  rw [cast_mod, Nat.cast_sub (by have := h.two; omega), ZMod.natCast_self] at this
  push_cast at this
  rw [this]
  ring

theorem RootOk.point {m L root invRoot : Nat} (h : RootOk m L root invRoot) {k : Nat} (hk : k < 2 ^ L) :
    (buildTables m L root invRoot).point L k = (root : ZMod m) ^ (2 * brv L k + 1) := by
  refine rootAt_powers (R := ZMod m) (fun k hk => ?_) h.cast_root hk
  show ((powersOfRoot root m L k : Nat) : ZMod m) = _
  rw [powersOfRoot_apply (by have := h.two; omega) h.rootLt hk, cast_mod]
  push_cast
  rfl

/-- **C62** both builds of the forward transform compute the values of the polynomial at the odd powers of the
root, in bit-reversed order. -/
theorem ntt_forward_values {m L root invRoot : Nat} (h : RootOk m L root invRoot) (avx : Bool) (a : Words)
    (ha : ∀ k, k < 2 ^ L → a k < 4 * m) {k : Nat} (hk : k < 2 ^ L) :
    nttForward avx (buildTables m L root invRoot) L a k % m =
      (∑ l ∈ range (2 ^ L), a l * root ^ ((2 * brv L k + 1) * l)) % m := by
  have := (nttForward_spec h.good avx a ha hk).1
  rw [h.point hk] at this
  refine (ZMod.natCast_eq_natCast_iff' _ _ m).1 ?_
  have t : ((nttForward avx (buildTables m L root invRoot) L a k : Nat) : ZMod m) = _ := this
  rw [t]
  unfold evalAt residues
  push_cast
  exact sum_congr rfl fun l _ => congrArg (fun z => ((a l : Nat) : ZMod m) * z) (pow_mul _ _ _).symm

/-- **C62** the result of the plain build is reduced. -/
theorem ntt_forward_reduced {m L root invRoot : Nat} (h : RootOk m L root invRoot) (hL : 1 ≤ L) (a : Words)
    (ha : ∀ k, k < 2 ^ L → a k < 4 * m) {k : Nat} (hk : k < 2 ^ L) :
    nttForward false (buildTables m L root invRoot) L a k < m :=
  (nttForward_spec h.good false a ha hk).2.2.2 rfl hL

/-- **C62** the result of the AVX2 build is reduced up to the value `m` itself. -/
theorem ntt_forward_bound {m L root invRoot : Nat} (h : RootOk m L root invRoot) (hL : 2 ≤ L) (avx : Bool)
    (a : Words) (ha : ∀ k, k < 2 ^ L → a k < 4 * m) {k : Nat} (hk : k < 2 ^ L) :
    nttForward avx (buildTables m L root invRoot) L a k ≤ m := by
  cases avx with
  | true => exact (nttForward_spec h.good true a ha hk).2.2.1 rfl hL
  | false => exact Nat.le_of_lt (ntt_forward_reduced h (by omega) a ha hk)

/-- **C62** limit: in the AVX2 build the transform of 0 contains the modulus instead of 0. -/
theorem ntt_avx_not_reduced :
    nttForward true (buildTables 17 3 3 6) 3 (fun _ => 0) 1 = 17 ∧
      nttForward false (buildTables 17 3 3 6) 3 (fun _ => 0) 1 = 0 := by decide

/-- **C62** the inverse transform gives the polynomial back, reduced; the two builds can be mixed. -/
theorem ntt_round_trip {m L root invRoot : Nat} (h : RootOk m L root invRoot) (hL : 2 ≤ L) (avx avx' : Bool)
    (a : Words) (ha : ∀ k, k < 2 ^ L → a k < 4 * m) {k : Nat} (hk : k < 2 ^ L) :
    nttInverse avx' (buildTables m L root invRoot) L
      (nttForward avx (buildTables m L root invRoot) L a) k = a k % m := by
  obtain ⟨h1, h2⟩ := nttInverse_spec h.good avx' (nttForward avx (buildTables m L root invRoot) L a)
    (residues m a) (fun k hk => by
      have := ntt_forward_bound h hL avx a ha hk
      have e : (buildTables m L root invRoot).modulus = m := rfl
      omega) (fun k hk => (nttForward_spec h.good avx a ha hk).1) hk
  rw [← Nat.mod_eq_of_lt h2]
  exact (ZMod.natCast_eq_natCast_iff' _ _ m).1 h1

/-- The value of the product is the product of the values. -/
theorem evalAt_negacyclic {R : Type} [CommRing R] (a b : Nat → R) (n : Nat) (x : R) (hx : x ^ n = -1) :
    evalAt (negacyclic a b n) n x = evalAt a n x * evalAt b n x := by
  unfold evalAt negacyclic
  rw [sum_mul_sum]
  simp only [sum_mul]
  rw [sum_comm]
  refine sum_congr rfl fun i hi => ?_
  rw [sum_comm]
  refine sum_congr rfl fun j hj => ?_
  rw [mem_range] at hi hj
  rcases Nat.lt_or_ge (i + j) n with hlt | hge
  · rw [sum_eq_single (i + j)]
    · rw [if_pos rfl, pow_add]
      ring
    · intro k hk hne
      rw [mem_range] at hk
      rw [if_neg (by omega), if_neg (by omega), zero_mul]
    · intro hc
      exact absurd (mem_range.2 hlt) hc
  · rw [sum_eq_single (i + j - n)]
    · rw [if_neg (by omega), if_pos (by omega)]
      have e : x ^ (i + j) = -x ^ (i + j - n) := by
        conv_lhs => rw [show i + j = (i + j - n) + n by omega]
        rw [pow_add, hx]
        ring
      have e2 : x ^ i * x ^ j = -x ^ (i + j - n) := by rw [← pow_add, e]
      linear_combination -(a i * b j) * e2
    · intro k hk hne
      rw [mem_range] at hk
      rw [if_neg (by omega), if_neg (by omega), zero_mul]
    · intro hc
      exact absurd (mem_range.2 (show i + j - n < n by omega)) hc

theorem rootAt_neg_one {m L root invRoot : Nat} (h : RootOk m L root invRoot) {k : Nat} (hk : k < 2 ^ L) :
    (buildTables m L root invRoot).point L k ^ 2 ^ L = -1 :=
  rootAt_pow h.good.roots L (le_refl L) hk

/-- **C62** multiplying transformed polynomials word by word multiplies the polynomials modulo `X ^ n + 1`.
`p` is any array of words congruent to the products, such as the one Barrett reduction leaves. -/
theorem ntt_multiplies {m L root invRoot : Nat} (h : RootOk m L root invRoot) (avx avx1 avx2 : Bool)
    (a b p : Words) (ha : ∀ k, k < 2 ^ L → a k < 4 * m) (hb : ∀ k, k < 2 ^ L → b k < 4 * m)
    (hp : ∀ k, k < 2 ^ L → p k ≤ 2 * m)
    (hprod : ∀ k, k < 2 ^ L → p k % m =
      nttForward avx1 (buildTables m L root invRoot) L a k * nttForward avx2 (buildTables m L root invRoot) L b k
        % m) {k : Nat} (hk : k < 2 ^ L) :
    (nttInverse avx (buildTables m L root invRoot) L p k : Int) =
      negacyclic (fun i => (a i : Int)) (fun i => (b i : Int)) (2 ^ L) k % m := by
  obtain ⟨h1, h2⟩ := nttInverse_spec h.good avx p
    (negacyclic (residues m a) (residues m b) (2 ^ L)) (fun k hk => hp k hk) (fun k hk => by
      have e1 := (nttForward_spec h.good avx1 a ha hk).1
      have e2 := (nttForward_spec h.good avx2 b hb hk).1
      have e3 : ((p k : Nat) : ZMod m) = _ := (ZMod.natCast_eq_natCast_iff' _ _ m).2 (hprod k hk)
      refine e3.trans ?_
      rw [Nat.cast_mul]
      refine Eq.trans ?_ (evalAt_negacyclic (R := ZMod m) _ _ _ _ (rootAt_neg_one h hk)).symm
      exact congrArg₂ (· * ·) e1 e2) hk
  have e : ((negacyclic (fun i => (a i : Int)) (fun i => (b i : Int)) (2 ^ L) k : Int) : ZMod m) =
      negacyclic (residues m a) (residues m b) (2 ^ L) k := by
    unfold negacyclic residues
    push_cast
    refine sum_congr rfl fun i _ => sum_congr rfl fun j _ => ?_
    split_ifs <;> simp
  have e2 : (((nttInverse avx (buildTables m L root invRoot) L p k : Nat) : Int) : ZMod m) =
      ((negacyclic (fun i => (a i : Int)) (fun i => (b i : Int)) (2 ^ L) k : Int) : ZMod m) := by
    rw [e, Int.cast_natCast]
    exact h1
  have e3 := (ZMod.intCast_eq_intCast_iff' _ _ m).1 e2
  rw [← e3, Int.emod_eq_of_lt (by omega)]
  have e4 : (buildTables m L root invRoot).modulus = m := rfl
  omega

/-! ### All moduli -/

theorem onSpan_fold (f : Tables → Words → Words) (n : Nat) (tbs : List Tables) (v : Words) (s : Nat) :
    (∀ c t, tbs[c]? = some t → ∀ k, k < n →
      (tbs.zipIdx s).foldl (fun v t => onSpan (f t.1) (t.2 * n) n v) v ((s + c) * n + k) =
        f t (fun j => v ((s + c) * n + j)) k) ∧
    ∀ k, k < s * n ∨ (s + tbs.length) * n ≤ k →
      (tbs.zipIdx s).foldl (fun v t => onSpan (f t.1) (t.2 * n) n v) v k = v k := by
  induction tbs generalizing v s with
  | nil => exact ⟨fun c t h => by simp at h, fun k _ => rfl⟩
  | cons x xs ih =>
    obtain ⟨h1, h2⟩ := ih (onSpan (f x) (s * n) n v) (s + 1)
    rw [List.zipIdx_cons, List.foldl_cons]
    refine ⟨fun c t hc k hk => ?_, fun k hk => ?_⟩
    · cases c with
      | zero =>
        have ht : x = t := by simpa using hc
        subst ht
        rw [h2 _ (Or.inl (by rw [Nat.add_zero, Nat.succ_mul]; omega))]
        unfold onSpan
        simp only [Nat.add_zero]
        rw [if_pos (by omega), Nat.add_sub_cancel_left]
      | succ c =>
        have hc' : xs[c]? = some t := by simpa using hc
        have := h1 c t hc' k hk
        rw [show s + (c + 1) = s + 1 + c by omega, this]
        congr 1
        funext j
        unfold onSpan
        have : (s + 1) * n ≤ (s + 1 + c) * n := Nat.mul_le_mul_right _ (by omega)
        rw [Nat.succ_mul] at this
        rw [if_neg (by omega)]
    · rw [h2 k (by
        rcases hk with hk | hk
        · left; rw [Nat.succ_mul]; omega
        · right
          rw [List.length_cons] at hk
          rw [show s + 1 + xs.length = s + (xs.length + 1) by omega]
          exact hk)]
      unfold onSpan
      rw [if_neg]
      rw [List.length_cons] at hk
      have : (s + 1) * n ≤ (s + (xs.length + 1)) * n := Nat.mul_le_mul_right _ (by omega)
      rw [Nat.succ_mul] at this
      omega

/-- **C62** with several moduli, each residue polynomial is transformed with its own table. -/
theorem ntt_all_moduli (avx : Bool) (tbs : List Tables) (L : Nat) (v : Words) (c : Nat) (t : Tables)
    (hc : tbs[c]? = some t) {k : Nat} (hk : k < 2 ^ L) :
    nttForwardAll avx tbs L v (c * 2 ^ L + k) = nttForward avx t L (fun j => v (c * 2 ^ L + j)) k ∧
      nttInverseAll avx tbs L v (c * 2 ^ L + k) = nttInverse avx t L (fun j => v (c * 2 ^ L + j)) k := by
  have h1 := (onSpan_fold (fun t => nttForward avx t L) (2 ^ L) tbs v 0).1 c t hc k hk
  have h2 := (onSpan_fold (fun t => nttInverse avx t L) (2 ^ L) tbs v 0).1 c t hc k hk
  rw [Nat.zero_add] at h1 h2
  exact ⟨h1, h2⟩

/-! ### Examples -/

theorem rootOk_small : RootOk 17 3 3 6 := by constructor <;> decide

/-- The first default modulus with 2048 coefficients. -/
theorem rootOk_default0 : RootOk 268369921 11 66687 181947619 := by constructor <;> decide +kernel

theorem rootOk_default1 : RootOk 249561089 11 158221 88293783 := by constructor <;> decide +kernel

/-- A polynomial with coefficients around the second default modulus. -/
def exPoly : Words := fun k => k + 249561088

theorem exPoly_lt {k : Nat} (hk : k < 2 ^ 11) : exPoly k < 4 * 249561089 ∧ exPoly k < 4 * 268369921 := by
  unfold exPoly
  omega

example : nttForward true (buildTables 268369921 11 66687 181947619) 11 exPoly 5 % 268369921 =
    (∑ l ∈ range (2 ^ 11), exPoly l * 66687 ^ ((2 * brv 11 5 + 1) * l)) % 268369921 :=
  ntt_forward_values rootOk_default0 true exPoly (fun _ hk => (exPoly_lt hk).2) (by decide)

example : nttForward false (buildTables 17 3 3 6) 3 (fun k => k + 20) 5 < 17 :=
  ntt_forward_reduced rootOk_small (by decide) _ (fun k hk => by omega) (by decide)

example : nttForward true (buildTables 17 3 3 6) 3 (fun k => k + 20) 5 ≤ 17 :=
  ntt_forward_bound rootOk_small (by decide) true _ (fun k hk => by omega) (by decide)

example : nttInverse true (buildTables 249561089 11 158221 88293783) 11
    (nttForward false (buildTables 249561089 11 158221 88293783) 11 exPoly) 7 = exPoly 7 % 249561089 :=
  ntt_round_trip rootOk_default1 (by decide) false true exPoly (fun _ hk => (exPoly_lt hk).1) (by decide)

/-- `X ^ 7 * X = -1`. -/
example : (nttInverse true (buildTables 17 3 3 6) 3 (fun k =>
    nttForward true (buildTables 17 3 3 6) 3 (fun i => if i = 7 then 1 else 0) k *
      nttForward false (buildTables 17 3 3 6) 3 (fun i => if i = 1 then 1 else 0) k % 17) 0 : Int) =
    negacyclic (fun i => ((if i = 7 then 1 else 0 : Nat) : Int)) (fun i => ((if i = 1 then 1 else 0 : Nat) : Int))
      (2 ^ 3) 0 % 17 :=
  ntt_multiplies rootOk_small true true false _ _ _ (fun k _ => by split_ifs <;> omega)
    (fun k _ => by split_ifs <;> omega) (fun k _ => by omega) (fun k _ => Nat.mod_mod _ _) (by decide)

example : nttForwardAll true [buildTables 17 3 3 6, buildTables 97 3 33 50] 3 (fun k => k) (1 * 2 ^ 3 + 2) =
    nttForward true (buildTables 97 3 33 50) 3 (fun j => 1 * 2 ^ 3 + j) 2 :=
  (ntt_all_moduli true _ 3 _ 1 _ rfl (by decide)).1

end Psi.Spiral
