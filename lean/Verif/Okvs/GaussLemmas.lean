import Verif.Okvs.Model
import Mathlib.LinearAlgebra.Matrix.NonsingularInverse
import Mathlib.Algebra.BigOperators.Fin
import Mathlib.Tactic.Ring
import Mathlib.Tactic.LinearCombination

/-! # The elimination computes the inverse -/

namespace Psi.Okvs

section
variable {K : Type} [CommRing K] [DecidableEq K]

/-- Row `m` is the combination `r` of the rows of `M0`. -/
def RowRel (n : Nat) (M0 : Nat → Nat → K) (r m : Nat → K) : Prop :=
  ∀ k < n, ∑ l ∈ Finset.range n, r l * M0 l k = m k

theorem RowRel.scale {n : Nat} {M0 : Nat → Nat → K} {r m : Nat → K} (h : RowRel n M0 r m) (s : K) :
    RowRel n M0 (fun k => s * r k) (fun k => s * m k) := by
  intro k hk
  simp only [mul_assoc]
  rw [← Finset.mul_sum, h k hk]

theorem RowRel.addMul {n : Nat} {M0 : Nat → Nat → K} {r m r' m' : Nat → K} (h : RowRel n M0 r m)
    (h' : RowRel n M0 r' m') (s : K) : RowRel n M0 (fun k => r k + s * r' k) (fun k => m k + s * m' k) := by
  intro k hk
  simp only [add_mul, mul_assoc]
  rw [Finset.sum_add_distrib, ← Finset.mul_sum, h k hk, h' k hk]

/-- Between two columns. -/
structure GJ (n : Nat) (M0 : Nat → Nat → K) (i : Nat) (s : (Nat → Nat → K) × (Nat → Nat → K)) : Prop where
  rel : ∀ j < n, RowRel n M0 (s.2 j) (s.1 j)
  unit : ∀ c < i, ∀ j < n, s.1 j c = if j = c then 1 else 0
  ker : ∀ y : Nat → K, (∀ j < n, ∑ k ∈ Finset.range n, s.1 j k * y k = 0) →
    ∀ j < n, ∑ k ∈ Finset.range n, M0 j k * y k = 0

theorem gj_init (n : Nat) (M0 : Nat → Nat → K) : GJ n M0 0 (M0, fun i j => if i = j then 1 else 0) where
  rel := by
    intro j hj k _
    simp only
    rw [Finset.sum_eq_single j]
    · simp
    · intro l _ hl; simp [Ne.symm hl]
    · intro h; exact absurd (Finset.mem_range.mpr hj) h
  unit := by intro c hc; omega
  ker := fun y h => h

theorem pivot_some {n i j : Nat} {M : Nat → Nat → K} (hi : i < n) (h : pivot n M i = some j) :
    i ≤ j ∧ j < n ∧ (M j i ≠ 0 ∨ M j i = 1) := by
  unfold pivot at h
  split at h
  · rename_i h0
    cases h
    exact ⟨Nat.le_refl _, hi, Or.inl h0⟩
  · have hm := List.mem_of_find?_eq_some h
    have hp := List.find?_some h
    rw [List.mem_range'_1] at hm
    refine ⟨by omega, by omega, Or.inr (by simpa using hp)⟩

theorem gj_step [Nontrivial K] (h2 : ∀ a : K, a + a = 0) (inv : K → K) (hinv : ∀ a : K, a ≠ 0 → a * inv a = 1)
    {n i : Nat} (hi : i < n) {M0 : Nat → Nat → K} {s s' : (Nat → Nat → K) × (Nat → Nat → K)}
    (h : GJ n M0 i s) (hs : gjStep inv n s i = some s') : GJ n M0 (i + 1) s' := by
  unfold gjStep at hs
  rw [Option.map_eq_some_iff] at hs
  obtain ⟨p, hp, he⟩ := hs
  simp only at he
  obtain ⟨hp1, hp2, hp3⟩ := pivot_some hi hp
  have hp0 : s.1 p i ≠ 0 := by
    rcases hp3 with h | h
    · exact h
    · rw [h]; exact one_ne_zero
  -- after the swap
  have hsw : GJ n M0 i (swapRows s.1 i p, swapRows s.2 i p) := by
    refine ⟨?_, ?_, ?_⟩
    · intro j hj
      show RowRel n M0 (swapRows s.2 i p j) (swapRows s.1 i p j)
      unfold swapRows
      by_cases h1 : j = i
      · rw [if_pos h1, if_pos h1]; exact h.rel p hp2
      · rw [if_neg h1, if_neg h1]
        by_cases h3 : j = p
        · rw [if_pos h3, if_pos h3]; exact h.rel i hi
        · rw [if_neg h3, if_neg h3]; exact h.rel j hj
    · intro c hc j hj
      show swapRows s.1 i p j c = _
      unfold swapRows
      by_cases h1 : j = i
      · rw [if_pos h1, h.unit c hc p hp2, if_neg (by omega), if_neg (by omega)]
      · rw [if_neg h1]
        by_cases h3 : j = p
        · rw [if_pos h3, h.unit c hc i hi, if_neg (by omega), if_neg (by omega)]
        · rw [if_neg h3, h.unit c hc j hj]
    · intro y hy
      apply h.ker y
      intro j hj
      by_cases h1 : j = i
      · by_cases h3 : p = i
        · have := hy i hi
          simp only [swapRows, if_true, h3] at this
          rw [h1]; exact this
        · have := hy p hp2
          simp only [swapRows, if_true, h3, if_false] at this
          rw [h1]; exact this
      · by_cases h3 : j = p
        · have := hy i hi
          simp only [swapRows, if_true] at this
          rw [h3]; exact this
        · have := hy j hj
          simp only [swapRows, h1, h3, if_false] at this
          exact this
  have hpiv : swapRows s.1 i p i i ≠ 0 := by
    unfold swapRows
    rw [if_pos rfl]; exact hp0
  generalize swapRows s.1 i p = A at *
  generalize swapRows s.2 i p = B at *
  set x := A i i with hx
  have hxi := hinv x hpiv
  -- after the division
  have hsc : GJ n M0 i (scaleRow (inv x) A i, scaleRow (inv x) B i) := by
    refine ⟨?_, ?_, ?_⟩
    · intro j hj
      show RowRel n M0 (scaleRow (inv x) B i j) (scaleRow (inv x) A i j)
      unfold scaleRow
      by_cases h1 : j = i
      · rw [if_pos h1, if_pos h1]; exact (hsw.rel i hi).scale _
      · rw [if_neg h1, if_neg h1]; exact hsw.rel j hj
    · intro c hc j hj
      show scaleRow (inv x) A i j c = _
      unfold scaleRow
      by_cases h1 : j = i
      · have := hsw.unit c hc i hi
        simp only at this
        rw [if_pos h1, if_neg (show j ≠ c by omega)]
        rw [this, if_neg (by omega), mul_zero]
      · rw [if_neg h1]; exact hsw.unit c hc j hj
    · intro y hy
      apply hsw.ker y
      intro j hj
      have := hy j hj
      by_cases h1 : j = i
      · subst h1
        simp only [scaleRow, if_true, mul_assoc] at this
        rw [← Finset.mul_sum] at this
        have h3 := congrArg (fun z => x * z) this
        simp only [mul_zero, ← mul_assoc, hxi, one_mul] at h3
        simpa using h3
      · simp only [scaleRow, h1, if_false] at this
        exact this
  have hii : scaleRow (inv x) A i i i = 1 := by
    unfold scaleRow
    rw [if_pos rfl, mul_comm]; exact hxi
  generalize scaleRow (inv x) A i = A' at *
  generalize scaleRow (inv x) B i = B' at *
  subst he
  refine ⟨?_, ?_, ?_⟩
  · intro j hj
    show RowRel n M0 (clear (fun j => A' j i) B' i j) (clear (fun j => A' j i) A' i j)
    unfold clear
    by_cases h1 : j = i
    · rw [if_pos h1, if_pos h1]; exact hsc.rel i hi
    · rw [if_neg h1, if_neg h1]
      exact (hsc.rel j hj).addMul (hsc.rel i hi) (A' j i)
  · intro c hc j hj
    show clear (fun j => A' j i) A' i j c = _
    unfold clear
    by_cases hci : c = i
    · subst hci
      by_cases h1 : j = c
      · rw [if_pos h1, if_pos h1]; exact hii
      · rw [if_neg h1, if_neg h1]
        simp only
        rw [hii, mul_one]; exact h2 _
    · have hclt : c < i := by omega
      have u1 := hsc.unit c hclt j hj
      have u2 := hsc.unit c hclt i hi
      simp only at u1 u2
      by_cases h1 : j = i
      · rw [if_pos h1, u2, if_neg (by omega), if_neg (by omega)]
      · rw [if_neg h1]
        simp only
        rw [u1, u2, if_neg (show i ≠ c by omega), mul_zero, add_zero]
  · intro y hy
    apply hsc.ker y
    have hyi : ∑ k ∈ Finset.range n, A' i k * y k = 0 := by
      have := hy i hi
      simpa only [clear, if_true] using this
    intro j hj
    by_cases h1 : j = i
    · rw [h1]; exact hyi
    · have := hy j hj
      simp only [clear, h1, if_false, add_mul, mul_assoc] at this
      rw [Finset.sum_add_distrib, ← Finset.mul_sum, hyi, mul_zero, add_zero] at this
      exact this

theorem gj_fold [Nontrivial K] (h2 : ∀ a : K, a + a = 0) (inv : K → K) (hinv : ∀ a : K, a ≠ 0 → a * inv a = 1)
    {n : Nat} (M0 : Nat → Nat → K) (m : Nat) (hm : m ≤ n) :
    (∃ s, (List.range m).foldlM (gjStep inv n) (M0, fun i j => if i = j then 1 else 0) = some s ∧ GJ n M0 m s) ∨
      ((List.range m).foldlM (gjStep inv n) (M0, fun i j => if i = j then 1 else 0) = none ∧
        ∃ i < n, ∃ s, GJ n M0 i s ∧ pivot n s.1 i = none) := by
  induction m with
  | zero => exact Or.inl ⟨_, rfl, gj_init n M0⟩
  | succ m ih =>
    rw [List.range_succ, List.foldlM_append]
    rcases ih (by omega) with ⟨s, h1, h3⟩ | ⟨h1, h3⟩
    · rw [h1]
      simp only [List.foldlM_cons, List.foldlM_nil]
      cases hs : gjStep inv n s m with
      | none =>
        right
        refine ⟨?_, m, by omega, s, h3, ?_⟩
        · show (gjStep inv n s m).bind _ = none
          rw [hs]; rfl
        · unfold gjStep at hs
          exact Option.map_eq_none_iff.mp hs
      | some s' =>
        left
        refine ⟨s', ?_, gj_step h2 inv hinv (by omega) h3 hs⟩
        show (gjStep inv n s m).bind _ = some s'
        rw [hs]; rfl
    · right
      rw [h1]; exact ⟨rfl, h3⟩

/-- The matrix of a table. -/
def toMat (n : Nat) (M : Nat → Nat → K) : Matrix (Fin n) (Fin n) K := fun i j => M i j

theorem toMat_mul (n : Nat) (A B : Nat → Nat → K) (i j : Fin n) :
    (toMat n A * toMat n B) i j = ∑ l ∈ Finset.range n, A i l * B l j := by
  rw [Matrix.mul_apply, ← Fin.sum_univ_eq_sum_range (fun l => A i l * B l j)]
  rfl

theorem gaussJordan_mul [Nontrivial K] (h2 : ∀ a : K, a + a = 0) (inv : K → K) (hinv : ∀ a : K, a ≠ 0 → a * inv a = 1)
    {n : Nat} {M N : Nat → Nat → K} (h : gaussJordan inv n M = some N) : toMat n N * toMat n M = 1 := by
  unfold gaussJordan at h
  rw [Option.map_eq_some_iff] at h
  obtain ⟨s, hs, rfl⟩ := h
  rcases gj_fold h2 inv hinv M n (Nat.le_refl n) with ⟨s', h1, h3⟩ | ⟨h1, _⟩
  · rw [hs] at h1
    cases h1
    ext i j
    rw [toMat_mul, h3.rel i i.2 j j.2, h3.unit j j.2 i i.2, Matrix.one_apply]
    simp only [Fin.ext_iff]
  · rw [hs] at h1; cases h1

/-- If every nonzero element is one (GF(2)) the elimination only fails on matrices without inverse. -/
theorem gaussJordan_none [Nontrivial K] (h2 : ∀ a : K, a + a = 0) (h1 : ∀ a : K, a ≠ 0 → a = 1) (inv : K → K)
    (hinv : ∀ a : K, a ≠ 0 → a * inv a = 1) {n : Nat} {M : Nat → Nat → K} (h : gaussJordan inv n M = none) :
    ¬ ∃ B : Matrix (Fin n) (Fin n) K, B * toMat n M = 1 := by
  rintro ⟨B, hB⟩
  unfold gaussJordan at h
  rw [Option.map_eq_none_iff] at h
  rcases gj_fold h2 inv hinv M n (Nat.le_refl n) with ⟨s', h3, _⟩ | ⟨_, i, hi, s, hg, hp⟩
  · rw [h] at h3; cases h3
  · have hz : ∀ j < n, i ≤ j → s.1 j i = 0 := by
      unfold pivot at hp
      split at hp
      · cases hp
      · rename_i h0
        intro j hj hij
        have h0 : s.1 i i = 0 := by simpa using h0
        rcases Nat.eq_or_lt_of_le hij with he | hlt
        · rw [← he]; exact h0
        · rw [List.find?_eq_none] at hp
          have := hp j (by rw [List.mem_range'_1]; omega)
          apply Classical.byContradiction
          intro hne
          exact this (by simpa using h1 _ hne)
    let y : Nat → K := fun k => if k = i then 1 else if k < i then s.1 k i else 0
    have hker : ∀ j < n, ∑ k ∈ Finset.range n, s.1 j k * y k = 0 := by
      intro j hj
      -- only `k = i` and `k = j` (if `j < i`) contribute
      have hterm : ∀ k ∈ Finset.range n, s.1 j k * y k =
          (if k = i then s.1 j i else 0) + if k = j ∧ j < i then s.1 j i else 0 := by
        intro k hk
        simp only [y]
        by_cases hki : k = i
        · subst hki
          rw [if_pos rfl, if_pos rfl, if_neg (by omega), mul_one, add_zero]
        · rw [if_neg hki, if_neg hki, zero_add]
          by_cases hkl : k < i
          · rw [if_pos hkl, hg.unit k hkl j hj]
            by_cases hjk : j = k
            · subst hjk
              rw [if_pos rfl, if_pos ⟨rfl, hkl⟩, one_mul]
            · rw [if_neg hjk, if_neg (by rintro ⟨h, _⟩; exact hjk h.symm), zero_mul]
          · rw [if_neg hkl, mul_zero, if_neg]
            rintro ⟨rfl, h⟩; exact hkl h
      rw [Finset.sum_congr rfl hterm, Finset.sum_add_distrib, Finset.sum_ite_eq', if_pos (Finset.mem_range.mpr hi)]
      by_cases hji : j < i
      · have : ∑ x ∈ Finset.range n, (if x = j ∧ j < i then s.1 j i else 0) = s.1 j i := by
          simp only [hji, and_true]
          rw [Finset.sum_ite_eq', if_pos (Finset.mem_range.mpr hj)]
        rw [this]; exact h2 _
      · simp only [hji, and_false, if_false, Finset.sum_const_zero, add_zero]
        exact hz j hj (by omega)
    have h0 := hg.ker y hker
    have hv : Matrix.mulVec (toMat n M) (fun k => y k) = 0 := by
      funext j
      have h5 := h0 j j.2
      rw [← Fin.sum_univ_eq_sum_range (fun k => M j k * y k)] at h5
      exact h5
    have hy : (fun k : Fin n => y k) = 0 := by
      have := congrArg (fun A => Matrix.mulVec A (fun k : Fin n => y k)) hB
      simp only [← Matrix.mulVec_mulVec, hv, Matrix.mulVec_zero, Matrix.one_mulVec] at this
      exact this.symm
    have := congrFun hy ⟨i, hi⟩
    simp [y] at this

variable {V : Type} [AddCommGroup V] [Module K V]

theorem mulVec_eq (n : Nat) (N : Nat → Nat → K) (x : Nat → V) (i : Nat) :
    mulVec n N x i = ∑ j ∈ Finset.range n, N i j • x j := by
  unfold mulVec
  induction n with
  | zero => rfl
  | succ n ih =>
    rw [List.range_succ, List.map_append, List.sum_append, ih, Finset.sum_range_succ]
    simp

/-- The solution of the linear system. -/
theorem gaussJordan_solves [Nontrivial K] (h2 : ∀ a : K, a + a = 0) (inv : K → K) (hinv : ∀ a : K, a ≠ 0 → a * inv a = 1)
    {n : Nat} {M N : Nat → Nat → K} (h : gaussJordan inv n M = some N) (x : Nat → V) {i : Nat} (hi : i < n) :
    mulVec n M (mulVec n N x) i = x i := by
  have hm := gaussJordan_mul h2 inv hinv h
  rw [mul_eq_one_comm] at hm
  rw [mulVec_eq]
  simp only [mulVec_eq, Finset.smul_sum, smul_smul]
  rw [Finset.sum_comm]
  simp only [← Finset.sum_smul]
  have : ∀ j ∈ Finset.range n, (∑ l ∈ Finset.range n, M i l * N l j) • x j = if j = i then x j else 0 := by
    intro j hj
    have hj := Finset.mem_range.mp hj
    have := congrFun (congrFun hm ⟨i, hi⟩) ⟨j, hj⟩
    rw [toMat_mul, Matrix.one_apply] at this
    simp only [Fin.ext_iff] at this
    rw [this]
    by_cases hij : i = j
    · rw [if_pos hij, if_pos hij.symm, one_smul]
    · rw [if_neg hij, if_neg (Ne.symm hij), zero_smul]
  rw [Finset.sum_congr rfl this, Finset.sum_ite_eq', if_pos (Finset.mem_range.mpr hi)]

end

end Psi.Okvs
