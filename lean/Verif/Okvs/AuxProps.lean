import Verif.Okvs.CombLemmas
import Verif.Okvs.HashLemmas
import Verif.Okvs.GaussLemmas
import Mathlib.Algebra.Field.ZMod

/-! # Properties of the parts of the key-value store -/

namespace Psi.Okvs

/-- C42.  The columns of a key are `w` different columns of the table, for every weight. -/
theorem C42_columns_distinct (w S h : Nat) (hw : w ≤ S) :
    (buildRow w S h).Nodup ∧ (buildRow w S h).length = w ∧ ∀ c ∈ buildRow w S h, c < S := buildRow_spec hw h

example : (buildRow 3 10 (9 + 8 * 2 ^ 32)).Nodup ∧ (buildRow 3 10 (9 + 8 * 2 ^ 32)).length = 3 ∧
    ∀ c ∈ buildRow 3 10 (9 + 8 * 2 ^ 32), c < 10 := C42_columns_distinct 3 10 _ (by decide)

/-- The adjustments are exercised: the raw values are 2, 2, 2. -/
example : buildRow 3 10 (2 + 2 * 2 ^ 32 + 2 * 2 ^ 64) ≠ [2, 2, 2] := by decide

/-- Weight 5: insertion sort with shifts. -/
example : (buildRow 5 7 12345).Nodup ∧ (buildRow 5 7 12345).length = 5 ∧ ∀ c ∈ buildRow 5 7 12345, c < 7 :=
  C42_columns_distinct 5 7 _ (by decide)

/-- C42.  The code for 32 keys at once, with or without vector instructions, gives every key the row that
the code for a single key gives it. -/
theorem C42_batch_same_rows (avx2 : Bool) (w S : Nat) (hash : Nat → Nat) (hw : w ≤ S) (hS : S < 2 ^ 62) (k : Nat) (hk : k < 32) :
    ((buildRow32 avx2 w S hash).drop (w * k)).take w = buildRow w S (hash k) := by
  rw [buildRow32_eq avx2 hw hS hash]
  have hgen : ∀ n, k < n → (((List.range n).flatMap fun k => buildRow w S (hash k)).drop (w * k)).take w = buildRow w S (hash k) := by
    intro n hn
    have hlen : ∀ m, ((List.range m).flatMap fun k => buildRow w S (hash k)).length = w * m := by
      intro m
      induction m with
      | zero => simp
      | succ m ih =>
        rw [List.range_succ, List.flatMap_append, List.length_append, ih]
        simp [(buildRow_spec hw (hash m)).2.1, Nat.mul_add]
    obtain ⟨m, rfl⟩ : ∃ m, n = k + 1 + m := ⟨n - (k + 1), by omega⟩
    rw [List.range_add, List.range_succ, List.flatMap_append, List.flatMap_append, List.append_assoc,
      List.drop_append_of_le_length (by rw [hlen])]
    rw [List.drop_of_length_le (by rw [hlen]), List.nil_append]
    have h1 := (buildRow_spec hw (hash k)).2.1
    simp only [List.flatMap_cons, List.flatMap_nil, List.append_nil]
    rw [List.take_append_of_le_length (by omega), List.take_of_length_le (by omega)]
  exact hgen 32 hk

example : ((buildRow32 true 3 100 (fun k => k * (2 ^ 64 + 2 ^ 32 + 1))).drop (3 * 17)).take 3 =
    buildRow 3 100 (17 * (2 ^ 64 + 2 ^ 32 + 1)) :=
  C42_batch_same_rows true 3 100 _ (by decide) (by decide) 17 (by decide)

/-- C43.  `GetGapCols` tries every set of `g` of the `D` dense columns exactly once. -/
theorem C43_all_column_sets (D g : Nat) (hg : g ≤ D) (ho : ∀ i ≤ g, D * D.choose i < 2 ^ 64) :
    (combs D g).Nodup ∧
      ∀ cs, cs ∈ combs D g ↔ (cs.length = g ∧ cs.Pairwise (· < ·) ∧ ∀ c ∈ cs, c < D) :=
  ⟨combs_nodup hg ho, fun _ => ⟨fun h => mem_combs hg ho h, fun h => combs_complete hg ho h⟩⟩

example : (combs 60 7).Nodup ∧
    ∀ cs, cs ∈ combs 60 7 ↔ (cs.length = 7 ∧ cs.Pairwise (· < ·) ∧ ∀ c ∈ cs, c < 60) :=
  C43_all_column_sets 60 7 (by decide) (by decide +kernel)

example : combs 4 2 = [[0, 1], [0, 2], [1, 2], [0, 3], [1, 3], [2, 3]] := by decide +kernel

/-- C44.  `DenseMtx::Invert` returns the inverse, on both sides. -/
theorem C44_invert (n : Nat) (M N : Nat → Nat → ZMod 2) (h : gaussJordan id n M = some N) (i j : Nat) (hi : i < n) (hj : j < n) :
    (∑ k ∈ Finset.range n, N i k * M k j = if i = j then 1 else 0) ∧
      ∑ k ∈ Finset.range n, M i k * N k j = if i = j then 1 else 0 := by
  have h2 : ∀ a : ZMod 2, a + a = 0 := by decide
  have h3 : ∀ a : ZMod 2, a ≠ 0 → a * id a = 1 := by decide
  have hm := gaussJordan_mul h2 id h3 h
  have hm' := hm
  rw [mul_eq_one_comm] at hm'
  constructor
  · have := congrFun (congrFun hm ⟨i, hi⟩) ⟨j, hj⟩
    rw [toMat_mul, Matrix.one_apply] at this
    simpa [Fin.ext_iff] using this
  · have := congrFun (congrFun hm' ⟨i, hi⟩) ⟨j, hj⟩
    rw [toMat_mul, Matrix.one_apply] at this
    simpa [Fin.ext_iff] using this

/-- C44.  The empty matrix is returned only for matrices without inverse. -/
theorem C44_singular (n : Nat) (M : Nat → Nat → ZMod 2) (h : gaussJordan id n M = none) :
    ¬ ∃ N : Nat → Nat → ZMod 2, ∀ i < n, ∀ j < n, ∑ k ∈ Finset.range n, N i k * M k j = if i = j then 1 else 0 := by
  rintro ⟨N, hN⟩
  refine gaussJordan_none (by decide) (by decide) id (by decide) h ⟨toMat n N, ?_⟩
  ext i j
  rw [toMat_mul, hN i i.2 j j.2, Matrix.one_apply]
  simp [Fin.ext_iff]

/-- A matrix whose first pivot is missing is inverted (rows are exchanged). -/
example : ∃ N, gaussJordan id 2 (fun i j => if i = 0 ∧ j = 0 then (0 : ZMod 2) else 1) = some N := ⟨_, rfl⟩

example : ¬ ∃ N : Nat → Nat → ZMod 2, ∀ i < 2, ∀ j < 2,
    ∑ k ∈ Finset.range 2, N i k * (fun _ _ => (1 : ZMod 2)) k j = if i = j then 1 else 0 :=
  C44_singular 2 (fun _ _ => 1) rfl

example := C44_invert 2 (fun i j => if i = 0 ∧ j = 0 then (0 : ZMod 2) else 1) _ rfl 0 1 (by decide) (by decide)

end Psi.Okvs
