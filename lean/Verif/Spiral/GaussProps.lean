import Mathlib.Data.List.Sort
import Verif.Spiral.GaussModel
import Verif.Spiral.SchemeProps

/-!
# C72: the errors of Spiral PIR

Every error is within the width of the table, and a value is drawn as often as the table says.
-/

namespace Psi.Spiral

open Finset

variable {P : Par} {T : List Nat} {maxVal q w : Nat}

/-- The value of a word: the place of the first entry of the table that is at least the word, counted from the middle; 0 if
there is none. -/
def drawn (T : List Nat) (maxVal w : Nat) : ℤ :=
  if T.findIdx (fun t => decide (w ≤ t)) < T.length then (T.findIdx (fun t => decide (w ≤ t)) : ℤ) - maxVal else 0

theorem drawn_at {i : Nat} (hi : i < T.length) (h1 : w ≤ T[i]) (h2 : ∀ j (hj : j < i), T[j] < w) :
    drawn T maxVal w = (i : ℤ) - maxVal := by
  have : T.findIdx (fun t => decide (w ≤ t)) = i := by
    rw [List.findIdx_eq hi]
    exact ⟨by simpa using h1, fun j hj => by simpa using h2 j hj⟩
  unfold drawn
  rw [this, if_pos hi]

theorem drawn_none (h : ∀ t ∈ T, t < w) : drawn T maxVal w = 0 := by
  unfold drawn
  rw [if_neg]
  rw [List.findIdx_lt_length]
  rintro ⟨t, ht, h1⟩
  have := h t ht
  simp only [decide_eq_true_eq] at h1
  omega

theorem drawn_le (hT : T.length = 2 * maxVal + 1) (w : Nat) : |drawn T maxVal w| ≤ maxVal := by
  unfold drawn
  split_ifs with h
  · rw [abs_le]
    omega
  · simp

theorem gaussLoop_spec : ∀ {k : Nat} (_ : k ≤ T.length) (out : Nat),
    (∃ i, ∃ h : i < k, w ≤ T[i] ∧ (∀ j (hj : j < i), T[j] < w) ∧
      gaussLoop T maxVal q w k out = .ok (noiseWord q ((i : ℤ) - maxVal))) ∨
    ((∀ j (hj : j < k), T[j] < w) ∧ gaussLoop T maxVal q w k out = .ok out)
  | 0, _, out => .inr ⟨fun _ hj => absurd hj (by omega), rfl⟩
  | k + 1, hk, out => by
    unfold gaussLoop
    rw [List.getElem?_eq_getElem (by omega)]
    simp only
    rcases gaussLoop_spec (k := k) (by omega) (if w ≤ T[k] then noiseWord q ((k : ℤ) - maxVal) else out) with
      ⟨i, h1, h2, h3, h4⟩ | ⟨h1, h2⟩
    · exact .inl ⟨i, by omega, h2, h3, h4⟩
    · rw [h2]
      by_cases hw : w ≤ T[k]
      · rw [if_pos hw]
        exact .inl ⟨k, by omega, hw, h1, rfl⟩
      · rw [if_neg hw]
        refine .inr ⟨fun j hj => ?_, rfl⟩
        rcases Nat.lt_succ_iff_lt_or_eq.1 hj with h | rfl
        · exact h1 j h
        · omega

/-- **C72** one draw never fails and gives the value the table has for the word, at most the width in absolute value. -/
theorem gauss_sample (hT : T.length = 2 * maxVal + 1) (q w : Nat) :
    gaussSample T maxVal q w = .ok (noiseWord q (drawn T maxVal w)) ∧ |drawn T maxVal w| ≤ maxVal := by
  refine ⟨?_, drawn_le hT w⟩
  unfold gaussSample
  rcases gaussLoop_spec (T := T) (maxVal := maxVal) (q := q) (w := w) hT.ge 0 with ⟨i, h1, h2, h3, h4⟩ | ⟨h1, h2⟩
  · rw [h4, drawn_at (by omega) h2 h3]
  · rw [h2, drawn_none]
    · rfl
    · intro t ht
      obtain ⟨j, hj, rfl⟩ := List.getElem_of_mem ht
      exact h1 j (by omega)

/-- **C72** the noise matrix of `Noise` is the one the scheme model takes, with errors of at most the width. -/
theorem gauss_noise (hT : T.length = 2 * maxVal + 1) (rows cols : Nat) (ws : Nat → Nat) :
    ∃ M, gaussNoise P rows cols T maxVal ws = .ok M ∧ M.rows = rows ∧ M.cols = cols ∧
      ∀ r c z, r < rows → c < cols → z < P.n → M.poly r c z =
        (noise P rows cols fun r c z => drawn T maxVal (ws ((r * cols + c) * P.n + z))).poly r c z := by
  refine ⟨⟨rows, cols, fun i z => ((List.range (rows * cols * P.n)).map fun k =>
      noiseWord P.modulus (drawn T maxVal (ws k))).getD (i * P.n + z) 0⟩, ?_, rfl, rfl, ?_⟩
  · unfold gaussNoise
    have h := mapRes_map (f := fun k => gaussSample T maxVal P.modulus (ws k)) (g := id)
      (l := List.range (rows * cols * P.n)) fun k _ => (gauss_sample hT P.modulus (ws k)).1
    rw [List.map_id] at h
    rw [h, Res.ok_bind]
  · intro r c z hr hc hz
    unfold noise
    rw [Mat.build_poly _ _ hc]
    have h1 : r * cols + c < rows * cols := by
      calc r * cols + c < (r + 1) * cols := by rw [Nat.add_mul]; omega
        _ ≤ _ := Nat.mul_le_mul_right _ hr
    have h2 : (r * cols + c) * P.n + z < rows * cols * P.n := by
      calc (r * cols + c) * P.n + z < (r * cols + c + 1) * P.n := by rw [Nat.add_mul _ 1]; omega
        _ ≤ _ := Nat.mul_le_mul_right _ h1
    show ((List.range (rows * cols * P.n)).map fun k =>
      noiseWord P.modulus (drawn T maxVal (ws k))).getD ((r * cols + c) * P.n + z) 0 = _
    rw [List.getD_eq_getElem _ _ (by simpa using h2), List.getElem_map, List.getElem_range]

/-- A draw of the scheme whose errors come from the sampler is one the theorems of the scheme take. -/
theorem gauss_sample_ok (hT : T.length = 2 * maxVal + 1) (hm : maxVal < P.modulus) {rows cols : Nat} {a : Mat} (ws : Nat → Nat)
    (h1 : a.rows = 1) (h2 : a.cols = cols) (h3 : RawLe P a P.modulus) :
    SampleOk P rows cols ⟨a, fun r c z => drawn T maxVal (ws ((r * cols + c) * P.n + z))⟩ ∧
      (⟨a, fun r c z => drawn T maxVal (ws ((r * cols + c) * P.n + z))⟩ : Sample).Le maxVal := by
  refine ⟨⟨h1, h2, h3, fun i j z _ _ _ => ?_⟩, fun r c z => drawn_le hT _⟩
  have := drawn_le hT (ws ((i * cols + j) * P.n + z))
  show |drawn T maxVal _| < _
  omega

/-- The first word of entry `i`. -/
def lowest (T : List Nat) (i : Nat) : Nat := if i = 0 then 0 else T.getD (i - 1) 0 + 1

theorem drawn_iff (hT : T.length = 2 * maxVal + 1) (hs : T.Pairwise (· ≤ ·)) {i : Nat} (hi : i < T.length) :
    drawn T maxVal w = (i : ℤ) - maxVal ↔
      (lowest T i ≤ w ∧ w ≤ T[i]) ∨ (i = maxVal ∧ T[2 * maxVal] < w) := by
  have hmono : ∀ a b (ha : a < T.length) (hb : b < T.length), a ≤ b → T[a] ≤ T[b] := by
    intro a b ha hb hab
    rcases Nat.lt_or_eq_of_le hab with h | rfl
    · exact List.pairwise_iff_getElem.1 hs a b ha hb h
    · rfl
  have hlow : ∀ j (hj : j < T.length), lowest T j ≤ w ↔ ∀ k (hk : k < j), T[k] < w := by
    intro j hj
    unfold lowest
    split_ifs with h0
    · exact ⟨fun _ k hk => absurd hk (by omega), fun _ => by omega⟩
    · rw [List.getD_eq_getElem _ _ (by omega)]
      constructor
      · intro h k hk
        have := hmono k (j - 1) (by omega) (by omega) (by omega)
        omega
      · intro h
        have := h (j - 1) (by omega)
        omega
  constructor
  · intro h
    by_cases hx : ∃ j, ∃ hj : j < T.length, w ≤ T[j] ∧ ∀ k (hk : k < j), T[k] < w
    · obtain ⟨j, hj, h1, h2⟩ := hx
      rw [drawn_at hj h1 h2] at h
      obtain rfl : j = i := by omega
      exact .inl ⟨(hlow j hj).2 h2, h1⟩
    · have hall : ∀ j (hj : j < T.length), T[j] < w := by
        intro j
        induction j using Nat.strong_induction_on with
        | _ j ih =>
          intro hj
          by_contra hc
          exact hx ⟨j, hj, by omega, fun k hk => ih k hk (by omega)⟩
      rw [drawn_none (fun t ht => by obtain ⟨j, hj, rfl⟩ := List.getElem_of_mem ht; exact hall j hj)] at h
      exact .inr ⟨by omega, hall _ (by omega)⟩
  · rintro (⟨h1, h2⟩ | ⟨rfl, h2⟩)
    · exact drawn_at hi h2 ((hlow i hi).1 h1)
    · rw [drawn_none, sub_self]
      intro t ht
      obtain ⟨j, hj, rfl⟩ := List.getElem_of_mem ht
      have := hmono j (2 * i) hj (by omega) (by omega)
      omega

/-- **C72** of the `2 ^ 64` words, as many give the value `i - maxVal` as the table grows at entry `i`; what the table leaves
above its last entry goes to the value 0. -/
theorem gauss_count (hT : T.length = 2 * maxVal + 1) (hs : T.Pairwise (· ≤ ·)) (hw : ∀ t ∈ T, t < 2 ^ 64) {i : Nat}
    (hi : i < T.length) :
    ((range (2 ^ 64)).filter fun w => drawn T maxVal w = (i : ℤ) - maxVal).card =
      T[i] + 1 - lowest T i + if i = maxVal then 2 ^ 64 - 1 - T[2 * maxVal] else 0 := by
  have hlast : T[i] ≤ T[2 * maxVal] := by
    rcases Nat.lt_or_eq_of_le (show i ≤ 2 * maxVal by omega) with h | h
    · exact List.pairwise_iff_getElem.1 hs i _ hi (by omega) h
    · subst h
      rfl
  have hb := hw _ (List.getElem_mem (show 2 * maxVal < T.length by omega))
  have hset : ((range (2 ^ 64)).filter fun w => drawn T maxVal w = (i : ℤ) - maxVal) =
      Ico (lowest T i) (T[i] + 1) ∪ if i = maxVal then Ico (T[2 * maxVal] + 1) (2 ^ 64) else ∅ := by
    ext w
    rw [mem_filter, mem_range, drawn_iff hT hs hi, mem_union, mem_Ico]
    split_ifs with h
    · rw [mem_Ico]
      constructor
      · rintro ⟨h1, h2 | h2⟩
        · exact .inl ⟨h2.1, by omega⟩
        · exact .inr ⟨by omega, h1⟩
      · rintro (h1 | h1)
        · exact ⟨by omega, .inl ⟨h1.1, by omega⟩⟩
        · exact ⟨h1.2, .inr ⟨h, by omega⟩⟩
    · simp only [h, false_and, or_false, notMem_empty]
      constructor
      · rintro ⟨h1, h2⟩
        exact ⟨h2.1, by omega⟩
      · rintro h1
        exact ⟨by omega, h1.1, by omega⟩
  rw [hset, card_union_of_disjoint, Nat.card_Ico]
  · congr 1
    split_ifs
    · rw [Nat.card_Ico]
      omega
    · rfl
  · split_ifs
    · rw [disjoint_left]
      intro a h1 h2
      rw [mem_Ico] at h1 h2
      omega
    · exact disjoint_empty_right _

/-! ### Examples -/

/-- A table of width 2 that leaves 7 words above its last entry. -/
def exTable : List Nat := [10, 2 ^ 62, 2 ^ 63, 2 ^ 64 - 12, 2 ^ 64 - 8]

example (q w : Nat) := gauss_sample (T := exTable) (maxVal := 2) rfl q w

example (P : Par) (ws : Nat → Nat) := gauss_noise (P := P) (T := exTable) (maxVal := 2) rfl 3 4 ws

example (avx : Bool) (ws : Nat → Nat) := gauss_sample_ok (P := Par.default avx) (T := exTable) (maxVal := 2) (rows := 2) (cols := 3) rfl
  (by rw [default_modulus]; norm_num) (a := .zero 1 3) ws rfl rfl (fun _ _ _ _ _ _ => Nat.zero_le _)

example := gauss_count (T := exTable) (maxVal := 2) rfl (by decide) (by decide) (i := 2) (by decide)

example : drawn exTable 2 5 = -2 ∧ drawn exTable 2 11 = -1 ∧ drawn exTable 2 (2 ^ 64 - 9) = 2 ∧ drawn exTable 2 (2 ^ 64 - 1) = 0 := by
  decide +kernel

end Psi.Spiral
