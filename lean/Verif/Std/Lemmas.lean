import Verif.Std.Model
import Mathlib.Tactic.ByContra

/-! # Facts about the standard library algorithms -/

namespace Psi.Std

theorem lt_irrefl (a : Bytes) : lt a a = false := by
  induction a with
  | nil => rfl
  | cons x a ih => simp [lt, ih]

theorem lt_trans {a b c : Bytes} (h1 : lt a b = true) (h2 : lt b c = true) : lt a c = true := by
  induction a generalizing b c with
  | nil => cases b <;> cases c <;> simp_all [lt]
  | cons x a ih =>
    cases b with
    | nil => simp [lt] at h1
    | cons y b =>
      cases c with
      | nil => simp [lt] at h2
      | cons z c =>
        simp only [lt, Bool.or_eq_true, decide_eq_true_eq, Bool.and_eq_true, beq_iff_eq] at *
        rcases h1 with h1 | ⟨rfl, h1⟩ <;> rcases h2 with h2 | ⟨rfl, h2⟩
        · exact Or.inl (UInt8.lt_trans h1 h2)
        · exact Or.inl h1
        · exact Or.inl h2
        · exact Or.inr ⟨rfl, ih h1 h2⟩

theorem lt_asymm {a b : Bytes} (h : lt a b = true) : lt b a = false := by
  cases hb : lt b a with
  | false => rfl
  | true => have := lt_trans h hb; rw [lt_irrefl] at this; simp at this

theorem eq_of_not_lt {a b : Bytes} (h1 : lt a b = false) (h2 : lt b a = false) : a = b := by
  induction a generalizing b with
  | nil => cases b <;> simp_all [lt]
  | cons x a ih =>
    cases b with
    | nil => simp [lt] at h2
    | cons y b =>
      rw [lt, Bool.or_eq_false_iff, decide_eq_false_iff_not, Bool.and_eq_false_iff] at h1 h2
      have hxy : x = y := by
        have h3 := UInt8.not_lt.mp h1.1
        have h4 := UInt8.not_lt.mp h2.1
        exact UInt8.le_antisymm h4 h3
      subst hxy
      have h1' : lt a b = false := by
        rcases h1.2 with h | h
        · simp at h
        · exact h
      have h2' : lt b a = false := by
        rcases h2.2 with h | h
        · simp at h
        · exact h
      rw [ih h1' h2']

theorem le_trans {a b c : Bytes} (h1 : lt b a = false) (h2 : lt c b = false) : lt c a = false := by
  cases h : lt c a with
  | false => rfl
  | true =>
    cases hab : lt a b with
    | true => have := lt_trans h hab; rw [h2] at this; simp at this
    | false => have := eq_of_not_lt hab h1; subst this; rw [h2] at h; simp at h

/-- Ascending order. -/
abbrev Sorted (l : List Bytes) : Prop := l.Pairwise (fun a b => lt b a = false)

theorem sort_perm (l : List Bytes) : (sort l).Perm l := List.mergeSort_perm _ _

theorem mem_sort {l : List Bytes} {x : Bytes} : x ∈ sort l ↔ x ∈ l := (sort_perm l).mem_iff

theorem sort_sorted (l : List Bytes) : Sorted (sort l) := by
  have := List.pairwise_mergeSort (le := fun a b => !lt b a)
    (fun a b c h1 h2 => by simp at *; exact le_trans h1 h2)
    (fun a b => by
      cases h : lt b a with
      | false => simp
      | true => simp [lt_asymm h]) l
  exact this.imp (fun h => by simpa using h)

theorem eq_of_perm_sorted {l m : List Bytes} (hp : l.Perm m) (hl : Sorted l) (hm : Sorted m) : l = m :=
  hp.eq_of_pairwise (fun _ _ _ _ h1 h2 => eq_of_not_lt h2 h1) hl hm

/-- Sorting forgets the order. -/
theorem sort_eq_of_perm {l m : List Bytes} (h : l.Perm m) : sort l = sort m :=
  eq_of_perm_sorted ((sort_perm l).trans (h.trans (sort_perm m).symm)) (sort_sorted l) (sort_sorted m)

theorem getD_eq {l : List Bytes} {i : Nat} (h : i < l.length) : l.getD i [] = l[i] := by
  simp [List.getD, h]

theorem lowerBound_spec {l : List Bytes} (hs : Sorted l) (x : Bytes) (first len : Nat) (hle : first + len ≤ l.length)
    (h1 : ∀ i, (hi : i < l.length) → i < first → lt l[i] x = true)
    (h2 : ∀ i, (hi : i < l.length) → first + len ≤ i → lt l[i] x = false) :
    (∀ i, (hi : i < l.length) → i < lowerBound l x first len → lt l[i] x = true) ∧
    (∀ i, (hi : i < l.length) → lowerBound l x first len ≤ i → lt l[i] x = false) := by
  have mono : ∀ i j, (hi : i < l.length) → (hj : j < l.length) → i ≤ j → lt l[j] l[i] = false := by
    intro i j hi hj hij
    by_cases h : i = j
    · subst h; exact lt_irrefl _
    · exact List.pairwise_iff_getElem.mp hs i j hi hj (by omega)
  induction len using Nat.strongRecOn generalizing first with
  | _ len ih =>
    unfold lowerBound
    by_cases h0 : len = 0
    · subst h0; simp only [if_pos]; exact ⟨h1, by simpa using h2⟩
    · rw [if_neg h0]
      have hm : first + len / 2 < l.length := by omega
      simp only [getD_eq hm]
      split
      · rename_i hlt
        refine ih _ (by omega) _ (by omega) ?_ ?_
        · intro i hi hlt'
          have := mono i (first + len / 2) hi hm (by omega)
          cases h : lt l[i] x with
          | true => rfl
          | false => rw [le_trans h this] at hlt; simp at hlt
        · intro i hi hge; exact h2 i hi (by omega)
      · rename_i hlt
        refine ih _ (by omega) _ (by omega) h1 ?_
        intro i hi hge
        have := mono (first + len / 2) i hm hi (by omega)
        exact le_trans (by simpa using hlt) this

/-- On a sorted range the binary search is a membership test. -/
theorem binarySearch_iff {l : List Bytes} (hs : Sorted l) (x : Bytes) : binarySearch l x = true ↔ x ∈ l := by
  obtain ⟨h1, h2⟩ := lowerBound_spec hs x 0 l.length (by omega) (by intro i hi h; omega) (by intro i hi h; omega)
  unfold binarySearch
  simp only [Bool.and_eq_true, decide_eq_true_eq, Bool.not_eq_true']
  constructor
  · rintro ⟨hlt, hx⟩
    rw [getD_eq hlt] at hx
    have := eq_of_not_lt hx (h2 _ hlt (Nat.le_refl _))
    rw [this]
    exact List.getElem_mem hlt
  · intro hx
    obtain ⟨i, hi, rfl⟩ := List.mem_iff_getElem.mp hx
    have hge : lowerBound l l[i] 0 l.length ≤ i := by
      by_contra h
      have := h1 i hi (by omega)
      rw [lt_irrefl] at this; simp at this
    have hlt : lowerBound l l[i] 0 l.length < l.length := by omega
    refine ⟨hlt, ?_⟩
    rw [getD_eq hlt]
    by_cases h : lowerBound l l[i] 0 l.length = i
    · simp only [h]; exact lt_irrefl _
    · exact List.pairwise_iff_getElem.mp hs _ i hlt hi (by omega)

/-- On sorted ranges `set_intersection` yields exactly the common elements. -/
theorem mem_setIntersection {l m : List Bytes} (hl : Sorted l) (hm : Sorted m) (x : Bytes) :
    x ∈ setIntersection l m ↔ x ∈ l ∧ x ∈ m := by
  fun_induction setIntersection l m with
  | case1 => simp
  | case2 => simp
  | case3 a l b m hab ih =>
    rw [ih (List.Pairwise.of_cons hl) hm, List.mem_cons (a := x) (b := a)]
    constructor
    · rintro ⟨h1, h2⟩; exact ⟨Or.inr h1, h2⟩
    · rintro ⟨rfl | h1, h2⟩
      · exfalso
        rcases List.mem_cons.mp h2 with rfl | h
        · rw [lt_irrefl] at hab; simp at hab
        · have := List.rel_of_pairwise_cons hm h
          rw [this] at hab; simp at hab
      · exact ⟨h1, h2⟩
  | case4 a l b m hab hba ih =>
    rw [ih hl (List.Pairwise.of_cons hm), List.mem_cons (a := x) (b := b)]
    constructor
    · rintro ⟨h1, h2⟩; exact ⟨h1, Or.inr h2⟩
    · rintro ⟨h1, rfl | h2⟩
      · exfalso
        rcases List.mem_cons.mp h1 with rfl | h
        · rw [lt_irrefl] at hba; simp at hba
        · have := List.rel_of_pairwise_cons hl h
          rw [this] at hba; simp at hba
      · exact ⟨h1, h2⟩
  | case5 a l b m hab hba ih =>
    have e : a = b := eq_of_not_lt (by simpa using hab) (by simpa using hba)
    subst e
    rw [List.mem_cons, ih (List.Pairwise.of_cons hl) (List.Pairwise.of_cons hm), List.mem_cons, List.mem_cons]
    constructor
    · rintro (h | ⟨h1, h2⟩)
      · exact ⟨Or.inl h, Or.inl h⟩
      · exact ⟨Or.inr h1, Or.inr h2⟩
    · rintro ⟨h | h1, h' | h2⟩
      · exact Or.inl h
      · exact Or.inl h
      · exact Or.inl h'
      · exact Or.inr ⟨h1, h2⟩

end Psi.Std
