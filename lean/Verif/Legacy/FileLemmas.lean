import Verif.Legacy.Spec
import Verif.Std.Lemmas
import Mathlib.Data.List.Basic
import Mathlib.Data.List.Nodup

/-! # Files of the bucket interface: lemmas -/

namespace Psi.Legacy
open Psi.Std (Bytes)

/-! ## Selecting lines -/

theorem inc_nil (lo hi : Nat) : Inc lo hi [] := ⟨.nil, by simp⟩

theorem inc_hit (lo hi : Nat) (h : lo < hi) (is : List Nat) : Inc lo hi (lo :: is) ↔ Inc (lo + 1) hi is := by
  unfold Inc
  rw [List.pairwise_cons]
  constructor
  · rintro ⟨⟨h1, h2⟩, h3⟩
    exact ⟨h2, fun x hx => ⟨h1 x hx, (h3 x (by simp [hx])).2⟩⟩
  · rintro ⟨h1, h2⟩
    refine ⟨⟨fun x hx => (h2 x hx).1, h1⟩, ?_⟩
    intro x hx
    rcases List.mem_cons.mp hx with rfl | hx
    · exact ⟨Nat.le_refl _, h⟩
    · exact ⟨by have := (h2 x hx).1; omega, (h2 x hx).2⟩

theorem inc_miss (lo hi i : Nat) (is : List Nat) (h : i ≠ lo) : Inc lo hi (i :: is) ↔ Inc (lo + 1) hi (i :: is) := by
  unfold Inc
  rw [List.pairwise_cons]
  constructor
  · rintro ⟨h1, h2⟩
    refine ⟨h1, fun x hx => ?_⟩
    have := h2 i (by simp)
    have hx' := h2 x hx
    rcases List.mem_cons.mp hx with rfl | hx
    · omega
    · have := h1.1 x hx
      omega
  · rintro ⟨h1, h2⟩
    exact ⟨h1, fun x hx => ⟨by have := (h2 x hx).1; omega, (h2 x hx).2⟩⟩

theorem pick_nil (diff : Bool) (lo : Nat) (ind : List Nat) : pick diff lo [] ind = [] := rfl

theorem pick_cons (diff : Bool) (lo : Nat) (l : Bytes) (ls : List Bytes) (ind : List Nat) :
    pick diff lo (l :: ls) ind = if decide (lo ∈ ind) != diff then l :: pick diff (lo + 1) ls ind else pick diff (lo + 1) ls ind := by
  unfold pick
  rw [List.zipIdx_cons, List.filter_cons]
  split <;> simp

/-- A number that is too small does not matter. -/
theorem pick_drop (diff : Bool) (lo i : Nat) (ls : List Bytes) (is : List Nat) (h : i < lo) :
    pick diff lo ls (i :: is) = pick diff lo ls is := by
  unfold pick
  congr 1
  apply List.filter_congr
  intro x hx
  have := List.le_snd_of_mem_zipIdx hx
  have hne : x.2 ≠ i := by omega
  simp [hne]

theorem loop_header (h : Nat) (diff : Bool) : ∀ (H ls : List Bytes) (idx : Nat) (ind : List Nat), idx + H.length = h →
    filterLoop h diff (H ++ ls) idx ind =
      (H ++ (filterLoop h diff ls h ind).1, (filterLoop h diff ls h ind).2.1, (filterLoop h diff ls h ind).2.2)
  | [], ls, idx, ind, e => by
    have : idx = h := by simpa using e
    simp [this]
  | l :: H, ls, idx, ind, e => by
    have e' : idx + 1 + H.length = h := by simp at e; omega
    rw [List.cons_append]
    conv => lhs; unfold filterLoop
    rw [if_pos (by simp at e; omega), loop_header h diff H ls (idx + 1) ind e']
    rfl

theorem loop_pick (h : Nat) : ∀ (ls : List Bytes) (k : Nat) (ind : List Nat),
    (filterLoop h false ls (h + k) ind).2.1 ≤ ind.length ∧
    ((filterLoop h false ls (h + k) ind).2.1 = ind.length ↔ Inc k (k + ls.length) ind) ∧
    (Inc k (k + ls.length) ind → (filterLoop h false ls (h + k) ind).1 = pick false k ls ind)
  | [], k, ind => by
    refine ⟨by simp [filterLoop], ?_, fun _ => rfl⟩
    simp only [filterLoop, List.length_nil, Nat.add_zero]
    constructor
    · intro e
      rw [List.length_eq_zero_iff.mp e.symm]
      exact inc_nil _ _
    · intro hi
      cases ind with
      | nil => rfl
      | cons i is => have := hi.2 i (by simp); omega
  | l :: ls, k, ind => by
    unfold filterLoop
    rw [if_neg (by omega)]
    cases ind with
    | nil =>
      refine ⟨by simp, ⟨fun _ => inc_nil _ _, fun _ => by simp⟩, fun _ => ?_⟩
      simp only [Bool.not_false, List.isEmpty_nil, Bool.and_self, if_true]
      unfold pick
      simp
    | cons i is =>
      simp only [Bool.not_false, List.isEmpty_cons, Bool.and_false, Bool.false_eq_true, if_false, List.head?_cons,
        Option.some.injEq, List.tail_cons, Nat.add_sub_cancel_left]
      by_cases e : i = k
      · subst e
        have ih := loop_pick h ls (i + 1) is
        simp only [decide_true, if_true, Bool.true_bne, Bool.not_false, List.length_cons]
        rw [← Nat.add_assoc] at ih
        have hlen : i + (ls.length + 1) = i + 1 + ls.length := by omega
        refine ⟨by omega, ?_, ?_⟩
        · rw [inc_hit _ _ (by omega), hlen, ← ih.2.1]
          omega
        · intro hi
          rw [inc_hit _ _ (by omega), hlen] at hi
          rw [ih.2.2 hi, pick_cons, if_pos (by simp), pick_drop _ _ _ _ _ (by omega)]
      · have ih := loop_pick h ls (k + 1) (i :: is)
        rw [← Nat.add_assoc] at ih
        have hlen : k + (l :: ls).length = k + 1 + ls.length := by simp; omega
        simp only [e, decide_false, bne_self_eq_false, Bool.false_eq_true, if_false]
        refine ⟨ih.1, ?_, ?_⟩
        · rw [inc_miss _ _ _ _ e, hlen]
          exact ih.2.1
        · intro hi
          rw [inc_miss _ _ _ _ e, hlen] at hi
          rw [ih.2.2 hi, pick_cons, if_neg]
          intro hk
          have : k ∈ i :: is := by simpa using hk
          have := (hi.2 k this).1
          omega

theorem loop_diff (h : Nat) : ∀ (ls : List Bytes) (k : Nat) (ind : List Nat),
    (filterLoop h true ls (h + k) ind).2.2 = h + k + ls.length ∧
    ∃ n, (filterLoop h true ls (h + k) ind).2.1 + n = ls.length ∧ n ≤ ind.length ∧
      (n = ind.length ↔ Inc k (k + ls.length) ind) ∧
      (Inc k (k + ls.length) ind → (filterLoop h true ls (h + k) ind).1 = pick true k ls ind)
  | [], k, ind => by
    refine ⟨by simp [filterLoop], 0, by simp [filterLoop], by simp, ?_, fun _ => rfl⟩
    simp only [List.length_nil, Nat.add_zero]
    constructor
    · intro e
      rw [List.length_eq_zero_iff.mp e.symm]
      exact inc_nil _ _
    · intro hi
      cases ind with
      | nil => rfl
      | cons i is => have := hi.2 i (by simp); omega
  | l :: ls, k, ind => by
    unfold filterLoop
    rw [if_neg (by omega)]
    simp only [Bool.not_true, Bool.false_and, Bool.false_eq_true, if_false, Nat.add_sub_cancel_left]
    by_cases e : ind.head? = some k
    · obtain ⟨is, rfl⟩ : ∃ is, ind = k :: is := by
        cases ind with
        | nil => simp at e
        | cons i is => exact ⟨is, by simp at e; rw [e]⟩
      obtain ⟨h1, n, h2, h3, h4, h5⟩ := loop_diff h ls (k + 1) is
      have hlen : k + (l :: ls).length = k + 1 + ls.length := by simp; omega
      rw [← Nat.add_assoc] at h1 h2 h5
      simp only [List.head?_cons, decide_true, if_true, List.tail_cons, bne_self_eq_false, Bool.false_eq_true, if_false]
      refine ⟨by rw [h1]; simp; omega, n + 1, by simp; omega, by simp; omega, ?_, ?_⟩
      · rw [inc_hit _ _ (by simp), hlen, ← h4]
        simp
      · intro hi
        rw [inc_hit _ _ (by simp), hlen] at hi
        rw [h5 hi, pick_cons, if_neg (by simp), pick_drop _ _ _ _ _ (by omega)]
    · obtain ⟨h1, n, h2, h3, h4, h5⟩ := loop_diff h ls (k + 1) ind
      have hlen : k + (l :: ls).length = k + 1 + ls.length := by simp; omega
      rw [← Nat.add_assoc] at h1 h2 h5
      have hinc : Inc k (k + 1 + ls.length) ind ↔ Inc (k + 1) (k + 1 + ls.length) ind := by
        cases ind with
        | nil => exact ⟨fun _ => inc_nil _ _, fun _ => inc_nil _ _⟩
        | cons i is => exact inc_miss _ _ _ _ (by simpa using e)
      simp only [e, decide_false, if_false, Bool.false_eq_true, Bool.false_bne, if_true]
      refine ⟨by rw [h1]; simp; omega, n, by simp; omega, h3, ?_, ?_⟩
      · rw [hlen, hinc]
        exact h4
      · intro hi
        rw [hlen, hinc] at hi
        rw [h5 hi, pick_cons, if_pos]
        simp only [Bool.bne_true, Bool.not_eq_true', decide_eq_false_iff_not]
        intro hk
        have := (hi.2 k hk).1
        omega

/-- The whole function. -/
theorem filterFile_eq (diff : Bool) (H ls : List Bytes) (ind : List Nat) (hl : H.length + ls.length < 2 ^ 64)
    (hi : ind.length < 2 ^ 64) :
    filterFile H.length diff (H ++ ls) ind =
      if Inc 0 ls.length ind then some (H ++ pick diff 0 ls ind, ind.length) else none := by
  unfold filterFile
  simp only
  rw [loop_header H.length diff H ls 0 ind (by omega)]
  cases diff with
  | false =>
    have h := loop_pick H.length ls 0 ind
    simp only [Nat.add_zero, Nat.zero_add] at h
    simp only [Bool.false_eq_true, if_false]
    by_cases hc : Inc 0 ls.length ind
    · rw [if_pos (h.2.1.mpr hc), if_pos hc, h.2.2 hc]
    · rw [if_neg (fun e => hc (h.2.1.mp e)), if_neg hc]
  | true =>
    obtain ⟨h1, n, h2, h3, h4, h5⟩ := loop_diff H.length ls 0 ind
    simp only [Nat.add_zero, Nat.zero_add] at h1 h2 h4 h5
    simp only [if_true]
    have hn : n ≤ ls.length := by omega
    have key : (filterLoop H.length true ls H.length ind).2.1 =
        ((filterLoop H.length true ls H.length ind).2.2 + 2 ^ 65 - H.length - ind.length) % 2 ^ 64 ↔ n = ind.length := by
      rw [h1]
      constructor
      · intro e
        omega
      · intro e
        omega
    by_cases hc : Inc 0 ls.length ind
    · rw [if_pos (key.mpr (h4.mpr hc)), if_pos hc, h5 hc]
    · rw [if_neg (fun e => hc (h4.mp (key.mp e))), if_neg hc]

theorem loopFile_eq (h : Nat) (diff : Bool) : ∀ (ls : List Bytes) (idx : Nat) (ind : List Nat) (cnt : Nat),
    ∃ rest : List Nat, rest.length ≤ ind.length ∧
      filterLoopFile h diff ls idx ind.head? ind.tail cnt =
        ((filterLoop h diff ls idx ind).1, (filterLoop h diff ls idx ind).2.1, (filterLoop h diff ls idx ind).2.2,
          cnt + (ind.length - 1 - (rest.length - 1)))  ∧
      (diff = false → (filterLoop h diff ls idx ind).2.1 + rest.length = ind.length) ∧
      (diff = true → h ≤ idx → (filterLoop h diff ls idx ind).2.1 + ind.length = ls.length + rest.length)
  | [], idx, ind, cnt => ⟨ind, Nat.le_refl _, by simp [filterLoopFile, filterLoop], by simp [filterLoop], by simp [filterLoop]⟩
  | l :: ls, idx, ind, cnt => by
    unfold filterLoopFile filterLoop
    by_cases hh : idx < h
    · rw [if_pos hh, if_pos hh]
      obtain ⟨rest, h0, h1, h2, h3⟩ := loopFile_eq h diff ls (idx + 1) ind cnt
      refine ⟨rest, h0, ?_, h2, ?_⟩
      · simp only [h1]
      · intro _ hx
        omega
    · rw [if_neg hh, if_neg hh]
      by_cases hb : (!diff && ind.isEmpty) = true
      · have hb' : (!diff && ind.head?.isNone) = true := by
          cases ind <;> simp_all
        rw [if_pos hb, if_pos hb']
        have hnil : ind = [] := by simp at hb; exact hb.2
        subst hnil
        refine ⟨[], by simp, by simp, by simp, ?_⟩
        intro hd
        simp [hd] at hb
      · have hb' : ¬ (!diff && ind.head?.isNone) = true := by
          intro hx
          apply hb
          cases ind <;> simp_all
        rw [if_neg hb, if_neg hb']
        by_cases e : ind.head? = some (idx - h)
        · obtain ⟨is, rfl⟩ : ∃ is, ind = (idx - h) :: is := by
            cases ind with
            | nil => simp at e
            | cons i is => exact ⟨is, by simp at e; rw [e]⟩
          obtain ⟨rest, h0, h1, h2, h3⟩ := loopFile_eq h diff ls (idx + 1) is (cnt + min 1 is.length)
          have hcnt : cnt + min 1 is.length + (is.length - 1 - (rest.length - 1)) =
              cnt + (((idx - h) :: is).length - 1 - (rest.length - 1)) := by
            simp only [List.length_cons]
            omega
          simp only [List.head?_cons, decide_true, if_true, List.tail_cons, h1, hcnt]
          refine ⟨rest, by simp; omega, ?_, ?_, ?_⟩
          · cases diff <;> simp
          · intro hd
            have := h2 hd
            subst hd
            simp
            omega
          · intro hd hx
            have := h3 hd (by omega)
            subst hd
            simp
            omega
        · obtain ⟨rest, h0, h1, h2, h3⟩ := loopFile_eq h diff ls (idx + 1) ind cnt
          simp only [e, decide_false, if_false, Bool.false_eq_true, h1]
          refine ⟨rest, h0, ?_, ?_, ?_⟩
          · cases diff <;> simp
          · intro hd
            have := h2 hd
            subst hd
            simp
            omega
          · intro hd hx
            have := h3 hd (by omega)
            subst hd
            simp
            omega

/-- The version that reads the numbers from a file behaves the same. -/
theorem filterFileByFile_eq (diff : Bool) (H ls : List Bytes) (ind : List Nat) (hl : H.length + ls.length < 2 ^ 64)
    (hi : ind.length < 2 ^ 64) :
    filterFileByFile H.length diff (H ++ ls) ind = filterFile H.length diff (H ++ ls) ind := by
  rw [filterFile_eq diff H ls ind hl hi]
  unfold filterFileByFile
  simp only
  have hskip : ∀ (H' : List Bytes) (idx : Nat) (cur : Option Nat) (rest : List Nat) (cnt : Nat), idx + H'.length = H.length →
      filterLoopFile H.length diff (H' ++ ls) idx cur rest cnt =
        (H' ++ (filterLoopFile H.length diff ls H.length cur rest cnt).1, (filterLoopFile H.length diff ls H.length cur rest cnt).2.1,
          (filterLoopFile H.length diff ls H.length cur rest cnt).2.2) := by
    intro H'
    induction H' with
    | nil =>
      intro idx cur rest cnt e
      have : idx = H.length := by simpa using e
      simp [this]
    | cons l H' ih =>
      intro idx cur rest cnt e
      have e' : idx + 1 + H'.length = H.length := by simp at e; omega
      rw [List.cons_append]
      conv => lhs; unfold filterLoopFile
      rw [if_pos (by simp at e; omega), ih (idx + 1) _ _ _ e']
      rfl
  rw [hskip H 0 _ _ _ (by omega)]
  obtain ⟨rest, h0, h1, h2, h3⟩ := loopFile_eq H.length diff ls H.length ind (min 1 ind.length)
  rw [h1]
  simp only
  cases diff with
  | false =>
    have h := loop_pick H.length ls 0 ind
    simp only [Nat.add_zero, Nat.zero_add] at h
    have h2 := h2 rfl
    simp only [Bool.false_eq_true, if_false]
    by_cases hc : Inc 0 ls.length ind
    · have := h.2.1.mpr hc
      rw [if_pos (by omega), if_pos hc, h.2.2 hc]
      congr 2
      omega
    · have : (filterLoop H.length false ls H.length ind).2.1 ≠ ind.length := fun e => hc (h.2.1.mp e)
      rw [if_neg (by omega), if_neg hc]
  | true =>
    obtain ⟨g1, n, g2, g3, g4, g5⟩ := loop_diff H.length ls 0 ind
    simp only [Nat.add_zero, Nat.zero_add] at g1 g2 g4 g5
    have h3 := h3 rfl (Nat.le_refl _)
    simp only [if_true]
    rw [g1]
    by_cases hc : Inc 0 ls.length ind
    · have := g4.mpr hc
      rw [if_pos (by omega), if_pos hc, g5 hc]
      congr 2
      omega
    · have : n ≠ ind.length := fun e => hc (g4.mp e)
      rw [if_neg (by omega), if_neg hc]

/-! ## Duplicate lines -/

theorem uniqD_nil_iff : ∀ (l : List Bytes), Std.Sorted l → (uniqD false l = [] ↔ l.Nodup)
  | [], _ => by simp [uniqD]
  | [a], _ => by simp [uniqD]
  | a :: b :: l, h => by
    unfold uniqD
    by_cases e : a = b
    · simp [e]
    · have hp := List.pairwise_cons.mp h
      have hq := List.pairwise_cons.mp hp.2
      rw [if_neg e, uniqD_nil_iff (b :: l) hp.2]
      constructor
      · intro hn
        refine List.nodup_cons.mpr ⟨?_, hn⟩
        intro hm
        rcases List.mem_cons.mp hm with rfl | hm
        · exact e rfl
        · exact e (Std.eq_of_not_lt (hq.1 a hm) (hp.1 b (by simp)))
      · exact fun hn => (List.nodup_cons.mp hn).2

/-- The lines a key becomes. -/
theorem splitLines_key : ∀ (k s : Bytes), splitLines (k ++ 10 :: s) = splitLines (k ++ [10]) ++ splitLines s
  | [], s => by simp [splitLines]
  | b :: k, s => by
    have ih := splitLines_key k s
    have hne : splitLines (k ++ [10]) ≠ [] := by
      cases k with
      | nil => simp [splitLines]
      | cons x k =>
        rw [List.cons_append]
        unfold splitLines
        split
        · simp
        · split <;> simp
    rw [List.cons_append, List.cons_append]
    generalize hr : splitLines s = r at ih
    unfold splitLines
    split
    · rw [ih]
      rfl
    · rw [ih]
      cases hs : splitLines (k ++ [10]) with
      | nil => exact absurd hs hne
      | cons l ls => rfl

theorem splitLines_ne_nil (k : Bytes) : splitLines (k ++ [10]) ≠ [] := by
  cases k with
  | nil => simp [splitLines]
  | cons x k =>
    rw [List.cons_append]
    unfold splitLines
    split
    · simp
    · split <;> simp

theorem splitLines_flatMap (keys : List Bytes) :
    splitLines (keys.flatMap fun k => k ++ [10]) = keys.flatMap fun k => splitLines (k ++ [10]) := by
  induction keys with
  | nil => rfl
  | cons k ks ih =>
    rw [List.flatMap_cons, List.flatMap_cons, List.append_assoc, List.singleton_append, splitLines_key, ih]

theorem splitLines_plain : ∀ (k : Bytes), 10 ∉ k → splitLines (k ++ [10]) = [k]
  | [], _ => by simp [splitLines]
  | b :: k, h => by
    rw [List.mem_cons, not_or] at h
    rw [List.cons_append]
    unfold splitLines
    rw [if_neg (fun e => h.1 e.symm), splitLines_plain k h.2]

/-- No duplicate lines: the keys are distinct. -/
theorem nodup_of_duplicates (keys : List Bytes) (h : duplicates keys = []) : keys.Nodup := by
  unfold duplicates at h
  rw [uniqD_nil_iff _ (Std.sort_sorted _), (Std.sort_perm _).nodup_iff, splitLines_flatMap, List.nodup_flatMap] at h
  refine h.2.imp ?_
  rintro a b hd rfl
  obtain ⟨x, hx⟩ := List.exists_mem_of_ne_nil _ (splitLines_ne_nil a)
  exact hd hx hx

/-- Distinct keys without a newline have no duplicate lines. -/
theorem duplicates_of_nodup (keys : List Bytes) (h : keys.Nodup) (hn : ∀ k ∈ keys, 10 ∉ k) : duplicates keys = [] := by
  unfold duplicates
  rw [uniqD_nil_iff _ (Std.sort_sorted _), (Std.sort_perm _).nodup_iff, splitLines_flatMap]
  have : (keys.flatMap fun k => splitLines (k ++ [10])) = keys := by
    rw [List.flatMap_congr (g := fun k => [k]) (fun k hk => splitLines_plain k (hn k hk))]
    exact List.flatMap_singleton' keys
  rw [this]
  exact h

end Psi.Legacy
