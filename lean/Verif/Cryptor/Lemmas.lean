import Verif.Cryptor.Model
import Mathlib.Data.List.Perm.Basic
import Mathlib.Data.List.Forall2

/-! # Masking in batches: lemmas -/

namespace Psi.Cryptor

open Psi.Spiral (Res mapRes)

/-- Chunks that cover `[0, n)`, each index once: what `yacl::parallel_for` hands to its threads. -/
def Cover (n : Nat) (chunks : List (Nat × Nat)) : Prop := (indices chunks).Perm (List.range n)

theorem Cover.mem {n : Nat} {chunks : List (Nat × Nat)} (h : Cover n chunks) (i : Nat) : i ∈ indices chunks ↔ i < n := by
  rw [List.Perm.mem_iff h, List.mem_range]

theorem parallelFor_eq {α P : Type} (g : α → Option P) (input : List α) (is : List Nat) (ret : Nat → Option P)
    (hi : ∀ i ∈ is, i < input.length) :
    parallelFor (eachStep (fun a => check (g a)) input) is ret
      = if ∀ i ∈ is, (input[i]?.bind g).isSome then .ok (fun j => if j ∈ is then input[j]?.bind g else ret j) else .throws := by
  induction is generalizing ret with
  | nil => simp [parallelFor]
  | cons i is ih =>
    have h1 : i < input.length := hi i (by simp)
    have h2 : input[i]? = some input[i] := List.getElem?_eq_getElem h1
    rw [parallelFor]
    simp only [eachStep, h2]
    cases hg : g input[i] with
    | none =>
      rw [if_neg]
      · rfl
      · intro h
        have := h i (by simp)
        simp [h2, hg] at this
    | some b =>
      show parallelFor _ is (Function.update ret i (some b)) = _
      rw [ih _ fun j hj => hi j (by simp [hj])]
      by_cases hall : ∀ j ∈ is, (input[j]?.bind g).isSome
      · rw [if_pos hall, if_pos]
        · congr 1
          funext j
          by_cases hj : j ∈ is
          · simp [hj]
          · by_cases hji : j = i
            · subst hji
              simp [hj, h2, hg]
            · simp [hj, hji]
        · intro j hj
          rcases List.mem_cons.1 hj with rfl | hj
          · simp [h2, hg]
          · exact hall j hj
      · rw [if_neg hall, if_neg fun h => hall fun j hj => h j (by simp [hj])]

theorem check_mapM {α P : Type} (g : α → Option P) (d : P) (input : List α) :
    check (input.mapM g) = if ∀ i < input.length, (input[i]?.bind g).isSome
      then .ok ((List.range input.length).map fun i => (input[i]?.bind g).getD d) else .throws := by
  induction input with
  | nil => simp [check]
  | cons a l ih =>
    rw [List.mapM_cons]
    cases hg : g a with
    | none =>
      rw [if_neg]
      · rfl
      · intro h
        have := h 0 (by simp)
        simp [hg] at this
    | some b =>
      have key : (∀ i < (a :: l).length, (((a :: l)[i]?).bind g).isSome) ↔ ∀ i < l.length, ((l[i]?).bind g).isSome := by
        constructor
        · intro h i hi
          have := h (i + 1) (by simpa using hi)
          simpa using this
        · intro h i hi
          cases i with
          | zero => simp [hg]
          | succ i => simpa using h i (by simpa using hi)
      by_cases hall : ∀ i < l.length, ((l[i]?).bind g).isSome
      · rw [if_pos hall] at ih
        rw [if_pos (key.2 hall)]
        cases hm : l.mapM g with
        | none => rw [hm] at ih; simp [check] at ih
        | some bs =>
          rw [hm] at ih
          simp only [check, Res.ok.injEq] at ih
          rw [List.length_cons, List.range_succ_eq_map]
          simp [check, hg, ih, Function.comp_def]
      · rw [if_neg hall] at ih
        rw [if_neg fun h => hall (key.1 h)]
        cases hm : l.mapM g with
        | none => rfl
        | some bs => rw [hm] at ih; simp [check] at ih

/-- A loop over chunks gives what the loop over the list gives. -/
theorem each_eq {α P : Type} (g : α → Option P) (d : P) (input : List α) (chunks : List (Nat × Nat)) (hc : Cover input.length chunks) :
    each (fun a => check (g a)) d input chunks = check (input.mapM g) := by
  rw [each, parallelFor_eq g input _ _ fun i hi => (hc.mem i).1 hi, check_mapM g d]
  simp only [hc.mem]
  split
  · simp only [Res.bind, collect]
    congr 1
    apply List.map_congr_left
    intro i hi
    simp [List.mem_range.1 hi]
  · rfl

theorem mapRes_ok {α β : Type} (f : α → β) (l : List α) : mapRes (fun a => Res.ok (f a)) l = .ok (l.map f) := by
  induction l with
  | nil => rfl
  | cons a l ih => simp [mapRes, ih, Res.bind]

theorem lanes_eq (batch : List Bytes) (h0 : 0 < batch.length) :
    lanes batch = (List.range 8).map fun i => some ((batch[i]?).getD (batch[0])) := by
  unfold lanes
  apply List.map_congr_left
  intro i _
  split
  · rename_i h
    simp [List.getElem?_eq_getElem h]
  · rename_i h
    simp [List.getElem?_eq_none (Nat.le_of_not_lt h), List.getElem?_eq_getElem h0]

theorem maskBatch_eq {F S : Type} (L : Prims F S) (key : Bytes) (idx : Nat) (batch : List Bytes) (ret : Nat → Option Bytes)
    (h0 : 0 < batch.length) (h8 : batch.length ≤ 8) :
    maskBatch L key idx batch ret = if ∀ i < batch.length, ((batch[i]?).bind (L.lane key)).isSome
      then .ok (fun j => if idx ≤ j ∧ j < idx + batch.length then (batch[j - idx]?).bind (L.lane key) else ret j)
      else .throws := by
  unfold maskBatch
  rw [lanes_eq batch h0]
  have e : mapRes (laneOf L key) ((List.range 8).map fun i => some ((batch[i]?).getD (batch[0])))
      = .ok ((List.range 8).map fun i => L.lane key ((batch[i]?).getD (batch[0]))) := by
    generalize List.range 8 = l
    induction l with
    | nil => rfl
    | cons a l ih => simp [mapRes, ih, Res.bind, laneOf]
  rw [e]
  simp only [Res.bind]
  have key1 : ((List.range 8).map fun i => L.lane key ((batch[i]?).getD (batch[0]))).all Option.isSome = true
      ↔ ∀ i < batch.length, ((batch[i]?).bind (L.lane key)).isSome := by
    rw [List.all_eq_true]
    constructor
    · intro h i hi
      have := h _ (List.mem_map.2 ⟨i, List.mem_range.2 (by omega), rfl⟩)
      simpa [List.getElem?_eq_getElem hi] using this
    · intro h o ho
      obtain ⟨i, -, rfl⟩ := List.mem_map.1 ho
      by_cases hi : i < batch.length
      · simpa [List.getElem?_eq_getElem hi] using h i hi
      · simpa [List.getElem?_eq_none (Nat.le_of_not_lt hi), List.getElem?_eq_getElem h0] using h 0 h0
  by_cases hall : ∀ i < batch.length, ((batch[i]?).bind (L.lane key)).isSome
  · rw [if_pos hall, if_pos (key1.2 hall)]
    congr 1
    funext j
    split
    · rename_i hj
      have hlt : j - idx < batch.length := by omega
      have h8' : j - idx < 8 := by omega
      simp [List.getElem?_eq_getElem hlt, h8']
    · rfl
  · rw [if_neg hall, if_neg fun h => hall (key1.1 h)]

open Classical in
theorem go_eq {F S : Type} (L : Prims F S) (key : Bytes) (points : List Bytes) (bs : List (Nat × Nat)) (ret : Nat → Option Bytes)
    (hb : ∀ b ∈ bs, 0 < b.2 ∧ b.2 ≤ 8 ∧ b.1 + b.2 ≤ points.length) :
    ippMask.go L key points bs ret
      = if ∀ i, (∃ b ∈ bs, b.1 ≤ i ∧ i < b.1 + b.2) → ((points[i]?).bind (L.lane key)).isSome
        then .ok (fun j => if ∃ b ∈ bs, b.1 ≤ j ∧ j < b.1 + b.2 then (points[j]?).bind (L.lane key) else ret j)
        else .throws := by
  induction bs generalizing ret with
  | nil => simp [ippMask.go]
  | cons b bs ih =>
    obtain ⟨idx, n⟩ := b
    obtain ⟨h0, h8, hle⟩ := hb (idx, n) (by simp)
    simp only at h0 h8 hle
    have hlen : ((points.drop idx).take n).length = n := by simp; omega
    have hget : ∀ i < n, ((points.drop idx).take n)[i]? = points[idx + i]? := by
      intro i hi
      simp [hi]
    rw [ippMask.go, if_neg (by omega), maskBatch_eq L key idx _ ret (by omega) (by omega)]
    rw [hlen]
    have hall : (∀ i < n, ((((points.drop idx).take n)[i]?).bind (L.lane key)).isSome)
        ↔ ∀ j, idx ≤ j ∧ j < idx + n → ((points[j]?).bind (L.lane key)).isSome := by
      constructor
      · intro h j hj
        have := h (j - idx) (by omega)
        rwa [hget _ (by omega), show idx + (j - idx) = j by omega] at this
      · intro h i hi
        rw [hget i hi]
        exact h (idx + i) (by omega)
    by_cases h1 : ∀ j, idx ≤ j ∧ j < idx + n → ((points[j]?).bind (L.lane key)).isSome
    · rw [if_pos (hall.2 h1)]
      simp only [Res.bind]
      rw [ih _ fun b hb' => hb b (by simp [hb'])]
      by_cases h2 : ∀ i, (∃ b ∈ bs, b.1 ≤ i ∧ i < b.1 + b.2) → ((points[i]?).bind (L.lane key)).isSome
      · rw [if_pos h2, if_pos]
        · congr 1
          funext j
          by_cases hj : ∃ b ∈ bs, b.1 ≤ j ∧ j < b.1 + b.2
          · rw [if_pos hj, if_pos]
            obtain ⟨b, hb', hr⟩ := hj
            exact ⟨b, by simp [hb'], hr⟩
          · rw [if_neg hj]
            by_cases hin : idx ≤ j ∧ j < idx + n
            · rw [if_pos hin, if_pos ⟨(idx, n), by simp, hin⟩, hget _ (by omega), show idx + (j - idx) = j by omega]
            · rw [if_neg hin, if_neg]
              rintro ⟨b, hb', hr⟩
              rcases List.mem_cons.1 hb' with rfl | hb'
              · exact hin hr
              · exact hj ⟨b, hb', hr⟩
        · rintro i ⟨b, hb', hr⟩
          rcases List.mem_cons.1 hb' with rfl | hb'
          · exact h1 i hr
          · exact h2 i ⟨b, hb', hr⟩
      · rw [if_neg h2, if_neg]
        intro h
        refine h2 fun i hi => h i ?_
        obtain ⟨b, hb', hr⟩ := hi
        exact ⟨b, by simp [hb'], hr⟩
    · rw [if_neg fun h => h1 (hall.1 h), if_neg]
      · rfl
      · intro h
        exact h1 fun j hj => h j ⟨(idx, n), by simp, hj⟩

theorem mem_indices (chunks : List (Nat × Nat)) (i : Nat) : i ∈ indices chunks ↔ ∃ c ∈ chunks, c.1 ≤ i ∧ i < c.2 := by
  unfold indices
  rw [List.mem_flatMap]
  constructor
  · rintro ⟨c, hc, hi⟩
    rw [List.mem_range'_1] at hi
    exact ⟨c, hc, by omega, by omega⟩
  · rintro ⟨c, hc, h1, h2⟩
    exact ⟨c, hc, by rw [List.mem_range'_1]; omega⟩

theorem mem_starts (c : Nat × Nat) (b : Nat × Nat) (h : b ∈ starts c) : 0 < b.2 ∧ b.2 ≤ 8 ∧ c.1 ≤ b.1 ∧ b.1 + b.2 ≤ c.2 := by
  unfold starts at h
  obtain ⟨k, hk, rfl⟩ := List.mem_map.1 h
  rw [List.mem_range] at hk
  simp only
  omega

theorem cover_starts (chunks : List (Nat × Nat)) (i : Nat) :
    (∃ b ∈ chunks.flatMap starts, b.1 ≤ i ∧ i < b.1 + b.2) ↔ i ∈ indices chunks := by
  rw [mem_indices]
  constructor
  · rintro ⟨b, hb, h1, h2⟩
    obtain ⟨c, hc, hb⟩ := List.mem_flatMap.1 hb
    have := mem_starts c b hb
    exact ⟨c, hc, by omega, by omega⟩
  · rintro ⟨c, hc, h1, h2⟩
    refine ⟨(c.1 + 8 * ((i - c.1) / 8), min 8 (c.2 - (c.1 + 8 * ((i - c.1) / 8)))), ?_, ?_, ?_⟩
    · refine List.mem_flatMap.2 ⟨c, hc, List.mem_map.2 ⟨(i - c.1) / 8, ?_, rfl⟩⟩
      rw [List.mem_range]
      omega
    · simp only; omega
    · simp only; omega

/-- The batches of eight give what the lane gives for every point. -/
theorem ippMask_eq {F S : Type} (L : Prims F S) (key : Bytes) (points : List Bytes) (chunks : List (Nat × Nat))
    (hc : Cover points.length chunks) : ippMask L key points chunks = check (points.mapM (L.lane key)) := by
  unfold ippMask
  rw [go_eq, check_mapM (L.lane key) (List.replicate 32 0)]
  · simp only [cover_starts, hc.mem]
    by_cases hall : ∀ i < points.length, ((points[i]?).bind (L.lane key)).isSome
    · rw [if_pos hall, if_pos hall]
      simp only [Res.bind, collect]
      congr 1
      apply List.map_congr_left
      intro i hi
      simp [List.mem_range.1 hi]
    · rw [if_neg hall, if_neg hall]
      rfl
  · intro b hb
    obtain ⟨c, hcm, hb⟩ := List.mem_flatMap.1 hb
    have h := mem_starts c b hb
    have : b.1 + b.2 - 1 ∈ indices chunks := (mem_indices chunks _).2 ⟨c, hcm, by omega, by omega⟩
    have := (hc.mem _).1 this
    omega

theorem mapM_some {α β : Type} (f : α → β) (l : List α) : l.mapM (fun a => some (f a)) = some (l.map f) := by
  induction l with
  | nil => rfl
  | cons a l ih => simp [ih]

theorem mapM_bind {α β γ : Type} (f : α → Option β) (g : β → Option γ) (l : List α) :
    (l.mapM f).bind (fun m => m.mapM g) = l.mapM fun a => (f a).bind g := by
  induction l with
  | nil => rfl
  | cons a l ih =>
    cases hf : f a with
    | none => simp [hf]
    | some b =>
      cases hm : l.mapM f with
      | none =>
        rw [hm] at ih
        simp only [Option.bind_none] at ih
        cases hg : g b with
        | none => simp [hf, hm, hg]
        | some c => simp [hf, hm, hg, ← ih]
      | some m =>
        rw [hm] at ih
        simp only [Option.bind_some] at ih
        cases hg : g b with
        | none => simp [hf, hm, hg]
        | some c => simp [hf, hm, hg, ← ih]

theorem mapM_eq_some {α β : Type} (f : α → Option β) (l : List α) (m : List β) :
    l.mapM f = some m ↔ List.Forall₂ (fun a b => f a = some b) l m := by
  induction l generalizing m with
  | nil => simp [eq_comm]
  | cons a l ih =>
    cases hf : f a with
    | none => simp [hf, List.forall₂_cons_left_iff]
    | some b =>
      cases hm : l.mapM f with
      | none =>
        have : ∀ m, ¬ List.Forall₂ (fun a b => f a = some b) l m := fun m h => by simp [hm] at ih; exact ih m h
        simp [hf, hm, List.forall₂_cons_left_iff, this]
      | some m' =>
        simp only [List.mapM_cons, hf, hm, List.forall₂_cons_left_iff]
        constructor
        · intro h
          simp at h
          exact ⟨b, m', rfl, (ih m').1 hm, h.symm⟩
        · rintro ⟨b', m'', hb, hF, rfl⟩
          have := (ih m'').2 hF
          rw [hm] at this
          simp at this hb
          simp [this, hb]

theorem mapM_eq_none {α β : Type} (f : α → Option β) (l : List α) : l.mapM f = none ↔ ∃ a ∈ l, f a = none := by
  induction l with
  | nil => simp
  | cons a l ih =>
    cases hf : f a with
    | none => simp [hf]
    | some b =>
      cases hm : l.mapM f with
      | none => simpa [hf, hm] using ih.1 hm
      | some m =>
        have : ¬ ∃ a ∈ l, f a = none := fun h => by have := ih.2 h; rw [hm] at this; simp at this
        push Not at this
        simpa [hf, hm] using this

end Psi.Cryptor
