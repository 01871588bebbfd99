import Verif.Legacy.Spec
import Verif.Coll.Lemmas
import Verif.Std.Lemmas
import Mathlib.Data.List.Perm.Subperm

/-! # The tree of two-party intersections: lemmas -/

namespace Psi.Legacy
open Psi.Coll (Prog Sys Event Does)
open Psi.Std (Bytes)

variable {D : Type}

/-! ## Pairing -/

theorem findSome_range {α : Type} (f : Nat → Option α) (m j : Nat) (hj : j < m)
    (h : ∀ k, k < m → k ≠ j → f k = none) : (List.range m).findSome? f = f j := by
  cases hf : f j with
  | none =>
    rw [List.findSome?_eq_none_iff]
    intro k hk
    by_cases e : k = j
    · rw [e, hf]
    · exact h k (by simpa using hk) e
  | some v =>
    cases hr : (List.range m).findSome? f with
    | none =>
      rw [List.findSome?_eq_none_iff] at hr
      rw [hr j (by simpa using hj)] at hf
      cases hf
    | some w =>
      obtain ⟨k, hk, hw⟩ := List.exists_of_findSome?_eq_some hr
      by_cases e : k = j
      · rw [← hw, e, hf]
      · rw [h k (by simpa using hk) e] at hw
        cases hw

theorem getD_getElem {l : List Nat} {i : Nat} (h : i < l.length) : l.getD i 0 = l[i] := by
  simp [List.getD, h]

theorem nodup_ne {l : List Nat} (hn : l.Nodup) {i j : Nat} (hi : i < l.length) (hj : j < l.length) (h : i ≠ j) :
    l[i] ≠ l[j] := fun e => h ((List.getElem_inj hn).mp e)

/-- First half: the party gets the result of the exchange with its mirror image. -/
theorem psiRank_low {vec : List Nat} (hn : vec.Nodup) {i : Nat} (hi : i < vec.length / 2) :
    psiRank vec (vec.getD i 0) = some (vec.getD (vec.length - 1 - i) 0, vec.getD i 0) := by
  unfold psiRank
  rw [if_neg, findSome_range _ _ i hi]
  · simp
  · intro k hk hki
    simp only
    rw [getD_getElem (by omega), getD_getElem (by omega), getD_getElem (by omega),
      if_neg (nodup_ne hn _ _ hki), if_neg (nodup_ne hn _ _ (by omega))]
  · rintro ⟨h1, h2⟩
    rw [getD_getElem (by omega), getD_getElem (by omega)] at h2
    exact nodup_ne hn (by omega) (by omega) (by omega) h2

/-- Second half. -/
theorem psiRank_high {vec : List Nat} (hn : vec.Nodup) {i : Nat} (hi : i < vec.length / 2) :
    psiRank vec (vec.getD (vec.length - 1 - i) 0) = some (vec.getD i 0, vec.getD i 0) := by
  unfold psiRank
  rw [if_neg, findSome_range _ _ i hi]
  · simp only
    rw [if_neg, if_pos trivial]
    rw [getD_getElem (by omega), getD_getElem (by omega)]
    exact nodup_ne hn _ _ (by omega)
  · intro k hk hki
    simp only
    rw [getD_getElem (by omega), getD_getElem (by omega), getD_getElem (by omega),
      if_neg (nodup_ne hn _ _ (by omega)), if_neg (nodup_ne hn _ _ (by omega))]
  · rintro ⟨h1, h2⟩
    rw [getD_getElem (by omega), getD_getElem (by omega)] at h2
    exact nodup_ne hn (by omega) (by omega) (by omega) h2

/-- The middle party of an odd number has no peer. -/
theorem psiRank_mid {vec : List Nat} (h : vec.length % 2 ≠ 0) :
    psiRank vec (vec.getD (vec.length / 2) 0) = some (vec.getD (vec.length / 2) 0, vec.getD (vec.length / 2) 0) := by
  unfold psiRank
  rw [if_pos ⟨h, rfl⟩]

/-- Every member of the list is in one of the three places. -/
theorem place {vec : List Nat} {r : Nat} (hr : r ∈ vec) :
    (∃ i, i < vec.length / 2 ∧ r = vec.getD i 0) ∨ (∃ i, i < vec.length / 2 ∧ r = vec.getD (vec.length - 1 - i) 0) ∨
      (vec.length % 2 ≠ 0 ∧ r = vec.getD (vec.length / 2) 0) := by
  obtain ⟨i, hi, rfl⟩ := List.getElem_of_mem hr
  by_cases h1 : i < vec.length / 2
  · exact Or.inl ⟨i, h1, (getD_getElem hi).symm⟩
  · by_cases h2 : vec.length - 1 - i < vec.length / 2
    · refine Or.inr (Or.inl ⟨vec.length - 1 - i, h2, ?_⟩)
      rw [getD_getElem (by omega)]
      congr 1
      omega
    · refine Or.inr (Or.inr ⟨by omega, ?_⟩)
      rw [getD_getElem (by omega)]
      congr 1
      omega

/-! ## The reference execution -/

/-- The items after one level. -/
def nextItems (c : Env D) (vec : List Nat) (I : Nat → List Bytes) (r : Nat) : List Bytes :=
  match psiRank vec r with
  | none => I r
  | some (peer, target) => if peer = r then I r else if target = r then c.psi2 (I r) (I peer) else []

abbrev Ev (D : Type) := Event Nat Call (Msg D)

def pairEvent (vec : List Nat) (I : Nat → List Bytes) (i : Nat) : Ev D :=
  ⟨.pair (vec.getD i 0) (vec.getD (vec.length - 1 - i) 0), fun t => [.items (I t)]⟩

def gatherEvent (group : List Nat) (f : Nat → Nat) : Ev D := ⟨.gather group, fun t => [.size (f t)]⟩

def survivors (vec : List Nat) : List Nat := vec.take ((vec.length + 1) / 2)

def someEmpty (vec : List Nat) (I : Nat → List Bytes) : Bool := vec.any fun r => (I r).isEmpty

def refLevels (c : Env D) : Nat → List Nat → (Nat → List Bytes) → List (Ev D)
  | 0, _, _ => []
  | n + 1, vec, I =>
    (List.range (vec.length / 2)).map (pairEvent vec I) ++
      (gatherEvent (survivors vec) (fun t => (nextItems c vec I t).length) ::
        (if someEmpty (survivors vec) (nextItems c vec I) || (survivors vec).length == 1 then
          [⟨.bcast c.master, fun _ => []⟩]
        else refLevels c n (survivors vec) (nextItems c vec I)))

def refResult (c : Env D) : Nat → List Nat → (Nat → List Bytes) → Nat → List Bytes
  | 0, _, _, _ => []
  | n + 1, vec, I, r =>
    if r ∉ survivors vec then []
    else if someEmpty (survivors vec) (nextItems c vec I) then []
    else if (survivors vec).length == 1 then Std.sort (nextItems c vec I r)
    else refResult c n (survivors vec) (nextItems c vec I) r

theorem foldl_min_eq_zero (l : List Nat) (a : Nat) : l.foldl min a = 0 ↔ a = 0 ∨ 0 ∈ l := by
  induction l generalizing a with
  | nil => simp
  | cons b l ih =>
    rw [List.foldl_cons, ih, List.mem_cons, Nat.min_eq_zero_iff]
    grind

theorem does_pairs {c : Env D} {vec : List Nat} (hn : vec.Nodup) (I : Nat → List Bytes) {r : Nat} (hr : r ∈ vec) :
    ∃ peer target, psiRank vec r = some (peer, target) ∧
      Does (sys c) r ((List.range (vec.length / 2)).map (pairEvent vec I)) (run2 r (I r) peer target)
        (nextItems c vec I r) := by
  have other : ∀ i k, i < vec.length / 2 → k < vec.length / 2 → k ≠ i →
      vec.getD i 0 ∉ (sys c).members (pairEvent (D := D) vec I k).key ∧
      vec.getD (vec.length - 1 - i) 0 ∉ (sys c).members (pairEvent (D := D) vec I k).key := by
    intro i k hi hk hki
    simp only [sys, members, pairEvent, List.mem_cons, List.not_mem_nil, or_false, not_or]
    rw [getD_getElem (by omega), getD_getElem (by omega), getD_getElem (by omega), getD_getElem (by omega)]
    exact ⟨⟨nodup_ne hn _ _ (by omega), nodup_ne hn _ _ (by omega)⟩, nodup_ne hn _ _ (by omega), nodup_ne hn _ _ (by omega)⟩
  have split : ∀ i, i < vec.length / 2 → ∃ a b, List.range (vec.length / 2) = a ++ i :: b ∧ (∀ k ∈ a, k < vec.length / 2 ∧ k ≠ i) ∧
      ∀ k ∈ b, k < vec.length / 2 ∧ k ≠ i := by
    intro i hi
    obtain ⟨a, b, hab⟩ := List.append_of_mem (List.mem_range.mpr hi)
    have hnd := List.nodup_range (n := vec.length / 2)
    rw [hab] at hnd
    have hlt : ∀ k ∈ a ++ i :: b, k < vec.length / 2 := by
      intro k hk
      rw [← hab] at hk
      simpa using hk
    refine ⟨a, b, hab, ?_, ?_⟩
    · intro k hk
      refine ⟨hlt k (by simp [hk]), ?_⟩
      rintro rfl
      exact (List.nodup_append.mp hnd).2.2 k hk k (by simp) rfl
    · intro k hk
      refine ⟨hlt k (by simp [hk]), ?_⟩
      rintro rfl
      exact (List.nodup_cons.mp (List.nodup_append.mp hnd).2.1).1 hk
  rcases place hr with ⟨i, hi, rfl⟩ | ⟨i, hi, rfl⟩ | ⟨hodd, rfl⟩
  · refine ⟨_, _, psiRank_low hn hi, ?_⟩
    obtain ⟨a, b, hab, ha, hb⟩ := split i hi
    have hne : vec.getD (vec.length - 1 - i) 0 ≠ vec.getD i 0 := by
      rw [getD_getElem (by omega), getD_getElem (by omega)]
      exact nodup_ne hn _ _ (by omega)
    rw [hab, List.map_append, List.map_cons]
    refine Does.skips ?_ ?_
    · intro e he
      obtain ⟨k, hk, rfl⟩ := List.mem_map.mp he
      exact (other i k hi (ha k hk).1 (ha k hk).2).1
    · unfold run2
      rw [if_neg hne, if_pos rfl]
      refine Does.call (e := pairEvent vec I i) (by simp [sys, members, pairEvent]) rfl ?_
      have h0 : nextItems c vec I (vec.getD i 0) = c.psi2 (I (vec.getD i 0)) (I (vec.getD (vec.length - 1 - i) 0)) := by
        unfold nextItems
        rw [psiRank_low hn hi]
        simp only
        rw [if_neg hne, if_pos trivial]
      have := Does.skips (s := sys c) (t := vec.getD i 0) (l₀ := b.map (pairEvent vec I)) (l := [])
        (p := .ret (nextItems c vec I (vec.getD i 0))) (v := nextItems c vec I (vec.getD i 0)) (by
          intro e he
          obtain ⟨k, hk, rfl⟩ := List.mem_map.mp he
          exact (other i k hi (hb k hk).1 (hb k hk).2).1) rfl
      rw [List.append_nil] at this
      rw [h0] at this ⊢
      simpa [sys, members, answer, pairEvent, Sys.masked, Part.toItems] using this
  · refine ⟨_, _, psiRank_high hn hi, ?_⟩
    obtain ⟨a, b, hab, ha, hb⟩ := split i hi
    have hne : vec.getD i 0 ≠ vec.getD (vec.length - 1 - i) 0 := by
      rw [getD_getElem (by omega), getD_getElem (by omega)]
      exact nodup_ne hn _ _ (by omega)
    rw [hab, List.map_append, List.map_cons]
    refine Does.skips ?_ ?_
    · intro e he
      obtain ⟨k, hk, rfl⟩ := List.mem_map.mp he
      exact (other i k hi (ha k hk).1 (ha k hk).2).2
    · unfold run2
      rw [if_neg hne, if_neg hne]
      refine Does.call (e := pairEvent vec I i) (by simp [sys, members, pairEvent]) rfl ?_
      have h0 : nextItems c vec I (vec.getD (vec.length - 1 - i) 0) = [] := by
        unfold nextItems
        rw [psiRank_high hn hi]
        simp only
        rw [if_neg hne, if_neg hne]
      have := Does.skips (s := sys c) (t := vec.getD (vec.length - 1 - i) 0) (l₀ := b.map (pairEvent vec I)) (l := [])
        (p := .ret (nextItems c vec I (vec.getD (vec.length - 1 - i) 0))) (v := nextItems c vec I (vec.getD (vec.length - 1 - i) 0)) (by
          intro e he
          obtain ⟨k, hk, rfl⟩ := List.mem_map.mp he
          exact (other i k hi (hb k hk).1 (hb k hk).2).2) rfl
      rw [List.append_nil] at this
      rw [h0] at this ⊢
      have hne' : ¬ vec[vec.length - 1 - i]?.getD 0 = vec[i]?.getD 0 := fun h => hne h.symm
      simpa [sys, members, answer, pairEvent, Sys.masked, Part.toItems, hne'] using this
  · refine ⟨_, _, psiRank_mid hodd, ?_⟩
    have h0 : nextItems c vec I (vec.getD (vec.length / 2) 0) = I (vec.getD (vec.length / 2) 0) := by
      unfold nextItems
      rw [psiRank_mid hodd]
      simp
    rw [h0]
    unfold run2
    rw [if_pos rfl]
    have := Does.skips (s := sys c) (t := vec.getD (vec.length / 2) 0) (l₀ := (List.range (vec.length / 2)).map (pairEvent vec I)) (l := [])
        (p := .ret (I (vec.getD (vec.length / 2) 0))) (v := I (vec.getD (vec.length / 2) 0)) (by
          intro e he
          obtain ⟨k, hk, rfl⟩ := List.mem_map.mp he
          have hk := List.mem_range.mp hk
          simp only [sys, members, pairEvent, List.mem_cons, List.not_mem_nil, or_false, not_or]
          rw [getD_getElem (by omega), getD_getElem (by omega), getD_getElem (by omega)]
          exact ⟨nodup_ne hn _ _ (by omega), nodup_ne hn _ _ (by omega)⟩) rfl
    rwa [List.append_nil] at this

/-! ## Following the reference -/

theorem mem_sys_gather (c : Env D) (g : List Nat) (f : Nat → Nat) (r : Nat) :
    r ∈ (sys c).members (gatherEvent (D := D) g f).key ↔ r ∈ g := Iff.rfl

theorem mem_sys_bcast (c : Env D) (k : Nat) (r : Nat) : r ∈ (sys c).members (.bcast k) ↔ r < c.world := by
  simp [sys, members, Env.ranks]

/-- Gathering sizes. -/
theorem does_gather (c : Env D) (g : List Nat) (f : Nat → Nat) {r : Nat} (hr : r ∈ g) :
    Does (sys c) r [gatherEvent g f] (gatherSizes g (f r)) (g.map f) := by
  refine Does.call (e := gatherEvent g f) hr rfl ?_
  show _ = _
  congr 1
  simp only [sys, answer, gatherEvent, List.map_map]
  apply List.map_congr_left
  intro t ht
  have hm : Sys.masked (sys c) (gatherEvent (D := D) g f).key (gatherEvent (D := D) g f).pay t = [.size (f t)] := if_pos ht
  show Part.toSize (List.headD (Sys.masked (sys c) (gatherEvent (D := D) g f).key (gatherEvent (D := D) g f).pay t) _) = f t
  rw [hm]
  rfl

/-- The master's message at the end. -/
theorem does_finish (c : Env D) (r : Nat) (hw : r < c.world) (v : List Bytes) :
    Does (sys c) r [(⟨.bcast c.master, fun _ => []⟩ : Ev D)] (.call (.bcast c.master) [] fun _ => .ret v) v :=
  Does.call (s := sys c) (t := r) (e := (⟨.bcast c.master, fun _ => []⟩ : Ev D)) (l := []) (f := fun _ => .ret v) (v := v)
    ((mem_sys_bcast _ _ _).mpr hw) rfl rfl

theorem someEmpty_iff (vec : List Nat) (I : Nat → List Bytes) (inputs : Nat) (hi : inputs ≠ 0) :
    (vec.map fun t => (I t).length).foldl min inputs = 0 ↔ someEmpty vec I = true := by
  rw [foldl_min_eq_zero]
  simp only [hi, false_or, List.mem_map, someEmpty, List.any_eq_true, List.isEmpty_iff, List.length_eq_zero_iff]

theorem survivors_length (vec : List Nat) : (survivors vec).length = (vec.length + 1) / 2 := by
  simp only [survivors, List.length_take]
  omega

theorem mem_survivors_of {vec : List Nat} {r : Nat} (h : r ∈ survivors vec) : r ∈ vec := List.mem_of_mem_take h

theorem not_survivor_iff {vec : List Nat} (hn : vec.Nodup) {r : Nat} (hr : r ∈ vec) :
    r ∉ survivors vec ↔ r ∈ vec.drop ((vec.length + 1) / 2) := by
  have h := List.take_append_drop ((vec.length + 1) / 2) vec
  constructor
  · intro hx
    rw [← h, List.mem_append] at hr
    exact hr.resolve_left hx
  · intro hd hx
    rw [← h, List.nodup_append] at hn
    exact hn.2.2 r hx r hd rfl

/-- A party that is out waits for the message of the master. -/
theorem does_wait (c : Env D) : ∀ (n : Nat) (vec : List Nat) (I : Nat → List Bytes) (r : Nat), r ∉ vec → r < c.world →
    2 ≤ vec.length → vec.length ≤ 2 ^ n →
    Does (sys c) r (refLevels c n vec I) (.call (.bcast c.master) [] fun _ => .ret []) ([] : List Bytes)
  | 0, vec, _, _, _, _, h2, hp => by simp at hp; omega
  | n + 1, vec, I, r, hr, hw, h2, hp => by
    have hout : r ∉ survivors vec := fun h => hr (mem_survivors_of h)
    unfold refLevels
    refine Does.skips ?_ ?_
    · intro e he
      obtain ⟨k, hk, rfl⟩ := List.mem_map.mp he
      have hk := List.mem_range.mp hk
      simp only [sys, members, pairEvent, List.mem_cons, List.not_mem_nil, or_false, not_or]
      rw [getD_getElem (by omega), getD_getElem (by omega)]
      exact ⟨fun e => hr (e ▸ List.getElem_mem _), fun e => hr (e ▸ List.getElem_mem _)⟩
    · refine Does.skip (by rw [mem_sys_gather]; exact hout) ?_
      split
      · exact does_finish c r hw _
      · rename_i hs
        simp only [Bool.or_eq_true, beq_iff_eq, not_or] at hs
        have := survivors_length vec
        refine does_wait c n _ _ r hout hw (by omega) ?_
        rw [this]
        omega

/-- A party that is in follows the reference. -/
theorem does_levels (c : Env D) (inputs : Nat) (hi : inputs ≠ 0) : ∀ (n : Nat) (vec : List Nat) (I : Nat → List Bytes) (r : Nat),
    r ∈ vec → r < c.world → vec.Nodup → 2 ≤ vec.length → vec.length ≤ 2 ^ n →
    Does (sys c) r (refLevels c n vec I) (levels c r inputs n vec (I r)) (refResult c n vec I r)
  | 0, vec, _, _, _, _, _, h2, hp => by simp at hp; omega
  | n + 1, vec, I, r, hr, hw, hn, h2, hp => by
    obtain ⟨peer, target, hpr, hd⟩ := does_pairs (c := c) hn I hr
    have hlen := survivors_length vec
    unfold levels
    rw [hpr]
    simp only
    unfold refLevels refResult
    refine Does.bind hd ?_
    by_cases hs : r ∈ survivors vec
    · have hnd : r ∉ vec.drop ((vec.length + 1) / 2) := fun h => (not_survivor_iff hn hr).mpr h hs
      rw [if_neg hnd, if_neg (show ¬ r ∉ survivors vec from fun h => h hs)]
      rw [← List.singleton_append]
      refine Does.bind (does_gather c (survivors vec) (fun t => (nextItems c vec I t).length) hs) ?_
      by_cases he : someEmpty (survivors vec) (nextItems c vec I) = true
      · rw [if_pos ((someEmpty_iff _ _ _ hi).mpr he), he]
        exact does_finish c r hw _
      · rw [if_neg (fun h => he ((someEmpty_iff _ _ _ hi).mp h)), Bool.eq_false_iff.mpr he]
        by_cases h1 : (survivors vec).length = 1
        · rw [if_pos (show (vec.take ((vec.length + 1) / 2)).length = 1 from h1), h1]
          exact does_finish c r hw _
        · rw [if_neg (show ¬ (vec.take ((vec.length + 1) / 2)).length = 1 from h1), beq_eq_false_iff_ne.mpr h1]
          exact does_levels c inputs hi n _ _ r hs hw (hn.sublist (List.take_sublist _ _)) (by omega) (by rw [hlen]; omega)
    · rw [if_pos ((not_survivor_iff hn hr).mp hs), if_pos hs]
      refine Does.skip (by rw [mem_sys_gather]; exact hs) ?_
      split
      · exact does_finish c r hw _
      · rename_i hx
        simp only [Bool.or_eq_true, beq_iff_eq, not_or] at hx
        exact does_wait c n _ _ r hs hw (by omega) (by rw [hlen]; omega)

/-! ## The result of the reference -/

theorem next_good {c : Env D} {good : List Bytes → Prop} (hc : Lawful c good) {vec : List Nat} (hn : vec.Nodup)
    {I : Nat → List Bytes} (hg : ∀ r ∈ vec, good (I r)) {r : Nat} (hr : r ∈ vec) : good (nextItems c vec I r) := by
  have hmem : ∀ i, i < vec.length → vec.getD i 0 ∈ vec := fun i hi => by
    rw [getD_getElem hi]
    exact List.getElem_mem _
  unfold nextItems
  rcases place hr with ⟨i, hi, rfl⟩ | ⟨i, hi, rfl⟩ | ⟨hodd, rfl⟩
  · rw [psiRank_low hn hi]
    simp only
    split
    · exact hg _ hr
    · rw [if_pos trivial]
      have h1 := hc.psi2 _ _ (hg _ hr) (hg _ (hmem (vec.length - 1 - i) (by omega)))
      exact hc.closed _ _ (h1.subperm.trans List.filter_sublist.subperm) (hg _ hr)
  · rw [psiRank_high hn hi]
    simp only
    split
    · exact hg _ hr
    · exact hc.closed _ _ (List.nil_sublist _).subperm (hg _ hr)
  · rw [psiRank_mid hodd]
    simp only [if_true]
    exact hg _ hr

/-- What a surviving party has afterwards: its items that its peer has, too. -/
theorem next_mem {c : Env D} {good : List Bytes → Prop} (hc : Lawful c good) {vec : List Nat} (hn : vec.Nodup)
    {I : Nat → List Bytes} (hg : ∀ r ∈ vec, good (I r)) (x : Bytes) :
    (∀ r ∈ survivors vec, x ∈ nextItems c vec I r) ↔ ∀ r ∈ vec, x ∈ I r := by
  have hmem : ∀ i, i < vec.length → vec.getD i 0 ∈ vec := fun i hi => by
    rw [getD_getElem hi]
    exact List.getElem_mem _
  have hsur : ∀ i, i < (vec.length + 1) / 2 → vec.getD i 0 ∈ survivors vec := fun i hi => by
    rw [getD_getElem (by omega)]
    unfold survivors
    rw [List.mem_take_iff_getElem]
    exact ⟨i, by omega, rfl⟩
  have hlow : ∀ i, i < vec.length / 2 → (x ∈ nextItems c vec I (vec.getD i 0) ↔
      x ∈ I (vec.getD i 0) ∧ x ∈ I (vec.getD (vec.length - 1 - i) 0)) := by
    intro i hi
    have hne : vec.getD (vec.length - 1 - i) 0 ≠ vec.getD i 0 := by
      rw [getD_getElem (by omega), getD_getElem (by omega)]
      exact nodup_ne hn _ _ (by omega)
    have h1 := hc.psi2 _ _ (hg _ (hmem i (by omega))) (hg _ (hmem (vec.length - 1 - i) (by omega)))
    unfold nextItems
    rw [psiRank_low hn hi]
    simp only
    rw [if_neg hne, if_pos trivial, h1.mem_iff, List.mem_filter, decide_eq_true_eq]
  have hmid : vec.length % 2 ≠ 0 → nextItems c vec I (vec.getD (vec.length / 2) 0) = I (vec.getD (vec.length / 2) 0) := by
    intro h
    unfold nextItems
    rw [psiRank_mid h]
    simp
  constructor
  · intro h r hr
    rcases place hr with ⟨i, hi, rfl⟩ | ⟨i, hi, rfl⟩ | ⟨hodd, rfl⟩
    · exact ((hlow i hi).mp (h _ (hsur i (by omega)))).1
    · exact ((hlow i hi).mp (h _ (hsur i (by omega)))).2
    · rw [← hmid hodd]
      exact h _ (hsur _ (by omega))
  · intro h r hr
    have hv := mem_survivors_of hr
    rcases place hv with ⟨i, hi, rfl⟩ | ⟨i, hi, rfl⟩ | ⟨hodd, rfl⟩
    · exact (hlow i hi).mpr ⟨h _ (hmem i (by omega)), h _ (hmem _ (by omega))⟩
    · exfalso
      refine (not_survivor_iff hn hv).mpr ?_ hr
      rw [getD_getElem (by omega), List.mem_drop_iff_getElem]
      exact ⟨vec.length - 1 - i - (vec.length + 1) / 2, by omega, by congr 1; omega⟩
    · rw [hmid hodd]
      exact h _ (hmem _ (by omega))

/-- The first party keeps those of its items that are common to all. -/
theorem next_first {c : Env D} {good : List Bytes → Prop} (hc : Lawful c good) {vec : List Nat} (hn : vec.Nodup)
    {I : Nat → List Bytes} (hg : ∀ r ∈ vec, good (I r)) (h2 : 2 ≤ vec.length) (q : Bytes → Bool)
    (hq : ∀ x, q x = true → ∀ r ∈ vec, x ∈ I r) :
    ((nextItems c vec I (vec.getD 0 0)).filter q).Perm ((I (vec.getD 0 0)).filter q) := by
  have hmem : ∀ i, i < vec.length → vec.getD i 0 ∈ vec := fun i hi => by
    rw [getD_getElem hi]
    exact List.getElem_mem _
  have hne : vec.getD (vec.length - 1 - 0) 0 ≠ vec.getD 0 0 := by
    rw [getD_getElem (by omega), getD_getElem (by omega)]
    exact nodup_ne hn _ _ (by omega)
  have h1 := hc.psi2 _ _ (hg _ (hmem 0 (by omega))) (hg _ (hmem (vec.length - 1 - 0) (by omega)))
  have h0 : nextItems c vec I (vec.getD 0 0) = c.psi2 (I (vec.getD 0 0)) (I (vec.getD (vec.length - 1 - 0) 0)) := by
    unfold nextItems
    rw [psiRank_low hn (i := 0) (by omega)]
    simp only
    rw [if_neg hne, if_pos trivial]
  rw [h0]
  refine (h1.filter q).trans ?_
  rw [List.filter_filter]
  refine List.Perm.of_eq (List.filter_congr ?_)
  intro x _
  cases hx : q x with
  | false => simp
  | true => simpa using hq x hx _ (hmem _ (by omega))

theorem survivors_first {vec : List Nat} (h2 : 2 ≤ vec.length) : (survivors vec).getD 0 0 = vec.getD 0 0 := by
  have := survivors_length vec
  rw [getD_getElem (by omega), getD_getElem (by omega)]
  simp [survivors]

/-- The reference ends with the exact intersection at the first party and nothing at the others. -/
theorem refResult_eq {c : Env D} {good : List Bytes → Prop} (hc : Lawful c good) : ∀ (n : Nat) (vec : List Nat)
    (I : Nat → List Bytes) (r : Nat), vec.Nodup → 2 ≤ vec.length → vec.length ≤ 2 ^ n → (∀ r ∈ vec, good (I r)) →
    refResult c n vec I r =
      if r = vec.getD 0 0 then Std.sort ((I r).filter fun x => ∀ r ∈ vec, x ∈ I r) else []
  | 0, vec, _, _, _, h2, hp, _ => by simp at hp; omega
  | n + 1, vec, I, r, hn, h2, hp, hg => by
    have hlen := survivors_length vec
    have hns : (survivors vec).Nodup := hn.sublist (List.take_sublist _ _)
    have hgs : ∀ r ∈ survivors vec, good (nextItems c vec I r) := fun r hr => next_good hc hn hg (mem_survivors_of hr)
    have hfirst := survivors_first h2
    have h0s : vec.getD 0 0 ∈ survivors vec := by
      rw [← hfirst, getD_getElem (by omega)]
      exact List.getElem_mem _
    have hnm := next_mem hc hn hg
    unfold refResult
    by_cases hs : r ∈ survivors vec
    · rw [if_neg (by simpa using hs)]
      split
      · rename_i he
        -- some party has nothing left
        simp only [someEmpty, List.any_eq_true, List.isEmpty_iff] at he
        obtain ⟨u, hu, hz⟩ := he
        have hno : ∀ x, ¬ ∀ r ∈ vec, x ∈ I r := fun x hx => by
          have := (hnm x).mpr hx u hu
          rw [hz] at this
          simp at this
        split
        · rw [List.filter_eq_nil_iff.mpr (by intro x _; simpa using hno x)]
          exact (List.perm_nil.mp (Std.sort_perm [])).symm
        · rfl
      · split
        · rename_i h1
          have h1 : (survivors vec).length = 1 := by simpa using h1
          obtain ⟨u, hu⟩ := List.length_eq_one_iff.mp h1
          have hru : r = u := by rw [hu] at hs; simpa using hs
          have hr0 : r = vec.getD 0 0 := by rw [← hfirst, hu, hru]; rfl
          rw [if_pos hr0]
          apply Std.sort_eq_of_perm
          have h3 := next_first hc hn hg h2 (fun x => ∀ r ∈ vec, x ∈ I r) (by intro x hx; simpa using hx)
          rw [← hr0] at h3
          refine List.Perm.trans (List.Perm.of_eq ?_) h3
          rw [List.filter_eq_self.mpr]
          intro x hx
          rw [decide_eq_true_eq]
          refine (hnm x).mp ?_
          intro v hv
          have : v = r := by rw [hu] at hv; rw [hru]; simpa using hv
          rw [this]
          exact hx
        · rename_i h1
          have h1 : (survivors vec).length ≠ 1 := by simpa using h1
          rw [refResult_eq hc n (survivors vec) (nextItems c vec I) r hns (by omega) (by rw [hlen]; omega) hgs, hfirst]
          split
          · rename_i hr0
            apply Std.sort_eq_of_perm
            have h3 := next_first hc hn hg h2 (fun x => ∀ r ∈ vec, x ∈ I r) (by intro x hx; simpa using hx)
            rw [← hr0] at h3
            refine List.Perm.trans (List.Perm.of_eq ?_) h3
            apply List.filter_congr
            intro x _
            exact decide_eq_decide.mpr (hnm x)
          · rfl
    · rw [if_pos hs, if_neg]
      rintro rfl
      exact hs h0s

end Psi.Legacy
