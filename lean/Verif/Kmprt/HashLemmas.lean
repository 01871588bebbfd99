import Verif.Kmprt.Model
import Mathlib.Data.List.GetD
import Mathlib.Data.List.Perm.Basic
import Mathlib.Tactic.Ring

/-!
# Lemmas on the hashing of KMPRT17
-/

namespace Psi.Kmprt

open Psi.Spiral (Res mapRes)

theorem getD_set {l : List Nat} {i j v : Nat} : (l.set i v).getD j 0 = if i = j ∧ i < l.length then v else l.getD j 0 := by
  rw [List.getD_eq_getElem?_getD, List.getD_eq_getElem?_getD, List.getElem?_set]
  by_cases h : i = j
  · subst h
    by_cases h2 : i < l.length
    · simp [h2]
    · simp [h2]
  · simp [h]

/-! ### Cuckoo hashing -/

/-- An element lies at one of its addresses. -/
def PlacedIn (nh : Nat) (bins : List Nat) (x : Nat) : Prop :=
  ∃ idx < nh, bins.getD (hash x idx % bins.length) 0 = x

theorem tries_lt {nh r idx : Nat} (h : 0 < nh) (hi : idx ∈ tries nh r) : idx < nh := by
  obtain ⟨t, -, rfl⟩ := List.mem_map.1 hi
  exact Nat.mod_lt _ h

theorem tries_ne {nh r : Nat} (h : 2 ≤ nh) : tries nh r ≠ [] := by
  unfold tries
  intro h0
  have := congrArg List.length h0
  simp at this
  omega

theorem set_placed {nh : Nat} {bins : List Nat} {e idx x : Nat} (hm : 0 < bins.length) (hi : idx < nh)
    (h : PlacedIn nh bins x ∨ x = e) :
    PlacedIn nh (bins.set (hash e idx % bins.length) e) x ∨ x = bins.getD (hash e idx % bins.length) 0 := by
  have hlt : hash e idx % bins.length < bins.length := Nat.mod_lt _ hm
  rcases h with ⟨j, hj, hx⟩ | rfl
  · by_cases ha : hash e idx % bins.length = hash x j % bins.length
    · right
      rw [ha, hx]
    · left
      refine ⟨j, hj, ?_⟩
      rw [List.length_set, getD_set, if_neg (by omega), hx]
  · left
    refine ⟨idx, hi, ?_⟩
    rw [List.length_set, getD_set, if_pos ⟨rfl, hlt⟩]

theorem insertInto_placed {nh : Nat} (hnh : 2 ≤ nh) : ∀ (n : Nat) (rs : Nat → Nat) (bins : List Nat) (e x : Nat),
    0 < bins.length → x ≠ 0 → PlacedIn nh bins x ∨ x = e →
    PlacedIn nh (insertInto nh n rs bins e).1 x ∨ x = (insertInto nh n rs bins e).2
  | 0, rs, bins, e, x, _, _, h => h
  | n + 1, rs, bins, e, x, hm, hx, h => by
    unfold insertInto
    split_ifs with he
    · exact h
    · simp only
      split
      · rename_i idx hf
        have hi := tries_lt (by omega) (List.mem_of_find?_eq_some hf)
        have hp := List.find?_some hf
        simp only [Bool.or_eq_true, beq_iff_eq] at hp
        rcases set_placed hm hi h with h' | h'
        · exact Or.inl h'
        · have : x = e := by rcases hp with hp | hp <;> omega
          refine Or.inl ⟨idx, hi, ?_⟩
          rw [this, List.length_set, getD_set, if_pos ⟨rfl, Nat.mod_lt _ hm⟩]
      · refine insertInto_placed hnh n rs _ _ x (by rw [List.length_set]; exact hm) hx ?_
        refine set_placed hm ?_ h
        have hne := tries_ne (r := rs n % nh) hnh
        rw [List.getLastD_eq_getLast?, List.getLast?_eq_some_getLast hne]
        exact tries_lt (by omega) (List.getLast_mem hne)

theorem insertInto_length {nh : Nat} : ∀ (n : Nat) (rs : Nat → Nat) (bins : List Nat) (e : Nat),
    (insertInto nh n rs bins e).1.length = bins.length
  | 0, _, _, _ => rfl
  | n + 1, rs, bins, e => by
    unfold insertInto
    split_ifs
    · rfl
    · simp only
      split
      · simp
      · rw [insertInto_length]; simp

def Placed (t : Cuckoo) (x : Nat) : Prop := PlacedIn (numHashes 0) t.b0 x ∨ PlacedIn (numHashes 1) t.b1 x

theorem insert_ok {rs : Nat → Nat → Nat} {t t' : Cuckoo} {e : Nat} (h0 : 0 < t.b0.length) (h1 : 0 < t.b1.length)
    (h : insert rs t e = .ok t') : t'.b0.length = t.b0.length ∧ t'.b1.length = t.b1.length ∧
      ∀ x, x ≠ 0 → Placed t x ∨ x = e → Placed t' x := by
  unfold insert at h
  simp only at h
  split_ifs at h with he
  injection h with h
  subst h
  refine ⟨insertInto_length _ _ _ _, insertInto_length _ _ _ _, fun x hx hp => ?_⟩
  have key : PlacedIn (numHashes 0) (insertInto (numHashes 0) 128 (rs 0) t.b0 e).1 x ∨
      (PlacedIn (numHashes 1) t.b1 x ∨ x = (insertInto (numHashes 0) 128 (rs 0) t.b0 e).2) := by
    rcases hp with (hp | hp) | hp
    · rcases insertInto_placed (nh := numHashes 0) (by decide) 128 (rs 0) t.b0 e x h0 hx (Or.inl hp) with h | h
      · exact Or.inl h
      · exact Or.inr (Or.inr h)
    · exact Or.inr (Or.inl hp)
    · rcases insertInto_placed (nh := numHashes 0) (by decide) 128 (rs 0) t.b0 e x h0 hx (Or.inr hp) with h | h
      · exact Or.inl h
      · exact Or.inr (Or.inr h)
  rcases key with h | h
  · exact Or.inl h
  · rcases insertInto_placed (nh := numHashes 1) (by decide) 128 (rs 1) t.b1 _ x h1 hx h with h | h
    · exact Or.inr h
    · exact absurd (h.trans he) hx

theorem insert_not_undefined {rs : Nat → Nat → Nat} {t : Cuckoo} {e : Nat} : insert rs t e ≠ .undefined := by
  unfold insert
  simp only
  split_ifs <;> simp

theorem insertAll_ok {rs : Nat → Nat → Nat → Nat} : ∀ (l : List Nat) (i : Nat) (t t' : Cuckoo), 0 < t.b0.length → 0 < t.b1.length →
    insertAll rs i t l = .ok t' → t'.b0.length = t.b0.length ∧ t'.b1.length = t.b1.length ∧
      ∀ x, x ≠ 0 → Placed t x ∨ x ∈ l → Placed t' x
  | [], i, t, t', _, _, h => by
    injection h with h
    subst h
    exact ⟨rfl, rfl, fun x _ hx => hx.resolve_right (by simp)⟩
  | e :: l, i, t, t', h0, h1, h => by
    unfold insertAll at h
    cases hi : insert (rs i) t e with
    | throws => rw [hi] at h; cases h
    | undefined => rw [hi] at h; cases h
    | ok u =>
      rw [hi] at h
      obtain ⟨u0, u1, u2⟩ := insert_ok h0 h1 hi
      obtain ⟨v0, v1, v2⟩ := insertAll_ok l (i + 1) u t' (by omega) (by omega) h
      refine ⟨by omega, by omega, fun x hx hp => v2 x hx ?_⟩
      rcases hp with hp | hp
      · exact Or.inl (u2 x hx (Or.inl hp))
      · rcases List.mem_cons.1 hp with rfl | hp
        · exact Or.inl (u2 x hx (Or.inr rfl))
        · exact Or.inr hp

theorem insertAll_not_undefined {rs : Nat → Nat → Nat → Nat} : ∀ (l : List Nat) (i : Nat) (t : Cuckoo), insertAll rs i t l ≠ .undefined
  | [], i, t => by simp [insertAll]
  | e :: l, i, t => by
    unfold insertAll
    cases hi : insert (rs i) t e with
    | throws => simp [Res.bind]
    | undefined => exact absurd hi insert_not_undefined
    | ok u => exact insertAll_not_undefined l (i + 1) u

/-- `Lookup` finds what lies in a bin, at one of its addresses. -/
theorem lookup_placed {t : Cuckoo} {x : Nat} (h : Placed t x) :
    ∃ c addr, lookup t x = some (c, addr) ∧ c < 2 ∧ (t.bins c).getD addr 0 = x ∧
      ∃ idx < numHashes c, addr = hash x idx % (t.bins c).length := by
  unfold lookup
  cases hf : (List.range (numHashes 0)).find? fun idx => t.b0.getD (hash x idx % t.b0.length) 0 == x with
  | some idx =>
    have hp := List.find?_some hf
    exact ⟨0, _, rfl, by decide, by simpa [Cuckoo.bins] using hp, idx, List.mem_range.1 (List.mem_of_find?_eq_some hf), rfl⟩
  | none =>
    rw [List.find?_eq_none] at hf
    cases hf' : (List.range (numHashes 1)).find? fun idx => t.b1.getD (hash x idx % t.b1.length) 0 == x with
    | some idx =>
      have hp := List.find?_some hf'
      exact ⟨1, _, rfl, by decide, by simpa [Cuckoo.bins] using hp, idx, List.mem_range.1 (List.mem_of_find?_eq_some hf'), rfl⟩
    | none =>
      rw [List.find?_eq_none] at hf'
      rcases h with ⟨idx, hi, he⟩ | ⟨idx, hi, he⟩
      · exact absurd (by simpa using he) (hf idx (List.mem_range.2 hi))
      · exact absurd (by simpa using he) (hf' idx (List.mem_range.2 hi))

/-! ### Simple hashing -/

theorem find_emplace (bin : List (Nat × Nat)) (p : Nat × Nat) (x : Nat) :
    (emplace bin p).find? (fun q => q.1 == x) = (bin.find? fun q => q.1 == x).or (if p.1 = x then some p else none) := by
  unfold emplace
  split_ifs with h hx
  · subst hx
    obtain ⟨q, hq, he⟩ := List.any_eq_true.1 h
    cases hf : bin.find? fun q => q.1 == p.1 with
    | none => exact absurd he ((List.find?_eq_none.1 hf) q hq)
    | some r => rfl
  · simp
  · rw [List.find?_append]
    simp [*]
  · rw [List.find?_append]
    simp [*]

theorem find_inner {m addr : Nat} {p : Nat × Nat} {x : Nat} : ∀ (is : List Nat) (bin : List (Nat × Nat)),
    (is.foldl (fun bin idx => if hash p.1 idx % m = addr then emplace bin p else bin) bin).find? (fun q => q.1 == x) =
      (bin.find? fun q => q.1 == x).or (if p.1 = x ∧ ∃ i ∈ is, hash x i % m = addr then some p else none)
  | [], bin => by simp
  | i :: is, bin => by
    rw [List.foldl_cons, find_inner is]
    by_cases hx : p.1 = x
    · subst hx
      by_cases ha : hash p.1 i % m = addr
      · rw [if_pos ha, find_emplace]
        simp only [if_true, true_and, List.mem_cons, exists_eq_or_imp, ha, true_or]
        cases bin.find? fun q => q.1 == p.1 <;> simp
      · rw [if_neg ha]
        simp [ha]
    · have : (if hash p.1 i % m = addr then emplace bin p else bin).find? (fun q => q.1 == x) = bin.find? fun q => q.1 == x := by
        split_ifs
        · rw [find_emplace, if_neg hx]; simp
        · rfl
      rw [this]
      simp [hx]

/-- A bin that an element is hashed to holds its first point. -/
theorem find_simpleBin {nh m addr x : Nat} (h : ∃ i < nh, hash x i % m = addr) (points : List (Nat × Nat)) :
    (simpleBin nh m addr points).find? (fun q => q.1 == x) = points.find? fun q => q.1 == x := by
  have hex : ∃ i ∈ List.range nh, hash x i % m = addr := by
    obtain ⟨i, hi, e⟩ := h
    exact ⟨i, List.mem_range.2 hi, e⟩
  have key : ∀ (points bin : List (Nat × Nat)), (points.foldl (fun bin p =>
      (List.range nh).foldl (fun bin idx => if hash p.1 idx % m = addr then emplace bin p else bin) bin) bin).find?
        (fun q => q.1 == x) = (bin.find? fun q => q.1 == x).or (points.find? fun q => q.1 == x) := by
    intro points
    induction points with
    | nil => intro bin; simp
    | cons p points ih =>
      intro bin
      rw [List.foldl_cons, ih, find_inner, List.find?_cons]
      by_cases hx : p.1 = x
      · rw [if_pos ⟨hx, hex⟩]
        simp only [hx, beq_self_eq_true]
        cases bin.find? fun q => q.1 == x <;> simp
      · rw [if_neg fun h => hx h.1]
        have : (p.1 == x) = false := by simpa using hx
        rw [this]
        simp
  have := key points []
  simpa [simpleBin] using this

end Psi.Kmprt
