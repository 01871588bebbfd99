import Verif.P2p.Model
import Verif.Std.Lemmas
import Verif.Text.Lemmas
import Mathlib.Data.List.Nodup
import Mathlib.Data.List.GetD

/-! # Links between two parties of a larger group: property theorems (C116) -/

namespace Psi.P2p
open Psi.Std (Bytes)
open Psi.Text (dec)

/-! ### Lemmas -/

theorem sep_inj {c : Char} : ∀ {a a' b b' : List Char}, c ∉ a → c ∉ a' → a ++ c :: b = a' ++ c :: b' → a = a' ∧ b = b'
  | [], [], _, _, _, _, h => ⟨rfl, (List.cons.inj h).2⟩
  | [], x :: a', _, _, _, h2, h => by
    have := (List.cons.inj h).1
    exact absurd (this ▸ List.mem_cons_self) h2
  | x :: a, [], _, _, h1, _, h => by
    have := (List.cons.inj h).1
    exact absurd (this ▸ List.mem_cons_self) h1
  | x :: a, y :: a', b, b', h1, h2, h => by
    obtain ⟨hx, h⟩ := List.cons.inj h
    obtain ⟨r1, r2⟩ := sep_inj (fun hm => h1 (List.mem_cons_of_mem _ hm)) (fun hm => h2 (List.mem_cons_of_mem _ hm)) h
    exact ⟨by rw [hx, r1], r2⟩

theorem dash_dec (n : Nat) : '-' ∉ dec n := Psi.Text.dec_not_mem n '-' (Or.inl (by decide))

theorem subId_comm (pre : List Char) (a b : Nat) : subId pre a b = subId pre b a := by
  rw [subId, subId, Nat.min_comm, Nat.max_comm]

theorem sort_pair (x y : Bytes) : Psi.Std.sort [x, y] = [x, y] ∨ Psi.Std.sort [x, y] = [y, x] := by
  have hp := Psi.Std.sort_perm [x, y]
  generalize Psi.Std.sort [x, y] = m at hp
  match m, hp.length_eq with
  | [u, v], _ =>
    have hu : u ∈ [x, y] := hp.subset List.mem_cons_self
    rcases List.mem_cons.mp hu with rfl | hu
    · have := List.perm_singleton.mp ((List.perm_cons _).mp hp)
      exact Or.inl (by rw [this])
    · obtain rfl := List.mem_singleton.mp hu
      have := List.perm_singleton.mp ((List.perm_cons _).mp (hp.trans (List.Perm.swap _ _ _)))
      exact Or.inr (by rw [this])

theorem sort_two (x y : Bytes) : Psi.Std.sort [x, y] = if Psi.Std.lt y x then [y, x] else [x, y] := by
  simp [Psi.Std.sort, List.mergeSort, List.merge, List.MergeSort.Internal.splitInTwo]
  cases Psi.Std.lt y x <;> rfl

/-- The link of `a` towards `b`. -/
theorem createP2P_eq (pre id : List Char) (ids : List Bytes) (hn : 2 < ids.length) (a b : Nat) (ha : a < ids.length) (hb : b < ids.length) :
    createP2P pre ⟨id, ids, a⟩ b =
      some ⟨id ++ '-' :: subId pre a b, Psi.Std.sort [ids[b], ids[a]], (Psi.Std.sort [ids[b], ids[a]]).idxOf ids[a]⟩ := by
  rw [createP2P, if_pos hn]
  simp only [List.getElem?_eq_getElem ha, List.getElem?_eq_getElem hb, Link.subWorld]
  rw [if_pos]
  simp only [Bool.and_eq_true, List.all_eq_true, decide_eq_true_eq, Psi.Std.mem_sort]
  refine ⟨fun x hx => ?_, by simp⟩
  rcases List.mem_cons.mp hx with rfl | hx
  · exact List.getElem_mem _
  · rw [List.mem_singleton.mp hx]
    exact List.getElem_mem _

end Psi.P2p

namespace Psi.P2p
open Psi.Std (Bytes)

/-- **C116**: two parties of a group of any size, each with its own rank.  Both get a link, it has the same name and the same list
of the two parties, in which each finds itself at its own rank and the other one at the next rank. -/
theorem C116_both_ends (pre id : List Char) (ids : List Bytes) (hid : ids.Nodup) (hn : 2 ≤ ids.length) (a b : Nat)
    (ha : a < ids.length) (hb : b < ids.length) (hab : a ≠ b) :
    ∃ x y, createP2P pre ⟨id, ids, a⟩ b = some x ∧ createP2P pre ⟨id, ids, b⟩ a = some y ∧ x.id = y.id ∧ x.parties = y.parties ∧
      x.parties.length = 2 ∧ x.parties[x.rank]? = ids[a]? ∧ x.parties[y.rank]? = ids[b]? ∧ x.next = y.rank ∧ y.next = x.rank := by
  by_cases hn2 : 2 < ids.length
  · have hne : ids[a] ≠ ids[b] := fun h => hab (hid.getElem_inj_iff.mp h)
    have hs : Psi.Std.sort [ids[a], ids[b]] = Psi.Std.sort [ids[b], ids[a]] := Psi.Std.sort_eq_of_perm (List.Perm.swap _ _ _)
    refine ⟨_, _, createP2P_eq pre id ids hn2 a b ha hb, createP2P_eq pre id ids hn2 b a hb ha, ?_, hs.symm, ?_⟩
    · rw [subId_comm]
    · simp only [hs, List.getElem?_eq_getElem ha, List.getElem?_eq_getElem hb]
      dsimp only [Link.next]
      rcases sort_pair ids[b] ids[a] with h | h <;> rw [h] <;> simp [hne, hne.symm]
  · have hl : ids.length = 2 := by omega
    have hc : ∀ r p, createP2P pre ⟨id, ids, r⟩ p = some ⟨id, ids, r⟩ := fun r p => by rw [createP2P, if_neg hn2]
    refine ⟨_, _, hc a b, hc b a, rfl, rfl, hl, rfl, rfl, ?_, ?_⟩ <;> simp only [Link.next, hl] <;> omega

example := C116_both_ends "PartnersPsi".toList "task".toList [[112, 49, 48], [112, 57], [97]] (by decide) (by decide) 0 1
  (by decide) (by decide) (by decide)

/-- **C116**: no two links of a task have the same name, unless they are for the same purpose and the same two parties.  (The
purposes the code uses are `MaskMaster`, `PartnersPsi`, `nty_mpsi` and `2partypsi`.) -/
theorem C116_names (id : List Char) (ids : List Bytes) (hn : 2 < ids.length) (pre pre' : List Char) (h1 : '-' ∉ pre) (h2 : '-' ∉ pre')
    (a b a' b' : Nat) (x y : Link) (ha : a < ids.length) (hb : b < ids.length) (ha' : a' < ids.length) (hb' : b' < ids.length)
    (hx : createP2P pre ⟨id, ids, a⟩ b = some x) (hy : createP2P pre' ⟨id, ids, a'⟩ b' = some y) :
    x.id = y.id ↔ pre = pre' ∧ (a = a' ∧ b = b' ∨ a = b' ∧ b = a') := by
  rw [createP2P_eq pre id ids hn a b ha hb] at hx
  rw [createP2P_eq pre' id ids hn a' b' ha' hb'] at hy
  rw [← Option.some.inj hx, ← Option.some.inj hy]
  dsimp only
  constructor
  · intro h
    have h := (List.cons.inj (List.append_cancel_left h)).2
    obtain ⟨e1, e2⟩ := sep_inj h1 h2 h
    obtain ⟨e3, e4⟩ := sep_inj (dash_dec _) (dash_dec _) e2
    have e3 := Psi.Text.dec_injective e3
    have e4 := Psi.Text.dec_injective e4
    exact ⟨e1, by omega⟩
  · rintro ⟨rfl, ⟨rfl, rfl⟩ | ⟨rfl, rfl⟩⟩
    · rfl
    · rw [subId_comm]

example := C116_names "task".toList [[1], [2], [3]] (by decide) "MaskMaster".toList "PartnersPsi".toList (by decide) (by decide) 0 1 1 0 _ _
  (by decide) (by decide) (by decide) (by decide) (createP2P_eq _ _ [[1], [2], [3]] (by decide) 0 1 (by decide) (by decide))
  (createP2P_eq _ _ [[1], [2], [3]] (by decide) 1 0 (by decide) (by decide))

/-- **C116**: the party that is to get the result of two parties of a group is given by its rank in the group; on the link both
ends translate it to the same party, the one that was meant, however the names of the parties are ordered. -/
theorem C116_target (pre id : List Char) (ids : List Bytes) (hid : ids.Nodup) (hn : 2 ≤ ids.length) (a b t : Nat)
    (ha : a < ids.length) (hb : b < ids.length) (hab : a ≠ b) (ht : t = a ∨ t = b) (x y : Link)
    (hx : createP2P pre ⟨id, ids, a⟩ b = some x) (hy : createP2P pre ⟨id, ids, b⟩ a = some y) :
    ∃ k, ctxTarget ⟨id, ids, a⟩ x b t = some k ∧ ctxTarget ⟨id, ids, b⟩ y a t = some k ∧
      npartyTarget ⟨id, ids, a⟩ x t = k ∧ npartyTarget ⟨id, ids, b⟩ y t = k ∧ x.parties[k]? = ids[t]? := by
  obtain ⟨x', y', hx', hy', -, -, -, h1, h2, h3, h4⟩ := C116_both_ends pre id ids hid hn a b ha hb hab
  rw [hx] at hx'
  rw [hy] at hy'
  obtain rfl := Option.some.inj hx'
  obtain rfl := Option.some.inj hy'
  rcases ht with rfl | rfl
  · exact ⟨x.rank, by simp [ctxTarget, hab], by simp [ctxTarget, h4], by simp [npartyTarget], by simp [npartyTarget, hab, h4], h1⟩
  · exact ⟨y.rank, by simp [ctxTarget, h3], by simp [ctxTarget, hab.symm], by simp [npartyTarget, hab.symm, h3],
      by simp [npartyTarget], h2⟩

example := C116_target "2partypsi".toList "task".toList [[112, 49, 48], [112, 57], [97]] (by decide) (by decide) 0 1 1
  (by decide) (by decide) (by decide) (Or.inr rfl) _ _
  (createP2P_eq _ _ [[112, 49, 48], [112, 57], [97]] (by decide) 0 1 (by decide) (by decide))
  (createP2P_eq _ _ [[112, 49, 48], [112, 57], [97]] (by decide) 1 0 (by decide) (by decide))

/-- **C116**: a rank of the group must not be used as a rank of the link: the ranks of a link follow the names as byte strings, so
that the first party of a group whose parties are `z`, `p9`, `p10` has rank 1 on its link with the second one, and the second one,
`p9`, has rank 1 on its link with the third one, `p10`. -/
theorem C116_rank_by_name : ∃ x y, createP2P ['q'] ⟨['t'], [[122], [112, 57], [112, 49, 48]], 0⟩ 1 = some x ∧ x.rank = 1 ∧
    createP2P ['q'] ⟨['t'], [[122], [112, 57], [112, 49, 48]], 1⟩ 2 = some y ∧ y.rank = 1 := by
  refine ⟨_, _, createP2P_eq _ _ _ (by decide) _ _ (by decide) (by decide), ?_, createP2P_eq _ _ _ (by decide) _ _ (by decide) (by decide), ?_⟩
    <;> dsimp only <;> rw [sort_two] <;> decide

/-! ### The levels of the PSI of n parties -/

theorem psiRank_mem {vec : List Nat} {r p t : Nat} (h : Psi.Legacy.psiRank vec r = some (p, t)) : r ∈ vec ∧ p ∈ vec := by
  unfold Psi.Legacy.psiRank at h
  split at h
  · rename_i hc
    obtain ⟨h1, h2⟩ := hc
    have hl : vec.length / 2 < vec.length := by omega
    rw [List.getD_eq_getElem _ _ hl] at h2
    have hp := (Prod.mk.inj (Option.some.inj h)).1
    rw [← hp, ← h2]
    exact ⟨List.getElem_mem _, List.getElem_mem _⟩
  · obtain ⟨idx, hidx, h⟩ := List.exists_of_findSome?_eq_some h
    rw [List.mem_range] at hidx
    have hl : idx < vec.length := by omega
    have hl' : vec.length - 1 - idx < vec.length := by omega
    simp only [List.getD_eq_getElem _ _ hl, List.getD_eq_getElem _ _ hl'] at h
    split at h
    · rename_i hr
      have hp := (Prod.mk.inj (Option.some.inj h)).1
      rw [← hr, ← hp]
      exact ⟨List.getElem_mem _, List.getElem_mem _⟩
    · split at h
      · rename_i hr
        have hp := (Prod.mk.inj (Option.some.inj h)).1
        rw [← hr, ← hp]
        exact ⟨List.getElem_mem _, List.getElem_mem _⟩
      · cases h

/-- One of the two parties that meet is not there at the next level. -/
theorem psiRank_gone {vec : List Nat} (hv : vec.Nodup) {r p t : Nat} (h : Psi.Legacy.psiRank vec r = some (p, t)) (hp : p ≠ r) :
    r ∉ vec.take ((vec.length + 1) / 2) ∨ p ∉ vec.take ((vec.length + 1) / 2) := by
  have gone : ∀ i, (hi : i < vec.length) → (vec.length + 1) / 2 ≤ i → vec[i] ∉ vec.take ((vec.length + 1) / 2) := by
    intro i hi hle hm
    obtain ⟨j, hj, he⟩ := List.mem_take_iff_getElem.mp hm
    have := hv.getElem_inj_iff.mp he
    omega
  unfold Psi.Legacy.psiRank at h
  split at h
  · exact absurd (Prod.mk.inj (Option.some.inj h)).1.symm hp
  · obtain ⟨idx, hidx, h⟩ := List.exists_of_findSome?_eq_some h
    rw [List.mem_range] at hidx
    have hl : idx < vec.length := by omega
    have hl' : vec.length - 1 - idx < vec.length := by omega
    simp only [List.getD_eq_getElem _ _ hl, List.getD_eq_getElem _ _ hl'] at h
    have hg := gone _ hl' (by omega)
    split at h
    · have hp' := (Prod.mk.inj (Option.some.inj h)).1
      rw [hp'] at hg
      exact Or.inr hg
    · split at h
      · rename_i hr
        rw [hr] at hg
        exact Or.inl hg
      · cases h

theorem left_sub (vec : List Nat) (k : Nat) : ∀ j, (left vec (k + j)).Sublist (left vec k)
  | 0 => List.Sublist.refl _
  | j + 1 => (List.take_sublist _ _).trans (left_sub vec k j)

/-- **C116**: in the PSI of n parties no two parties meet at two levels, so that the link of two parties, which has the same name at
every level, is used for one run only. -/
theorem C116_meet_once (vec : List Nat) (hv : vec.Nodup) (j k : Nat) (hjk : j < k) (r p t r' p' t' : Nat)
    (h : Psi.Legacy.psiRank (left vec j) r = some (p, t)) (hp : p ≠ r) (h' : Psi.Legacy.psiRank (left vec k) r' = some (p', t')) :
    ¬ (r = r' ∧ p = p' ∨ r = p' ∧ p = r') := by
  obtain ⟨m1, m2⟩ := psiRank_mem h'
  have hvj : (left vec j).Nodup := by
    have := left_sub vec 0 j
    rw [Nat.zero_add] at this
    exact this.nodup hv
  have hsub := left_sub vec (j + 1) (k - (j + 1))
  rw [Nat.add_sub_cancel' hjk] at hsub
  rcases psiRank_gone hvj h hp with hg | hg <;> rintro (⟨rfl, rfl⟩ | ⟨rfl, rfl⟩)
  · exact hg (hsub.subset m1)
  · exact hg (hsub.subset m2)
  · exact hg (hsub.subset m2)
  · exact hg (hsub.subset m1)

/-- Five parties: 2 and 3 meet at the first level, 2 and 1 at the second one, 2 and 0 at the third one. -/
example := C116_meet_once [2, 0, 1, 4, 3] (by decide) 0 1 (by decide) 2 3 2 2 1 2 (by decide) (by decide) (by decide)

end Psi.P2p
