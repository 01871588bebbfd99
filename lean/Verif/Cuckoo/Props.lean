import Verif.Cuckoo.Lemmas
import Mathlib.Data.List.Sort

/-!
# Cuckoo hashing: properties (C19)

`2 ^ 56` bounds the number of items (they are numbered in 56 bits); the number of hash functions is
bounded by the check in the constructor.
-/

namespace Psi.Cuckoo
open Spec

/-- **C19** After any sequence of insertions that ends without an exception, every item inserted is in
exactly one place, every bin holds at most one item, and an item in a bin is there under one of its own
hash functions. -/
theorem C19_placed (o : Options) (h0 : 0 < o.numHash) (h64 : o.numHash < 2 ^ 63)
    (hn : o.numInput ≤ 2 ^ 56) (batches : List (List Nat)) (t : Table)
    (h : insertAll o batches = .ok t) :
    t.hashes = batches.flatten ∧ batches.flatten.length ≤ o.numInput ∧
      Placed o.numHash o.numBins o.numStash getHash batches.flatten t.bins t.stash := by
  unfold insertAll at h
  cases hnew : new o with
  | error e => rw [hnew] at h; cases h
  | ok u =>
    rw [hnew] at h
    obtain ⟨hu, he⟩ := new_ok o u hnew
    have h5 := new_numHash o u hnew h64 h0
    obtain ⟨ht, hh⟩ := inserts_ok o h0 (by omega) hn batches u t hu h
    rw [he, List.nil_append] at hh
    refine ⟨hh, by rw [← hh]; exact ht.size, ?_⟩
    rw [← hh]
    refine ⟨ht.bins.1, ht.stash, ht.once, ?_⟩
    intro b e hb hne
    obtain ⟨v, htg⟩ := ht.bins.2 b e hb hne
    refine ⟨t.hashes[e % 2 ^ 56]'v.input, List.getElem?_eq_getElem v.input, v.hash, ?_⟩
    rw [← htg]
    unfold target
    rw [inputIdx_eq, hashIdx_eq, List.getD_eq_getElem?_getD, List.getElem?_eq_getElem v.input]
    rfl

/-- **C19** Without a stash, as KKRT uses it, all items are in bins: `bins` restricted to the occupied
ones is a bijection with the items. -/
theorem C19_no_stash (o : Options) (h0 : 0 < o.numHash) (h64 : o.numHash < 2 ^ 63)
    (hn : o.numInput ≤ 2 ^ 56) (hs : o.numStash = 0) (batches : List (List Nat)) (t : Table)
    (h : insertAll o batches = .ok t) (i : Nat) (hi : i < batches.flatten.length) :
    ∃! b : Nat, ∃ e : Nat, t.bins[b]? = some e ∧ e ≠ 2 ^ 64 - 1 ∧ e % 2 ^ 56 = i := by
  obtain ⟨_, _, p⟩ := C19_placed o h0 h64 hn batches t h
  have hst : t.stash = [] := List.eq_nil_of_length_eq_zero (by rw [p.stash_length, hs])
  have honce := p.once
  rw [hst] at honce
  simp only [stored, List.filter_nil, List.map_nil, List.append_nil] at honce
  have hmem : i ∈ (t.bins.filter (· ≠ 2 ^ 64 - 1)).map (· % 2 ^ 56) :=
    honce.mem_iff.mpr (List.mem_range.mpr hi)
  obtain ⟨e, he, rfl⟩ := List.mem_map.mp hmem
  obtain ⟨he1, he2⟩ := List.mem_filter.mp he
  obtain ⟨b, hb⟩ := List.getElem?_of_mem he1
  refine ⟨b, ⟨e, hb, by simpa using he2, rfl⟩, ?_⟩
  rintro b' ⟨e', hb', hne', hidx⟩
  have hnd : ((t.bins.filter (· ≠ 2 ^ 64 - 1)).map (· % 2 ^ 56)).Nodup :=
    honce.nodup_iff.mpr List.nodup_range
  -- two places with the same item would give the number twice
  have key : ∀ (l : List Nat) (b b' e e' : Nat), l[b]? = some e → l[b']? = some e' →
      e ≠ 2 ^ 64 - 1 → e' ≠ 2 ^ 64 - 1 → e' % 2 ^ 56 = e % 2 ^ 56 →
      ((l.filter (· ≠ 2 ^ 64 - 1)).map (· % 2 ^ 56)).Nodup → b' = b := by
    intro l
    induction l with
    | nil => intro b b' e e' h; simp at h
    | cons x l ih =>
      intro b b' e e' h1 h2 n1 n2 hq hd
      have hd' : ((l.filter (· ≠ 2 ^ 64 - 1)).map (· % 2 ^ 56)).Nodup := by
        refine List.Nodup.sublist ?_ hd
        exact ((List.sublist_cons_self x l).filter _).map _
      have hhead : ∀ (c y : Nat), l[c]? = some y → y ≠ 2 ^ 64 - 1 → x ≠ 2 ^ 64 - 1 →
          y % 2 ^ 56 ≠ x % 2 ^ 56 := by
        intro c y hc hy hx hxy
        have hx' : decide (x ≠ 2 ^ 64 - 1) = true := by simpa using hx
        rw [List.filter_cons, if_pos hx', List.map_cons, List.nodup_cons] at hd
        apply hd.1
        rw [← hxy]
        exact List.mem_map_of_mem (f := (· % 2 ^ 56))
          (List.mem_filter.mpr ⟨List.mem_of_getElem? hc, by simpa using hy⟩)
      cases b with
      | zero =>
        cases b' with
        | zero => rfl
        | succ b' =>
          simp only [List.getElem?_cons_zero, Option.some.injEq, List.getElem?_cons_succ] at h1 h2
          subst h1
          exact absurd hq (hhead b' e' h2 n2 n1)
      | succ b =>
        cases b' with
        | zero =>
          simp only [List.getElem?_cons_zero, Option.some.injEq, List.getElem?_cons_succ] at h1 h2
          subst h2
          exact absurd hq.symm (hhead b e h1 n1 n2)
        | succ b' =>
          simp only [List.getElem?_cons_succ] at h1 h2
          rw [ih b b' e e' h1 h2 n1 n2 hq hd']
  exact key t.bins b b' e e' hb hb' (by simpa using he2) hne' hidx hnd

/-- **C19** (sanity check) The built-in check accepts every table that was filled with the announced
number of items. -/
theorem C19_sanity_check (o : Options) (h0 : 0 < o.numHash) (h64 : o.numHash < 2 ^ 63)
    (hn : o.numInput ≤ 2 ^ 56) (batches : List (List Nat)) (t : Table)
    (h : insertAll o batches = .ok t) :
    sanityCheck o t = true ↔ batches.flatten.length = o.numInput := by
  obtain ⟨_, _, p⟩ := C19_placed o h0 h64 hn batches t h
  have hu : ((t.bins ++ t.stash).filter (· ≠ kEmpty)).map inputIdx = stored t.bins ++ stored t.stash := by
    have : inputIdx = (· % 2 ^ 56) := funext inputIdx_eq
    rw [this]
    rw [List.filter_append, List.map_append]
    rfl
  have hlen := p.once.length_eq
  rw [List.length_range] at hlen
  have hnd : (stored t.bins ++ stored t.stash).Nodup := p.once.nodup_iff.mpr List.nodup_range
  have hsort : (stored t.bins ++ stored t.stash).mergeSort (· ≤ ·) = List.range batches.flatten.length := by
    apply List.Perm.eq_of_pairwise (le := (· ≤ ·))
    · intro a b _ _ h1 h2; exact Nat.le_antisymm h1 h2
    · have := List.pairwise_mergeSort (le := fun a b : Nat => decide (a ≤ b))
        (fun a b c h1 h2 => by simp at *; omega) (fun a b => by simp; omega)
        (stored t.bins ++ stored t.stash)
      simpa using this
    · exact List.pairwise_lt_range.imp (fun h => Nat.le_of_lt h)
    · exact (List.mergeSort_perm _ _).trans p.once
  simp only [sanityCheck, hu, Bool.and_eq_true, decide_eq_true_eq, beq_iff_eq, hsort, hlen]
  exact ⟨fun h => h.1.2, fun h => ⟨⟨hnd, h⟩, trivial⟩⟩

/-- **C19** (the hash index the sender uses) For every occupied bin the smallest hash function of its item
that leads to this bin exists and is at most the recorded one. -/
theorem C19_min_colliding (o : Options) (h0 : 0 < o.numHash) (h64 : o.numHash < 2 ^ 63)
    (hn : o.numInput ≤ 2 ^ 56) (batches : List (List Nat)) (t : Table)
    (h : insertAll o batches = .ok t) (b e : Nat) (hb : t.bins[b]? = some e) (hne : e ≠ 2 ^ 64 - 1) :
    ∃ j code, minCollidingHashIdx o t b = some j ∧ batches.flatten[e % 2 ^ 56]? = some code ∧
      j ≤ e / 2 ^ 56 ∧ getHash code j % o.numBins = b ∧
      ∀ k, k < j → getHash code k % o.numBins ≠ b := by
  obtain ⟨hh, _, p⟩ := C19_placed o h0 h64 hn batches t h
  obtain ⟨code, hc, hlt, htg⟩ := p.own_bin b e hb hne
  have hD : t.hashes.getD (inputIdx (t.bins.getD b 0)) 0 = code := by
    rw [List.getD_eq_getElem?_getD, List.getD_eq_getElem?_getD, hb, Option.getD_some, inputIdx_eq, hh, hc]
    rfl
  unfold minCollidingHashIdx
  rw [hD]
  cases hf : (List.range o.numHash).find? (fun i => getHash code i % o.numBins == b) with
  | none =>
    rw [List.find?_eq_none] at hf
    exact absurd htg (by simpa using hf _ (List.mem_range.mpr hlt))
  | some j =>
    rw [List.find?_range_eq_some] at hf
    obtain ⟨h1, h2, h3⟩ := hf
    refine ⟨j, code, rfl, hc, ?_, by simpa using h1, fun k hk => by simpa using h3 k hk⟩
    by_contra hgt
    exact absurd htg (by simpa using h3 _ (by omega))

/-! ## Examples: six items, two batches, nine bins -/

def exOpt : Options := ⟨6, 0, 3, 9, 128⟩

/-- Inserting these evicts 8 times. -/
def exBatches : List (List Nat) :=
  [[294508053350743109, 413363302318850201, 796031015877463607],
   [970196089301134314, 751741364423228969, 611094350337506720]]

theorem exOk : ∃ t, insertAll exOpt exBatches = .ok t ∧ sanityCheck exOpt t = true := by
  have h : (insertAll exOpt exBatches).toBool = true := by decide +kernel
  obtain ⟨t, ht⟩ : ∃ t, insertAll exOpt exBatches = .ok t := by
    cases he : insertAll exOpt exBatches with
    | error e => rw [he] at h; cases h
    | ok t => exact ⟨t, rfl⟩
  exact ⟨t, ht, (C19_sanity_check exOpt (by decide) (by decide) (by decide) exBatches t ht).mpr rfl⟩

example : ∃ t, insertAll exOpt exBatches = .ok t ∧ Placed 3 9 0 getHash exBatches.flatten t.bins t.stash := by
  obtain ⟨t, ht, _⟩ := exOk
  exact ⟨t, ht, (C19_placed exOpt (by decide) (by decide) (by decide) exBatches t ht).2.2⟩

example (t : Table) (ht : insertAll exOpt exBatches = .ok t) :=
  C19_no_stash exOpt (by decide) (by decide) (by decide) rfl exBatches t ht 3 (by decide)

example (t : Table) (ht : insertAll exOpt exBatches = .ok t) :=
  C19_min_colliding exOpt (by decide) (by decide) (by decide) exBatches t ht

example : ∃ t, insertAll exOpt exBatches = .ok t ∧ (sanityCheck exOpt t = true ↔ exBatches.flatten.length = exOpt.numInput) := by
  obtain ⟨t, ht, _⟩ := exOk
  exact ⟨t, ht, C19_sanity_check exOpt (by decide) (by decide) (by decide) exBatches t ht⟩

end Psi.Cuckoo
