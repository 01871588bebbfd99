import Verif.Whole.Model
import Verif.Bucket.Lemmas
import Verif.Common.Spec

/-! # Lemmas about protocols that run in buckets -/

namespace Psi.Whole
open Psi.Bucket Psi.Spec Psi.Text

/-- Key and number of further rows of a stored item. -/
def kv (x : Item) : List Char × Nat := (x.data64, x.dup)

/-- Items of bucket `b`. -/
def inBucket (hash : List Char → Nat) (n : Nat) (ds : List (List UInt8 × Nat)) (b : Nat) : List Item :=
  (itemsFrom 0 ds).filter (fun x => hash x.data64 % n = b)

theorem mem_itemsFrom_zero (ds : List (List UInt8 × Nat)) (x : Item) :
    x ∈ itemsFrom 0 ds ↔ ∃ d, ds[x.index]? = some (d, x.dup) ∧ x.data64 = base64 d := by
  rw [mem_itemsFrom]
  constructor
  · rintro ⟨j, hj, rfl⟩
    refine ⟨ds[j].1, ?_, rfl⟩
    simp only [Nat.zero_add]
    rw [List.getElem?_eq_getElem hj]
  · rintro ⟨d, h1, h2⟩
    obtain ⟨hj, h3⟩ := List.getElem?_eq_some_iff.mp h1
    refine ⟨x.index, hj, ?_⟩
    rw [h3]
    cases x
    simp only at h2
    simp [h2]

theorem index_inj {ds : List (List UInt8 × Nat)} {x y : Item} (hx : x ∈ itemsFrom 0 ds) (hy : y ∈ itemsFrom 0 ds)
    (h : x.index = y.index) : x = y := by
  rw [mem_itemsFrom_zero] at hx hy
  obtain ⟨d, h1, h2⟩ := hx
  obtain ⟨d', h3, h4⟩ := hy
  rw [h, h3] at h1
  cases x; cases y
  simp only [Option.some.injEq, Prod.mk.injEq] at h1 h2 h4 h
  simp [h1.1, h1.2, h2, h4, h]

theorem exact_pos {own peer : List (List Char × Nat)} {w : List (Nat × Nat)} (h : ExactIndex own peer w) {p d : Nat} (hm : (p, d) ∈ w) :
    p < own.length := by
  obtain ⟨x, e, h1, _⟩ := (h.mem p d).mp hm
  exact (List.getElem?_eq_some_iff.mp h1).1

/-- If the result of every bucket is exact, whatever the order of the items in the buckets, then the lines of all buckets together are the
exact result of the two inputs. -/
theorem exact_of_buckets (hash : List Char → Nat) {n : Nat} (hn : 0 < n) (own peer : List (List UInt8 × Nat)) (L M : Nat → List Item)
    (hL : ∀ b < n, (L b).Perm (inBucket hash n own b)) (hM : ∀ b < n, (M b).Perm (inBucket hash n peer b))
    (w : Nat → List (Nat × Nat)) (h : ∀ b < n, ExactIndex ((L b).map kv) ((M b).map kv) (w b)) :
    ExactIndex own peer ((List.range n).flatMap (fun b => post (L b) (w b))) := by
  have hmemL : ∀ b < n, ∀ x, x ∈ L b ↔ x ∈ itemsFrom 0 own ∧ hash x.data64 % n = b := by
    intro b hb x
    rw [(hL b hb).mem_iff, inBucket, List.mem_filter]
    simp
  have hmemM : ∀ b < n, ∀ x, x ∈ M b ↔ x ∈ itemsFrom 0 peer ∧ hash x.data64 % n = b := by
    intro b hb x
    rw [(hM b hb).mem_iff, inBucket, List.mem_filter]
    simp
  have hget : ∀ b < n, ∀ p d, (p, d) ∈ w b → ∃ hp : p < (L b).length, (L b).getD p ⟨0, 0, []⟩ = (L b)[p] := by
    intro b hb p d hm
    have hp := exact_pos (h b hb) hm
    rw [List.length_map] at hp
    exact ⟨hp, List.getD_eq_getElem _ _ hp⟩
  constructor
  · rw [List.map_flatMap, List.nodup_flatMap]
    constructor
    · intro b hb
      rw [List.mem_range] at hb
      unfold post
      rw [List.map_map]
      have hnd := (h b hb).nodup
      rw [List.Nodup, List.pairwise_map] at hnd ⊢
      refine hnd.imp_of_mem ?_
      intro x y hx hy hne he
      apply hne
      obtain ⟨hp, e1⟩ := hget b hb x.1 x.2 hx
      obtain ⟨hq, e2⟩ := hget b hb y.1 y.2 hy
      simp only [Function.comp, e1, e2] at he
      have hinj := index_inj ((hmemL b hb _).mp (List.getElem_mem hp)).1 ((hmemL b hb _).mp (List.getElem_mem hq)).1 he
      have hnd2 : (L b).Nodup := by
        refine (hL b hb).nodup_iff.mpr (List.Nodup.filter _ ?_)
        exact (List.Nodup.of_map _ (itemsFrom_index_nodup 0 own))
      exact (List.Nodup.getElem_inj_iff hnd2).mp hinj
    · rw [List.pairwise_iff_getElem]
      intro i j hi hj hij
      simp only [List.length_range] at hi hj
      simp only [List.getElem_range, Function.onFun]
      intro v hv hv'
      unfold post at hv hv'
      rw [List.map_map, List.mem_map] at hv hv'
      obtain ⟨x, hx, e1⟩ := hv
      obtain ⟨y, hy, e2⟩ := hv'
      obtain ⟨hp, e3⟩ := hget i hi x.1 x.2 hx
      obtain ⟨hq, e4⟩ := hget j hj y.1 y.2 hy
      simp only [Function.comp, e3, e4] at e1 e2
      have m1 := (hmemL i hi _).mp (List.getElem_mem hp)
      have m2 := (hmemL j hj _).mp (List.getElem_mem hq)
      have := index_inj m1.1 m2.1 (e1.trans e2.symm)
      rw [this, m2.2] at m1
      omega
  · intro i d
    rw [List.mem_flatMap]
    constructor
    · rintro ⟨b, hb, hm⟩
      rw [List.mem_range] at hb
      unfold post at hm
      rw [List.mem_map] at hm
      obtain ⟨⟨p, d'⟩, hx, he⟩ := hm
      obtain ⟨hp, e1⟩ := hget b hb p d' hx
      simp only [e1, Prod.mk.injEq] at he
      obtain ⟨e2, rfl⟩ := he
      obtain ⟨k, e, h1, h2⟩ := ((h b hb).mem p d').mp hx
      rw [List.getElem?_map, List.getElem?_eq_getElem hp] at h1
      simp only [Option.map_some, Option.some.injEq, kv, Prod.mk.injEq] at h1
      rw [List.mem_map] at h2
      obtain ⟨y, hy, e3⟩ := h2
      simp only [kv, Prod.mk.injEq] at e3
      have m1 := (hmemL b hb _).mp (List.getElem_mem hp)
      have m2 := (hmemM b hb _).mp hy
      obtain ⟨d1, a1, a2⟩ := (mem_itemsFrom_zero _ _).mp m1.1
      obtain ⟨d2, a3, a4⟩ := (mem_itemsFrom_zero _ _).mp m2.1
      have hdd : d1 = d2 := by
        apply base64_injective
        rw [← a2, ← a4, e3.1, h1.1]
      refine ⟨d1, _, by rw [← e2]; exact a1, ?_⟩
      rw [hdd, ← e3.2]
      exact List.mem_of_getElem? a3
    · rintro ⟨x, e, h1, h2⟩
      refine ⟨hash (base64 x) % n, List.mem_range.mpr (Nat.mod_lt _ hn), ?_⟩
      have hb := Nat.mod_lt (hash (base64 x)) hn
      have m1 : (⟨i, e, base64 x⟩ : Item) ∈ L (hash (base64 x) % n) := (hmemL _ hb _).mpr ⟨(mem_itemsFrom_zero _ _).mpr ⟨x, h1, rfl⟩, rfl⟩
      obtain ⟨q, hq, e1⟩ := List.mem_iff_getElem.mp h2
      have m2 : (⟨q, d, base64 x⟩ : Item) ∈ M (hash (base64 x) % n) :=
        (hmemM _ hb _).mpr ⟨(mem_itemsFrom_zero _ _).mpr ⟨x, by rw [List.getElem?_eq_getElem hq, e1], rfl⟩, rfl⟩
      obtain ⟨p, hp, e2⟩ := List.mem_iff_getElem.mp m1
      have hw : (p, d) ∈ w (hash (base64 x) % n) := by
        rw [(h _ hb).mem]
        refine ⟨base64 x, e, ?_, ?_⟩
        · rw [List.getElem?_map, List.getElem?_eq_getElem hp, e2]
          rfl
        · exact List.mem_map.mpr ⟨_, m2, rfl⟩
      unfold post
      rw [List.mem_map]
      refine ⟨(p, d), hw, ?_⟩
      simp only
      rw [List.getD_eq_getElem _ _ hp, e2]

/-- An exact result for hashed keys is one for the keys if the hash does not collide. -/
theorem exact_of_map {α β : Type} (f : α → β) {own peer : List (α × Nat)} {w : List (Nat × Nat)}
    (hf : ∀ x ∈ own, ∀ y ∈ peer, f x.1 = f y.1 → x.1 = y.1)
    (h : ExactIndex (own.map (fun x => (f x.1, x.2))) (peer.map (fun x => (f x.1, x.2))) w) : ExactIndex own peer w where
  nodup := h.nodup
  mem := by
    intro i d
    rw [h.mem]
    constructor
    · rintro ⟨x, e, h1, h2⟩
      rw [List.getElem?_map] at h1
      obtain ⟨o, h3, h4⟩ := Option.map_eq_some_iff.mp h1
      obtain ⟨y, hy, h5⟩ := List.mem_map.mp h2
      simp only [Prod.mk.injEq] at h4 h5
      refine ⟨o.1, o.2, h3, ?_⟩
      have := hf o (List.mem_of_getElem? h3) y hy (h4.1.trans h5.1.symm)
      rw [this, ← h5.2]
      exact hy
    · rintro ⟨x, e, h1, h2⟩
      refine ⟨f x, e, ?_, ?_⟩
      · rw [List.getElem?_map, h1]
        rfl
      · exact List.mem_map.mpr ⟨_, h2, rfl⟩

/-- The counts of the own side play no role. -/
theorem exact_own {α : Type} {own own' peer : List (α × Nat)} {w : List (Nat × Nat)} (he : own.map Prod.fst = own'.map Prod.fst)
    (h : ExactIndex own peer w) : ExactIndex own' peer w where
  nodup := h.nodup
  mem := by
    intro i d
    rw [h.mem]
    have hi : (own[i]?).map Prod.fst = (own'[i]?).map Prod.fst := by
      rw [← List.getElem?_map, ← List.getElem?_map, he]
    constructor
    · rintro ⟨x, e, h1, h2⟩
      rw [h1] at hi
      obtain ⟨o, h3, h4⟩ := Option.map_eq_some_iff.mp hi.symm
      obtain ⟨a, b⟩ := o
      simp only at h4
      subst h4
      exact ⟨a, b, h3, h2⟩
    · rintro ⟨x, e, h1, h2⟩
      rw [h1] at hi
      obtain ⟨o, h3, h4⟩ := Option.map_eq_some_iff.mp hi
      obtain ⟨a, b⟩ := o
      simp only at h4
      subst h4
      exact ⟨a, b, h3, h2⟩

/-- An empty side has an empty result. -/
theorem exact_nil {α : Type} {own peer : List (α × Nat)} (h : own = [] ∨ peer = []) : ExactIndex own peer [] where
  nodup := List.nodup_nil
  mem := by
    intro i d
    rcases h with rfl | rfl <;> simp

/-- The keys of a bucket are distinct if those of the input are. -/
theorem bucket_nodup {hash : List Char → Nat} {n b : Nat} {ds : List (List UInt8 × Nat)} (hd : (ds.map Prod.fst).Nodup) {L : List Item}
    (hL : L.Perm (inBucket hash n ds b)) : (L.map (·.data64)).Nodup := by
  have h1 : ((itemsFrom 0 ds).map (·.data64)).Nodup := by
    have : ∀ k, (itemsFrom k ds).map (·.data64) = (ds.map Prod.fst).map base64 := by
      intro k
      clear hd hL
      induction ds generalizing k with
      | nil => rfl
      | cons d ds ih => simp [itemsFrom, ih]
    rw [this]
    exact hd.map (fun _ _ h => base64_injective h)
  refine (hL.map _).nodup_iff.mpr ?_
  unfold inBucket
  exact h1.sublist (List.Sublist.map _ List.filter_sublist)

end Psi.Whole
