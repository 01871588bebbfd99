import Verif.Bucket.Lemmas
import Verif.Join.Spec

/-!
# Bucket cache: property theorems (C08, C09)
-/

namespace Psi.Bucket
open Psi.Text

/-- **C08** (record) A record read back from its text is the record written, for every data and every
index and duplicate count the machine types can hold. -/
theorem C08_record_round_trip (index dup : Nat) (data : List UInt8) (h1 : index < 2 ^ 64)
    (h2 : dup < 2 ^ 32) :
    Item.deserialize (Item.serialize ⟨index, dup, base64 data⟩) = some ⟨index, dup, base64 data⟩ :=
  deserialize_serialize _ h1 h2 (fun h => (base64_chars _ _ h).1 rfl)

example : Item.deserialize (Item.serialize ⟨12, 3, base64 [255, 0, 44, 10]⟩)
    = some ⟨12, 3, base64 [255, 0, 44, 10]⟩ :=
  C08_record_round_trip 12 3 [255, 0, 44, 10] (by decide) (by decide)

/-- The stored text form of the data determines the data. -/
theorem C08_data_recoverable (x y : List UInt8) (h : base64 x = base64 y) : x = y :=
  base64_injective h

example : base64 [255, 0, 44, 10] = "/wAsCg==".toList := by decide

/-- **C08** (store) After any sequence of writes into a fresh cache with `n` buckets and any hash
function: loading succeeds for every bucket, item `j` (data, duplicate count, index `j`) is found in the
bucket its hash selects, nothing else is found anywhere, and no item is found twice. -/
theorem C08_store_round_trip (hash : List Char → Nat) (n : Nat) (hn : 0 < n)
    (ds : List (List UInt8 × Nat)) (h : Fits ds) :
    ∃ L : Nat → List Item,
      (∀ b, b < n → ((Cache.fresh n).writeAll hash ds).load b = some (L b)) ∧
      (∀ b, b < n → ∀ x, x ∈ L b ↔ ∃ j, ∃ hj : j < ds.length,
        x = ⟨j, ds[j].2, base64 ds[j].1⟩ ∧ hash (base64 ds[j].1) % n = b) ∧
      (((List.range n).flatMap L).map (·.index)).Perm (List.range ds.length) := by
  refine ⟨fun b => (itemsFrom 0 ds).filter (fun x => hash x.data64 % n = b),
    fun b hb => load_fresh hash n ds h b hb, ?_, ?_⟩
  · intro b _ x
    simp only [List.mem_filter, mem_itemsFrom, Nat.zero_add, decide_eq_true_eq]
    constructor
    · rintro ⟨⟨j, hj, rfl⟩, hx⟩
      exact ⟨j, hj, rfl, hx⟩
    · rintro ⟨j, hj, rfl, hx⟩
      exact ⟨⟨j, hj, rfl⟩, hx⟩
  · have h1 := (split_perm n (fun x : Item => hash x.data64 % n) (itemsFrom 0 ds)
      (fun x _ => Nat.mod_lt _ hn)).map (·.index)
    have h2 : ∀ k (ds : List (List UInt8 × Nat)),
        (itemsFrom k ds).map (·.index) = List.range' k ds.length := by
      intro k ds
      induction ds generalizing k with
      | nil => rfl
      | cons d ds ih => simp [itemsFrom, ih, List.range'_succ]
    rw [h2, ← List.range_eq_range'] at h1
    exact h1

example := C08_store_round_trip (fun s => s.length) 7 (by decide) [([1, 2], 0), ([44], 3), ([1, 2], 5)]
  ⟨by decide, by decide⟩

/-- **C09** The bucket-by-bucket intersection of two stores succeeds and reports exactly the positions
of own items whose data the peer also stored, each once, with the duplicate count of the (first) peer
item with this data; the two returned counters are the peer's rows and the peer's rows in the
intersection summed over own items. -/
theorem C09_bucket_intersection_exact (hash : List Char → Nat) (n : Nat) (hn : 0 < n)
    (self peer : List (List UInt8 × Nat)) (hs : Fits self) (hp : Fits peer) :
    ∃ w, computeIndices ((Cache.fresh n).writeAll hash self) ((Cache.fresh n).writeAll hash peer) =
      some (w, (peer.map (fun p => p.2 + 1)).sum,
        (self.map (fun s => ((peer.find? (fun p => p.1 = s.1)).map (fun p => p.2 + 1)).getD 0)).sum) ∧
      (w.map Prod.fst).Nodup ∧
      ∀ i c, (i, c) ∈ w ↔
        ∃ h : i < self.length, (peer.find? (fun p => p.1 = self[i].1)).map Prod.snd = some c := by
  obtain ⟨w, h1, h2⟩ := computeIndices_fresh hash n hn self peer hs hp
  refine ⟨w, h1, ?_, ?_⟩
  · rw [(h2.map Prod.fst).nodup_iff]
    have : ((itemsFrom 0 self).filterMap (fun x =>
        ((itemsFrom 0 peer).find? (fun y => y.data64 == x.data64)).map
          (fun y => (x.index, y.dup)))).map Prod.fst =
        ((itemsFrom 0 self).filter (fun x =>
          ((itemsFrom 0 peer).find? (fun y => y.data64 == x.data64)).isSome)).map (·.index) := by
      generalize itemsFrom 0 self = l
      induction l with
      | nil => rfl
      | cons x l ih =>
        rw [List.filterMap_cons, List.filter_cons]
        cases hf : (itemsFrom 0 peer).find? (fun y => y.data64 == x.data64) with
        | none => simpa [hf] using ih
        | some y => simpa [hf] using ih
    rw [this]
    exact (itemsFrom_index_nodup 0 self).sublist (List.filter_sublist.map _)
  · intro i c
    rw [h2.mem_iff, List.mem_filterMap]
    constructor
    · rintro ⟨x, hx, hm⟩
      obtain ⟨j, hj, rfl⟩ := (mem_itemsFrom 0 self x).mp hx
      simp only [Option.map_eq_some_iff, Prod.mk.injEq, Nat.zero_add] at hm
      obtain ⟨y, hy, rfl, rfl⟩ := hm
      refine ⟨hj, ?_⟩
      rw [← itemsFrom_find 0, hy]
      rfl
    · rintro ⟨hi, hm⟩
      refine ⟨⟨0 + i, self[i].2, base64 self[i].1⟩, (mem_itemsFrom 0 self _).mpr ⟨i, hi, rfl⟩, ?_⟩
      rw [← itemsFrom_find 0, Option.map_eq_some_iff] at hm
      obtain ⟨y, hy, rfl⟩ := hm
      simp [hy]

example := C09_bucket_intersection_exact (fun s => s.length) 3 (by decide)
  [([1, 2], 0), ([44], 3)] [([44], 7), ([9], 0)] ⟨by decide, by decide⟩ ⟨by decide, by decide⟩

end Psi.Bucket
