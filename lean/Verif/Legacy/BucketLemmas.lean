import Verif.Legacy.OperatorLemmas
import Verif.Legacy.FileLemmas
import Verif.Bucket.Lemmas
import Mathlib.Data.List.Perm.Subperm

/-! # All buckets: lemmas -/

namespace Psi.Legacy
open Psi.Coll (Prog Sys Event Does)
open Psi.Std (Bytes)
open Psi.Text (base64 b64char base64_injective)
open Psi.Bucket (Item itemsFrom)

variable {D : Type}

/-! ## Keys as items -/

/-- What is intersected in place of a key. -/
def data (k : Bytes) : Bytes := bytes (base64 k)

theorem b64char_small : ∀ i : Fin 64, (b64char i).toNat < 256 := by decide

theorem base64_small (d : List UInt8) : ∀ c ∈ base64 d, c.toNat < 256 := by
  have key : ∀ n, n < 64 → (b64char n).toNat < 256 := fun n h => b64char_small ⟨n, h⟩
  induction d using base64.induct with
  | case1 => simp [base64]
  | case2 a =>
    have ha := a.toNat_lt
    intro c hc
    simp only [base64, List.mem_cons, List.not_mem_nil, or_false] at hc
    rcases hc with rfl | rfl | rfl | rfl
    · exact key _ (by omega)
    · exact key _ (by omega)
    · decide
    · decide
  | case3 a b =>
    have ha := a.toNat_lt
    have hb := b.toNat_lt
    intro c hc
    simp only [base64, List.mem_cons, List.not_mem_nil, or_false] at hc
    rcases hc with rfl | rfl | rfl | rfl
    · exact key _ (by omega)
    · exact key _ (by omega)
    · exact key _ (by omega)
    · decide
  | case4 a b c r ih =>
    have ha := a.toNat_lt
    have hb := b.toNat_lt
    have hc' := c.toNat_lt
    intro x hx
    simp only [base64, List.mem_cons] at hx
    rcases hx with rfl | rfl | rfl | rfl | hx
    · exact key _ (by omega)
    · exact key _ (by omega)
    · exact key _ (by omega)
    · exact key _ (by omega)
    · exact ih x hx

theorem bytes_inj : ∀ {s t : List Char}, (∀ c ∈ s, c.toNat < 256) → (∀ c ∈ t, c.toNat < 256) → bytes s = bytes t → s = t
  | [], [], _, _, _ => rfl
  | [], _ :: _, _, _, h => by simp [bytes] at h
  | _ :: _, [], _, _, h => by simp [bytes] at h
  | a :: s, b :: t, hs, ht, h => by
    simp only [bytes, List.map_cons, List.cons.injEq] at h
    have ha := hs a (by simp)
    have hb := ht b (by simp)
    have : a.toNat = b.toNat := by
      have := congrArg UInt8.toNat h.1
      rw [UInt8.toNat_ofNat', UInt8.toNat_ofNat'] at this
      omega
    rw [Char.toNat_inj.mp this, bytes_inj (fun c hc => hs c (by simp [hc])) (fun c hc => ht c (by simp [hc])) h.2]

theorem data_injective : Function.Injective data := fun _ _ h =>
  base64_injective (bytes_inj (base64_small _) (base64_small _) h)

/-! ## Indices of a bucket -/

theorem resultIndices_eq (items : List Item) (result : List Bytes) (q : Bytes → Bool)
    (hm : ∀ x ∈ items, bytes x.data64 ∈ result ↔ q (bytes x.data64) = true)
    (ha : result.length = items.length → ∀ x ∈ items, q (bytes x.data64) = true) :
    resultIndices items result = (items.filter fun x => q (bytes x.data64)).map (·.index) := by
  unfold resultIndices
  split
  · rename_i h
    subst h
    rw [List.filter_eq_nil_iff.mpr]
    · rfl
    · intro x hx hq
      have := (hm x hx).mpr hq
      simp at this
  · split
    · rename_i h
      rw [List.filter_eq_self.mpr (ha h)]
    · simp only
      congr 1
      apply List.filter_congr
      intro x hx
      have h1 := Std.binarySearch_iff (Std.sort_sorted result) (bytes x.data64)
      rw [Std.mem_sort, hm x hx] at h1
      cases h2 : q (bytes x.data64) <;> cases h3 : Std.binarySearch (Std.sort result) (bytes x.data64) <;> simp_all

/-- The bucket contents of the keys of a party. -/
def bucketItems (hash : List Char → Nat) (n b : Nat) (keys : List Bytes) : List Item :=
  (itemsFrom 0 (keys.map fun k => (k, 0))).filter fun x => hash x.data64 % n = b

theorem mem_bucketItems {hash : List Char → Nat} {n b : Nat} {keys : List Bytes} {x : Item} (h : x ∈ bucketItems hash n b keys) :
    ∃ k ∈ keys, x.data64 = base64 k ∧ hash (base64 k) % n = b := by
  unfold bucketItems at h
  rw [List.mem_filter, Bucket.mem_itemsFrom] at h
  obtain ⟨⟨j, hj, rfl⟩, h⟩ := h
  simp only [List.getElem_map, decide_eq_true_eq] at h
  simp only [List.length_map] at hj
  exact ⟨keys[j], List.getElem_mem hj, by simp, h⟩

theorem itemsFrom_data (k : Nat) (keys : List Bytes) :
    (itemsFrom k (keys.map fun x => (x, 0))).map (fun x => bytes x.data64) = keys.map data := by
  induction keys generalizing k with
  | nil => rfl
  | cons x keys ih =>
    simp only [List.map_cons, itemsFrom, ih]
    rfl

theorem bucketItems_sublist (hash : List Char → Nat) (n b : Nat) (keys : List Bytes) :
    ((bucketItems hash n b keys).map fun x => bytes x.data64).Sublist (keys.map data) := by
  rw [← itemsFrom_data 0 keys]
  exact (List.filter_sublist).map _

theorem mem_bucketData {hash : List Char → Nat} {n b : Nat} {keys : List Bytes} {k : Bytes} (hk : hash (base64 k) % n = b) :
    data k ∈ (bucketItems hash n b keys).map (fun x => bytes x.data64) ↔ k ∈ keys := by
  constructor
  · intro h
    have := (bucketItems_sublist hash n b keys).subset h
    obtain ⟨k', hk', e⟩ := List.mem_map.mp this
    exact data_injective e ▸ hk'
  · intro h
    obtain ⟨j, hj, rfl⟩ := List.getElem_of_mem h
    rw [List.mem_map]
    refine ⟨⟨j, 0, base64 keys[j]⟩, ?_, rfl⟩
    unfold bucketItems
    rw [List.mem_filter, Bucket.mem_itemsFrom]
    exact ⟨⟨j, by simpa using hj, by simp⟩, by simpa using hk⟩

/-- The same, on items. -/
def commonItem (c : Env D) (K : Nat → List Bytes) (x : Item) : Bool :=
  decide (∀ u, u < c.world → bytes x.data64 ∈ (K u).map data)

theorem commonItem_iff (c : Env D) (K : Nat → List Bytes) (x : Item) (k : Bytes) (h : x.data64 = base64 k) :
    commonItem c K x = true ↔ Common c K k := by
  unfold commonItem Common
  rw [decide_eq_true_eq, h]
  apply forall_congr'
  intro u
  apply imp_congr_right
  intro _
  show data k ∈ _ ↔ _
  rw [List.mem_map_of_injective data_injective]

/-- What a party appends for bucket `b`. -/
def bucketOut (c : Env D) (K : Nat → List Bytes) (n b r : Nat) : List Nat :=
  if r = c.master ∨ c.broadcast = true then ((bucketItems c.hash n b (K r)).filter (commonItem c K)).map (·.index) else []

theorem filter_all_of_length {α : Type} (p : α → Bool) (l : List α) (h : (l.filter p).length = l.length) : ∀ x ∈ l, p x = true :=
  List.filter_eq_self.mp (List.filter_sublist.eq_of_length h)

theorem plays_bucket {c : Env D} {good : List Bytes → Prop} (hc : Lawful c good) (K : Nat → List Bytes)
    (hg : ∀ r, r < c.world → good ((K r).map data)) (hd : c.broadcast = true → (K c.master).Nodup) (n b : Nat) :
    ∃ l v, Plays c l (fun r => memoryRun c r ((bucketItems c.hash n b (K r)).map fun x => bytes x.data64)) v ∧
      ∀ r, r < c.world → resultIndices (bucketItems c.hash n b (K r)) (v r) = bucketOut c K n b r := by
  set I : Nat → List Bytes := fun r => (bucketItems c.hash n b (K r)).map fun x => bytes x.data64 with hI
  obtain ⟨l, v, hp, hv⟩ := plays_memory hc I
    (fun r hr => hc.closed _ _ (bucketItems_sublist c.hash n b (K r)).subperm (hg r hr))
  refine ⟨l, v, hp, ?_⟩
  intro r hr
  have hvr := hv r hr
  unfold bucketOut
  by_cases ho : r = c.master ∨ c.broadcast = true
  · rw [if_pos ho] at hvr ⊢
    have hmem : ∀ x, x ∈ v r ↔ InAll c I x := by
      intro x
      rw [hvr.mem_iff, List.mem_filter, decide_eq_true_eq]
      exact ⟨fun h => h.2, fun h => ⟨h c.master (mem_ranks.mpr hc.master), h⟩⟩
    have hq : ∀ x ∈ bucketItems c.hash n b (K r), (InAll c I (bytes x.data64) ↔ commonItem c K x = true) := by
      intro x hx
      obtain ⟨k, -, hk, hb⟩ := mem_bucketItems hx
      rw [commonItem_iff c K x k hk, hk]
      unfold InAll Common
      constructor
      · exact fun h u hu => (mem_bucketData hb).mp (h u (mem_ranks.mpr hu))
      · exact fun h u hu => (mem_bucketData hb).mpr (h u (mem_ranks.mp hu))
    rw [resultIndices_eq _ _ (fun y => decide (InAll c I y))]
    · congr 1
      apply List.filter_congr
      intro x hx
      have := hq x hx
      cases h2 : commonItem c K x
      · simp_all
      · simp_all
    · intro x _
      rw [hmem, decide_eq_true_eq]
    · intro hlen x hx
      rw [decide_eq_true_eq]
      by_cases hr' : r = c.master
      · subst hr'
        have h1 : ((I c.master).filter fun x => decide (InAll c I x)).length = (I c.master).length := by
          rw [← hvr.length_eq, hlen, hI]
          simp
        have := filter_all_of_length _ _ h1 (bytes x.data64) (List.mem_map.mpr ⟨x, hx, rfl⟩)
        simpa using this
      · have hb : c.broadcast = true := by
          rcases ho with h | h
          · exact absurd h hr'
          · exact h
        have hn : (v r).Nodup := by
          rw [hvr.nodup_iff]
          exact List.Nodup.filter _ ((bucketItems_sublist c.hash n b (K c.master)).nodup ((hd hb).map data_injective))
        have hsub : v r ⊆ I r := fun y hy => (hmem y).mp hy r (mem_ranks.mpr hr)
        have hperm := (hn.subperm hsub).perm_of_length_le (by rw [hlen, hI]; simp)
        exact (hmem _).mp (hperm.mem_iff.mpr (List.mem_map.mpr ⟨x, hx, rfl⟩))
  · rw [if_neg ho] at hvr ⊢
    rw [hvr]
    rfl

/-- The loop, given what each bucket contributes. -/
theorem plays_loop {c : Env D} (K : Nat → List Bytes) (hf : ∀ r, r < c.world → (K r).length ≤ 2 ^ 64) (n : Nat)
    (out : Nat → Nat → List Nat)
    (hout : ∀ b, b < n → ∃ l v, Plays c l (fun r => memoryRun c r ((bucketItems c.hash n b (K r)).map fun x => bytes x.data64)) v ∧
      ∀ r, r < c.world → resultIndices (bucketItems c.hash n b (K r)) (v r) = out b r) :
    ∀ (m b : Nat), b + m = n → ∀ (ret : Nat → List Nat),
    ∃ l, Plays c l
      (fun r => bucketLoop c r ((Bucket.Cache.fresh n).writeAll c.hash ((K r).map fun k => (k, 0))) m b (ret r))
      (fun r => ret r ++ (List.range' b m).flatMap fun b => out b r)
  | 0, b, _, ret => ⟨[], by simpa [bucketLoop] using Plays.ret c ret⟩
  | m + 1, b, hb, ret => by
    obtain ⟨l₁, v, hp, hv⟩ := hout b (by omega)
    obtain ⟨l₂, hp₂⟩ := plays_loop K hf n out hout m (b + 1) (by omega) (fun r => ret r ++ out b r)
    refine ⟨l₁ ++ l₂, ?_⟩
    have := Plays.bind (f := fun r result => bucketLoop c r ((Bucket.Cache.fresh n).writeAll c.hash ((K r).map fun k => (k, 0))) m (b + 1)
      (ret r ++ resultIndices (bucketItems c.hash n b (K r)) result)) hp (hp₂.congr (fun r hr => by rw [hv r hr]) (fun _ _ => rfl))
    refine this.congr ?_ ?_
    · intro r hr
      have hl := Bucket.load_fresh c.hash n ((K r).map fun k => (k, 0)) ⟨by simpa using hf r hr, by simp⟩ b (by omega)
      conv => lhs; unfold bucketLoop
      rw [hl]
      rfl
    · intro r _
      rw [List.range'_succ, List.flatMap_cons]
      simp

/-! ## Positions -/

/-- Positions of the keys with a property. -/
def positions (keys : List Bytes) (p : Bytes → Bool) : List Nat := (keys.zipIdx.filter fun x => p x.1).map Prod.snd

theorem positions_from (c : Env D) (K : Nat → List Bytes) (k : Nat) (keys : List Bytes) :
    ((itemsFrom k (keys.map fun x => (x, 0))).filter (commonItem c K)).map (·.index) =
      ((keys.zipIdx k).filter fun x => decide (Common c K x.1)).map Prod.snd := by
  induction keys generalizing k with
  | nil => rfl
  | cons x keys ih =>
    simp only [List.map_cons, itemsFrom, List.zipIdx_cons, List.filter_cons]
    have h := commonItem_iff c K ⟨k, 0, base64 x⟩ x rfl
    by_cases hx : Common c K x
    · rw [if_pos (h.mpr hx), if_pos (by simpa using hx), List.map_cons, List.map_cons, ih]
    · rw [if_neg (fun e => hx (h.mp e)), if_neg (by simpa using hx), ih]

theorem out_perm (c : Env D) (K : Nat → List Bytes) (n r : Nat) (hn : 0 < n) (hr : r = c.master ∨ c.broadcast = true) :
    ((List.range' 0 n).flatMap fun b => bucketOut c K n b r).Perm (positions (K r) fun k => decide (Common c K k)) := by
  unfold positions
  rw [← positions_from c K 0 (K r), ← List.range_eq_range']
  have h1 : ((List.range n).flatMap fun b => bucketOut c K n b r) =
      ((List.range n).flatMap fun b => ((itemsFrom 0 ((K r).map fun k => (k, 0))).filter (commonItem c K)).filter
        fun x => c.hash x.data64 % n = b).map (·.index) := by
    rw [List.map_flatMap]
    apply List.flatMap_congr
    intro b _
    unfold bucketOut bucketItems
    rw [if_pos hr, List.filter_filter, List.filter_filter]
    congr 1
    apply List.filter_congr
    intro x _
    exact Bool.and_comm _ _
  rw [h1]
  exact (Bucket.split_perm n (fun x : Item => c.hash x.data64 % n) _ (fun x _ => Nat.mod_lt _ hn)).map _

theorem positions_pairwise (keys : List Bytes) (p : Bytes → Bool) : (positions keys p).Pairwise (· < ·) := by
  unfold positions
  have h : (keys.zipIdx.map Prod.snd).Pairwise (· < ·) := by
    rw [List.zipIdx_map_snd]
    exact List.pairwise_lt_range'
  exact h.sublist (List.filter_sublist.map _)

theorem mergeSort_positions {l m : List Nat} (h : l.Perm m) (hm : m.Pairwise (· < ·)) : l.mergeSort (· ≤ ·) = m := by
  have h1 : (l.mergeSort (· ≤ ·)).Pairwise (· ≤ ·) := by
    have := List.pairwise_mergeSort (le := fun a b : Nat => decide (a ≤ b)) (by intro a b c; simp; omega)
      (by intro a b; simp; omega) l
    exact this.imp (by simp)
  exact ((List.mergeSort_perm l _).trans h).eq_of_pairwise (fun a b _ _ h1 h2 => Nat.le_antisymm h1 h2) h1
    (hm.imp Nat.le_of_lt)

/-! ## Number of buckets -/

theorem foldl_max_ge (l : List Nat) (a : Nat) : a ≤ l.foldl max a ∧ ∀ x ∈ l, x ≤ l.foldl max a := by
  induction l generalizing a with
  | nil => simp
  | cons x l ih =>
    have := ih (max a x)
    rw [List.foldl_cons]
    refine ⟨by omega, ?_⟩
    intro y hy
    rcases List.mem_cons.mp hy with rfl | hy
    · omega
    · exact this.2 y hy

/-- The number that all parties compute when none is empty. -/
def bucketsOf (c : Env D) (K : Nat → List Bytes) : Nat :=
  ((c.ranks.map fun u => (K u).length).map fun n => (n + c.bucketSize - 1) % 2 ^ 64 / c.bucketSize).foldl max 0

theorem bucketNum_eq (c : Env D) (K : Nat → List Bytes) (r : Nat) (hr : r < c.world) :
    bucketNum c.bucketSize (K r).length (c.ranks.map fun u => (K u).length) =
      if ∃ u ∈ c.ranks, K u = [] then 0 else bucketsOf c K := by
  unfold bucketNum bucketsOf
  have : (c.ranks.map fun u => (K u).length).foldl min (K r).length = 0 ↔ ∃ u ∈ c.ranks, K u = [] := by
    rw [foldl_min_eq_zero]
    simp only [List.mem_map, List.length_eq_zero_iff]
    exact ⟨fun h => h.elim (fun h => ⟨r, mem_ranks.mpr hr, h⟩) id, Or.inr⟩
  by_cases h : ∃ u ∈ c.ranks, K u = []
  · rw [if_pos (this.mpr h), if_pos h]
  · rw [if_neg (fun e => h (this.mp e)), if_neg h]

theorem bucketsOf_pos (c : Env D) (K : Nat → List Bytes) (h2 : 2 ≤ c.world) (hs : 0 < c.bucketSize)
    (hf : ∀ r, r < c.world → (K r).length + c.bucketSize ≤ 2 ^ 64) (he : ¬ ∃ u ∈ c.ranks, K u = []) : 0 < bucketsOf c K := by
  have hne : K 0 ≠ [] := fun e => he ⟨0, mem_ranks.mpr (by omega), e⟩
  have hpos := List.length_pos_iff.mpr hne
  have hf0 := hf 0 (by omega)
  have h1 : 1 ≤ ((K 0).length + c.bucketSize - 1) % 2 ^ 64 / c.bucketSize := by
    rw [Nat.mod_eq_of_lt (by omega), Nat.le_div_iff_mul_le hs]
    omega
  unfold bucketsOf
  refine Nat.lt_of_lt_of_le h1 ((foldl_max_ge _ 0).2 _ ?_)
  rw [List.mem_map]
  exact ⟨(K 0).length, List.mem_map.mpr ⟨0, mem_ranks.mpr (by omega), rfl⟩, rfl⟩

/-- `RunBucketPsi` when no party is empty, given what each bucket contributes. -/
theorem plays_nonempty {c : Env D} (h2 : 2 ≤ c.world) (K : Nat → List Bytes) (hs : 0 < c.bucketSize)
    (hf : ∀ r, r < c.world → (K r).length + c.bucketSize ≤ 2 ^ 64) (he : ¬ ∃ u ∈ c.ranks, K u = []) (out : Nat → Nat → List Nat)
    (hout : ∀ b, b < bucketsOf c K → ∃ l v,
      Plays c l (fun r => memoryRun c r ((bucketItems c.hash (bucketsOf c K) b (K r)).map fun x => bytes x.data64)) v ∧
      ∀ r, r < c.world → resultIndices (bucketItems c.hash (bucketsOf c K) b (K r)) (v r) = out b r) :
    ∃ l, Plays c l (fun r => runBucketPsi c r (K r)) (fun r => (List.range' 0 (bucketsOf c K)).flatMap fun b => out b r) := by
  have hpos := bucketsOf_pos c K h2 hs hf he
  obtain ⟨l, hp⟩ := plays_loop K (fun r hr => by have := hf r hr; omega) (bucketsOf c K) out hout (bucketsOf c K) 0 (by omega) (fun _ => [])
  refine ⟨[gatherEvent c.ranks fun t => (K t).length] ++ l,
    Plays.bind (plays_gather h2 fun t => (K t).length) (hp.congr ?_ (fun _ _ => by simp))⟩
  intro r hr
  simp only
  rw [bucketNum_eq c K r hr, if_neg he, if_neg (by omega)]

/-- `RunBucketPsi`: what the parties have after sorting. -/
theorem plays_buckets {c : Env D} {good : List Bytes → Prop} (hc : Lawful c good) (K : Nat → List Bytes)
    (hg : ∀ r, r < c.world → good ((K r).map data)) (hd : c.broadcast = true → (K c.master).Nodup) (hs : 0 < c.bucketSize)
    (hf : ∀ r, r < c.world → (K r).length + c.bucketSize ≤ 2 ^ 64) :
    ∃ l v, Plays c l (fun r => runBucketPsi c r (K r)) v ∧
      ∀ r, r < c.world → if r = c.master ∨ c.broadcast = true
        then (v r).Perm (positions (K r) fun k => decide (Common c K k)) else v r = [] := by
  by_cases he : ∃ u ∈ c.ranks, K u = []
  · refine ⟨[gatherEvent c.ranks fun t => (K t).length] ++ [], fun _ => [], ?_, ?_⟩
    · refine Plays.bind (plays_gather hc.two fun t => (K t).length) ((Plays.ret c fun _ => []).congr ?_ (fun _ _ => rfl))
      intro r hr
      simp only
      rw [bucketNum_eq c K r hr, if_pos he, if_pos rfl]
    · intro r hr
      obtain ⟨u, hu, hnil⟩ := he
      split
      · unfold positions
        rw [List.filter_eq_nil_iff.mpr]
        · simp
        · intro x _ hx
          have := (of_decide_eq_true hx) u (mem_ranks.mp hu)
          rw [hnil] at this
          simp at this
      · rfl
  · have hpos := bucketsOf_pos c K hc.two hs hf he
    obtain ⟨l, hp⟩ := plays_nonempty hc.two K hs hf he (fun b r => bucketOut c K (bucketsOf c K) b r)
      (fun b _ => plays_bucket hc K hg hd _ b)
    refine ⟨l, _, hp, ?_⟩
    intro r hr
    split
    · rename_i h
      exact out_perm c K _ r hpos h
    · rename_i h
      rw [List.flatMap_eq_nil_iff]
      intro b _
      unfold bucketOut
      rw [if_neg h]

end Psi.Legacy
