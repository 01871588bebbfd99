import Verif.UbPsi.Lemmas

/-!
# Lemmas about the two caches of UB-PSI
-/

namespace Psi.UbPsi
open Psi.Ecdh (Bytes dupMap dupAt chop chop_flatten flatten_length dupMap_lookup)
open Psi.Provider (ShufDup Sim)
open Psi.Provider.Spec (Shuffles Delivers reads)

variable {α G : Type} [AddCommGroup G] {c : Curve α G}

/-- The record of an item. -/
def recOf (c : Curve α G) (key : Bytes) (x : ShufDup α) : Rec := ⟨x.pos, x.orig, x.dup, c.tag key x.item⟩

/-- The numbers of an element of a shuffled batch fit into 32 bits. -/
def Small (x : ShufDup α) : Prop := x.pos < 2 ^ 32 ∧ x.orig < 2 ^ 32 ∧ x.dup < 2 ^ 32

theorem saveBatch_ok (hc : c.Lawful) (key : Bytes) (b : List (ShufDup α)) (hb : ∀ x ∈ b, Small x) :
    saveBatch c key b = .ok (b.map (recOf c key)) := by
  rw [saveBatch, mapE_ok _ (fun x => c.tag key x.item) b (fun x _ => simpleEvaluate_ok hc key x.item)]
  dsimp only
  rw [mapE_ok _ (fun x => recOf c key x.1)]
  · have : b.map (recOf c key) = (b.zipIdx.map Prod.fst).map (recOf c key) := by
      rw [List.zipIdx_map_fst]
    rw [this, List.map_map]; rfl
  · rintro ⟨x, i⟩ hx
    rw [List.mem_zipIdx_iff_getElem?] at hx
    dsimp only at hx ⊢
    obtain ⟨hi, rfl⟩ := List.getElem?_eq_some_iff.mp hx
    have hs := hb _ (List.getElem_mem hi)
    have := slice_flatten c.cmpLen (b.map (fun x => c.tag key x.item))
      (by intro y hy; obtain ⟨z, -, rfl⟩ := List.mem_map.mp hy; exact tag_length hc key _) i (by simpa using hi)
    rw [this]
    simp only [List.getElem_map, tag_length hc, ne_eq, not_true, if_false, Nat.mod_eq_of_lt hs.1,
      Nat.mod_eq_of_lt hs.2.1, Nat.mod_eq_of_lt hs.2.2]
    rfl

/-- The cache holds these records. -/
structure CacheOf (s : ServerCache) (recs : List Rec) : Prop where
  file : s.file = recs.flatMap Rec.bytes
  count : s.itemCount = recs.length
  len : s.itemLen ≤ maxCipher
  wf : ∀ r ∈ recs, r.origin < 2 ^ 32 ∧ r.shuffle < 2 ^ 32 ∧ r.dup < 2 ^ 32 ∧ r.data.length = s.itemLen

theorem fillCache_ok (hc : c.Lawful) (key : Bytes) (batches : List (List (ShufDup α)))
    (hb : ∀ x ∈ batches.flatten, Small x) (hl : batches.flatten.length < 2 ^ 32) :
    ∃ s, fillCache c key batches = .ok s ∧ CacheOf s (batches.flatten.map (recOf c key)) ∧
      s.privKey = key ∧ s.itemLen = c.cmpLen := by
  have h1 : mapE (saveBatch c key) batches = .ok (batches.map (fun b => b.map (recOf c key))) :=
    mapE_ok _ _ _ (fun b hbm => saveBatch_ok hc key b
      (fun x hx => hb x (List.mem_flatten_of_mem hbm hx)))
  have h2 : (batches.map (fun b => b.map (recOf c key))).flatten = batches.flatten.map (recOf c key) := by
    rw [List.map_flatten]
  rw [fillCache, if_neg (by have := hc.cmpLt; omega), h1]
  dsimp only
  rw [h2]
  refine ⟨_, rfl, ⟨rfl, ?_, le_of_lt hc.cmpLt, ?_⟩, rfl, rfl⟩
  · show (batches.flatten.map _).length % _ = _
    rw [List.length_map, Nat.mod_eq_of_lt hl]
  · intro r hr
    obtain ⟨x, hx, rfl⟩ := List.mem_map.mp hr
    exact ⟨(hb x hx).1, (hb x hx).2.1, (hb x hx).2.2, tag_length hc key _⟩

theorem flatMap_slice (recs : List Rec) (h : ∀ r ∈ recs, r.data.length ≤ maxCipher) (i : Nat)
    (hi : i < recs.length) :
    ((recs.flatMap Rec.bytes).drop (i * recSize)).take recSize = recs[i].bytes := by
  have := slice_flatten recSize (recs.map Rec.bytes)
    (by intro y hy; obtain ⟨z, hz, rfl⟩ := List.mem_map.mp hy; exact Rec.bytes_length z (h z hz)) i
    (by simpa using hi)
  rw [List.flatMap_def, this, List.getElem_map]

theorem file_length {s : ServerCache} {recs : List Rec} (h : CacheOf s recs) :
    s.file.length = recs.length * recSize := by
  have := flatten_length recSize (recs.map Rec.bytes)
    (by intro y hy; obtain ⟨z, hz, rfl⟩ := List.mem_map.mp hy
        exact Rec.bytes_length z (by rw [(h.wf z hz).2.2.2]; exact h.len))
  rw [h.file, List.flatMap_def, this, List.length_map]

theorem openCache_ok {s : ServerCache} {recs : List Rec} (h : CacheOf s recs) : openCache s = .ok () := by
  rw [openCache, if_neg]
  rw [file_length h, h.count, Nat.mul_div_cancel _ (by decide)]
  simp

theorem readRecs_ok {s : ServerCache} {recs : List Rec} (h : CacheOf s recs) (pos n : Nat)
    (hn : pos + n ≤ recs.length) : readRecs s pos n = (recs.drop pos).take n := by
  apply List.ext_getElem
  · simp [readRecs]; omega
  · intro i h1 h2
    have hi : pos + i < recs.length := by simp [readRecs] at h1; omega
    have hm := List.getElem_mem hi
    have hw := h.wf _ hm
    simp only [readRecs, List.getElem_map, List.getElem_range, List.getElem_take, List.getElem_drop]
    rw [h.file, flatMap_slice recs (fun r hr => by rw [(h.wf r hr).2.2.2]; exact h.len) _ hi, ← hw.2.2.2]
    exact parseRec_bytes _ hw.1 hw.2.1 hw.2.2.1

theorem readCache_step {s : ServerCache} {recs : List Rec} (h : CacheOf s recs) (batch pos : Nat) :
    ∃ p, readCache s batch pos = .ok ((recs.drop pos).take batch, p) ∧ recs.drop p = (recs.drop pos).drop batch := by
  unfold readCache
  by_cases hp : s.itemCount ≤ pos
  · rw [if_pos hp]
    rw [h.count] at hp
    exact ⟨pos, by rw [List.drop_eq_nil_of_le hp]; simp, by rw [List.drop_eq_nil_of_le hp]; simp⟩
  · rw [if_neg hp]
    rw [h.count] at hp ⊢
    dsimp only
    rw [readRecs_ok h _ _ (by omega)]
    have e : (recs.drop pos).take batch = (recs.drop pos).take (min batch (recs.length - pos)) := by
      rw [← List.length_drop, ← List.take_eq_take_min]
    refine ⟨_, by rw [e], ?_⟩
    rw [List.drop_drop]
    by_cases hm : batch ≤ recs.length - pos
    · rw [Nat.min_eq_left hm]
    · rw [Nat.min_eq_right (by omega), List.drop_eq_nil_of_le (by omega), List.drop_eq_nil_of_le (by omega)]

theorem drain_cache {s : ServerCache} {recs : List Rec} (h : CacheOf s recs) (batch : Nat) (hb : 0 < batch) :
    drain (readCache s batch) (s.itemCount + 1) 0 = .ok (pieces batch (recs.length + 1) recs) := by
  have := drain_pieces (readCache s batch) (fun pos => recs.drop pos) batch (fun _ => True) (by
    intro pos _
    obtain ⟨p, h1, h2⟩ := readCache_step h batch pos
    exact ⟨p, h1, trivial, h2⟩) hb (s.itemCount + 1) 0 trivial
  rw [this, h.count, List.drop_zero]

theorem genCache_ok (hc : c.Lawful) (key : Bytes) (σ : Nat → Nat → List Nat)
    (hσ : ∀ k l, (σ k l).Perm (List.range l)) (raw : List (List (α × Nat))) (hne : ∀ b ∈ raw, b ≠ [])
    (batch : Nat) (hb : 0 < batch) (hl : raw.flatten.length < 2 ^ 32) (hd : ∀ x ∈ raw.flatten, x.2 < 2 ^ 32) :
    ∃ (order : List (ShufDup α)) (s : ServerCache),
      Shuffles raw.flatten (order.map (fun x => ((x.item, x.dup), x.orig))) ∧
      order.map ShufDup.pos = List.range raw.flatten.length ∧
      genCache c key σ raw batch = .ok s ∧ CacheOf s (order.map (recOf c key)) ∧ s.privKey = key ∧
      s.itemLen = c.cmpLen := by
  obtain ⟨order, h1, h2, h3⟩ := Psi.Provider.C30_simple_shuffled σ hσ raw hne batch
  obtain ⟨outs, t, h4, h5, h6⟩ := h3 (raw.flatten.length + 1)
  have hlen : order.length = raw.flatten.length := by simpa using congrArg List.length h2
  have hflat : (outs.takeWhile (fun b => !b.isEmpty)).flatten = order := by
    rw [takeWhile_flatten, h6.concat, List.take_of_length_le]
    · rw [h5, hlen]
      calc raw.flatten.length ≤ (raw.flatten.length + 1) * 1 := by omega
        _ ≤ (raw.flatten.length + 1) * batch := Nat.mul_le_mul_left _ hb
    · intro i j hij hi b hbj
      have e1 := h6.size i _ hi
      have e2 := h6.size j _ hbj
      have : order.length ≤ i * batch := by simp at e1; omega
      have : i * batch ≤ j * batch := Nat.mul_le_mul_right _ hij
      exact List.eq_nil_of_length_eq_zero (by omega)
  have hsmall : ∀ x ∈ order, Small x := by
    intro x hx
    have p1 : x.pos ∈ order.map ShufDup.pos := List.mem_map_of_mem hx
    rw [h2, List.mem_range] at p1
    have p2 := h1.back (x.item, x.dup) x.orig (List.mem_map.mpr ⟨x, hx, rfl⟩)
    obtain ⟨p3, p4⟩ := List.getElem?_eq_some_iff.mp p2
    have p5 := hd _ (List.getElem_mem p3)
    rw [p4] at p5
    exact ⟨by omega, by omega, p5⟩
  obtain ⟨s, k1, k2, k3, k4⟩ := fillCache_ok hc key (outs.takeWhile (fun b => !b.isEmpty))
    (by rw [hflat]; exact hsmall) (by rw [hflat]; omega)
  rw [hflat] at k2
  refine ⟨order, s, h1, h2, ?_, k2, k3, k4⟩
  rw [genCache, drain_reads _ _ _ _ _ h4]
  exact k1

end Psi.UbPsi
