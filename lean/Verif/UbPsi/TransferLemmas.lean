import Verif.UbPsi.CacheLemmas
import Verif.Common.Spec

/-!
# Lemmas about the transfer of the cache and the client's file
-/

namespace Psi.UbPsi
open Psi.Ecdh (Bytes dupMap dupAt chop chop_flatten flatten_length dupMap_lookup)
open Psi.Spec (peerRows)

theorem rows_append {β : Type} (a b : List (β × Nat)) : peerRows (a ++ b) = peerRows a + peerRows b := by
  simp [peerRows]

theorem length_le_rows {β : Type} (a : List (β × Nat)) : a.length ≤ peerRows a := by
  induction a with
  | nil => simp [peerRows]
  | cons x a ih => simp [peerRows] at ih ⊢; omega

theorem le_rows {β : Type} (a : List (β × Nat)) (x : β × Nat) (h : x ∈ a) : x.2 < peerRows a := by
  induction a with
  | nil => simp at h
  | cons y a ih =>
    rcases List.mem_cons.mp h with rfl | h'
    · simp [peerRows]; omega
    · have := ih h'; simp [peerRows] at this ⊢; omega

/-- Item `i` of a store. -/
def itemAt (s : ClientStore) (i : Nat) : Bytes × Nat :=
  let b := (s.file.drop (i * itemSize)).take itemSize
  (b.take s.cipherLen, getU32 (b.drop maxCipher))

/-- The store holds these items. -/
structure Holds (s : ClientStore) (items : List (Bytes × Nat)) : Prop where
  len : s.file.length = items.length * itemSize
  get : ∀ i (h : i < items.length), itemAt s i = items[i]
  cnt : s.itemCnt = items.length
  peer : s.peerCnt = peerRows items
  cipher : s.cipherLen ≤ maxCipher
  small : peerRows items < 2 ^ 32

theorem tail_length (junk : Nat → Bytes) (i len : Nat) : (tail junk i len).length = maxCipher - len := by
  simp [tail]

theorem saveItem_ok (junk : Nat → Bytes) {s : ClientStore} {items : List (Bytes × Nat)} (h : Holds s items)
    (x : Bytes × Nat) (hx : x.1.length = s.cipherLen) (hs : peerRows (items ++ [x]) < 2 ^ 32) :
    ∃ s', saveItem junk s x.1 x.2 = .ok s' ∧ Holds s' (items ++ [x]) ∧ s'.cipherLen = s.cipherLen := by
  have hsum : peerRows (items ++ [x]) = peerRows items + x.2 + 1 := by rw [rows_append]; simp [peerRows]; omega
  have hlen := length_le_rows items
  rw [saveItem, if_neg (by simpa using hx)]
  have hc := h.cipher
  have hrec : (x.1 ++ (tail junk s.itemCnt x.1.length ++ putU32 x.2)).length = itemSize := by
    simp only [List.length_append, tail_length, putU32_length, itemSize, hx]
    unfold maxCipher at *; omega
  refine ⟨_, rfl, ⟨?_, ?_, ?_, ?_, h.cipher, hs⟩, rfl⟩
  · dsimp only
    rw [List.length_append, hrec, h.len, List.length_append, List.length_singleton, Nat.succ_mul]
  · intro i hi
    rw [List.length_append, List.length_singleton] at hi
    unfold itemAt
    dsimp only
    by_cases hi' : i < items.length
    · rw [List.getElem_append_left hi', ← h.get i hi', itemAt]
      have hle : i * itemSize + itemSize ≤ s.file.length := by
        rw [h.len, ← Nat.succ_mul]; exact Nat.mul_le_mul_right _ hi'
      have e : ((s.file ++ (x.1 ++ (tail junk s.itemCnt x.1.length ++ putU32 x.2))).drop (i * itemSize)).take itemSize
          = (s.file.drop (i * itemSize)).take itemSize := by
        rw [List.drop_append_of_le_length (by omega), List.take_append_of_le_length (by
          rw [List.length_drop]; omega)]
      rw [e]
    · have hie : i = items.length := by omega
      subst hie
      rw [List.getElem_append_right (le_refl _)]
      simp only [Nat.sub_self, List.getElem_cons_zero]
      rw [← h.len, List.drop_left, List.take_of_length_le (le_of_eq hrec), ← hx, List.take_left,
        ← List.append_assoc, List.drop_left' (by
          rw [List.length_append, tail_length, hx]; unfold maxCipher at *; omega)]
      rw [← List.append_nil (putU32 x.2), getU32_putU32 _ (by omega)]
  · dsimp only; rw [h.cnt, Nat.mod_eq_of_lt (by omega)]; simp
  · dsimp only; rw [h.peer, hsum, Nat.mod_eq_of_lt (by omega)]

theorem saveItems_ok (junk : Nat → Bytes) (dup : List (Nat × Nat)) (l : List (Bytes × Nat)) (i : Nat)
    {s : ClientStore} {items : List (Bytes × Nat)} (h : Holds s items)
    (hl : ∀ x ∈ l, x.1.length = s.cipherLen) (hd : ∀ k (hk : k < l.length), dupAt dup (i + k) = l[k].2)
    (hs : peerRows (items ++ l) < 2 ^ 32) :
    ∃ s', saveItems junk dup i (l.map Prod.fst) s = .ok s' ∧ Holds s' (items ++ l) ∧
      s'.cipherLen = s.cipherLen := by
  induction l generalizing i s items with
  | nil => exact ⟨s, rfl, by simpa using h, rfl⟩
  | cons x l ih =>
    have hxs : peerRows (items ++ [x]) < 2 ^ 32 := by
      rw [rows_append] at hs ⊢; simp [peerRows] at hs ⊢; omega
    obtain ⟨s1, h1, h2, h3⟩ := saveItem_ok junk h x (hl x (by simp)) hxs
    obtain ⟨s2, h4, h5, h6⟩ := ih (i + 1) h2 (fun y hy => by rw [h3]; exact hl y (by simp [hy]))
      (fun k hk => by
        have := hd (k + 1) (by simpa using hk)
        rw [List.getElem_cons_succ] at this
        rw [← this]; congr 1; omega)
      (by rw [List.append_assoc]; simpa using hs)
    have hd0 : dupAt dup i = x.2 := hd 0 (by simp)
    refine ⟨s2, ?_, by simpa using h5, h6.trans h3⟩
    rw [List.map_cons, saveItems, hd0, h1]
    exact h4

/-- The item sent for a record. -/
def sent (r : Rec) : Bytes × Nat := (r.data, r.dup)

/-- The message for a batch of records. -/
def cacheMsg (b : List Rec) : Batch := ⟨false, (b.map Rec.data).flatten, dupMap (b.map sent)⟩

theorem dupAt_dupMap {β : Type} (b : List (β × Nat)) (i : Nat) : dupAt (dupMap b) i = (b[i]?.map Prod.snd).getD 0 := by
  by_cases h : i < b.length
  · rw [dupMap_lookup b i h, List.getElem?_eq_getElem h]; rfl
  · rw [List.getElem?_eq_none (by omega)]
    have : (dupMap b).lookup i = none := by
      rw [List.lookup_eq_none_iff]
      intro p hp
      unfold dupMap at hp
      obtain ⟨⟨x, j⟩, hx, hf⟩ := List.mem_filterMap.mp hp
      rw [List.mem_zipIdx_iff_getElem?] at hx
      obtain ⟨hj, -⟩ := List.getElem?_eq_some_iff.mp hx
      dsimp only at hf hj
      split at hf
      · cases hf
        simp; omega
      · simp at hf
    simp [dupAt, this]

theorem recvCache_ok (junk : Nat → Bytes) (bs : List (List Rec)) {s : ClientStore} {items : List (Bytes × Nat)}
    (h : Holds s items) (hp : 0 < s.cipherLen) (hl : ∀ r ∈ bs.flatten, r.data.length = s.cipherLen)
    (hs : peerRows (items ++ bs.flatten.map sent) < 2 ^ 32) (rest : List Batch) :
    ∃ s', recvCache junk s.cipherLen (bs.map cacheMsg ++ Batch.last :: rest) s = .ok s' ∧
      Holds s' (items ++ bs.flatten.map sent) ∧ s'.cipherLen = s.cipherLen := by
  induction bs generalizing s items with
  | nil => exact ⟨s, by simp [recvCache, Batch.last], by simpa using h, rfl⟩
  | cons b bs ih =>
    have hb : ∀ x ∈ b.map sent, x.1.length = s.cipherLen := by
      intro x hx
      obtain ⟨r, hr, rfl⟩ := List.mem_map.mp hx
      exact hl r (by simp [hr])
    obtain ⟨s1, h1, h2, h3⟩ := saveItems_ok junk (dupMap (b.map sent)) (b.map sent) 0 h hb
      (fun k hk => by rw [Nat.zero_add]; exact dupMap_lookup _ _ hk)
      (by
        simp only [List.flatten_cons, List.map_append] at hs
        rw [← List.append_assoc, rows_append] at hs
        omega)
    have hmap : (b.map sent).map Prod.fst = b.map Rec.data := by rw [List.map_map]; rfl
    have hcut : cut s.cipherLen (b.map Rec.data).flatten = .ok (b.map Rec.data) :=
      cut_ok _ hp _ (by
        intro x hx
        obtain ⟨r, hr, rfl⟩ := List.mem_map.mp hx
        exact hl r (by simp [hr]))
    obtain ⟨s2, h4, h5, h6⟩ := ih h2 (by rw [h3]; exact hp)
      (by intro r hr; rw [h3]; exact hl r (by rw [List.flatten_cons]; exact List.mem_append_right _ hr))
      (by simpa using hs)
    refine ⟨s2, ?_, by simpa using h5, h6.trans h3⟩
    rw [List.map_cons, List.cons_append, recvCache]
    simp only [cacheMsg, Bool.false_eq_true, if_false]
    rw [hcut]
    dsimp only
    rw [← hmap, h1]
    dsimp only
    rw [h3] at h4
    exact h4

theorem transferMsgs_ok {s : ServerCache} {recs : List Rec} (h : CacheOf s recs) (batch : Nat) (hb : 0 < batch) :
    transferMsgs s batch = .ok ((pieces batch (recs.length + 1) recs).map cacheMsg ++ [Batch.last]) := by
  rw [transferMsgs, openCache_ok h]
  dsimp only
  rw [drain_cache h batch hb]
  rfl

/-- The empty store. -/
theorem holds_empty (L : Nat) (hL : L ≤ maxCipher) : Holds ⟨[], 0, 0, L⟩ [] :=
  ⟨rfl, by intro i h; simp at h, rfl, rfl, hL, by simp [peerRows]⟩

theorem openStore_flush {s : ClientStore} {items : List (Bytes × Nat)} (h : Holds s items) :
    openStore (flushStore s) s.cipherLen = .ok s := by
  have hl := length_le_rows items
  have hs := h.small
  have hn : s.file.length / itemSize % 2 ^ 32 = s.itemCnt := by
    rw [h.len, Nat.mul_div_cancel _ (by decide), h.cnt, Nat.mod_eq_of_lt (by omega)]
  rw [openStore, if_neg (by have := h.cipher; omega)]
  simp only [flushStore, Option.getD_some, ne_eq, not_true, if_false, hn]

/-- After a transfer of a cache the client's disk holds its items, in order. -/
theorem clientTransfer_ok {s : ServerCache} {recs : List Rec} (h : CacheOf s recs) (batch : Nat) (hb : 0 < batch)
    (hp : 0 < s.itemLen) (hs : peerRows (recs.map sent) < 2 ^ 32) (junk : Nat → Bytes) (old : ClientDisk)
    (hold : old.file = none → old.info = none) :
    ∃ ms st, transferMsgs s batch = .ok ms ∧
      clientTransfer junk s.itemLen ms old = (flushStore st, true) ∧ Holds st (recs.map sent) ∧
      st.cipherLen = s.itemLen := by
  have hd : (if old.file.isSome then (⟨none, none⟩ : ClientDisk) else old) = ⟨none, none⟩ := by
    cases old with
    | mk f i => cases f with
      | none => simp at hold; simp [hold]
      | some f => simp
  have ho : openStore ⟨none, none⟩ s.itemLen = .ok ⟨[], 0, 0, s.itemLen⟩ := by
    rw [openStore, if_neg (by have := h.len; omega)]; rfl
  have hf := pieces_flatten batch hb (recs.length + 1) recs (by omega)
  obtain ⟨st, h1, h2, h3⟩ := recvCache_ok junk (pieces batch (recs.length + 1) recs)
    (holds_empty s.itemLen h.len) hp (by rw [hf]; intro r hr; exact (h.wf r hr).2.2.2)
    (by rw [hf]; simpa using hs) []
  rw [hf] at h2
  refine ⟨_, st, transferMsgs_ok h batch hb, ?_, by simpa using h2, h3⟩
  rw [clientTransfer, hd]
  dsimp only
  rw [ho]
  dsimp only
  rw [h1]

theorem storeItems_ok {s : ClientStore} {items : List (Bytes × Nat)} (h : Holds s items) (pos n : Nat)
    (hn : pos + n ≤ items.length) : storeItems s pos n = (items.drop pos).take n := by
  apply List.ext_getElem
  · simp [storeItems]; omega
  · intro i h1 h2
    have hi : pos + i < items.length := by simp [storeItems] at h1; omega
    simp only [storeItems, List.getElem_map, List.getElem_range, List.getElem_take, List.getElem_drop]
    rw [← h.get _ hi]; rfl

theorem readStore_step {s : ClientStore} {items : List (Bytes × Nat)} (h : Holds s items) (batch pos : Nat) :
    ∃ p, readStore s batch pos = .ok ((items.drop pos).take batch, p) ∧
      items.drop p = (items.drop pos).drop batch := by
  have hcount : s.file.length / itemSize = items.length := by
    rw [h.len, Nat.mul_div_cancel _ (by decide)]
  unfold readStore
  dsimp only
  rw [hcount]
  by_cases hp : items.length ≤ pos
  · rw [if_pos hp]
    exact ⟨pos, by rw [List.drop_eq_nil_of_le hp]; simp, by rw [List.drop_eq_nil_of_le hp]; simp⟩
  · rw [if_neg hp, storeItems_ok h _ _ (by omega)]
    have e : (items.drop pos).take batch = (items.drop pos).take (min batch (items.length - pos)) := by
      rw [← List.length_drop, ← List.take_eq_take_min]
    refine ⟨_, by rw [e], ?_⟩
    rw [List.drop_drop]
    by_cases hm : batch ≤ items.length - pos
    · rw [Nat.min_eq_left hm]
    · rw [Nat.min_eq_right (by omega), List.drop_eq_nil_of_le (by omega), List.drop_eq_nil_of_le (by omega)]

theorem drain_store {s : ClientStore} {items : List (Bytes × Nat)} (h : Holds s items) (batch : Nat)
    (hb : 0 < batch) :
    ∃ bs, drain (readStore s batch) (s.file.length + 1) 0 = .ok bs ∧ bs.flatten = items := by
  have := drain_pieces (readStore s batch) (fun pos => items.drop pos) batch (fun _ => True) (by
    intro pos _
    obtain ⟨p, h1, h2⟩ := readStore_step h batch pos
    exact ⟨p, h1, trivial, h2⟩) hb (s.file.length + 1) 0 trivial
  refine ⟨_, this, ?_⟩
  rw [List.drop_zero]
  apply pieces_flatten _ hb
  rw [h.len, itemSize]
  omega

end Psi.UbPsi
