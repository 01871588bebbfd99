import Verif.Kkrt.EncLemmas
import Verif.Cuckoo.Props
import Verif.Kkrt.Spec
import Verif.Ecdh.WireLemmas

/-! # KKRT-PSI: messages, lookup, result -/

namespace Psi.Kkrt
open Psi.Cuckoo (getHash Options Table inputIdx kEmpty minCollidingHashIdx insertAll)
open Psi.Ecdh (Bytes Msg chop)
open Psi.Spec
open Spec (NoCollision)

/-- A slot has a bin iff no earlier hash function leads to it. -/
theorem slots_iff (nb item h b : Nat) (hh : h < 3) :
    slots nb item h = some b ↔ getHash item h % nb = b ∧ ∀ k, k < h → getHash item k % nb ≠ b := by
  match h, hh with
  | 0, _ => simp [slots]
  | 1, _ =>
    simp only [slots]
    by_cases h01 : getHash item 0 % nb = getHash item 1 % nb
    · rw [if_pos h01]
      constructor
      · intro h; exact absurd h (by simp)
      · rintro ⟨h1, h2⟩; exact absurd (h01.trans h1) (h2 0 (by decide))
    · rw [if_neg h01, Option.some.injEq]
      constructor
      · intro h
        refine ⟨h, fun k hk => ?_⟩
        have : k = 0 := by omega
        subst this
        rw [← h]; exact h01
      · exact fun h => h.1
  | 2, _ =>
    simp only [slots]
    by_cases h01 : getHash item 0 % nb = getHash item 2 % nb ∨ getHash item 1 % nb = getHash item 2 % nb
    · rw [if_pos h01]
      constructor
      · intro h; exact absurd h (by simp)
      · rintro ⟨h1, h2⟩
        rcases h01 with h01 | h01
        · exact absurd (h01.trans h1) (h2 0 (by decide))
        · exact absurd (h01.trans h1) (h2 1 (by decide))
    · rw [if_neg h01, Option.some.injEq]
      constructor
      · intro h
        refine ⟨h, fun k hk => ?_⟩
        rw [not_or] at h01
        have : k = 0 ∨ k = 1 := by omega
        rcases this with rfl | rfl
        · rw [← h]; exact h01.1
        · rw [← h]; exact h01.2
      · exact fun h => h.1

/-- Contents of the send buffer, whatever the timing. -/
theorem encodings_buf (p : Params) (item perm : Nat → Nat) (n nb step : Nat) (fill : Nat → Nat → Bytes)
    (rs : List Nat) (hnb : 0 < nb) (hperm : ∀ a b, a < n → b < n → perm a = perm b → a = b)
    (pos h : Nat) (hpos : pos < n) (hh : h < 3) :
    (encodings p item perm n nb step fill rs).buf pos h =
        (match slots nb (item (perm pos)) h with
          | some b => p.F b (item (perm pos))
          | none => fill pos h) ∧
      calls (encodings p item perm n nb step fill rs).log pos h =
        (if (slots nb (item (perm pos)) h).isSome then 1 else 0) ∧
      ∀ x ∈ (encodings p item perm n nb step fill rs).log, ∃ b,
        slots nb (item (perm x.1)) x.2.1 = some b ∧ b < x.2.2 := by
  have h0 : EncOk p item perm n (fun i h => slots nb (item i) h) fill
      ⟨fun i h => slots nb (item i) h, fill, []⟩ :=
    ⟨fun pos h _ => Or.inl ⟨rfl, rfl, rfl⟩, by simp⟩
  have hb0 : ∀ i k b, (⟨fun i h => slots nb (item i) h, fill, []⟩ : Enc).pend i k = some b → b < nb :=
    fun i k b hb => slots_bound nb (item i) k b hnb hb
  have h1 := spin_ok hperm step (0 :: rs) 0 _ (by omega) h0
  have hb1 := spin_bound (p := p) (item := item) (perm := perm) (n := n) nb step (0 :: rs) 0 _ hb0
  obtain ⟨h2, h3⟩ := flush_ok hperm nb _ h1 hb1
  have hcl := h3 pos h hpos hh
  refine ⟨?_, ?_, fun x hx => (h2.ready x hx).2⟩
  · rcases h2.slot pos h hpos with ⟨a, b, _⟩ | ⟨_, b, c, d, _⟩
    · rw [hcl] at a
      simp only at a
      rw [← a]
      exact b
    · simp only at c
      rw [c]
      exact d
  · rcases h2.slot pos h hpos with ⟨a, _, c⟩ | ⟨_, b, c, _, e⟩
    · rw [hcl] at a
      simp only at a
      rw [← a]
      exact c
    · simp only at c
      rw [c]
      exact e

theorem encodings_log (p : Params) (item perm : Nat → Nat) (n nb step : Nat) (fill : Nat → Nat → Bytes)
    (rs : List Nat) (hn : 0 < n) (hnb : 0 < nb)
    (hperm : ∀ a b, a < n → b < n → perm a = perm b → a = b) :
    ∀ x ∈ (encodings p item perm n nb step fill rs).log, ∃ b,
        slots nb (item (perm x.1)) x.2.1 = some b ∧ b < x.2.2 :=
  (encodings_buf p item perm n nb step fill rs hnb hperm 0 0 hn (by decide)).2.2

theorem slots_lt (nb item h b : Nat) (hs : slots nb item h = some b) : h < 3 := by
  unfold slots at hs
  simp only at hs
  split at hs
  · decide
  · decide
  · decide
  · exact absurd hs (by simp)

/-! ## Messages -/

theorem flat3_length (buf : Nat → Nat → Bytes) (poss : List Nat) :
    (poss.flatMap (fun q => (List.range 3).map (buf q))).length = poss.length * 3 := by
  induction poss with
  | nil => rfl
  | cons q poss ih => rw [List.flatMap_cons, List.length_append, ih]; simp; omega

theorem flat3_get (buf : Nat → Nat → Bytes) (poss : List Nat) (i j : Nat) (hj : j < 3)
    (hi : i < poss.length) :
    (poss.flatMap (fun q => (List.range 3).map (buf q)))[i * 3 + j]? = some (buf poss[i] j) := by
  induction poss generalizing i with
  | nil => simp at hi
  | cons q poss ih =>
    rw [List.flatMap_cons]
    cases i with
    | zero =>
      rw [List.getElem?_append_left (by simp; omega)]
      simp [hj]
    | succ i =>
      rw [List.getElem?_append_right (by simp; omega)]
      have : (i + 1) * 3 + j - ((List.range 3).map (buf q)).length = i * 3 + j := by simp; omega
      rw [this, ih i (by simpa using hi)]
      rfl

theorem slot_of_flat (size : Nat) (buf : Nat → Nat → Bytes) (poss : List Nat)
    (hs : ∀ q ∈ poss, ∀ j, j < 3 → (buf q j).length = size) (i j : Nat) (hj : j < 3)
    (hi : i < poss.length) :
    (((poss.flatMap (fun q => (List.range 3).map (buf q))).flatten.drop ((i * 3 + j) * size)).take size)
      = buf poss[i] j := by
  have hl : ∀ x ∈ poss.flatMap (fun q => (List.range 3).map (buf q)), x.length = size := by
    intro x hx
    obtain ⟨q, hq, hx⟩ := List.mem_flatMap.mp hx
    obtain ⟨j, hj, rfl⟩ := List.mem_map.mp hx
    exact hs q hq j (List.mem_range.mp hj)
  have hc := Psi.Ecdh.chop_flatten size _ hl
  have hlen := flat3_length buf poss
  have hidx : i * 3 + j < (poss.flatMap (fun q => (List.range 3).map (buf q))).length := by omega
  have h1 := flat3_get buf poss i j hj hi
  rw [← hc] at h1
  unfold chop at h1
  rw [List.getElem?_map, List.getElem?_range hidx] at h1
  simpa using h1

theorem dupLookup_message (c : Nat → Nat) (poss : List Nat) (i : Nat) (hi : i < poss.length) :
    dupLookup (poss.zipIdx.filterMap (fun x => if 1 < c x.1 then some (x.2, c x.1) else none)) i =
      if 1 < c poss[i] then c poss[i] else 0 := by
  unfold dupLookup
  have key : ∀ (l : List Nat) (k i : Nat) (hi : i < l.length),
      ((l.zipIdx k).filterMap (fun x => if 1 < c x.1 then some (x.2, c x.1) else none)).find?
        (fun x => x.1 = k + i) = if 1 < c l[i] then some (k + i, c l[i]) else none := by
    intro l
    induction l with
    | nil => intro k i hi; simp at hi
    | cons q l ih =>
      intro k i hi
      rw [List.zipIdx_cons]
      cases i with
      | zero =>
        have htail : ((l.zipIdx (k + 1)).filterMap
            (fun x => if 1 < c x.1 then some (x.2, c x.1) else none)).find? (fun x => x.1 = k + 0)
            = none := by
          rw [List.find?_eq_none]
          intro x hx
          obtain ⟨y, hy, he⟩ := List.mem_filterMap.mp hx
          have hy2 : k + 1 ≤ y.2 := (List.mem_zipIdx hy).1
          split at he
          · simp only [Option.some.injEq] at he
            subst he
            simp; omega
          · exact absurd he (by simp)
        by_cases hc : 1 < c q
        · rw [List.filterMap_cons_some (b := (k, c q)) (by simp [hc])]
          simp [hc]
        · rw [List.filterMap_cons_none (by simp [hc]), htail]
          simp [hc]
      | succ i =>
        have := ih (k + 1) i (by simpa using hi)
        have hk : k + 1 + i = k + (i + 1) := by omega
        rw [hk] at this
        by_cases hc : 1 < c q
        · rw [List.filterMap_cons_some (b := (k, c q)) (by simp [hc]), List.find?_cons]
          have : ¬ (k = k + (i + 1)) := by omega
          simp [*]
        · rw [List.filterMap_cons_none (by simp [hc]), this]
          simp
  have := key poss 0 i hi
  simp only [Nat.zero_add] at this
  rw [this]
  split <;> rfl

/-- Matches of one sender position. -/
def hits (maps : Nat → List (Bytes × Nat)) (buf : Nat → Nat → Bytes) (cnt : Nat → Nat) (perm : Nat → Nat)
    (q : Nat) : List (Nat × Nat) :=
  (List.range 3).filterMap (fun j => (lookup (maps j) (buf q j)).map
    (fun idx => (idx, if 1 < cnt (perm q) then cnt (perm q) else 0)))

theorem flatMap_range_getElem {α β : Type} (l : List α) (f : Nat → List β) (g : α → List β)
    (h : ∀ i (hi : i < l.length), f i = g l[i]) : (List.range l.length).flatMap f = l.flatMap g := by
  have : l = (List.range l.length).pmap (fun i hi => l[i]'hi) (fun i hi => List.mem_range.mp hi) := by
    apply List.ext_getElem
    · simp
    · intro i h1 h2; simp
  conv_rhs => rw [this]
  rw [List.flatMap_def, List.flatMap_def, List.map_pmap]
  congr 1
  apply List.ext_getElem
  · simp
  · intro i h1 h2
    simp only [List.getElem_map, List.getElem_range, List.getElem_pmap]
    exact h i (by simpa using h1)

theorem recvMsg_message (p : Params) (maps : Nat → List (Bytes × Nat)) (cnt perm : Nat → Nat) (n : Nat)
    (buf : Nat → Nat → Bytes) (poss : List Nat)
    (hs : ∀ q ∈ poss, ∀ j, j < 3 → (buf q j).length = p.size) :
    recvMsg p maps (message cnt perm n buf poss) = some (poss.flatMap (hits maps buf cnt perm)) := by
  have hl : ∀ x ∈ poss.flatMap (fun q => (List.range 3).map (buf q)), x.length = p.size := by
    intro x hx
    obtain ⟨q, hq, hx⟩ := List.mem_flatMap.mp hx
    obtain ⟨j, hj, rfl⟩ := List.mem_map.mp hx
    exact hs q hq j (List.mem_range.mp hj)
  unfold recvMsg
  have hlen : (message cnt perm n buf poss).flat.length =
      (message cnt perm n buf poss).itemNum * 3 * p.size := by
    simp only [message]
    rw [Psi.Ecdh.flatten_length p.size _ hl, flat3_length]
  rw [if_pos hlen, Option.some.injEq]
  show (List.range poss.length).flatMap _ = _
  apply flatMap_range_getElem
  intro i hi
  unfold hits
  apply List.filterMap_congr
  intro j hj
  have hj' := List.mem_range.mp hj
  have h1 := slot_of_flat p.size buf poss hs i j hj' hi
  have h2 := dupLookup_message (fun q => cnt (perm q)) poss i hi
  simp only [message]
  rw [h1]
  congr 1
  funext idx
  rw [h2]

theorem recvAll_batches (p : Params) (maps : Nat → List (Bytes × Nat)) (n k : Nat) (hk : 0 < k)
    (msg : List Nat → Msg) (g : Nat → List (Nat × Nat))
    (hmsg : ∀ i m, i + m ≤ n → recvMsg p maps (msg (List.range' i m)) =
      some ((List.range' i m).flatMap g))
    (hlast : ∀ i m, 0 < m → (msg (List.range' i m)).isLast = decide (i + m = n)) :
    ∀ f i, n - i ≤ f → i < n →
      recvAll p maps ((batches n k f i).map msg) = some ((List.range' i (n - i)).flatMap g) := by
  intro f
  induction f with
  | zero => intro i h1 h2; omega
  | succ f ih =>
    intro i hf hi
    have hm : 0 < min k (n - i) := by omega
    rw [batches, if_pos hi, List.map_cons, recvAll, hmsg i _ (by omega), Option.bind_some,
      hlast i _ hm]
    by_cases he : i + min k (n - i) = n
    · have hmin : min k (n - i) = n - i := by omega
      rw [if_pos (by simpa using he), hmin]
    · rw [if_neg (by simpa using he), ih _ (by omega) (by omega), Option.map_some,
        Option.some.injEq, ← List.flatMap_append]
      congr 1
      rw [List.range'_append_1]
      congr 1
      omega

/-! ## The receiver's tables -/

theorem encodeMap_mem (p : Params) (xs : List Nat) (t : Table) (j : Nat) (y : Bytes × Nat) : y ∈ encodeMap p xs t j ↔
    ∃ b e : Nat, t.bins[b]? = some e ∧ e ≠ 2 ^ 64 - 1 ∧ e % 2 ^ 56 = y.2 ∧
      minCollidingHashIdx (p.options xs.length) t b = some j ∧ y.1 = p.F b (xs.getD y.2 0) := by
  unfold encodeMap
  rw [List.mem_filterMap]
  constructor
  · rintro ⟨b, hbm, he⟩
    have hlt := List.mem_range.mp hbm
    have hg : t.bins[b]? = some t.bins[b] := List.getElem?_eq_getElem hlt
    have hD : t.bins.getD b 0 = t.bins[b] := by rw [List.getD_eq_getElem?_getD, hg]; rfl
    simp only [hD] at he
    split at he
    · exact absurd he (by simp)
    · rename_i hne
      split at he
      · rename_i hmin
        simp only [Option.some.injEq] at he
        subst he
        rw [Psi.Cuckoo.inputIdx_eq]
        exact ⟨b, _, hg, hne, rfl, hmin, rfl⟩
      · exact absurd he (by simp)
  · rintro ⟨b, e, hg, hne, h1, h2, h3⟩
    obtain ⟨hlt, hge⟩ := List.getElem?_eq_some_iff.mp hg
    have hD : t.bins.getD b 0 = e := by rw [List.getD_eq_getElem?_getD, hg]; rfl
    refine ⟨b, List.mem_range.mpr hlt, ?_⟩
    have hne' : ¬ e = kEmpty := hne
    simp only [hD, if_neg hne', if_pos h2, Psi.Cuckoo.inputIdx_eq, h1, Option.some.injEq]
    exact Prod.ext h3.symm rfl

theorem encodeMap_lookup (p : Params) (xs : List Nat) (t : Table) (nb : Nat) (hb : t.bins.length = nb)
    (hinj : ∀ b b' x y, b < nb → b' < nb → x ∈ xs → y ∈ xs → p.F b x = p.F b' y → b = b' ∧ x = y)
    (hidx : ∀ (b e : Nat), t.bins[b]? = some e → e ≠ 2 ^ 64 - 1 → e % 2 ^ 56 < xs.length)
    (j i : Nat) (k : Bytes) :
    lookup (encodeMap p xs t j) k = some i ↔
      ∃ b e : Nat, t.bins[b]? = some e ∧ e ≠ 2 ^ 64 - 1 ∧ e % 2 ^ 56 = i ∧
        minCollidingHashIdx (p.options xs.length) t b = some j ∧ k = p.F b (xs.getD i 0) := by
  have hmem := encodeMap_mem p xs t j
  unfold lookup
  rw [Option.map_eq_some_iff]
  constructor
  · rintro ⟨y, hf, rfl⟩
    have h1 := List.find?_some hf
    simp only [decide_eq_true_eq] at h1
    obtain ⟨b, e, a1, a2, a3, a4, a5⟩ := (hmem y).mp (List.mem_of_find?_eq_some hf)
    exact ⟨b, e, a1, a2, a3, a4, h1.symm.trans a5⟩
  · rintro ⟨b, e, a1, a2, a3, a4, a5⟩
    have hin : (k, i) ∈ encodeMap p xs t j := (hmem _).mpr ⟨b, e, a1, a2, a3, a4, a5⟩
    cases hf : (encodeMap p xs t j).find? (fun x => x.1 = k) with
    | none =>
      rw [List.find?_eq_none] at hf
      exact absurd (by simp) (hf _ hin)
    | some y =>
      refine ⟨y, rfl, ?_⟩
      have h1 := List.find?_some hf
      simp only [decide_eq_true_eq] at h1
      obtain ⟨b', e', c1, c2, c3, c4, c5⟩ := (hmem y).mp (List.mem_of_find?_eq_some hf)
      have hlt : b < nb := by rw [← hb]; exact (List.getElem?_eq_some_iff.mp a1).1
      have hlt' : b' < nb := by rw [← hb]; exact (List.getElem?_eq_some_iff.mp c1).1
      have hi := hidx b e a1 a2
      have hi' := hidx b' e' c1 c2
      rw [a3] at hi
      rw [c3] at hi'
      have hm : ∀ i, i < xs.length → xs.getD i 0 ∈ xs := by
        intro i hi
        rw [List.getD_eq_getElem?_getD, List.getElem?_eq_getElem hi]
        exact List.getElem_mem hi
      have heq : p.F b (xs.getD i 0) = p.F b' (xs.getD y.2 0) := by rw [← a5, ← c5, h1]
      obtain ⟨rfl, _⟩ := hinj b b' _ _ hlt hlt' (hm i hi) (hm _ hi') heq
      rw [a1, Option.some.injEq] at c1
      rw [← c3, ← c1, a3]

end Psi.Kkrt
