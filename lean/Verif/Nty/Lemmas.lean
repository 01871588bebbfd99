import Verif.Nty.Model
import Verif.Rr22.OprfLemmas

/-! # Lemmas for the multi-party intersection -/

namespace Psi.Nty
open Psi.Gf128
open Psi.Okvs hiding Err
open Psi.Baxos hiding Err
open Psi.Rr22 Psi.Rr22.Oprf
open Psi.Ecdh (Bytes)

/-! ### Messages -/

theorem unpack_le16 {l : List Nat} (h : ∀ x ∈ l, x < 2 ^ 128) : unpack (l.flatMap le16) = .ok l := by
  have e : (l.flatMap le16).length = 16 * l.length := flatMap_le16_length l
  unfold unpack
  rw [if_neg (by omega), e, Nat.mul_div_cancel_left _ (by norm_num)]
  congr 1
  apply List.ext_getElem
  · simp
  · intro i h1 h2
    rw [List.getElem_map, List.getElem_range, flatMap_drop, List.drop_eq_getElem_cons h2, List.flatMap_cons,
      List.take_left' (le16_length _)]
    unfold le16
    rw [ofLe_range, show 256 ^ 16 = 2 ^ 128 by norm_num, Nat.mod_eq_of_lt (h _ (List.getElem_mem h2))]

theorem packet_eq (l : List Gf) : packet l = (l.map Gf.val).flatMap le16 := by
  unfold packet
  rw [List.flatMap_map]

theorem unpack_packet (l : List Gf) : unpack (packet l) = .ok (l.map Gf.val) := by
  rw [packet_eq]
  apply unpack_le16
  intro x hx
  obtain ⟨y, -, rfl⟩ := List.mem_map.1 hx
  exact y.lt

theorem ofNat_val (x : Gf) : Gf.ofNat x.val = x := Gf.ext (Nat.mod_eq_of_lt x.lt)

/-! ### Sorted lists -/

theorem setInter_count {x y : List Nat} (hx : x.Pairwise (· ≤ ·)) (hy : y.Pairwise (· ≤ ·)) (c : Nat) :
    (setInter x y).count c = min (x.count c) (y.count c) := by
  fun_induction setInter x y with
  | case1 => simp
  | case2 => simp
  | case3 a x b y h ih =>
    rw [ih (List.pairwise_cons.1 hx).2 hy, List.count_cons (l := x)]
    by_cases e : a = c
    · subst e
      have : (b :: y).count a = 0 := by
        rw [List.count_eq_zero]
        intro hm
        rcases List.mem_cons.1 hm with rfl | hm
        · omega
        · have := (List.pairwise_cons.1 hy).1 a hm
          omega
      rw [this]
      simp
    · simp [e]
  | case4 a x b y h1 h2 ih =>
    rw [ih hx (List.pairwise_cons.1 hy).2, List.count_cons (l := y)]
    by_cases e : b = c
    · subst e
      have : (a :: x).count b = 0 := by
        rw [List.count_eq_zero]
        intro hm
        rcases List.mem_cons.1 hm with rfl | hm
        · omega
        · have := (List.pairwise_cons.1 hx).1 b hm
          omega
      rw [this]
      simp
    · simp [e]
  | case5 a x b y h1 h2 ih =>
    obtain rfl : a = b := by omega
    rw [List.count_cons, List.count_cons, List.count_cons, ih (List.pairwise_cons.1 hx).2 (List.pairwise_cons.1 hy).2]
    omega

theorem setInter_sort_count (x y : List Nat) (c : Nat) :
    (setInter (x.insertionSort (· ≤ ·)) (y.insertionSort (· ≤ ·))).count c = min (x.count c) (y.count c) := by
  rw [setInter_count (List.pairwise_insertionSort _ _) (List.pairwise_insertionSort _ _), (List.perm_insertionSort _ x).count_eq,
    (List.perm_insertionSort _ y).count_eq]

/-! ### Two parties and a server -/

/-- The receiver has the common values, as often as both have them. -/
theorem aided {aes aesInv : Gf → Gf → Gf} {key : Gf} (hinv : ∀ x, aesInv key (aes key x) = x)
    {shH shR : List Gf → List Gf} (hH : ∀ l, (shH l).Perm l) (hR : ∀ l, (shR l).Perm l) (h r : List Gf) :
    ∃ msg raw, serverAssist (sendEncItems aes key shH h) (sendEncItems aes key shR r) = .ok msg ∧
      decryptResult aesInv key msg = .ok raw ∧ ∀ t, raw.count t = min (h.count t) (r.count t) := by
  set L := setInter (((shH (h.map (aes key))).map Gf.val).insertionSort (· ≤ ·))
    (((shR (r.map (aes key))).map Gf.val).insertionSort (· ≤ ·)) with hL
  have hval : Function.Injective Gf.val := fun a b e => Gf.ext e
  have haes : Function.Injective (aes key) := fun a b e => by rw [← hinv a, e, hinv]
  have hcount : ∀ c, L.count c = min (((h.map (aes key)).map Gf.val).count c) (((r.map (aes key)).map Gf.val).count c) := by
    intro c
    rw [hL, setInter_sort_count, ((hH _).map _).count_eq, ((hR _).map _).count_eq]
  have hmem : ∀ c ∈ L, ∃ x, c = (aes key x).val := by
    intro c hc
    have := List.count_pos_iff.2 hc
    rw [hcount] at this
    have := List.count_pos_iff.1 (Nat.lt_of_lt_of_le this (min_le_left _ _))
    rw [List.map_map] at this
    obtain ⟨x, -, rfl⟩ := List.mem_map.1 this
    exact ⟨x, rfl⟩
  have hlt : ∀ c ∈ L, c < 2 ^ 128 := by
    intro c hc
    obtain ⟨x, rfl⟩ := hmem c hc
    exact Gf.lt _
  refine ⟨L.flatMap le16, L.map fun c => aesInv key (Gf.ofNat c), ?_, ?_, ?_⟩
  · unfold serverAssist sendEncItems
    simp only [unpack_packet, bind, Except.bind]
    rw [← hL]
  · unfold decryptResult
    simp only [unpack_le16 hlt, bind, Except.bind]
  · intro t
    have h1 : (L.map fun c => aesInv key (Gf.ofNat c)).count t = L.count (aes key t).val := by
      rw [List.count, List.countP_map, List.count]
      apply List.countP_congr
      intro c hc
      obtain ⟨x, rfl⟩ := hmem c hc
      simp only [Function.comp, ofNat_val, hinv, beq_iff_eq]
      constructor
      · rintro rfl
        rfl
      · intro e
        exact haes (hval e)
    rw [h1, hcount, List.count_map_of_injective _ _ hval, List.count_map_of_injective _ _ haes,
      List.count_map_of_injective _ _ hval, List.count_map_of_injective _ _ haes]

/-! ### The map from values to indices -/

theorem firstIdx_aux (tags : List Gf) (k : Nat) (hk : k ≤ tags.length) (t : Gf) :
    ((((List.range k).foldl
      (fun m i => if m.any (fun e => e.1 = tags.getD i 0) then m else m ++ [(tags.getD i 0, i % 2 ^ 32)]) []).find?
        (fun e => e.1 = t)) : Option (Gf × Nat)) =
      if t ∈ tags.take k then some (t, tags.idxOf t % 2 ^ 32) else none := by
  induction k generalizing t with
  | zero => simp
  | succ k ih =>
    rw [List.range_succ, List.foldl_append]
    simp only [List.foldl_cons, List.foldl_nil]
    have hkl : k < tags.length := by omega
    have htake : tags.take (k + 1) = tags.take k ++ [tags[k]] := by rw [List.take_succ_eq_append_getElem hkl]
    have hany : ∀ u, (((List.range k).foldl
      (fun m i => if m.any (fun e => e.1 = tags.getD i 0) then m else m ++ [(tags.getD i 0, i % 2 ^ 32)])
        ([] : List (Gf × Nat))).any (fun e => e.1 = u) = true) ↔ u ∈ tags.take k := by
      intro u
      rw [List.any_eq_true, ← List.find?_isSome, ih (by omega) u]
      split_ifs <;> simp_all
    by_cases hm : tags[k] ∈ tags.take k
    · rw [if_pos (by rw [List.getD_eq_getElem _ _ hkl]; exact (hany _).2 hm), ih (by omega)]
      congr 1
      rw [htake, List.mem_append, List.mem_singleton]
      apply propext
      constructor
      · exact .inl
      · rintro (h | rfl)
        · exact h
        · exact hm
    · rw [if_neg (by rw [List.getD_eq_getElem _ _ hkl]; exact fun h => hm ((hany _).1 h)), List.find?_append, ih (by omega),
        List.getD_eq_getElem _ _ hkl, htake]
      by_cases ht : t ∈ tags.take k
      · rw [if_pos ht, if_pos (List.mem_append_left _ ht)]
        rfl
      · rw [if_neg ht]
        by_cases he : tags[k] = t
        · subst he
          have hidx : tags.idxOf tags[k] = k := by
            generalize hu : tags[k] = u at hm ⊢
            rw [← List.take_append_drop k tags, List.idxOf_append_of_notMem hm, List.drop_eq_getElem_cons hkl, hu,
              List.idxOf_cons_self, List.length_take]
            omega
          rw [if_pos (List.mem_append_right _ (List.mem_singleton.2 rfl)), hidx]
          simp
        · rw [if_neg]
          · simp [he]
          · rw [List.mem_append, List.mem_singleton]
            rintro (h | h)
            · exact ht h
            · exact he h.symm

theorem firstIdx_find (tags : List Gf) (t : Gf) :
    (firstIdx tags).find? (fun e => e.1 = t) = if t ∈ tags then some (t, tags.idxOf t % 2 ^ 32) else none := by
  have := firstIdx_aux tags tags.length le_rfl t
  rw [List.take_length] at this
  exact this

/-- `GetIntersection` for values that tell the inputs apart: an input appears as often as its value was received. -/
theorem getIntersection_count {empty : Gf} {R raw res : List Gf} {tag : Gf → Gf} (hlen : R.length ≤ 2 ^ 32)
    (hraw : ∀ t ∈ raw, t ∈ R.map tag) (h : getIntersection empty R (R.map tag) raw = .ok res) :
    (∀ x ∈ res, x ∈ R ∧ tag x ∈ raw) ∧
      ((∀ x ∈ R, ∀ y ∈ R, tag x = tag y → x = y) → ∀ x ∈ R, res.count x = raw.count (tag x)) := by
  unfold getIntersection at h
  split_ifs at h with hc
  clear hc
  cases h
  have key : ∀ t ∈ raw, ∃ x ∈ R, tag x = t ∧ (((firstIdx (R.map tag)).find? (fun e => e.1 = t)).map fun e => R.getD e.2 0) = some x := by
    intro t ht
    have hm := hraw t ht
    have hi : (R.map tag).idxOf t < R.length := by simpa using List.idxOf_lt_length_iff.2 hm
    refine ⟨R[(R.map tag).idxOf t], List.getElem_mem _, ?_, ?_⟩
    · have := List.getElem_idxOf (xs := R.map tag) (x := t) (by simpa using hi)
      rw [List.getElem_map] at this
      exact this
    · rw [firstIdx_find, if_pos hm]
      show some (R.getD ((R.map tag).idxOf t % 2 ^ 32) 0) = _
      rw [Nat.mod_eq_of_lt (by omega), List.getD_eq_getElem _ _ hi]
  constructor
  · intro x hx
    obtain ⟨t, ht, e⟩ := List.mem_filterMap.1 hx
    obtain ⟨y, h1, h2, h3⟩ := key t ht
    rw [h3] at e
    cases e
    exact ⟨h1, h2 ▸ ht⟩
  · intro hinj x hx
    clear hraw
    induction raw with
    | nil => rfl
    | cons t raw ih =>
      have ih := ih (fun u hu => key u (List.mem_cons_of_mem _ hu))
      obtain ⟨y, h1, h2, h3⟩ := key t (List.mem_cons_self ..)
      rw [List.filterMap_cons, h3]
      simp only
      rw [List.count_cons, List.count_cons, ih]
      congr 1
      by_cases e : y = x
      · subst e
        simp [h2]
      · rw [if_neg (by simpa using e), if_neg]
        rw [beq_iff_eq, ← h2]
        exact fun h => e (hinj y h1 x hx h)

end Psi.Nty
