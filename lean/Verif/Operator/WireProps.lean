import Verif.Operator.WireModel
import Verif.DkPir.KeyFileProps

/-!
# C132: a result that is handed to the other party arrives whole when its keys are UTF-8
-/

namespace Psi.Wire

open Psi.DkPir (varint readVarint readBlock readPacked packed readVarint_varint readBlock_ok readPacked_packed)

/-! ### One field -/

theorem readField_item (m : Items) {d : List Nat} (hd : d.length ≤ 2 ^ 31 - 1 - 16) (rest : List Nat) :
    readField m (itemField d ++ rest) =
      ({ m with items := m.items ++ [d] }, if utf8 d then some rest else none) := by
  unfold itemField
  rw [List.cons_append, List.append_assoc]
  unfold readField
  dsimp only
  rw [readBlock_ok d rest hd]
  rfl

theorem readEntry_nil (k : Nat) (e : Nat × Nat) : readEntry k e [] = some e := by cases k <;> rfl

theorem readEntry_entry {e : Nat × Nat} (h1 : e.1 < 2 ^ 64) (h2 : e.2 < 2 ^ 32) :
    readEntry (entry e).length (0, 0) (entry e) = some e := by
  have hk : ∃ k, (entry e).length = k + 2 := ⟨(varint e.1).length + (varint e.2).length, by simp [entry]; omega⟩
  obtain ⟨k, hk⟩ := hk
  rw [hk]
  unfold entry
  unfold readEntry
  rw [if_pos rfl, readVarint_varint 9 _ _ (lt_trans h1 (by norm_num)), Option.bind_some]
  unfold readEntry
  have e2 := readVarint_varint 9 e.2 [] (lt_trans h2 (by norm_num))
  rw [List.append_nil] at e2
  simp only [Nat.reduceEqDiff, if_false, if_true, e2, Option.bind_some]
  rw [readEntry_nil, Nat.mod_eq_of_lt h1, Nat.mod_eq_of_lt h2]

theorem entry_length {e : Nat × Nat} (h1 : e.1 < 2 ^ 64) (h2 : e.2 < 2 ^ 32) : (entry e).length ≤ 22 := by
  have a := Psi.DkPir.varint_length 9 e.1 (lt_trans h1 (by norm_num))
  have b := Psi.DkPir.varint_length 9 e.2 (lt_trans h2 (by norm_num))
  simp [entry]
  omega

theorem readField_count (m : Items) {e : Nat × Nat} (h1 : e.1 < 2 ^ 64) (h2 : e.2 < 2 ^ 32) (rest : List Nat) :
    readField m (countField e ++ rest) = ({ m with counts := put m.counts e }, some rest) := by
  have hl := entry_length h1 h2
  unfold countField
  rw [List.cons_append, List.append_assoc]
  unfold readField
  dsimp only
  rw [readBlock_ok (entry e) rest (by omega)]
  simp only [Nat.reduceEqDiff, if_false, if_true]
  rw [readEntry_entry h1 h2]

/-! ### Many fields -/

theorem readItems_step (k : Nat) (m : Items) {b : List Nat} (hb : b ≠ []) :
    readItems (k + 1) m b = match readField m b with
      | (m, none) => m
      | (m, some rest) => readItems k m rest := by
  obtain ⟨x, b, rfl⟩ := List.exists_cons_of_ne_nil hb
  rfl

theorem readItems_nil (k : Nat) (m : Items) : readItems k m [] = m := by cases k <;> rfl

theorem readItems_items : ∀ (l : List (List Nat)) (k : Nat) (m : Items) (rest : List Nat),
    (∀ d ∈ l, utf8 d = true) → (∀ d ∈ l, d.length ≤ 2 ^ 31 - 1 - 16) →
    (l.flatMap itemField ++ rest).length ≤ k →
    ∃ k', rest.length ≤ k' ∧
      readItems k m (l.flatMap itemField ++ rest) = readItems k' { m with items := m.items ++ l } rest
  | [], k, m, rest, _, _, hk => ⟨k, by simpa using hk, by simp⟩
  | d :: l, k, m, rest, hu, hb, hk => by
    rw [List.flatMap_cons, List.append_assoc] at hk ⊢
    have hne : itemField d ++ (l.flatMap itemField ++ rest) ≠ [] := by simp [itemField]
    have hlen : 1 ≤ (itemField d).length := by simp [itemField]
    rw [List.length_append] at hk
    obtain ⟨k, rfl⟩ : ∃ j, k = j + 1 := ⟨k - 1, by omega⟩
    rw [readItems_step _ _ hne, readField_item m (hb d (by simp)), if_pos (hu d (by simp))]
    obtain ⟨k', h1, h2⟩ := readItems_items l k { m with items := m.items ++ [d] } rest
      (fun x hx => hu x (by simp [hx])) (fun x hx => hb x (by simp [hx])) (by omega)
    exact ⟨k', h1, by simpa using h2⟩

theorem put_new {l : List (Nat × Nat)} {e : Nat × Nat} (h : e.1 ∉ l.map Prod.fst) : put l e = l ++ [e] := by
  unfold put
  rw [List.filter_eq_self.2]
  intro f hf
  simp only [ne_eq, decide_not, Bool.not_eq_eq_eq_not, Bool.not_true, decide_eq_false_iff_not]
  intro hh
  exact h (List.mem_map.2 ⟨f, hf, hh⟩)

theorem readItems_counts : ∀ (l : List (Nat × Nat)) (k : Nat) (m : Items),
    (∀ e ∈ l, e.1 < 2 ^ 64 ∧ e.2 < 2 ^ 32) → ((m.counts ++ l).map Prod.fst).Nodup →
    (l.flatMap countField).length ≤ k →
    readItems k m (l.flatMap countField) = { m with counts := m.counts ++ l }
  | [], k, m, _, _, _ => by simp [readItems_nil]
  | e :: l, k, m, hb, hn, hk => by
    rw [List.flatMap_cons] at hk ⊢
    have hne : countField e ++ l.flatMap countField ≠ [] := by simp [countField]
    have hlen : 1 ≤ (countField e).length := by simp [countField]
    rw [List.length_append] at hk
    obtain ⟨k, rfl⟩ : ∃ j, k = j + 1 := ⟨k - 1, by omega⟩
    have he := hb e (by simp)
    have hnew : e.1 ∉ m.counts.map Prod.fst := by
      rw [List.map_append, List.map_cons] at hn
      intro hin
      exact (List.nodup_append.1 hn).2.2 _ hin _ (by simp) rfl
    rw [readItems_step _ _ hne, readField_count m he.1 he.2, put_new hnew]
    have := readItems_counts l k { m with counts := m.counts ++ [e] } (fun x hx => hb x (by simp [hx]))
      (by simpa using hn) (by omega)
    simpa using this

/-! ### The limits of a message -/

/-- What the sender's data have in common: numbers that fit their types, one entry for a key of the table, and a
message below the limit of protobuf. -/
structure Fits (m : Items) : Prop where
  numbers : ∀ e ∈ m.counts, e.1 < 2 ^ 64 ∧ e.2 < 2 ^ 32
  keys : (m.counts.map Prod.fst).Nodup
  size : (serItems m).length ≤ 2 ^ 31 - 1 - 16

theorem item_short {l : List (List Nat)} {d : List Nat} (h : d ∈ l) : d.length ≤ (l.flatMap itemField).length := by
  induction l with
  | nil => simp at h
  | cons x l ih =>
    rw [List.flatMap_cons, List.length_append]
    rcases List.mem_cons.1 h with rfl | h
    · simp only [itemField, List.length_cons, List.length_append]; omega
    · have := ih h; omega

theorem Fits.short {m : Items} (h : Fits m) : ∀ d ∈ m.items, d.length ≤ 2 ^ 31 - 1 - 16 := by
  intro d hd
  have := item_short hd
  have := h.size
  rw [serItems, List.length_append] at this
  omega

/-! ## The property -/

/-- **C132.** Keys that are UTF-8 arrive: all of them, in their order and with their counts. -/
theorem C132_round_trip {m : Items} (h : Fits m) (hu : ∀ d ∈ m.items, utf8 d = true) : desItems (serItems m) = m := by
  obtain ⟨k', h1, h2⟩ := readItems_items m.items (serItems m).length {} (m.counts.flatMap countField) hu h.short
    (le_refl _)
  unfold desItems
  refine h2.trans ?_
  rw [readItems_counts m.counts k' _ h.numbers (by simpa using h.keys) h1]
  simp

/-- **C132 (negation).** A key that is not UTF-8 ends the message for its reader: what stands behind it is lost, and so
are all the counts, and no error is raised. -/
theorem C132_lost {good : List (List Nat)} {bad : List Nat} {rest : List (List Nat)} {counts : List (Nat × Nat)}
    (h : Fits ⟨good ++ bad :: rest, counts⟩) (hu : ∀ d ∈ good, utf8 d = true) (hb : utf8 bad = false) :
    desItems (serItems ⟨good ++ bad :: rest, counts⟩) = ⟨good ++ [bad], []⟩ := by
  have hs := h.short
  have e : serItems ⟨good ++ bad :: rest, counts⟩ =
      good.flatMap itemField ++ (itemField bad ++ (rest.flatMap itemField ++ counts.flatMap countField)) := by
    simp [serItems]
  unfold desItems
  rw [e]
  obtain ⟨k', h1, h2⟩ := readItems_items good _ {} (itemField bad ++ (rest.flatMap itemField ++ counts.flatMap countField))
    hu (fun d hd => hs d (by simp [hd])) (le_refl _)
  rw [h2]
  have hlen : 1 ≤ (itemField bad).length := by simp [itemField]
  rw [List.length_append] at h1
  obtain ⟨k, rfl⟩ : ∃ j, k' = j + 1 := ⟨k' - 1, by omega⟩
  rw [readItems_step _ _ (by simp [itemField]), readField_item _ (hs bad (by simp)), hb]
  simp

theorem first_bad : ∀ (l : List (List Nat)), (∀ d ∈ l, utf8 d = true) ∨
    ∃ good bad rest, l = good ++ bad :: rest ∧ (∀ d ∈ good, utf8 d = true) ∧ utf8 bad = false
  | [] => .inl (by simp)
  | d :: l => by
    cases hd : utf8 d with
    | false => exact .inr ⟨[], d, l, rfl, by simp, hd⟩
    | true =>
      rcases first_bad l with h | ⟨good, bad, rest, rfl, hg, hb⟩
      · exact .inl (by simpa [hd] using h)
      · exact .inr ⟨d :: good, bad, rest, rfl, by simpa [hd] using hg, hb⟩

/-- **C132.** Exactly when a result arrives: all its keys are UTF-8, or just the last one is not and there are no counts. -/
theorem C132_arrives_iff {m : Items} (h : Fits m) :
    desItems (serItems m) = m ↔
      (∀ d ∈ m.items, utf8 d = true) ∨ (m.counts = [] ∧ ∀ d ∈ m.items.dropLast, utf8 d = true) := by
  obtain ⟨items, counts⟩ := m
  constructor
  · intro he
    rcases first_bad items with hg | ⟨good, bad, rest, rfl, hg, hb⟩
    · exact .inl hg
    · rw [C132_lost h hg hb] at he
      simp only [Items.mk.injEq, List.append_cancel_left_eq, List.cons.injEq, true_and] at he
      obtain ⟨hr, hc⟩ := he
      subst hr; subst hc
      exact .inr ⟨rfl, by simpa using hg⟩
  · rintro (hu | ⟨hc, hu⟩)
    · exact C132_round_trip h hu
    · rcases first_bad items with hg | ⟨good, bad, rest, rfl, hg, hb⟩
      · exact C132_round_trip h hg
      · cases rest with
        | nil =>
          rw [C132_lost h hg hb]
          simp only at hc
          rw [hc]
        | cons x rest =>
          have hin : bad ∈ (good ++ bad :: x :: rest).dropLast := by
            rw [List.dropLast_append_of_ne_nil (by simp)]
            simp
          simp [hu bad hin] at hb

/-- Keys of ASCII characters, base64 for one, are UTF-8. -/
theorem utf8_ascii : ∀ (d : List Nat), (∀ x ∈ d, x < 128) → utf8 d = true
  | [], _ => rfl
  | a :: d, h => by
    unfold utf8
    rw [if_pos (h a (by simp))]
    exact utf8_ascii d fun x hx => h x (by simp [hx])

theorem sent_keys_nodup (l : List ((List Nat × Nat) × Nat)) (f : (List Nat × Nat) × Nat → Bool)
    (h : (l.map Prod.snd).Nodup) : (((l.filter f).map fun r => (r.2, r.1.2)).map Prod.fst).Nodup := by
  rw [List.map_map]
  exact h.sublist ((List.filter_sublist (p := f) (l := l)).map Prod.snd)

theorem sent_fits {A : List (List Nat × Nat)} {inter : List Nat} (hA : ∀ r ∈ A, r.2 < 2 ^ 32)
    (hi : inter.length < 2 ^ 64) (hs : (serItems (sent A inter)).length ≤ 2 ^ 31 - 1 - 16) : Fits (sent A inter) := by
  refine ⟨?_, ?_, hs⟩
  · intro e he
    simp only [sent, List.mem_map, List.mem_filter] at he
    obtain ⟨r, ⟨hr, _⟩, rfl⟩ := he
    have hz := List.mem_zipIdx hr
    have hlen : (inter.filterMap fun i => A[i]?).length ≤ inter.length := List.length_filterMap_le _ _
    refine ⟨by simp only; omega, ?_⟩
    have hm : r.1 ∈ inter.filterMap fun i => A[i]? := by rw [hz.2.2]; exact List.getElem_mem _
    obtain ⟨i, _, h2⟩ := List.mem_filterMap.1 hm
    exact hA r.1 (List.mem_of_getElem? h2)
  · refine sent_keys_nodup _ _ ?_
    rw [List.zipIdx_map_snd]
    exact List.nodup_range'

theorem sent_utf8 {A : List (List Nat × Nat)} {inter : List Nat} (hu : ∀ r ∈ A, utf8 r.1 = true) :
    ∀ d ∈ (sent A inter).items, utf8 d = true := by
  intro d hd
  simp only [sent, List.mem_map, List.mem_filterMap] at hd
  obtain ⟨r, ⟨j, _, hj⟩, rfl⟩ := hd
  exact hu r (List.mem_of_getElem? hj)

theorem mem_taken {B : List (List Nat × Nat)} {m : Items} {i : Nat} :
    i ∈ taken B m ↔ ∃ b, B[i]? = some b ∧ b.1 ∈ m.items := by
  unfold taken
  constructor
  · intro h
    obtain ⟨⟨b, i'⟩, hr, rfl⟩ := List.mem_map.1 h
    obtain ⟨h1, h2⟩ := List.mem_filter.1 hr
    exact ⟨b, List.mk_mem_zipIdx_iff_getElem?.1 h1, of_decide_eq_true h2⟩
  · rintro ⟨b, h1, h2⟩
    exact List.mem_map.2 ⟨(b, i), List.mem_filter.2 ⟨List.mk_mem_zipIdx_iff_getElem?.2 h1, decide_eq_true h2⟩, rfl⟩

/-- **C132.** With keys in UTF-8, the party without a result takes exactly those of its rows for the intersection whose
keys stand at the positions the other party found. -/
theorem C132_rows {A B : List (List Nat × Nat)} {inter : List Nat} (hA : ∀ r ∈ A, r.2 < 2 ^ 32)
    (hi : inter.length < 2 ^ 64) (hs : (serItems (sent A inter)).length ≤ 2 ^ 31 - 1 - 16)
    (hu : ∀ r ∈ A, utf8 r.1 = true) (i : Nat) :
    i ∈ taken B (received {} (serItems (sent A inter))) ↔
      ∃ j ∈ inter, ∃ a b, A[j]? = some a ∧ B[i]? = some b ∧ a.1 = b.1 := by
  have e : received {} (serItems (sent A inter)) = sent A inter := by
    unfold received
    rw [if_pos rfl, C132_round_trip (sent_fits hA hi hs) (sent_utf8 hu)]
  rw [e]
  rw [mem_taken]
  simp only [sent, List.mem_map, List.mem_filterMap]
  constructor
  · rintro ⟨b, hb, a, ⟨j, hj, ha⟩, hab⟩
    exact ⟨j, hj, a, b, ha, hb, hab⟩
  · rintro ⟨j, hj, a, b, ha, hb, hab⟩
    exact ⟨b, hb, a, ⟨j, hj, ha⟩, hab⟩

theorem mem_sent_counts {A : List (List Nat × Nat)} {inter : List Nat} {p c : Nat} :
    (p, c) ∈ (sent A inter).counts ↔ ∃ key, (inter.filterMap fun i => A[i]?)[p]? = some (key, c) ∧ 1 < c := by
  simp only [sent, List.mem_map, List.mem_filter, decide_eq_true_eq, Prod.mk.injEq]
  constructor
  · rintro ⟨⟨⟨key, c'⟩, p'⟩, ⟨h1, h2⟩, rfl, rfl⟩
    exact ⟨key, List.mk_mem_zipIdx_iff_getElem?.1 h1, h2⟩
  · rintro ⟨key, h1, h2⟩
    exact ⟨((key, c), p), ⟨List.mk_mem_zipIdx_iff_getElem?.2 h1, h2⟩, rfl, rfl⟩

/-- **C132.** And it notes for each of them how often the key appears with the other party; the keys of the intersection
are distinct. -/
theorem C132_peer_counts {A : List (List Nat × Nat)} {inter : List Nat} (hA : ∀ r ∈ A, r.2 < 2 ^ 32)
    (hi : inter.length < 2 ^ 64) (hs : (serItems (sent A inter)).length ≤ 2 ^ 31 - 1 - 16)
    (hu : ∀ r ∈ A, utf8 r.1 = true) (hd : (sent A inter).items.Nodup) {j : Nat} (hj : j ∈ inter) {key : List Nat}
    {c : Nat} (ha : A[j]? = some (key, c)) (hc : 1 ≤ c) :
    peerCount (received {} (serItems (sent A inter))) key = c := by
  have e : received {} (serItems (sent A inter)) = sent A inter := by
    unfold received
    rw [if_pos rfl, C132_round_trip (sent_fits hA hi hs) (sent_utf8 hu)]
  rw [e]
  have hrow : (key, c) ∈ inter.filterMap fun i => A[i]? := List.mem_filterMap.2 ⟨j, hj, ha⟩
  obtain ⟨p, hp⟩ := List.mem_iff_getElem?.1 hrow
  have hpi : (sent A inter).items[p]? = some key := by
    show ((inter.filterMap fun i => A[i]?).map Prod.fst)[p]? = some key
    rw [List.getElem?_map, hp]
    rfl
  unfold peerCount
  cases hf : (sent A inter).items.zipIdx.reverse.find? fun r => r.1 = key with
  | none =>
    have := List.find?_eq_none.1 hf (key, p) (List.mem_reverse.2 (List.mk_mem_zipIdx_iff_getElem?.2 hpi))
    simp at this
  | some r =>
    obtain ⟨key', p'⟩ := r
    have hk : key' = key := by simpa using List.find?_some hf
    have hm := List.mk_mem_zipIdx_iff_getElem?.1 (List.mem_reverse.1 (List.mem_of_find?_eq_some hf))
    rw [hk] at hm
    have hlt : p' < (sent A inter).items.length := (List.getElem?_eq_some_iff.1 hm).1
    have hpp : p' = p := (List.getElem?_inj hlt hd).1 (hm.trans hpi.symm)
    subst hpp
    dsimp only
    cases hg : (sent A inter).counts.find? fun e => e.1 = p' with
    | none =>
      show 1 = c
      by_contra hne
      have := List.find?_eq_none.1 hg (p', c) (mem_sent_counts.2 ⟨key, hp, by omega⟩)
      simp at this
    | some x =>
      obtain ⟨q, c'⟩ := x
      have hq : q = p' := by simpa using List.find?_some hg
      subst hq
      obtain ⟨key'', h1, h2⟩ := mem_sent_counts.1 (List.mem_of_find?_eq_some hg)
      rw [hp] at h1
      simp only [Option.some.injEq, Prod.mk.injEq] at h1
      exact h1.2.symm

/-- **C132 (negation).** Two parties with the same three rows, the first of them keyed `0xC4 0xE3` (a Chinese
character in GBK): the one that computes finds three rows, the one it tells takes one. -/
theorem C132_rows_lost :
    ∃ (A : List (List Nat × Nat)) (inter : List Nat), Fits (sent A inter) ∧
      taken A (sent A inter) = [0, 1, 2] ∧ taken A (received {} (serItems (sent A inter))) = [0] := by
  refine ⟨[([0xC4, 0xE3], 1), ([98], 1), ([99], 1)], [0, 1, 2], ?_, by decide +kernel, by decide +kernel⟩
  refine sent_fits (by decide) (by decide) (by decide +kernel)

/-- **C132.** Tables of counts arrive. -/
theorem C132_counts {l : List (Nat × Nat)} (h : Fits ⟨[], l⟩) : desCounts (serCounts l) = l := by
  have := C132_round_trip h (by simp)
  have e : serItems ⟨[], l⟩ = serCounts l := by simp [serItems, serCounts]
  rw [e] at this
  rw [desCounts, this]

/-- **C132.** Sizes arrive. -/
theorem C132_size {n : Nat} (h : n < 2 ^ 64) : desSize (serSize n) = n := by
  unfold serSize
  split
  · next h0 => rw [h0]; rfl
  · have e := readVarint_varint 9 n [] (lt_trans h (by norm_num))
    rw [List.append_nil] at e
    simp only [desSize, if_true, e, Option.map_some, Option.getD_some]
    exact Nat.mod_eq_of_lt h

/-- **C132.** Indexes arrive, when they fit the type they are read into. -/
theorem C132_indexes {w : Nat} (hw : w ≤ 64) {l : List Nat} (h : ∀ x ∈ l, x < 2 ^ w)
    (hs : (packed l).length ≤ 2 ^ 31 - 1 - 16) : desIndexes w (serIndexes l) = l := by
  unfold serIndexes
  split
  · next h0 => rw [h0]; rfl
  · have e := readBlock_ok (packed l) [] hs
    rw [List.append_nil] at e
    have hp := readPacked_packed l (packed l).length (le_refl _)
      fun v hv => lt_of_lt_of_le (h v hv) (Nat.pow_le_pow_right (by norm_num) hw)
    simp only [desIndexes, if_true, e, Option.bind_some, hp, Option.getD_some]
    calc l.map (· % 2 ^ w) = l.map id := List.map_congr_left fun x hx => Nat.mod_eq_of_lt (h x hx)
      _ = l := by simp

/-! ### Examples -/

/-- Two keys, one of them `é` in UTF-8, and a count. -/
theorem fits_example : Fits ⟨[[97, 98], [0xC3, 0xA9], []], [(1, 300)]⟩ :=
  ⟨by decide, by decide, by decide +kernel⟩

example : desItems (serItems ⟨[[97, 98], [0xC3, 0xA9], []], [(1, 300)]⟩) = ⟨[[97, 98], [0xC3, 0xA9], []], [(1, 300)]⟩ :=
  C132_round_trip fits_example (by decide)

example : desItems (serItems ⟨[[97], [0xC4, 0xE3], [98]], [(0, 2)]⟩) = ⟨[[97], [0xC4, 0xE3]], []⟩ :=
  C132_lost (good := [[97]]) (rest := [[98]]) ⟨by decide, by decide, by decide +kernel⟩ (by decide) (by decide)

example := C132_arrives_iff fits_example

example : 1 ∈ taken [([98], 1), ([97], 1)] (received {} (serItems (sent [([97], 3), ([99], 1)] [0]))) :=
  (C132_rows (by decide) (by decide) (by decide +kernel) (by decide) 1).2
    ⟨0, by decide, ([97], 3), ([97], 1), rfl, rfl, rfl⟩

example : peerCount (received {} (serItems (sent [([97], 3), ([99], 1), ([98], 2)] [2, 0, 1]))) [98] = 2 :=
  C132_peer_counts (A := [([97], 3), ([99], 1), ([98], 2)]) (inter := [2, 0, 1]) (by decide) (by decide)
    (by decide +kernel) (by decide) (by decide +kernel) (j := 2) (by decide) rfl (by decide)

example : utf8 [81, 85, 70, 66] = true := utf8_ascii _ (by decide)

example : desCounts (serCounts [(5, 2), (0, 7)]) = [(5, 2), (0, 7)] :=
  C132_counts ⟨by decide, by decide, by decide +kernel⟩

example : desSize (serSize 1000000) = 1000000 := C132_size (by norm_num)

example : desIndexes 32 (serIndexes [3, 400, 70000]) = [3, 400, 70000] :=
  C132_indexes (by norm_num) (by decide) (by decide +kernel)

/-- Characters of one to four bytes, and what is refused: a lone byte, an overlong form, a surrogate, a number above
`0x10FFFF`. -/
example : utf8 [0x41, 0xC3, 0xA9, 0xE4, 0xBD, 0xA0, 0xF0, 0x9F, 0x98, 0x80] = true ∧ utf8 [0xE9] = false ∧
    utf8 [0xC0, 0x80] = false ∧ utf8 [0xED, 0xA0, 0x80] = false ∧ utf8 [0xF4, 0x90, 0x80, 0x80] = false := by decide

end Psi.Wire
