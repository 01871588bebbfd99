import Verif.DkPir.Model
import Verif.Text.Lemmas
import Mathlib.Data.List.GetD
import Mathlib.Tactic.Common

namespace Psi.DkPir

open Psi.Spiral (Res mapRes)

/-! ### Joining and splitting -/

theorem join_append (c : Char) (v : Str) : ∀ l : List Str, l ≠ [] → join c (l ++ [v]) = join c l ++ c :: v
  | [], h => absurd rfl h
  | [a], _ => rfl
  | a :: b :: r, _ => by
    have := join_append c v (b :: r) (by simp)
    simp only [List.cons_append, join] at this ⊢
    rw [this]; simp

theorem split_join (c : Char) : ∀ l : List Str, l ≠ [] → (∀ a ∈ l, c ∉ a) → Text.split c (join c l) = l
  | [], h, _ => absurd rfl h
  | [a], _, h => Text.split_no c a (h a (by simp))
  | a :: b :: r, _, h => by
    rw [join, Text.split_cons c a _ (h a (by simp)),
      split_join c (b :: r) (by simp) fun x hx => h x (List.mem_cons_of_mem _ hx)]

theorem mem_join (c d : Char) : ∀ l : List Str, d ∈ join c l → d = c ∨ ∃ a ∈ l, d ∈ a
  | [], h => absurd h (by simp [join])
  | [a], h => .inr ⟨a, by simp, h⟩
  | a :: b :: r, h => by
    rw [join, List.mem_append, List.mem_cons] at h
    rcases h with h | rfl | h
    · exact .inr ⟨a, by simp, h⟩
    · exact .inl rfl
    · rcases mem_join c d (b :: r) h with h | ⟨x, hx, hd⟩
      · exact .inl h
      · exact .inr ⟨x, List.mem_cons_of_mem _ hx, hd⟩

/-! ### The map of keys -/

/-- The joined labels of the rows of a key, in the order of the table. -/
def valuesOf (rows : List Row) (k : Str) : List Str :=
  (rows.filter fun r => r.1 = k).map fun r => join colDelim r.2

theorem valuesOf_append (rows : List Row) (r : Row) (k : Str) :
    valuesOf (rows ++ [r]) k = if r.1 = k then valuesOf rows k ++ [join colDelim r.2] else valuesOf rows k := by
  unfold valuesOf
  rw [List.filter_append, List.map_append]
  by_cases h : r.1 = k <;> simp [h]

structure MapInv (m : List Entry) (rows : List Row) : Prop where
  nodup : (m.map Entry.key).Nodup
  value : ∀ e ∈ m, valuesOf rows e.key ≠ [] ∧ e.value = join rowDelim (valuesOf rows e.key) ∧
    e.count = (valuesOf rows e.key).length
  cover : ∀ r ∈ rows, r.1 ∈ m.map Entry.key

theorem keys_upsert (k v : Str) : ∀ m : List Entry,
    (upsert k v m).map Entry.key = if k ∈ m.map Entry.key then m.map Entry.key else m.map Entry.key ++ [k]
  | [] => by simp [upsert]
  | e :: r => by
    rw [upsert]
    by_cases h : e.key = k
    · simp [h]
    · have := keys_upsert k v r
      rw [if_neg h, List.map_cons, this]
      by_cases hk : k ∈ r.map Entry.key
      · simp [hk, Ne.symm h]
      · simp [hk, Ne.symm h]

theorem mem_upsert (k v : Str) : ∀ m : List Entry, (m.map Entry.key).Nodup → ∀ e ∈ upsert k v m,
    (e ∈ m ∧ e.key ≠ k) ∨ (∃ e' ∈ m, e'.key = k ∧ e = ⟨k, e'.value ++ rowDelim :: v, e'.count + 1⟩) ∨
      (k ∉ m.map Entry.key ∧ e = ⟨k, v, 1⟩)
  | [], _, e, h => by
    rw [upsert, List.mem_singleton] at h
    exact .inr (.inr ⟨by simp, h⟩)
  | a :: r, hn, e, h => by
    rw [List.map_cons, List.nodup_cons] at hn
    rw [upsert] at h
    by_cases hk : a.key = k
    · rw [if_pos hk] at h
      rcases List.mem_cons.mp h with h | h
      · exact .inr (.inl ⟨a, by simp, hk, by rw [h, hk]⟩)
      · refine .inl ⟨List.mem_cons_of_mem _ h, fun he => hn.1 ?_⟩
        rw [hk, ← he]
        exact List.mem_map_of_mem h
    · rw [if_neg hk] at h
      rcases List.mem_cons.mp h with h | h
      · exact .inl ⟨by simp [h], by rw [h]; exact hk⟩
      · rcases mem_upsert k v r hn.2 e h with h | ⟨e', h1, h2⟩ | h
        · exact .inl ⟨List.mem_cons_of_mem _ h.1, h.2⟩
        · exact .inr (.inl ⟨e', List.mem_cons_of_mem _ h1, h2⟩)
        · exact .inr (.inr ⟨by simp [h.1, Ne.symm hk], h.2⟩)

theorem MapInv.step {m : List Entry} {rows : List Row} (h : MapInv m rows) (r : Row) :
    MapInv (upsert r.1 (join colDelim r.2) m) (rows ++ [r]) := by
  refine ⟨?_, ?_, ?_⟩
  · rw [keys_upsert]
    split
    · exact h.nodup
    · rename_i hk
      exact List.nodup_append.mpr ⟨h.nodup, by simp, by
        intro a ha b hb
        rw [List.mem_singleton] at hb
        rintro rfl
        exact hk (hb ▸ ha)⟩
  · intro e he
    rw [valuesOf_append]
    rcases mem_upsert _ _ m h.nodup e he with ⟨h1, h2⟩ | ⟨e', h1, h2, rfl⟩ | ⟨h1, rfl⟩
    · rw [if_neg (Ne.symm h2)]
      exact h.value e h1
    · rw [if_pos rfl]
      obtain ⟨v1, v2, v3⟩ := h.value e' h1
      rw [h2] at v1 v2 v3
      refine ⟨by simp, ?_, ?_⟩
      · change e'.value ++ rowDelim :: join colDelim r.2 = _
        rw [join_append _ _ _ v1, v2]
      · change e'.count + 1 = _
        rw [v3]; simp
    · rw [if_pos rfl]
      have h0 : valuesOf rows r.1 = [] := by
        unfold valuesOf
        rw [List.map_eq_nil_iff, List.filter_eq_nil_iff]
        intro x hx
        rw [decide_eq_true_eq]
        intro hxr
        exact h1 (hxr ▸ h.cover x hx)
      simp only [h0]
      exact ⟨by simp, rfl, rfl⟩
  · intro x hx
    rw [keys_upsert]
    rcases List.mem_append.mp hx with hx | hx
    · have := h.cover x hx
      split
      · exact this
      · exact List.mem_append_left _ this
    · rw [List.mem_singleton] at hx
      subst hx
      split
      · assumption
      · simp

theorem mapInv_foldl (rest : List Row) : ∀ (m : List Entry) (rows : List Row), MapInv m rows →
    MapInv (rest.foldl (fun m r => upsert r.1 (join colDelim r.2) m) m) (rows ++ rest) := by
  induction rest with
  | nil => intro m rows h; simpa using h
  | cons r rest ih =>
    intro m rows h
    have := ih _ _ (h.step r)
    rwa [List.append_assoc] at this

theorem mapInv (rows : List Row) : MapInv (mergeRows rows) rows := by
  have := mapInv_foldl rows [] [] ⟨by simp, by simp, by simp⟩
  rwa [List.nil_append] at this

theorem MapInv.perm {m m' : List Entry} {rows : List Row} (h : MapInv m rows) (hp : m'.Perm m) : MapInv m' rows :=
  ⟨(hp.map Entry.key).nodup_iff.mpr h.nodup, fun e he => h.value e (hp.mem_iff.mp he),
    fun r hr => (hp.map Entry.key).mem_iff.mpr (h.cover r hr)⟩

theorem mergeRows_ne_nil {rows : List Row} (h : rows ≠ []) : mergeRows rows ≠ [] := by
  intro h0
  obtain ⟨r, hr⟩ := List.exists_mem_of_ne_nil _ h
  have := (mapInv rows).cover r hr
  rw [h0] at this
  simp at this

/-! ### Files read back -/

/-- A text that an unquoted field can carry. -/
def Plain (s : Str) : Prop := ',' ∉ s ∧ '\n' ∉ s ∧ s.head? ≠ some '"'

instance (s : Str) : Decidable (Plain s) := by unfold Plain; infer_instance

theorem fields_plain_last : ∀ s : Str, ',' ∉ s → fieldsFrom .plain s = some [s]
  | [], _ => rfl
  | c :: r, h => by
    simp only [List.mem_cons, not_or] at h
    simp [fieldsFrom, Ne.symm h.1, fields_plain_last r h.2, consHead]

theorem fields_start_last (s : Str) (h : Plain s) : fieldsFrom .start s = some [s] := by
  cases s with
  | nil => rfl
  | cons c r =>
    obtain ⟨h1, -, h3⟩ := h
    simp only [List.mem_cons, not_or] at h1
    have hq : c ≠ '"' := by simpa using h3
    simp [fieldsFrom, Ne.symm h1.1, hq, fields_plain_last r h1.2, consHead]

theorem fields_plain_cons : ∀ (s t : Str), ',' ∉ s →
    fieldsFrom .plain (s ++ ',' :: t) = (fieldsFrom .start t).map (s :: ·)
  | [], t, _ => by simp [fieldsFrom]
  | c :: r, t, h => by
    simp only [List.mem_cons, not_or] at h
    rw [List.cons_append, fieldsFrom]
    simp only [Ne.symm h.1, if_false, fields_plain_cons r t h.2, Option.map_map]
    congr 1

theorem fields_start_cons (s t : Str) (h : Plain s) :
    fieldsFrom .start (s ++ ',' :: t) = (fieldsFrom .start t).map (s :: ·) := by
  cases s with
  | nil => simp [fieldsFrom]
  | cons c r =>
    obtain ⟨h1, -, h3⟩ := h
    simp only [List.mem_cons, not_or] at h1
    have hq : c ≠ '"' := by simpa using h3
    rw [List.cons_append, fieldsFrom]
    simp only [Ne.symm h1.1, hq, if_false, fields_plain_cons r t h1.2, Option.map_map]
    congr 1

theorem readLine_two (s t : Str) (hs : Plain s) (ht : Plain t) : readLine 2 (s ++ ',' :: t) = .ok [s, t] := by
  rw [readLine, fields_start_cons s t hs, fields_start_last t ht]
  rfl

theorem readLine_one (s : Str) (hs : Plain s) : readLine 1 s = .ok [s] := by
  rw [readLine, fields_start_last s hs]
  rfl

theorem mapRes_all {α β : Type} {f : α → Res β} {g : α → β} : ∀ {l : List α}, (∀ a ∈ l, f a = .ok (g a)) →
    mapRes f l = .ok (l.map g)
  | [], _ => rfl
  | a :: l, h => by
    rw [mapRes, h a (by simp), mapRes_all fun x hx => h x (List.mem_cons_of_mem _ hx)]
    rfl

theorem mapRes_map' {α β γ : Type} (f : β → Res γ) (g : α → β) : ∀ l : List α,
    mapRes f (l.map g) = mapRes (fun a => f (g a)) l
  | [] => rfl
  | a :: l => by rw [List.map_cons, mapRes, mapRes, mapRes_map' f g l]

theorem readRows_two (hd : Str) (hhd : '\n' ∉ hd) (ps : List (Str × Str)) (h : ∀ p ∈ ps, Plain p.1 ∧ Plain p.2) :
    readRows 2 (hd ++ '\n' :: ps.flatMap fun p => p.1 ++ ',' :: p.2 ++ ['\n']) = .ok (ps.map fun p => [p.1, p.2]) := by
  have hl : Text.lines (hd ++ '\n' :: ps.flatMap fun p => p.1 ++ ',' :: p.2 ++ ['\n'])
      = hd :: ps.map fun p => p.1 ++ ',' :: p.2 := by
    rw [Text.lines_line _ _ hhd]
    have := Text.lines_flatMap (ps.map fun p => p.1 ++ ',' :: p.2) (by
      intro l hl
      obtain ⟨p, hp, rfl⟩ := List.mem_map.mp hl
      have := h p hp
      simp [this.1.2.1, this.2.2.1])
    rw [List.flatMap_map] at this
    rw [this]
  rw [readRows, hl, List.drop_one, List.tail_cons, List.filter_eq_self.mpr, mapRes_map']
  · exact mapRes_all fun p hp => readLine_two p.1 p.2 (h p hp).1 (h p hp).2
  · intro l hl
    obtain ⟨p, -, rfl⟩ := List.mem_map.mp hl
    simp

theorem readRows_one (ks : List Str) (h : ∀ k ∈ ks, Plain k ∧ k ≠ []) :
    readRows 1 ("key\n".toList ++ ks.flatMap fun k => k ++ ['\n']) = .ok (ks.map fun k => [k]) := by
  have hl : Text.lines ("key\n".toList ++ ks.flatMap fun k => k ++ ['\n']) = "key".toList :: ks := by
    have h0 : ("key\n".toList : Str) = "key".toList ++ ['\n'] := by decide
    rw [h0, List.append_assoc, List.singleton_append, Text.lines_line _ _ (by decide),
      Text.lines_flatMap ks fun k hk => (h k hk).1.2.1]
  rw [readRows, hl, List.drop_one, List.tail_cons, List.filter_eq_self.mpr]
  · exact mapRes_all fun k hk => readLine_one k (h k hk).1
  · intro l hl
    have := (h l hl).2
    cases l <;> simp_all

theorem readLabeled_two (ps : List (Str × Str)) (h : ∀ p ∈ ps, Plain p.1 ∧ Plain p.2) (hne : ps ≠ [])
    (hnd : (ps.map Prod.fst).Nodup) :
    readLabeled ("key,value\n".toList ++ ps.flatMap fun p => p.1 ++ ',' :: p.2 ++ ['\n']) = .ok ps := by
  have h0 : ("key,value\n".toList : Str) = "key,value".toList ++ ['\n'] := by decide
  rw [readLabeled, h0, List.append_assoc, List.singleton_append, readRows_two _ (by decide) ps h]
  have hm : (ps.map fun p => [p.1, p.2]).map (fun r => (r.getD 0 [], r.getD 1 [])) = ps := by
    rw [List.map_map]
    exact (List.map_congr_left fun p _ => rfl).trans (List.map_id ps)
  simp only [Res.bind, hm, hne, if_false, hnd.dedup, List.length_map, if_true]

theorem extractItems_ok (ks : List Str) (h : ∀ k ∈ ks, Plain k ∧ k ≠ []) (hne : ks ≠ []) (hnd : ks.Nodup) :
    extractItems ks = .ok ks := by
  rw [extractItems, if_neg hne, readKeys, readRows_one ks h]
  have hm : (ks.map fun k => [k]).map (fun r => r.getD 0 []) = ks := by
    rw [List.map_map]
    exact (List.map_congr_left fun p _ => rfl).trans (List.map_id ks)
  simp only [Res.bind, hm, hne, if_false, hnd.dedup, if_true]

end Psi.DkPir
