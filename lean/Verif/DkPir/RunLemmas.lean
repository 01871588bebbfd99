import Verif.DkPir.BillLemmas

namespace Psi.DkPir

open Psi.Spiral (Res mapRes)

variable {G P : Type} [AddCommGroup G] [DecidableEq G] [AddCommGroup P] [DecidableEq P]

/-! ### Tables that survive the files written in between -/

/-- A text that keeps clear of the delimiters. -/
def Clear (s : Str) : Prop := ',' ∉ s ∧ '\n' ∉ s ∧ colDelim ∉ s ∧ rowDelim ∉ s

instance (s : Str) : Decidable (Clear s) := by unfold Clear; infer_instance

/-- A row: a key, as many labels as there are names, no delimiters, no quote in front, not all labels empty. -/
structure GoodRow (n : Nat) (r : Row) : Prop where
  labels : r.2.length = n
  key : Plain r.1 ∧ r.1 ≠ []
  clear : ∀ l ∈ r.2, Clear l
  quote : (r.2.headD []).head? ≠ some '"'
  some_label : ∃ l ∈ r.2, l ≠ []

theorem join_ne_nil (c : Char) : ∀ l : List Str, (∃ a ∈ l, a ≠ []) → join c l ≠ []
  | [], h => by simp at h
  | [a], h => by simpa [join] using h
  | a :: b :: r, _ => by simp [join]

theorem head_join (c : Char) (hc : c ≠ '"') : ∀ l : List Str, (l.headD []).head? ≠ some '"' →
    (join c l).head? ≠ some '"'
  | [], _ => by simp [join]
  | [a], h => h
  | a :: b :: r, h => by
    cases a with
    | nil => simpa [join] using hc
    | cons x a => simpa [join] using h

theorem GoodRow.joined {n : Nat} {r : Row} (h : GoodRow n r) :
    Plain (join colDelim r.2) ∧ join colDelim r.2 ≠ [] ∧ rowDelim ∉ join colDelim r.2 := by
  have hm : ∀ d : Char, d ≠ colDelim → (∀ l ∈ r.2, d ∉ l) → d ∉ join colDelim r.2 := by
    intro d hd hl hmem
    rcases mem_join _ _ _ hmem with h | ⟨l, h1, h2⟩
    · exact hd h
    · exact hl l h1 h2
  refine ⟨⟨hm _ (by decide) fun l hl => (h.clear l hl).1, hm _ (by decide) fun l hl => (h.clear l hl).2.1, ?_⟩, ?_, ?_⟩
  · exact head_join _ (by decide) _ h.quote
  · exact join_ne_nil _ _ h.some_label
  · exact hm _ (by decide) fun l hl => (h.clear l hl).2.2.2

theorem mem_valuesOf {rows : List Row} {k v : Str} (h : v ∈ valuesOf rows k) :
    ∃ r ∈ rows, r.1 = k ∧ v = join colDelim r.2 := by
  unfold valuesOf at h
  obtain ⟨r, hr, rfl⟩ := List.mem_map.mp h
  rw [List.mem_filter, decide_eq_true_eq] at hr
  exact ⟨r, hr.1, hr.2, rfl⟩

theorem value_good {n : Nat} {rows : List Row} (hg : ∀ r ∈ rows, GoodRow n r) {k : Str} (hk : valuesOf rows k ≠ []) :
    Plain (join rowDelim (valuesOf rows k)) ∧ join rowDelim (valuesOf rows k) ≠ [] := by
  have hv : ∀ v ∈ valuesOf rows k, Plain v ∧ v ≠ [] := by
    intro v hv
    obtain ⟨r, hr, -, rfl⟩ := mem_valuesOf hv
    exact ⟨(hg r hr).joined.1, (hg r hr).joined.2.1⟩
  have hm : ∀ d : Char, d ≠ rowDelim → (∀ l ∈ valuesOf rows k, d ∉ l) → d ∉ join rowDelim (valuesOf rows k) := by
    intro d hd hl hmem
    rcases mem_join _ _ _ hmem with h | ⟨l, h1, h2⟩
    · exact hd h
    · exact hl l h1 h2
  refine ⟨⟨hm _ (by decide) fun l hl => (hv l hl).1.1, hm _ (by decide) fun l hl => (hv l hl).1.2.1, ?_⟩, ?_⟩
  · apply head_join _ (by decide)
    cases hvs : valuesOf rows k with
    | nil => simp
    | cons v vs => exact (hv v (by simp [hvs])).1.2.2
  · obtain ⟨v, hmem⟩ := List.exists_mem_of_ne_nil _ hk
    exact join_ne_nil _ _ ⟨v, hmem, (hv v hmem).2⟩

theorem valuesOf_ne_nil_iff {rows : List Row} {k : Str} : valuesOf rows k ≠ [] ↔ k ∈ rows.map Prod.fst := by
  unfold valuesOf
  rw [Ne, List.map_eq_nil_iff, List.filter_eq_nil_iff]
  constructor
  · intro h
    by_contra hk
    exact h fun r hr hrk => hk (by rw [decide_eq_true_eq] at hrk; exact hrk ▸ List.mem_map_of_mem hr)
  · intro h hall
    obtain ⟨r, hr, rfl⟩ := List.mem_map.mp h
    exact hall r hr (by simp)

theorem valueTable_ok {n : Nat} {rows : List Row} {order : List Entry → List Entry} (ho : ∀ m, (order m).Perm m)
    (hg : ∀ r ∈ rows, GoodRow n r) (hne : rows ≠ []) (hn : n ≠ 0) :
    valueTable order n rows = .ok ((order (mergeRows rows)).map fun e => (e.key, e.value)) := by
  have hi := (mapInv rows).perm (ho _)
  rw [valueTable, if_neg (by simp [hne, hn])]
  have := readLabeled_two ((order (mergeRows rows)).map fun e => (e.key, e.value)) (by
      intro p hp
      obtain ⟨e, he, rfl⟩ := List.mem_map.mp hp
      obtain ⟨h1, h2, -⟩ := hi.value e he
      obtain ⟨r, hr, hk⟩ := List.mem_map.mp (valuesOf_ne_nil_iff.mp h1)
      exact ⟨hk ▸ (hg r hr).key.1, by
        change Plain e.value
        rw [h2]; exact (value_good hg h1).1⟩) (by
      rw [Ne, List.map_eq_nil_iff]
      intro h0
      have := ho (mergeRows rows)
      rw [h0] at this
      exact mergeRows_ne_nil hne (List.nil_perm.mp this)) (by
      rw [List.map_map]
      exact hi.nodup)
  rw [List.flatMap_map] at this
  exact this

theorem stoi_dec (c : Nat) (h : c < 2 ^ 31) : stoi (Text.dec c) = .ok c := by
  rw [stoi, if_neg (Text.dec_ne_nil c), Text.digitsVal_dec]
  dsimp only
  rw [if_pos h]

theorem plain_dec (c : Nat) : Plain (Text.dec c) := by
  refine ⟨Text.dec_not_mem c _ (by decide), Text.dec_not_mem c _ (by decide), ?_⟩
  intro h
  exact Text.dec_not_mem c '"' (by decide) (List.mem_of_mem_head? h)

theorem countTable_ok {n : Nat} {rows : List Row} {order : List Entry → List Entry} (ho : ∀ m, (order m).Perm m)
    (hg : ∀ r ∈ rows, GoodRow n r) (hne : rows ≠ []) (hlen : rows.length < 2 ^ 31) :
    countTable order rows = .ok ((order (mergeRows rows)).map fun e => (e.key, e.count)) := by
  have hi := (mapInv rows).perm (ho _)
  rw [countTable]
  have := readLabeled_two ((order (mergeRows rows)).map fun e => (e.key, Text.dec e.count)) (by
      intro p hp
      obtain ⟨e, he, rfl⟩ := List.mem_map.mp hp
      obtain ⟨h1, h2, -⟩ := hi.value e he
      obtain ⟨r, hr, hk⟩ := List.mem_map.mp (valuesOf_ne_nil_iff.mp h1)
      exact ⟨hk ▸ (hg r hr).key.1, plain_dec _⟩) (by
      rw [Ne, List.map_eq_nil_iff]
      intro h0
      have := ho (mergeRows rows)
      rw [h0] at this
      exact mergeRows_ne_nil hne (List.nil_perm.mp this)) (by
      rw [List.map_map]
      exact hi.nodup)
  rw [List.flatMap_map] at this
  have hread : readLabeled (keyCountText (order (mergeRows rows)))
      = .ok ((order (mergeRows rows)).map fun e => (e.key, Text.dec e.count)) := this
  rw [hread]
  change mapRes _ _ = _
  rw [mapRes_map']
  refine mapRes_all (g := fun e : Entry => (e.key, e.count)) ?_
  intro e he
  have hc : e.count < 2 ^ 31 := by
    rw [(hi.value e he).2.2, valuesOf, List.length_map]
    exact lt_of_le_of_lt (List.length_filter_le _ _) hlen
  have hs : getCount (Text.dec e.count) = .ok e.count := stoi_dec _ hc
  dsimp only
  rw [hs]
  rfl

/-! ### Answers -/

omit [DecidableEq P] in
theorem hashed_length (H : Str → P) (key r rinv : Nat) (perm : List Nat) (ks : List Str) :
    (unblind rinv (processQueries key perm (blind H r ks))).length = ks.length := by
  simp [unblind, processQueries_length, blind]

theorem answers_get {L : Type} (H : Str → P) (key r rinv : Nat) (hr : ∀ p : P, (rinv * r) • p = p) (perm : List Nat)
    (ks : List Str) (hp : perm.Perm (List.range ks.length)) (t : List (Str × L))
    (hinj : ∀ e ∈ t, ∀ k ∈ ks, key • H e.1 = key • H k → e.1 = k) {i : Nat} (hi : i < ks.length) :
    (retrieve (database key H t) (unblind rinv (processQueries key perm (blind H r ks)))).getD (perm.getD i 0) none
      = labelOf t (ks.getD i []) := by
  have h0 := unblind_get H key r rinv hr perm ks hp hi
  have hlt : perm.getD i 0 < (unblind rinv (processQueries key perm (blind H r ks))).length := by
    rw [hashed_length]
    have hlen : perm.length = ks.length := by rw [hp.length_eq, List.length_range]
    have : perm.getD i 0 ∈ perm := by
      rw [List.getD_eq_getElem _ _ (by omega)]
      exact List.getElem_mem _
    exact List.mem_range.mp (hp.mem_iff.mp this)
  rw [retrieve, List.getD_eq_getElem _ _ (by simpa using hlt), List.getElem_map]
  rw [List.getD_eq_getElem _ _ hlt] at h0
  rw [h0]
  apply retrieve_one
  intro e he
  apply hinj e he
  rw [List.getD_eq_getElem _ _ hi]
  exact List.getElem_mem _

theorem answers_perm {L : Type} (H : Str → P) (key r rinv : Nat) (hr : ∀ p : P, (rinv * r) • p = p) (perm : List Nat)
    (ks : List Str) (hp : perm.Perm (List.range ks.length)) (t : List (Str × L))
    (hinj : ∀ e ∈ t, ∀ k ∈ ks, key • H e.1 = key • H k → e.1 = k) :
    (retrieve (database key H t) (unblind rinv (processQueries key perm (blind H r ks)))).Perm (ks.map (labelOf t)) := by
  apply perm_of_shuffled perm _ _ none
  · rw [retrieve, List.length_map, hashed_length, List.length_map]
  · rw [List.length_map]; exact hp
  · intro i hi
    rw [List.length_map] at hi
    rw [answers_get H key r rinv hr perm ks hp t hinj hi]
    rw [List.getD_eq_getElem (l := ks.map (labelOf t)) _ (by simpa using hi), List.getElem_map,
      List.getD_eq_getElem _ _ hi]

theorem labelOf_values {rows : List Row} {m : List Entry} (hi : MapInv m rows) (k : Str) :
    labelOf (m.map fun e => (e.key, e.value)) k
      = if k ∈ rows.map Prod.fst then some (join rowDelim (valuesOf rows k)) else none := by
  have hkeys : (m.map fun e => (e.key, e.value)).map Prod.fst = m.map Entry.key := by rw [List.map_map]; rfl
  split
  · rename_i h
    obtain ⟨r, hr, rfl⟩ := List.mem_map.mp h
    obtain ⟨e, he, hek⟩ := List.mem_map.mp (hi.cover r hr)
    apply labelOf_mem (by rw [hkeys]; exact hi.nodup)
    refine List.mem_map.mpr ⟨e, he, ?_⟩
    rw [(hi.value e he).2.1, hek]
  · rename_i h
    apply labelOf_none
    rw [hkeys]
    intro hk
    obtain ⟨e, he, rfl⟩ := List.mem_map.mp hk
    exact h (valuesOf_ne_nil_iff.mp (hi.value e he).1)

omit [DecidableEq G] in
theorem labelOf_counts (S : Secrets G) (rnd : Nat → Nat) {rows : List Row} {m : List Entry} (hi : MapInv m rows) (k : Str) :
    (k ∈ rows.map Prod.fst → ∃ c, labelOf (encryptCounts S rnd (m.map fun e => (e.key, e.count))) k = some c ∧
      EncOf S (poly1 S.a S.b (valuesOf rows k).length) c) ∧
    (k ∉ rows.map Prod.fst → labelOf (encryptCounts S rnd (m.map fun e => (e.key, e.count))) k = none) := by
  have hkeys : (encryptCounts S rnd (m.map fun e => (e.key, e.count))).map Prod.fst = m.map Entry.key := by
    rw [encryptCounts, List.map_map]
    have := map_getD_range (m.map fun e => (e.key, e.count)) ([], 0)
    have h2 := congrArg (List.map Prod.fst) this
    rw [List.map_map, List.map_map] at h2
    exact h2
  refine ⟨fun h => ?_, fun h => ?_⟩
  · obtain ⟨r, hr, rfl⟩ := List.mem_map.mp h
    obtain ⟨e, he, hek⟩ := List.mem_map.mp (hi.cover r hr)
    obtain ⟨i, hlt, rfl⟩ := List.getElem_of_mem he
    refine ⟨encrypt S (poly1 S.a S.b m[i].count) (rnd i), ?_, ?_⟩
    · apply labelOf_mem (by rw [hkeys]; exact hi.nodup)
      rw [encryptCounts]
      refine List.mem_map.mpr ⟨i, List.mem_range.mpr (by simpa using hlt), ?_⟩
      rw [List.getD_eq_getElem _ _ (by simpa using hlt), List.getElem_map]
      dsimp only
      rw [hek]
    · rw [(hi.value _ he).2.2, hek]
      exact encOf_encrypt S _ _
  · apply labelOf_none
    rw [hkeys]
    intro hk
    obtain ⟨e, he, rfl⟩ := List.mem_map.mp hk
    exact h (valuesOf_ne_nil_iff.mp (hi.value e he).1)

end Psi.DkPir
