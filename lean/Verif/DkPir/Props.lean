import Verif.DkPir.RunLemmas
import Mathlib.Data.ZMod.Basic
import Mathlib.Tactic.Ring

/-!
# C85 – C87: what DK-PIR delivers and what it bills
-/

namespace Psi.DkPir

open Psi.Spiral (Res mapRes)

variable {G P : Type} [AddCommGroup G] [DecidableEq G] [AddCommGroup P] [DecidableEq P]

/-! ### What is to be delivered -/

/-- A row as a line of the result. -/
def rowLine (r : Row) : Str := r.1 ++ r.2.flatMap (fun l => ',' :: l) ++ ['\n']

/-- The result: the names, then for each queried key all rows of the sender with that key. -/
def expectedFile (keyName : Str) (labelNames : List Str) (rows : List Row) (keys : List Str) : Str :=
  keyName ++ labelNames.flatMap (fun l => ',' :: l) ++
    '\n' :: keys.flatMap fun k => (rows.filter fun r => r.1 = k).flatMap rowLine

/-- The number of rows to be billed. -/
def rowsOf (rows : List Row) (keys : List Str) : Nat :=
  (keys.map fun k => (rows.filter fun r => r.1 = k).length).sum

/-- A table and a query the files in between can carry. -/
structure Input (n : Nat) (rows : List Row) (keys : List Str) : Prop where
  labels : n ≠ 0
  rows_ne : rows ≠ []
  rows_good : ∀ r ∈ rows, GoodRow n r
  rows_few : rows.length < 2 ^ 31
  keys_ne : keys ≠ []
  keys_nodup : keys.Nodup
  keys_good : ∀ k ∈ keys, Plain k ∧ k ≠ []
  keys_few : keys.length < 2 ^ 64

/-- What is known of the random choices, and that no two keys of the run collide in the OPRF. -/
structure Sound (S : Secrets G) (H : Str → P) (C : Coins) (rows : List Row) (keys : List Str) : Prop where
  order : ∀ m, (C.order m).Perm m
  inverse : ∀ p : P, (C.rinv * C.r) • p = p
  perm : ∀ n, (C.perm n).Perm (List.range n)
  inj : ∀ r ∈ rows, ∀ k ∈ keys, S.oprf • H r.1 = S.oprf • H k → r.1 = k
  a : S.a < 2 ^ 64
  b : S.b < 2 ^ 64

/-! ### From answers to the result file -/

theorem extractRow_ok {n : Nat} {rows : List Row} (hn : n ≠ 0) (hg : ∀ r ∈ rows, GoodRow n r) {k : Str}
    (hk : k ∈ rows.map Prod.fst) :
    extractRow n k (join rowDelim (valuesOf rows k)) = .ok ((rows.filter fun r => r.1 = k).flatMap rowLine) := by
  have hne := valuesOf_ne_nil_iff.mpr hk
  rw [extractRow, split_join _ _ hne (by
    intro v hv
    obtain ⟨r, hr, -, rfl⟩ := mem_valuesOf hv
    exact (hg r hr).joined.2.2)]
  unfold valuesOf
  rw [mapRes_map', mapRes_all (g := rowLine)]
  · change Res.ok _ = _
    rw [← List.flatMap_def]
  · intro r hr
    rw [List.mem_filter, decide_eq_true_eq] at hr
    obtain ⟨hr, rfl⟩ := hr
    have hlab := (hg r hr).labels
    rw [extractLine, split_join _ _ (by intro h; rw [h] at hlab; exact hn hlab.symm)
      fun l hl => ((hg r hr).clear l hl).2.2.1, if_pos hlab]
    rfl

/-- The pairs of the temporary file. -/
def pairsOf (rows : List Row) (keys : List Str) : List (Str × Str) :=
  (keys.filter fun k => k ∈ rows.map Prod.fst).map fun k => (k, join rowDelim (valuesOf rows k))

theorem resultLines_eq {n : Nat} {rows : List Row} (hg : ∀ r ∈ rows, GoodRow n r) (keys : List Str) :
    (keys.flatMap fun k => resultLine k
        (if k ∈ rows.map Prod.fst then some (join rowDelim (valuesOf rows k)) else none))
      = (pairsOf rows keys).flatMap fun p => p.1 ++ ',' :: p.2 ++ ['\n'] := by
  rw [pairsOf, List.flatMap_map]
  induction keys with
  | nil => rfl
  | cons k keys ih =>
    rw [List.flatMap_cons, ih]
    by_cases hk : k ∈ rows.map Prod.fst
    · rw [List.filter_cons_of_pos (by simpa using hk), List.flatMap_cons, if_pos hk, resultLine, labelText,
        if_neg (value_good hg (valuesOf_ne_nil_iff.mpr hk)).2]
    · rw [List.filter_cons_of_neg (by simpa using hk), if_neg hk]
      rfl

theorem resultsText_eq {n : Nat} {rows : List Row} (hg : ∀ r ∈ rows, GoodRow n r) (perm : List Nat) (keys : List Str)
    (answers : List (Option Str))
    (h : ∀ i < keys.length, answers.getD (perm.getD i 0) none =
      if keys.getD i [] ∈ rows.map Prod.fst then some (join rowDelim (valuesOf rows (keys.getD i []))) else none) :
    resultsText perm keys answers
      = "key,value".toList ++ '\n' :: (pairsOf rows keys).flatMap fun p => p.1 ++ ',' :: p.2 ++ ['\n'] := by
  have h0 : ("key,value\n".toList : Str) = "key,value".toList ++ ['\n'] := by decide
  have hL : ((List.range keys.length).flatMap fun i =>
        resultLine (keys.getD i []) (answers.getD (perm.getD i 0) none))
      = keys.flatMap fun k => resultLine k
        (if k ∈ rows.map Prod.fst then some (join rowDelim (valuesOf rows k)) else none) := by
    have hk : keys.flatMap (fun k => resultLine k
        (if k ∈ rows.map Prod.fst then some (join rowDelim (valuesOf rows k)) else none))
        = ((List.range keys.length).map fun i => keys.getD i []).flatMap (fun k => resultLine k
        (if k ∈ rows.map Prod.fst then some (join rowDelim (valuesOf rows k)) else none)) := by
      rw [map_getD_range]
    rw [hk, List.flatMap_map]
    apply List.flatMap_congr
    intro i hi
    rw [h i (List.mem_range.mp hi)]
  have hM : (keys.flatMap fun k => resultLine k
        (if k ∈ rows.map Prod.fst then some (join rowDelim (valuesOf rows k)) else none))
      = (pairsOf rows keys).flatMap fun p => p.1 ++ ',' :: p.2 ++ ['\n'] := resultLines_eq hg keys
  have hR : resultsText perm keys answers = "key,value\n".toList ++
      (pairsOf rows keys).flatMap fun p => p.1 ++ ',' :: p.2 ++ ['\n'] := by
    unfold resultsText
    exact congrArg _ (hL.trans hM)
  exact hR.trans (by rw [h0, List.append_assoc, List.singleton_append])

theorem flatMap_present (rows : List Row) (keys : List Str) :
    (keys.filter fun k => k ∈ rows.map Prod.fst).flatMap (fun k => (rows.filter fun r => r.1 = k).flatMap rowLine)
      = keys.flatMap fun k => (rows.filter fun r => r.1 = k).flatMap rowLine := by
  induction keys with
  | nil => rfl
  | cons k keys ih =>
    by_cases hk : k ∈ rows.map Prod.fst
    · rw [List.filter_cons_of_pos (by simpa using hk), List.flatMap_cons, List.flatMap_cons, ih]
    · rw [List.filter_cons_of_neg (by simpa using hk), List.flatMap_cons, ih]
      have : (rows.filter fun r => r.1 = k) = [] := by
        rw [List.filter_eq_nil_iff]
        intro r hr hrk
        rw [decide_eq_true_eq] at hrk
        exact hk (hrk ▸ List.mem_map_of_mem hr)
      rw [this]
      rfl

theorem extractResult_ok {n : Nat} {rows : List Row} {keys : List Str} (hin : Input n rows keys) (keyName : Str)
    (labelNames : List Str) (hl : labelNames.length = n) (hsome : ∃ k ∈ keys, k ∈ rows.map Prod.fst) :
    extractResult keyName labelNames
        ("key,value".toList ++ '\n' :: (pairsOf rows keys).flatMap fun p => p.1 ++ ',' :: p.2 ++ ['\n'])
      = .ok (expectedFile keyName labelNames rows keys) := by
  have hpl : ∀ p ∈ pairsOf rows keys, Plain p.1 ∧ Plain p.2 := by
    intro p hp
    obtain ⟨k, hk, rfl⟩ := List.mem_map.mp hp
    rw [List.mem_filter, decide_eq_true_eq] at hk
    exact ⟨(hin.keys_good k hk.1).1, (value_good hin.rows_good (valuesOf_ne_nil_iff.mpr hk.2)).1⟩
  have hlines : ¬ (Text.lines ("key,value".toList ++ '\n' :: (pairsOf rows keys).flatMap fun p =>
      p.1 ++ ',' :: p.2 ++ ['\n'])).length < 2 := by
    obtain ⟨k, hk, hkr⟩ := hsome
    have hmem : (k, join rowDelim (valuesOf rows k)) ∈ pairsOf rows keys :=
      List.mem_map.mpr ⟨k, List.mem_filter.mpr ⟨hk, by simpa using hkr⟩, rfl⟩
    rw [Text.lines_line _ _ (by decide)]
    have := Text.lines_flatMap ((pairsOf rows keys).map fun p => p.1 ++ ',' :: p.2) (by
      intro l hl
      obtain ⟨p, hp, rfl⟩ := List.mem_map.mp hl
      have := hpl p hp
      simp [this.1.2.1, this.2.2.1])
    rw [List.flatMap_map] at this
    rw [this, List.length_cons, List.length_map]
    have := List.length_pos_of_mem hmem
    omega
  have hlne : labelNames ≠ [] := by
    rintro rfl
    exact hin.labels hl.symm
  rw [extractResult, if_neg (by simp only [hlines, hlne, or_self, not_false_eq_true]),
    readRows_two _ (by decide) _ hpl]
  change Res.bind (mapRes _ _) _ = _
  unfold pairsOf
  rw [List.map_map, mapRes_map']
  rw [mapRes_all (g := fun k => (rows.filter fun r => r.1 = k).flatMap rowLine)]
  · change Res.ok _ = _
    rw [expectedFile, ← List.flatMap_def, flatMap_present]
  · intro k hk
    rw [List.mem_filter, decide_eq_true_eq] at hk
    rw [hl]
    exact extractRow_ok hin.labels hin.rows_good hk.2

/-! ### Sums over the keys -/

/-- The queried keys that the sender has. -/
def present (rows : List Row) (keys : List Str) : List Str := keys.filter fun k => k ∈ rows.map Prod.fst

theorem filter_length_eq (rows : List Row) (k : Str) : (valuesOf rows k).length = (rows.filter fun r => r.1 = k).length := by
  rw [valuesOf, List.length_map]

theorem rowsOf_present (rows : List Row) (keys : List Str) : rowsOf rows (present rows keys) = rowsOf rows keys := by
  unfold rowsOf present
  induction keys with
  | nil => rfl
  | cons k keys ih =>
    by_cases hk : k ∈ rows.map Prod.fst
    · rw [List.filter_cons_of_pos (by simpa using hk), List.map_cons, List.map_cons, List.sum_cons, List.sum_cons, ih]
    · rw [List.filter_cons_of_neg (by simpa using hk), List.map_cons, List.sum_cons, ih]
      have : valuesOf rows k = [] := by
        by_contra h
        exact hk (valuesOf_ne_nil_iff.mp h)
      rw [← filter_length_eq, this]
      simp

theorem filter_le_rowsOf (rows : List Row) (keys : List Str) : (rows.filter fun r => r.1 ∈ keys).length ≤ rowsOf rows keys := by
  unfold rowsOf
  induction keys with
  | nil => simp
  | cons k keys ih =>
    rw [List.map_cons, List.sum_cons]
    refine le_trans ?_ (Nat.add_le_add_left ih _)
    clear ih
    induction rows with
    | nil => simp
    | cons r rows ih =>
      simp only [List.filter_cons, List.mem_cons]
      by_cases h1 : r.1 = k
      · simp only [List.mem_cons] at ih
        simp only [h1, true_or, decide_true, if_true, List.length_cons]
        split_ifs <;> (try rw [List.length_cons]) <;> omega
      · simp only [List.mem_cons] at ih
        by_cases h2 : r.1 ∈ keys
        · simp only [h1, h2, false_or, decide_true, decide_false, if_true, List.length_cons, Bool.false_eq_true, if_false]
          omega
        · simp only [h1, h2, false_or, decide_false, Bool.false_eq_true, if_false]
          exact ih

theorem rowsOf_le (rows : List Row) (keys : List Str) (hn : keys.Nodup) : rowsOf rows keys ≤ rows.length := by
  induction rows with
  | nil => simp [rowsOf]
  | cons r rows ih =>
    have h : rowsOf (r :: rows) keys = rowsOf rows keys + keys.count r.1 := by
      unfold rowsOf
      clear ih hn
      induction keys with
      | nil => rfl
      | cons k keys ih =>
        rw [List.map_cons, List.sum_cons, ih, List.map_cons, List.sum_cons, List.count_cons]
        by_cases hk : r.1 = k
        · rw [List.filter_cons_of_pos (by simpa using hk)]
          simp [hk]
          omega
        · rw [List.filter_cons_of_neg (by simpa using hk)]
          simp [Ne.symm hk]
          omega
    have := List.nodup_iff_count_le_one.mp hn r.1
    rw [h, List.length_cons]
    omega

theorem filterMap_label (rows : List Row) (keys : List Str) {L : Type} (f : Str → Option L) (g : Str → L)
    (h : ∀ k ∈ keys, f k = if k ∈ rows.map Prod.fst then some (g k) else none) :
    (keys.map f).filterMap id = (present rows keys).map g := by
  unfold present
  induction keys with
  | nil => rfl
  | cons k keys ih =>
    have ih := ih fun x hx => h x (List.mem_cons_of_mem _ hx)
    rw [List.map_cons]
    have hk := h k (by simp)
    by_cases hm : k ∈ rows.map Prod.fst
    · rw [if_pos hm] at hk
      rw [List.filterMap_cons_some (f := id) hk, List.filter_cons_of_pos (by simpa using hm), List.map_cons, ih]
    · rw [if_neg hm] at hk
      rw [List.filterMap_cons_none (f := id) hk, List.filter_cons_of_neg (by simpa using hm), ih]

theorem rowCount_mod {n : Nat} {rows : List Row} {keys : List Str} (hg : ∀ r ∈ rows, GoodRow n r)
    {answers : List (Option Str)} {t : List (Str × Str)} (hp : answers.Perm (keys.map (labelOf t)))
    (ht : ∀ k, labelOf t k = if k ∈ rows.map Prod.fst then some (join rowDelim (valuesOf rows k)) else none) :
    computeRowCount answers = rowsOf rows keys % 2 ^ 64 := by
  rw [computeRowCount_eq, ((hp.filterMap id).map _).sum_eq,
    filterMap_label rows keys (labelOf t) (fun k => join rowDelim (valuesOf rows k)) fun k _ => ht k, List.map_map]
  have : (present rows keys).map ((fun l => (Text.split rowDelim l).length) ∘ fun k => join rowDelim (valuesOf rows k))
      = (present rows keys).map fun k => (rows.filter fun r => r.1 = k).length := by
    apply List.map_congr_left
    intro k hk
    unfold present at hk
    rw [List.mem_filter, decide_eq_true_eq] at hk
    change (Text.split rowDelim (join rowDelim (valuesOf rows k))).length = _
    rw [split_join _ _ (valuesOf_ne_nil_iff.mpr hk.2) (by
      intro v hv
      obtain ⟨r, hr, -, rfl⟩ := mem_valuesOf hv
      exact (hg r hr).joined.2.2), filter_length_eq]
  rw [this]
  have h1 := rowsOf_present rows keys
  unfold rowsOf at h1 ⊢
  rw [h1]

theorem rowCount_eq {n : Nat} {rows : List Row} {keys : List Str} (hin : Input n rows keys) {answers : List (Option Str)}
    {t : List (Str × Str)} (hp : answers.Perm (keys.map (labelOf t)))
    (ht : ∀ k, labelOf t k = if k ∈ rows.map Prod.fst then some (join rowDelim (valuesOf rows k)) else none) :
    computeRowCount answers = rowsOf rows keys := by
  have h2 := rowsOf_le rows keys hin.keys_nodup
  have h3 := hin.rows_few
  rw [rowCount_mod hin.rows_good hp ht]
  exact Nat.mod_eq_of_lt (by omega)

omit [DecidableEq G] in
theorem rowCountCt_enc (S : Secrets G) {rows : List Row} {keys : List Str} {answers : List (Option (G × G))}
    {t : List (Str × (G × G))} (hp : answers.Perm (keys.map (labelOf t)))
    (ht : ∀ k, (k ∈ rows.map Prod.fst → ∃ c, labelOf t k = some c ∧
      EncOf S (poly1 S.a S.b (valuesOf rows k).length) c) ∧ (k ∉ rows.map Prod.fst → labelOf t k = none)) :
    (present rows keys = [] → computeRowCountCt answers = none) ∧
      (present rows keys ≠ [] → ∃ ct, computeRowCountCt answers = some ct ∧
        EncOf S (S.a * rowsOf rows keys + S.b * (present rows keys).length) ct) := by
  have h0 : List.Forall₂ (fun c v => EncOf S v c) ((keys.map (labelOf t)).filterMap id)
      ((present rows keys).map fun k => poly1 S.a S.b (valuesOf rows k).length) := by
    unfold present
    clear hp
    induction keys with
    | nil => exact .nil
    | cons k keys ih =>
      rw [List.map_cons]
      by_cases hk : k ∈ rows.map Prod.fst
      · obtain ⟨c, hc, he⟩ := (ht k).1 hk
        rw [hc, List.filterMap_cons_some (f := id) rfl, List.filter_cons_of_pos (by simpa using hk), List.map_cons]
        exact .cons he ih
      · rw [(ht k).2 hk, List.filterMap_cons_none (f := id) rfl, List.filter_cons_of_neg (by simpa using hk)]
        exact ih
  obtain ⟨vs, hvs, hperm⟩ := List.perm_comp_forall₂ (hp.filterMap id) h0
  have hsum : vs.sum = S.a * rowsOf rows keys + S.b * (present rows keys).length := by
    rw [hperm.sum_eq, ← rowsOf_present, rowsOf]
    clear hperm h0 hp hvs
    induction present rows keys with
    | nil => simp
    | cons k ks ih =>
      simp only [List.map_cons, List.sum_cons, List.length_cons]
      rw [ih, poly1, filter_length_eq, Nat.mul_add, Nat.mul_add]
      omega
  have := computeRowCountCt_enc S answers vs hvs
  refine ⟨fun h => this.1 ?_, fun h => ?_⟩
  · rw [h] at hperm
    exact List.perm_nil.mp hperm
  · rw [← hsum]
    apply this.2
    rintro rfl
    exact h (List.map_eq_nil_iff.mp (List.nil_perm.mp hperm))

/-! ### C85: delivery -/

omit [DecidableEq P] in
theorem inj_values {rows : List Row} {m : List Entry} (hi : MapInv m rows) {key : Nat} {H : Str → P} {keys : List Str}
    (hinj : ∀ r ∈ rows, ∀ k ∈ keys, key • H r.1 = key • H k → r.1 = k) :
    ∀ x ∈ m.map Entry.key, ∀ k ∈ keys, key • H x = key • H k → x = k := by
  intro x hx k hk h
  obtain ⟨e, he, rfl⟩ := List.mem_map.mp hx
  obtain ⟨r, hr, hrk⟩ := List.mem_map.mp (valuesOf_ne_nil_iff.mp (hi.value e he).1)
  rw [← hrk] at h ⊢
  exact hinj r hr k hk h

omit [DecidableEq G] in
/-- The pieces of an honest run with the count check. -/
theorem run_pieces {n : Nat} {S : Secrets G} {H : Str → P} {C : Coins} {rows : List Row} {keys : List Str}
    (hin : Input n rows keys) (hs : Sound S H C rows keys) (keyName : Str) (labelNames : List Str)
    (hl : labelNames.length = n) :
    ∃ values counts, valueTable C.order labelNames.length rows = .ok values ∧ countTable C.order rows = .ok counts ∧
      extractItems keys = .ok keys ∧
      (∀ hashed, hashed = unblind C.rinv (processQueries S.oprf (C.perm keys.length) (blind H C.r keys)) →
        (present rows keys = [] →
          computeRowCountCt (retrieve (database S.oprf H (encryptCounts S C.rnd counts)) hashed) = none) ∧
        (present rows keys ≠ [] → ∃ ct,
          computeRowCountCt (retrieve (database S.oprf H (encryptCounts S C.rnd counts)) hashed) = some ct ∧
            EncOf S (S.a * rowsOf rows keys + S.b * (present rows keys).length) ct) ∧
        computeRowCount (retrieve (database S.oprf H values) hashed) = rowsOf rows keys ∧
        (present rows keys ≠ [] → extractResult keyName labelNames
            (resultsText (C.perm keys.length) keys (retrieve (database S.oprf H values) hashed))
          = .ok (expectedFile keyName labelNames rows keys))) := by
  have hi := (mapInv rows).perm (hs.order _)
  refine ⟨_, _, hl ▸ valueTable_ok hs.order hin.rows_good hin.rows_ne hin.labels,
    countTable_ok hs.order hin.rows_good hin.rows_ne hin.rows_few,
    extractItems_ok keys hin.keys_good hin.keys_ne hin.keys_nodup, ?_⟩
  rintro hashed rfl
  have hinj := inj_values hi hs.inj
  have hinjV : ∀ e ∈ (C.order (mergeRows rows)).map (fun e => (e.key, e.value)), ∀ k ∈ keys,
      S.oprf • H e.1 = S.oprf • H k → e.1 = k := by
    intro e he
    obtain ⟨x, hx, rfl⟩ := List.mem_map.mp he
    exact hinj x.key (List.mem_map_of_mem hx)
  have hinjC : ∀ e ∈ encryptCounts S C.rnd ((C.order (mergeRows rows)).map fun e => (e.key, e.count)), ∀ k ∈ keys,
      S.oprf • H e.1 = S.oprf • H k → e.1 = k := by
    intro e he
    unfold encryptCounts at he
    obtain ⟨i, hlt, rfl⟩ := List.mem_map.mp he
    rw [List.mem_range] at hlt
    apply hinj
    rw [List.getD_eq_getElem _ _ hlt, List.getElem_map]
    rw [List.length_map] at hlt
    exact List.mem_map_of_mem (List.getElem_mem hlt)
  have hpC := answers_perm H S.oprf C.r C.rinv hs.inverse (C.perm keys.length) keys (hs.perm _) _ hinjC
  have hpV := answers_perm H S.oprf C.r C.rinv hs.inverse (C.perm keys.length) keys (hs.perm _) _ hinjV
  have hct := rowCountCt_enc S (rows := rows) hpC fun k => labelOf_counts S C.rnd hi k
  refine ⟨hct.1, hct.2, rowCount_eq hin hpV fun k => labelOf_values hi k, fun hpr => ?_⟩
  rw [resultsText_eq hin.rows_good _ _ _ fun i hlt => by
    rw [answers_get H S.oprf C.r C.rinv hs.inverse (C.perm keys.length) keys (hs.perm _) _ hinjV hlt, labelOf_values hi]]
  apply extractResult_ok hin keyName labelNames hl
  obtain ⟨k, hk⟩ := List.exists_mem_of_ne_nil _ hpr
  unfold present at hk
  rw [List.mem_filter, decide_eq_true_eq] at hk
  exact ⟨k, hk.1, hk.2⟩

/-- **C85**: with the count check, when the sender has all queried keys, the receiver gets exactly the rows of the
queried keys, in the order of its query, and the sender records their number. -/
theorem checked_run_exact {n : Nat} {S : Secrets G} {H : Str → P} {C : Coins} {rows : List Row} {keys : List Str}
    (hin : Input n rows keys) (hs : Sound S H C rows keys) (keyName : Str) (labelNames : List Str)
    (hl : labelNames.length = n) (hall : ∀ k ∈ keys, ∃ r ∈ rows, r.1 = k) :
    runChecked S H C rows keys keyName labelNames
      = .ok (rowCountText (rowsOf rows keys), expectedFile keyName labelNames rows keys) := by
  obtain ⟨values, counts, hv, hc, hx, h⟩ := run_pieces hin hs keyName labelNames hl
  obtain ⟨-, h1, h2, h3⟩ := h _ rfl
  have hpre : present rows keys = keys := by
    unfold present
    rw [List.filter_eq_self]
    intro k hk
    obtain ⟨r, hr, rfl⟩ := hall k hk
    simpa using ⟨_, hr⟩
  rw [hpre] at h1 h3
  obtain ⟨ct, hct, henc⟩ := h1 hin.keys_ne
  have hb : (blind H C.r keys).length = keys.length := by simp [blind]
  unfold runChecked
  rw [hv, hc, hx]
  simp only [Res.bind]
  rw [hb, hct]
  dsimp only
  rw [h2, if_pos (checkRowCount_self S _ _ ct henc), h3 hin.keys_ne]

omit [AddCommGroup G] [DecidableEq G] in
theorem unchecked_answers {n : Nat} {S : Secrets G} {H : Str → P} {C : Coins} {rows : List Row} {keys : List Str}
    (hin : Input n rows keys) (hs : Sound S H C rows keys) (labelNames : List Str) (hl : labelNames.length = n) :
    ∃ values, valueTable C.order labelNames.length rows = .ok values ∧ extractItems keys = .ok keys ∧
      resultsText (List.range keys.length) keys
        (retrieve (database S.oprf H values) (unblind C.rinv ((blind H C.r keys).map fun p => S.oprf • p)))
      = "key,value".toList ++ '\n' :: (pairsOf rows keys).flatMap fun p => p.1 ++ ',' :: p.2 ++ ['\n'] := by
  have hi := (mapInv rows).perm (hs.order _)
  refine ⟨_, hl ▸ valueTable_ok hs.order hin.rows_good hin.rows_ne hin.labels,
    extractItems_ok keys hin.keys_good hin.keys_ne hin.keys_nodup, ?_⟩
  have hh : unblind C.rinv ((blind H C.r keys).map fun p => S.oprf • p) = keys.map fun k => S.oprf • H k := by
    unfold unblind blind
    rw [List.map_map, List.map_map]
    apply List.map_congr_left
    intro k _
    change C.rinv • S.oprf • C.r • H k = _
    rw [smul_comm S.oprf C.r, ← mul_smul]
    exact hs.inverse _
  apply resultsText_eq hin.rows_good
  intro i hlt
  rw [hh, retrieve, List.map_map]
  rw [List.getD_eq_getElem (l := List.range keys.length) _ (by simpa using hlt), List.getElem_range,
    List.getD_eq_getElem _ _ (by simpa using hlt), List.getElem_map]
  change Option.map Prod.snd (List.find? (fun e => decide (e.1 = S.oprf • H keys[i])) _) = _
  rw [retrieve_one, labelOf_values hi, List.getD_eq_getElem _ _ hlt]
  intro e he
  obtain ⟨x, hx, rfl⟩ := List.mem_map.mp he
  exact inj_values hi hs.inj x.key (List.mem_map_of_mem hx) _ (List.getElem_mem hlt)

omit [AddCommGroup G] [DecidableEq G] in
/-- **C85**: without the count check, when the sender has some queried key, the receiver gets exactly the rows of the
queried keys that the sender has. -/
theorem unchecked_run_exact {n : Nat} {S : Secrets G} {H : Str → P} {C : Coins} {rows : List Row} {keys : List Str}
    (hin : Input n rows keys) (hs : Sound S H C rows keys) (keyName : Str) (labelNames : List Str)
    (hl : labelNames.length = n) (hsome : ∃ k ∈ keys, ∃ r ∈ rows, r.1 = k) :
    runUnchecked S H C rows keys keyName labelNames = .ok (expectedFile keyName labelNames rows keys) := by
  obtain ⟨values, hv, hx, h⟩ := unchecked_answers hin hs labelNames hl
  unfold runUnchecked
  rw [hv, hx]
  simp only [Res.bind]
  rw [h]
  apply extractResult_ok hin keyName labelNames hl
  obtain ⟨k, hk, r, hr, hrk⟩ := hsome
  exact ⟨k, hk, hrk ▸ List.mem_map_of_mem hr⟩

omit [AddCommGroup G] [DecidableEq G] in
/-- **C85**, where it stops: a query of which the sender has no key ends in an error, not in an empty result. -/
theorem no_match_throws {n : Nat} {S : Secrets G} {H : Str → P} {C : Coins} {rows : List Row} {keys : List Str}
    (hin : Input n rows keys) (hs : Sound S H C rows keys) (keyName : Str) (labelNames : List Str)
    (hl : labelNames.length = n) (hnone : ∀ k ∈ keys, ∀ r ∈ rows, r.1 ≠ k) :
    runUnchecked S H C rows keys keyName labelNames = .throws := by
  obtain ⟨values, hv, hx, h⟩ := unchecked_answers hin hs labelNames hl
  have hp : pairsOf rows keys = [] := by
    unfold pairsOf
    rw [List.map_eq_nil_iff, List.filter_eq_nil_iff]
    intro k hk hkr
    rw [decide_eq_true_eq] at hkr
    obtain ⟨r, hr, hrk⟩ := List.mem_map.mp hkr
    exact hnone k hk r hr hrk
  unfold runUnchecked
  rw [hv, hx]
  simp only [Res.bind]
  rw [h, hp, extractResult, if_pos]
  left
  decide

/-! ### C86: the sender agrees to the true count, and to no other, when all keys are there -/

theorem poly_lt {a b x y : Nat} (ha : a < 2 ^ 64) (hb : b < 2 ^ 64) (hx : x < 2 ^ 64) (hy : y < 2 ^ 64) :
    a * x + b * y < 2 ^ 130 := by
  have h1 : a * x ≤ 2 ^ 64 * 2 ^ 64 := Nat.mul_le_mul ha.le hx.le
  have h2 : b * y ≤ 2 ^ 64 * 2 ^ 64 := Nat.mul_le_mul hb.le hy.le
  have h3 : (2 : Nat) ^ 64 * 2 ^ 64 + 2 ^ 64 * 2 ^ 64 < 2 ^ 130 := by norm_num
  omega

/-- **C86**: against the sum that an honest receiver sends, the sender agrees to a number of rows exactly when it is the
true one. -/
theorem only_true_count {n : Nat} {S : Secrets G} {H : Str → P} {C : Coins} {rows : List Row} {keys : List Str}
    (hin : Input n rows keys) (hs : Sound S H C rows keys) (hord : 2 ^ 130 ≤ addOrderOf S.g) (ha : S.a ≠ 0)
    (hall : ∀ k ∈ keys, ∃ r ∈ rows, r.1 = k) {counts : List (Str × Nat)} (hcounts : countTable C.order rows = .ok counts) :
    ∃ ct, computeRowCountCt (retrieve (database S.oprf H (encryptCounts S C.rnd counts))
        (unblind C.rinv (processQueries S.oprf (C.perm keys.length) (blind H C.r keys)))) = some ct ∧
      ∀ declared < 2 ^ 64, checkRowCount S keys.length ct declared = true ↔ declared = rowsOf rows keys := by
  obtain ⟨values, counts', -, hc, -, h⟩ := run_pieces hin hs [] (List.replicate n []) (by simp)
  obtain ⟨-, h1, -, -⟩ := h _ rfl
  have hpre : present rows keys = keys := by
    unfold present
    rw [List.filter_eq_self]
    intro k hk
    obtain ⟨r, hr, rfl⟩ := hall k hk
    simpa using ⟨_, hr⟩
  rw [hpre] at h1
  obtain ⟨ct, hct, henc⟩ := h1 hin.keys_ne
  have : counts = counts' := by
    rw [hcounts] at hc
    exact Res.ok.inj hc
  subst this
  refine ⟨ct, hct, fun d hd => ?_⟩
  have hrows : rowsOf rows keys < 2 ^ 64 := by
    have h2 := rowsOf_le rows keys hin.keys_nodup
    have h3 := hin.rows_few
    omega
  rw [checkRowCount_iff S hord _ _ d ct henc (poly_lt hs.a hs.b hrows hin.keys_few) (poly_lt hs.a hs.b hd hin.keys_few),
    poly2]
  constructor
  · intro h
    have := Nat.add_right_cancel h
    exact Nat.eq_of_mul_eq_mul_left (Nat.pos_of_ne_zero ha) this
  · rintro rfl
    rfl

/-- **C87**, for receivers that send the sum of the protocol and ask for keys that the sender has: no number below that of the
rows they hold is agreed to. -/
theorem C87_true_sum_partial {n : Nat} {S : Secrets G} {H : Str → P} {C : Coins} {rows : List Row} {keys : List Str}
    (hin : Input n rows keys) (hs : Sound S H C rows keys) (hord : 2 ^ 130 ≤ addOrderOf S.g) (ha : S.a ≠ 0)
    (hall : ∀ k ∈ keys, ∃ r ∈ rows, r.1 = k) {counts : List (Str × Nat)} (hcounts : countTable C.order rows = .ok counts)
    {ct : G × G} (hct : computeRowCountCt (retrieve (database S.oprf H (encryptCounts S C.rnd counts))
      (unblind C.rinv (processQueries S.oprf (C.perm keys.length) (blind H C.r keys)))) = some ct) {declared : Nat}
    (hd : declared < 2 ^ 64) (hagree : checkRowCount S keys.length ct declared = true) :
    (rows.filter fun r => r.1 ∈ keys).length ≤ declared := by
  obtain ⟨ct', h1, h2⟩ := only_true_count hin hs hord ha hall hcounts
  rw [hct] at h1
  injection h1 with h1
  subst h1
  rw [(h2 declared hd).1 hagree]
  exact filter_le_rowsOf rows keys

/-- **C86**, where it stops: an honest receiver that asks for a key the sender does not have, next to one it has, is
refused. -/
theorem absent_key_refused {n : Nat} {S : Secrets G} {H : Str → P} {C : Coins} {rows : List Row} {keys : List Str}
    (hin : Input n rows keys) (hs : Sound S H C rows keys) (hord : 2 ^ 130 ≤ addOrderOf S.g) (hb : S.b ≠ 0)
    (keyName : Str) (labelNames : List Str) (hl : labelNames.length = n) (hsome : ∃ k ∈ keys, ∃ r ∈ rows, r.1 = k)
    (habsent : ∃ k ∈ keys, ∀ r ∈ rows, r.1 ≠ k) :
    runChecked S H C rows keys keyName labelNames = .throws := by
  obtain ⟨values, counts, hv, hc, hx, h⟩ := run_pieces hin hs keyName labelNames hl
  obtain ⟨-, h1, h2, h3⟩ := h _ rfl
  have hlt : (present rows keys).length < keys.length := by
    unfold present
    obtain ⟨k, hk, hno⟩ := habsent
    refine lt_of_le_of_ne (List.length_filter_le _ _) fun he => ?_
    have := List.length_filter_eq_length_iff.mp he k hk
    rw [decide_eq_true_eq] at this
    obtain ⟨r, hr, hrk⟩ := List.mem_map.mp this
    exact hno r hr hrk
  have hne : present rows keys ≠ [] := by
    obtain ⟨k, hk, r, hr, hrk⟩ := hsome
    have : k ∈ present rows keys := List.mem_filter.mpr ⟨hk, by subst hrk; simpa using ⟨_, hr⟩⟩
    exact List.ne_nil_of_mem this
  obtain ⟨ct, hct, henc⟩ := h1 hne
  have hlen : (blind H C.r keys).length = keys.length := by simp [blind]
  have hrows : rowsOf rows keys < 2 ^ 64 := by
    have h2 := rowsOf_le rows keys hin.keys_nodup
    have h3 := hin.rows_few
    omega
  unfold runChecked
  rw [hv, hc, hx]
  simp only [Res.bind]
  rw [hlen, hct]
  dsimp only
  rw [h2, if_neg]
  rw [checkRowCount_iff S hord _ _ _ ct henc
    (poly_lt hs.a hs.b hrows (by have := hin.keys_few; omega)) (poly_lt hs.a hs.b hrows hin.keys_few), poly2]
  intro he
  have := Nat.add_left_cancel he
  have := Nat.eq_of_mul_eq_mul_left (Nat.pos_of_ne_zero hb) this
  omega

/-! ### C87: a receiver that does not keep to the protocol can be billed less -/

omit [DecidableEq G] [DecidableEq P] [AddCommGroup G] in
theorem retrieve_getD {L : Type} [DecidableEq P] (db : List (P × L)) (items : List P) {i : Nat} (hi : i < items.length) :
    (retrieve db items).getD i none = (db.find? fun e => e.1 = items.getD i 0).map Prod.snd := by
  rw [retrieve, List.getD_eq_getElem _ _ (by simpa using hi), List.getElem_map, List.getD_eq_getElem _ _ hi]

/-- **C87**, refuted: whatever the shuffle, a receiver that asks for a key `A` twice and for any other keys once is
billed for as many times the rows of `A` as it asked for keys, and holds the data of all keys it asked for. -/
theorem billed_for_another_key {n : Nat} {S : Secrets G} {H : Str → P} {C : Coins} {rows : List Row}
    (hn : n ≠ 0) (hne : rows ≠ []) (hg : ∀ r ∈ rows, GoodRow n r) (hfew : rows.length < 2 ^ 31) {A : Str} {rest : List Str}
    (hs : Sound S H C rows (A :: A :: rest)) (hnd : (A :: rest).Nodup) (hA : A ∈ rows.map Prod.fst)
    (hinj : ∀ k ∈ A :: rest, ∀ k' ∈ A :: rest, S.oprf • H k = S.oprf • H k' → k = k') :
    ∃ values counts, valueTable C.order n rows = .ok values ∧ countTable C.order rows = .ok counts ∧
      ∀ hashed, hashed = unblind C.rinv (processQueries S.oprf (C.perm (rest.length + 2)) (blind H C.r (A :: A :: rest))) →
      ∀ answers, answers = retrieve (database S.oprf H values) hashed →
      computeRowCount answers = (rowsOf rows [A, A] + rowsOf rows rest) % 2 ^ 64 ∧
      ∃ ct, cheat hashed (retrieve (database S.oprf H (encryptCounts S C.rnd counts)) hashed) answers
          = some (ct, (rest.length + 2) * rowsOf rows [A]) ∧
        checkRowCount S (rest.length + 2) ct ((rest.length + 2) * rowsOf rows [A]) = true := by
  have hi := (mapInv rows).perm (hs.order _)
  refine ⟨_, _, valueTable_ok hs.order hg hne hn, countTable_ok hs.order hg hne hfew, ?_⟩
  rintro hashed rfl answers rfl
  have hinjK := inj_values hi hs.inj
  have hinjV : ∀ e ∈ (C.order (mergeRows rows)).map (fun e => (e.key, e.value)), ∀ k ∈ A :: A :: rest,
      S.oprf • H e.1 = S.oprf • H k → e.1 = k := by
    intro e he
    obtain ⟨x, hx, rfl⟩ := List.mem_map.mp he
    exact hinjK x.key (List.mem_map_of_mem hx)
  have hinjC : ∀ e ∈ encryptCounts S C.rnd ((C.order (mergeRows rows)).map fun e => (e.key, e.count)), ∀ k ∈ A :: A :: rest,
      S.oprf • H e.1 = S.oprf • H k → e.1 = k := by
    intro e he
    unfold encryptCounts at he
    obtain ⟨i, hlt, rfl⟩ := List.mem_map.mp he
    rw [List.mem_range] at hlt
    apply hinjK
    rw [List.getD_eq_getElem _ _ hlt, List.getElem_map]
    rw [List.length_map] at hlt
    exact List.mem_map_of_mem (List.getElem_mem hlt)
  have hperm := hs.perm (A :: A :: rest).length
  have hpV := answers_perm H S.oprf C.r C.rinv hs.inverse (C.perm (A :: A :: rest).length) _ hperm _ hinjV
  refine ⟨?_, ?_⟩
  · have := rowCount_mod hg hpV fun k => labelOf_values hi k
    refine Eq.trans this ?_
    congr 1
    simp only [rowsOf, List.map_cons, List.sum_cons, List.map_nil, List.sum_nil]
    omega
  · have hlen := hashed_length H S.oprf C.r C.rinv (C.perm (A :: A :: rest).length) (A :: A :: rest)
    have hhp : (unblind C.rinv (processQueries S.oprf (C.perm (A :: A :: rest).length) (blind H C.r (A :: A :: rest)))).Perm
        ((A :: A :: rest).map fun k => S.oprf • H k) := by
      apply perm_of_shuffled (C.perm (A :: A :: rest).length) _ _ 0
      · rw [hlen, List.length_map]
      · rw [List.length_map]; exact hperm
      · intro i hlt
        rw [List.length_map] at hlt
        rw [unblind_get H S.oprf C.r C.rinv hs.inverse _ _ hperm hlt,
          List.getD_eq_getElem (l := (A :: A :: rest).map fun k => S.oprf • H k) _ (by simpa using hlt),
          List.getElem_map, List.getD_eq_getElem _ _ hlt]
    change ∃ ct, cheat (unblind C.rinv (processQueries S.oprf (C.perm (A :: A :: rest).length)
      (blind H C.r (A :: A :: rest)))) _ _ = _ ∧ _
    generalize unblind C.rinv (processQueries S.oprf (C.perm (A :: A :: rest).length) (blind H C.r (A :: A :: rest)))
      = hashed at hlen hhp hpV ⊢
    -- only the value of `A` occurs more than once
    have honly : ∀ i < hashed.length, 1 < hashed.count (hashed.getD i 0) → hashed.getD i 0 = S.oprf • H A := by
      intro i hlt hcount
      by_contra hx
      have hmem : hashed.getD i 0 ∈ hashed := by
        rw [List.getD_eq_getElem _ _ hlt]
        exact List.getElem_mem _
      rw [hhp.count_eq, List.map_cons, List.map_cons, List.count_cons_of_ne (Ne.symm hx),
        List.count_cons_of_ne (Ne.symm hx)] at hcount
      have hnd' : (rest.map fun k => S.oprf • H k).Nodup := by
        apply List.Nodup.map_on _ (List.nodup_cons.mp hnd).2
        intro k hk k' hk' he
        exact hinj k (List.mem_cons_of_mem _ hk) k' (List.mem_cons_of_mem _ hk') he
      have := List.nodup_iff_count_le_one.mp hnd' (hashed.getD i 0)
      omega
    have hAm : S.oprf • H A ∈ hashed := hhp.mem_iff.mpr (by simp)
    have hcountA : 1 < hashed.count (S.oprf • H A) := by
      rw [hhp.count_eq, List.map_cons, List.map_cons, List.count_cons_self, List.count_cons_self]
      omega
    obtain ⟨j, hj, hjA⟩ := List.getElem_of_mem hAm
    have hfind : ∃ i, (List.range hashed.length).find? (fun i => 1 < hashed.count (hashed.getD i 0)) = some i ∧
        i < hashed.length ∧ hashed.getD i 0 = S.oprf • H A := by
      cases hf : (List.range hashed.length).find? (fun i => 1 < hashed.count (hashed.getD i 0)) with
      | none =>
        rw [List.find?_eq_none] at hf
        have := hf j (List.mem_range.mpr hj)
        rw [List.getD_eq_getElem _ _ hj, hjA] at this
        exact absurd (by simpa using hcountA) this
      | some i =>
        have h1 := List.mem_range.mp (List.mem_of_find?_eq_some hf)
        have h2 := List.find?_some hf
        exact ⟨i, rfl, h1, honly i h1 (by simpa using h2)⟩
    obtain ⟨i, hf, hil, hiA⟩ := hfind
    obtain ⟨c, hc, henc⟩ := (labelOf_counts S C.rnd hi A).1 hA
    have hcA : (retrieve (database S.oprf H (encryptCounts S C.rnd ((C.order (mergeRows rows)).map fun e =>
        (e.key, e.count)))) hashed).getD i none = some c := by
      rw [retrieve_getD _ _ hil, hiA, retrieve_one, hc]
      intro e he
      exact hinjC e he A (by simp)
    have hvA : (retrieve (database S.oprf H ((C.order (mergeRows rows)).map fun e => (e.key, e.value))) hashed).getD i none
        = some (join rowDelim (valuesOf rows A)) := by
      rw [retrieve_getD _ _ hil, hiA, retrieve_one, labelOf_values hi, if_pos hA]
      intro e he
      exact hinjV e he A (by simp)
    have hrows : (Text.split rowDelim (join rowDelim (valuesOf rows A))).length = rowsOf rows [A] := by
      rw [split_join _ _ (valuesOf_ne_nil_iff.mpr hA) (by
        intro v hv
        obtain ⟨r, hr, -, rfl⟩ := mem_valuesOf hv
        exact (hg r hr).joined.2.2), filter_length_eq]
      simp [rowsOf]
    have hl2 : hashed.length = rest.length + 2 := by simpa using hlen
    refine ⟨copies (rest.length + 2) c, ?_, ?_⟩
    · rw [cheat, hf]
      dsimp only
      rw [hcA, hvA]
      dsimp only
      rw [hl2, hrows]
    · apply checkRowCount_self
      have := henc.copies (rest.length + 2)
      rw [filter_length_eq] at this
      have he : (rest.length + 2) * poly1 S.a S.b (rows.filter fun r => r.1 = A).length
          = poly2 S.a S.b ((rest.length + 2) * rowsOf rows [A]) (rest.length + 2) := by
        simp only [rowsOf, poly1, poly2, List.map_cons, List.map_nil, List.sum_cons, List.sum_nil, Nat.add_zero]
        ring
      rw [he] at this
      exact this

/-! ### Concrete runs -/

section Examples

/-- A table with two rows of `a`, one of `b` and three of `c`. -/
def exRows : List Row :=
  [("a".toList, ["x".toList, "1".toList]), ("b".toList, ["y".toList, "2".toList]), ("c".toList, ["z".toList, "3".toList]),
    ("a".toList, ["u".toList, "".toList]), ("c".toList, ["v".toList, "4".toList]), ("c".toList, ["w\"".toList, "5".toList])]

def exSecrets : Secrets (ZMod (2 ^ 140)) := ⟨1, 12345, 1000003, 777, 5⟩

/-- Items as points of a small group. -/
def exHash (s : Str) : ZMod 101 := ((s.map Char.toNat).sum : Nat)

def exCoins : Coins := ⟨List.reverse, fun i => 17 * i + 4, 7, 29, fun n => (List.range n).reverse⟩

theorem exSound {keys : List Str} (h : ∀ r ∈ exRows, ∀ k ∈ keys, 5 • exHash r.1 = 5 • exHash k → r.1 = k) :
    Sound exSecrets exHash exCoins exRows keys where
  order m := m.reverse_perm
  inverse := by decide +kernel
  perm n := (List.range n).reverse_perm
  inj := h
  a := by decide
  b := by decide

theorem exInput {keys : List Str} (h1 : keys ≠ []) (h2 : keys.Nodup) (h3 : ∀ k ∈ keys, Plain k ∧ k ≠ [])
    (h4 : keys.length < 2 ^ 64) : Input 2 exRows keys where
  labels := by decide
  rows_ne := by decide
  rows_good := by
    intro r hr
    simp only [exRows, List.mem_cons, List.not_mem_nil, or_false] at hr
    rcases hr with rfl | rfl | rfl | rfl | rfl | rfl <;> constructor <;> decide
  rows_few := by decide
  keys_ne := h1
  keys_nodup := h2
  keys_good := h3
  keys_few := h4

example := checked_run_exact (n := 2) (S := exSecrets) (H := exHash) (C := exCoins) (rows := exRows)
  (keys := ["c".toList, "a".toList]) (exInput (by decide) (by decide) (by decide) (by decide)) (exSound (by decide))
  "id".toList ["l".toList, "m".toList] rfl (by decide)

example : expectedFile "id".toList ["l".toList, "m".toList] exRows ["c".toList, "a".toList]
    = "id,l,m\nc,z,3\nc,v,4\nc,w\",5\na,x,1\na,u,\n".toList := by decide

example := unchecked_run_exact (n := 2) (S := exSecrets) (H := exHash) (C := exCoins) (rows := exRows)
  (keys := ["q".toList, "b".toList]) (exInput (by decide) (by decide) (by decide) (by decide)) (exSound (by decide))
  "id".toList ["l".toList, "m".toList] rfl (by decide)

example := no_match_throws (n := 2) (S := exSecrets) (H := exHash) (C := exCoins) (rows := exRows)
  (keys := ["q".toList, "p".toList]) (exInput (by decide) (by decide) (by decide) (by decide)) (exSound (by decide))
  "id".toList ["l".toList, "m".toList] rfl (by decide)

theorem exOrder : 2 ^ 130 ≤ addOrderOf exSecrets.g := by
  have : addOrderOf exSecrets.g = 2 ^ 140 := ZMod.addOrderOf_one _
  rw [this]
  exact Nat.pow_le_pow_right (by decide) (by decide)

example := only_true_count (n := 2) (S := exSecrets) (H := exHash) (C := exCoins) (rows := exRows)
  (keys := ["c".toList, "a".toList]) (exInput (by decide) (by decide) (by decide) (by decide)) (exSound (by decide))
  exOrder (by decide) (by decide)
  (countTable_ok (exSound (keys := []) (by decide)).order
    (exInput (keys := ["a".toList]) (by decide) (by decide) (by decide) (by decide)).rows_good (by decide) (by decide))

example (ct : ZMod (2 ^ 140) × ZMod (2 ^ 140)) := C87_true_sum_partial (n := 2) (S := exSecrets) (H := exHash) (C := exCoins) (rows := exRows)
  (keys := ["c".toList, "a".toList]) (exInput (by decide) (by decide) (by decide) (by decide)) (exSound (by decide))
  exOrder (by decide) (by decide)
  (countTable_ok (exSound (keys := []) (by decide)).order
    (exInput (keys := ["a".toList]) (by decide) (by decide) (by decide) (by decide)).rows_good (by decide) (by decide))
  (ct := ct) (declared := 5)

example := absent_key_refused (n := 2) (S := exSecrets) (H := exHash) (C := exCoins) (rows := exRows)
  (keys := ["c".toList, "q".toList]) (exInput (by decide) (by decide) (by decide) (by decide)) (exSound (by decide))
  exOrder (by decide) "id".toList ["l".toList, "m".toList] rfl (by decide) (by decide)

/-- The three rows of `c` and the two of `a` are billed as three times the one row of `b`. -/
example := billed_for_another_key (n := 2) (S := exSecrets) (H := exHash) (C := exCoins) (rows := exRows)
  (by decide) (by decide) (exInput (keys := ["a".toList]) (by decide) (by decide) (by decide) (by decide)).rows_good
  (by decide) (A := "b".toList) (rest := ["c".toList, "a".toList]) (exSound (by decide)) (by decide) (by decide) (by decide)

/-- **C85**, outside the condition on labels: a label that starts with a quotation mark comes back without it. -/
theorem quotes_lost : valueTable id 1 [("k".toList, ["\"x\"y".toList])] = .ok [("k".toList, "xy".toList)] := by
  decide +kernel

/-- **C85**, outside the condition on labels: a comma in a label stops the sender's set up. -/
theorem comma_throws : valueTable id 1 [("k".toList, ["x,y".toList])] = .throws := by
  decide +kernel

end Examples

end Psi.DkPir
