import Verif.ApsiCore.ReceiverLemmas
import Mathlib.Tactic.IntervalCases
import Mathlib.Tactic.NormNum
import Mathlib.Algebra.Field.Rat
import Mathlib.Data.Rat.Defs
import Mathlib.Algebra.BigOperators.Ring.List

/-!
# C109: an item is found exactly if a bundle holds its field elements, with its label

From the query of the receiver through the packages of the sender to the records.
-/

namespace Psi.ApsiCore

open Psi.Spiral (Res mapRes)

section

variable {F : Type} [Field F] [DecidableEq F] {ι K Lab : Type}

/-- The two parties: the data base of the sender holds `ct`, the table of the receiver holds `items`, and the graph of powers is
one of APSI's. -/
structure Setup (P : Params) (felt : ι → Nat → F) (lab : ι → Nat → Nat → F) (parts : Nat) (db : Db F) (ct : Content ι)
    (items : List ι) (f : Filled ι) (es : List Nat) (order : Nat → List Node) : Prop where
  rep : Represents P felt lab parts db ct
  fits : Fits P items f
  graph : Graph P es order
  pos : 0 < P.perBundle

variable {P : Params} {felt : ι → Nat → F} {lab : ι → Nat → Nat → F} {parts : Nat} {db : Db F} {ct : Content ι}
  {items : List ι} {f : Filled ι} {es : List Nat} {order : Nat → List Node}

omit [DecidableEq F] in
/-- The packages that the sender makes for a query. -/
theorem packages (S : Setup P felt lab parts db ct items f es order) : runQuery P db (queryData P felt f es) order =
    .ok ((List.range P.bundleCount).flatMap fun idx => (db.caches idx).map (answer db (querySlots P felt f idx) idx)) :=
  runQuery_ok P db (querySlots P felt f) S.graph (represents_len S.rep)

/-- The table of translation. -/
def ittOf (f : Filled ι) (items : List ι) : Nat → Option Nat := translate f 0 items fun _ => none

omit [Field F] [DecidableEq F] in
theorem itt_lt (h : Fits P items f) : ∀ a j, ittOf f items a = some j → j < items.length := by
  intro a j hj
  obtain ⟨x, hx, _⟩ := (itt_iff h a j).mp hj
  exact (List.getElem?_eq_some_iff.mp hx).1

omit [Field F] [DecidableEq F] in
theorem itt_inj (h : Fits P items f) : ∀ a b j, ittOf f items a = some j → ittOf f items b = some j → a = b := by
  intro a b j ha hb
  obtain ⟨x, hx, h1, _⟩ := (itt_iff h a j).mp ha
  obtain ⟨y, hy, h2, _⟩ := (itt_iff h b j).mp hb
  rw [hx] at hy
  cases hy
  rw [← h1, ← h2]

omit [Field F] [DecidableEq F] in
theorem slot_eq (P : Params) (felt : ι → Nat → F) (f : Filled ι) (idx i : Nat) {k : Nat} (hk : k < P.felts) :
    querySlots P felt f idx (i * P.felts + k) = felt (f.table (idx * P.perBundle + i)) k := by
  unfold querySlots
  rw [Nat.mul_comm i, Nat.mul_add_div (by omega), Nat.div_eq_of_lt hk, Nat.add_zero, Nat.mul_add_mod, Nat.mod_eq_of_lt hk]

/-- The package of a bundle has a match at the place of an item exactly if the item hits the bundle. -/
theorem isMatch_iff {b : Bundle F} {cell : Nat → List ι} (hb : BundleOf P felt lab parts b cell) (hf : Fits P items f) {x : ι}
    (hx : x ∈ items) {idx i : Nat} (hi : i < P.perBundle) (hl : f.loc x = i + idx * P.perBundle) :
    isMatch P (answer db (querySlots P felt f idx) idx b).psi i = true ↔ Hits P felt f x cell := by
  have hmod : f.loc x % P.perBundle = i := by rw [hl, Nat.add_mul_mod_self_right, Nat.mod_eq_of_lt hi]
  unfold isMatch Hits
  rw [List.all_eq_true, hmod]
  simp only [List.mem_range, decide_eq_true_eq]
  apply forall₂_congr
  intro k hk
  unfold answer
  simp only
  rw [slot_eq P felt f idx i hk, hb.roots i hi k hk, List.prod_eq_zero_iff, List.mem_map, Nat.add_comm _ i, ← hl, (hf x hx).1]
  apply exists_congr
  intro y
  rw [sub_eq_zero]
  constructor
  · rintro ⟨h1, h2⟩; exact ⟨h1, h2.symm⟩
  · rintro ⟨h1, h2⟩; exact ⟨h1, h2.symm⟩

/-- The records of the package of a bundle. -/
theorem answer_rec (S : Setup P felt lab parts db ct items f es order) (dec : List F → Nat → Nat → K → Nat → Lab) (keys : List K)
    {b : Bundle F} {cell : Nat → List ι} (hb : BundleOf P felt lab parts b cell) {idx : Nat} {this : Recs Lab}
    (h : PartRecs P dec keys items.length (ittOf f items) (answer db (querySlots P felt f idx) idx b) (List.range P.perBundle) this)
    (j : Nat) (r : Option Lab) : this j = some r ↔ ∃ x, items[j]? = some x ∧ Last items j ∧ f.loc x / P.perBundle = idx ∧
      Hits P felt f x cell ∧
      r = recOf P dec keys items.length (answer db (querySlots P felt f idx) idx b) (f.loc x % P.perBundle) j := by
  rw [h j r]
  constructor
  · rintro ⟨i, hi, h1, h2, h3⟩
    rw [List.mem_range] at hi
    obtain ⟨x, hx, hl, hlast⟩ := (itt_iff S.fits _ j).mp h2
    change f.loc x = i + idx * P.perBundle at hl
    refine ⟨x, hx, hlast, ?_, (isMatch_iff hb S.fits (List.mem_of_getElem? hx) hi hl).mp h1, ?_⟩
    · rw [hl, Nat.add_mul_div_right _ _ S.pos, Nat.div_eq_of_lt hi, Nat.zero_add]
    · rw [h3]
      congr 1
      rw [hl, Nat.add_mul_mod_self_right, Nat.mod_eq_of_lt hi]
  · rintro ⟨x, hx, hlast, hidx, hh, hr⟩
    have hi : f.loc x % P.perBundle < P.perBundle := Nat.mod_lt _ S.pos
    have hl : f.loc x = f.loc x % P.perBundle + idx * P.perBundle := by
      rw [← hidx, Nat.mod_add_div']
    refine ⟨f.loc x % P.perBundle, List.mem_range.mpr hi, (isMatch_iff hb S.fits (List.mem_of_getElem? hx) hi hl).mpr hh, ?_, hr⟩
    exact (itt_iff S.fits _ j).mpr ⟨x, hx, hl, hlast⟩

theorem forall₂_mem_right {α β : Type} {R : α → β → Prop} {l : List α} {l' : List β} (h : List.Forall₂ R l l') {b : β} (hb : b ∈ l') :
    ∃ a ∈ l, R a b := by
  induction h with
  | nil => simp at hb
  | cons hr _ ih =>
    rcases List.mem_cons.mp hb with rfl | hb
    · exact ⟨_, by simp, hr⟩
    · obtain ⟨a, ha, h⟩ := ih hb
      exact ⟨a, List.mem_cons_of_mem _ ha, h⟩

theorem forall₂_pairwise {α β : Type} {R : α → β → Prop} {A : α → α → Prop} {B : β → β → Prop} {l : List α} {l' : List β}
    (h : List.Forall₂ R l l') (hAB : ∀ a a' b b', R a b → R a' b' → (A a a' ↔ B b b')) : l.Pairwise A ↔ l'.Pairwise B := by
  induction h with
  | nil => simp
  | cons hr ht ih =>
    rw [List.pairwise_cons, List.pairwise_cons, ih]
    apply and_congr_left'
    constructor
    · intro h b' hb'
      obtain ⟨a', ha', hr'⟩ := forall₂_mem_right ht hb'
      exact (hAB _ _ _ _ hr hr').mp (h a' ha')
    · intro h a' ha'
      obtain ⟨b', hb', hr'⟩ := forall₂_mem_left ht ha'
      exact (hAB _ _ _ _ hr hr').mpr (h b' hb')

/-- No item hits two bundles (equal items count once). -/
def NoDouble (P : Params) (felt : ι → Nat → F) (f : Filled ι) (ct : Content ι) (items : List ι) : Prop :=
  ∀ x ∈ items, (home P f ct x).Pairwise fun c c' => ¬ (Hits P felt f x c ∧ Hits P felt f x c')

theorem exists_last (x : ι) : ∀ (items : List ι), x ∈ items → ∃ j, items[j]? = some x ∧ Last items j
  | [], h => by simp at h
  | y :: ys, h => by
    by_cases hx : x ∈ ys
    · obtain ⟨j, h1, h2⟩ := exists_last x ys hx
      refine ⟨j + 1, by simpa using h1, fun j' hj' => ?_⟩
      obtain ⟨m, rfl⟩ : ∃ m, j' = m + 1 := ⟨j' - 1, by omega⟩
      simpa using h2 m (by omega)
    · have : x = y := (List.mem_cons.mp h).resolve_right hx
      subst this
      refine ⟨0, rfl, fun j' hj' => ?_⟩
      obtain ⟨m, rfl⟩ : ∃ m, j' = m + 1 := ⟨j' - 1, by omega⟩
      simp only [List.getElem?_cons_succ, List.getElem?_cons_zero]
      exact fun e => hx (List.mem_of_getElem? e)

/-- Everything about the parts, in any order. -/
theorem parts_spec (S : Setup P felt lab parts db ct items f es order) (dec : List F → Nat → Nat → K → Nat → Lab) (keys : List K) :
    ∃ (pkgs : List (Package F)) (g : Package F → Recs Lab), runQuery P db (queryData P felt f es) order = .ok pkgs ∧
      pkgs.length = ((List.range P.bundleCount).map fun idx => (ct idx).length).sum ∧
      (∀ p, processPart P dec keys items.length (ittOf f items) p = .ok (g p)) ∧
      (∀ p j, (g p j).isSome → j < items.length) ∧
      (∀ j r, (∃ p ∈ pkgs, g p j = some r) ↔ ∃ x, items[j]? = some x ∧ Last items j ∧
        ∃ b c, (b, c) ∈ (db.caches (f.loc x / P.perBundle)).zip (home P f ct x) ∧ Hits P felt f x c ∧
          r = recOf P dec keys items.length
            (answer db (querySlots P felt f (f.loc x / P.perBundle)) (f.loc x / P.perBundle) b) (f.loc x % P.perBundle) j) ∧
      ((pkgs.Pairwise fun p q => Apart (g p) (g q)) ↔ NoDouble P felt f ct items) := by
  choose g hg1 hg2 using processPart_ok P dec keys items.length (ittOf f items) (itt_lt S.fits) (itt_inj S.fits)
  have hlt : ∀ x ∈ items, f.loc x / P.perBundle < P.bundleCount := fun x hx =>
    Nat.div_lt_of_lt_mul (by rw [Nat.mul_comm]; exact (S.fits x hx).2)
  have zipmem : ∀ {α β : Type} {R : α → β → Prop} {l : List α} {l' : List β}, List.Forall₂ R l l' → ∀ a ∈ l, ∃ b, (a, b) ∈ l.zip l' ∧ R a b := by
    intro α β R l l' h
    induction h with
    | nil => simp
    | cons hr _ ih =>
      intro a ha
      rcases List.mem_cons.mp ha with rfl | ha
      · exact ⟨_, by simp, hr⟩
      · obtain ⟨b, hb, h⟩ := ih a ha
        exact ⟨b, by simp [hb], h⟩
  have ziprel : ∀ {α β : Type} {R : α → β → Prop} {l : List α} {l' : List β}, List.Forall₂ R l l' → ∀ a b, (a, b) ∈ l.zip l' → R a b := by
    intro α β R l l' h
    induction h with
    | nil => simp
    | cons hr _ ih =>
      intro a b hab
      rw [List.zip_cons_cons, List.mem_cons] at hab
      rcases hab with e | hab
      · cases e; exact hr
      · exact ih a b hab
  refine ⟨_, g, packages S, ?_, hg1, ?_, ?_, ?_⟩
  · rw [List.length_flatMap]
    congr 1
    apply List.map_congr_left
    intro idx hidx
    rw [List.length_map]
    exact (S.rep idx (List.mem_range.mp hidx)).length_eq
  · intro p j hs
    obtain ⟨r, hr⟩ := Option.isSome_iff_exists.mp hs
    obtain ⟨i, _, _, h, _⟩ := (hg2 p j r).mp hr
    exact itt_lt S.fits _ _ h
  · intro j r
    constructor
    · rintro ⟨p, hp, hr⟩
      obtain ⟨idx, hidx, hp⟩ := List.mem_flatMap.mp hp
      obtain ⟨b, hb, rfl⟩ := List.mem_map.mp hp
      obtain ⟨c, hc, hbc⟩ := zipmem (S.rep idx (List.mem_range.mp hidx)) b hb
      obtain ⟨x, h1, h2, h3, h4, h5⟩ := (answer_rec S dec keys hbc (hg2 _) j r).mp hr
      subst h3
      exact ⟨x, h1, h2, b, c, hc, h4, h5⟩
    · rintro ⟨x, h1, h2, b, c, hbc, h4, h5⟩
      have hx := hlt x (List.mem_of_getElem? h1)
      refine ⟨_, List.mem_flatMap.mpr ⟨_, List.mem_range.mpr hx, List.mem_map.mpr ⟨b, (List.of_mem_zip hbc).1, rfl⟩⟩, ?_⟩
      exact (answer_rec S dec keys (ziprel (S.rep _ hx) b c hbc) (hg2 _) j r).mpr ⟨x, h1, h2, rfl, h4, h5⟩
  · rw [List.pairwise_flatMap]
    have some_iff : ∀ {idx : Nat} {b : Bundle F} {c : Nat → List ι}, BundleOf P felt lab parts b c → ∀ j,
        (g (answer db (querySlots P felt f idx) idx b) j).isSome ↔ ∃ x, items[j]? = some x ∧ Last items j ∧
          f.loc x / P.perBundle = idx ∧ Hits P felt f x c := by
      intro idx b c hb j
      rw [Option.isSome_iff_exists]
      constructor
      · rintro ⟨r, hr⟩
        obtain ⟨x, h1, h2, h3, h4, _⟩ := (answer_rec S dec keys hb (hg2 _) j r).mp hr
        exact ⟨x, h1, h2, h3, h4⟩
      · rintro ⟨x, h1, h2, h3, h4⟩
        exact ⟨_, (answer_rec S dec keys hb (hg2 _) j _).mpr ⟨x, h1, h2, h3, h4, rfl⟩⟩
    have pw : ∀ idx < P.bundleCount, (((db.caches idx).map (answer db (querySlots P felt f idx) idx)).Pairwise fun p q => Apart (g p) (g q)) ↔
        (ct idx).Pairwise fun c c' => ∀ x ∈ items, f.loc x / P.perBundle = idx → ¬ (Hits P felt f x c ∧ Hits P felt f x c') := by
      intro idx hidx
      rw [List.pairwise_map]
      apply forall₂_pairwise (S.rep idx hidx)
      intro b b' c c' hb hb'
      constructor
      · intro h x hx hxi hh
        obtain ⟨j, h1, h2⟩ := exists_last x items hx
        exact h j ⟨(some_iff hb j).mpr ⟨x, h1, h2, hxi, hh.1⟩, (some_iff hb' j).mpr ⟨x, h1, h2, hxi, hh.2⟩⟩
      · intro h j hj
        obtain ⟨x, h1, _, h3, h4⟩ := (some_iff hb j).mp hj.1
        obtain ⟨y, k1, _, _, k4⟩ := (some_iff hb' j).mp hj.2
        rw [h1] at k1
        cases k1
        exact h x (List.mem_of_getElem? h1) h3 ⟨h4, k4⟩
    constructor
    · rintro ⟨h, _⟩ x hx
      have := (pw _ (hlt x hx)).mp (h _ (List.mem_range.mpr (hlt x hx)))
      exact this.imp fun hc => hc x hx rfl
    · intro h
      refine ⟨fun idx hidx => (pw idx (List.mem_range.mp hidx)).mpr ?_, ?_⟩
      · rw [List.pairwise_iff_getElem]
        intro a a' ha ha' hlt' x hx hxi
        have hx' := h x hx
        unfold home at hx'
        rw [hxi, List.pairwise_iff_getElem] at hx'
        exact hx' a a' ha ha' hlt'
      · refine List.Pairwise.imp_of_mem ?_ (List.nodup_range (n := P.bundleCount))
        intro idx idx' hi hi' hne p hp q hq j hj
        obtain ⟨b, hb, rfl⟩ := List.mem_map.mp hp
        obtain ⟨b', hb', rfl⟩ := List.mem_map.mp hq
        obtain ⟨c, _, hbc⟩ := forall₂_mem_left (S.rep idx (List.mem_range.mp hi)) hb
        obtain ⟨c', _, hbc'⟩ := forall₂_mem_left (S.rep idx' (List.mem_range.mp hi')) hb'
        obtain ⟨x, h1, _, h3, _⟩ := (some_iff hbc j).mp hj.1
        obtain ⟨y, k1, _, k3, _⟩ := (some_iff hbc' j).mp hj.2
        rw [h1] at k1
        cases k1
        exact hne (h3.symm.trans k3)

omit [Field F] [DecidableEq F] in
theorem labelPlan_full (P : Params) (p : Package F) {keys n : Nat} (hl : p.labelBytes ≠ 0) (hne : p.labels.isEmpty = false)
    (hb : p.nonceBytes < P.itemBits * p.labels.length / 8) (hk : keys = n) :
    labelPlan P p keys n = (min p.labelBytes (P.itemBits * p.labels.length / 8 - p.nonceBytes), p.nonceBytes,
      min (p.nonceBytes + p.labelBytes) (P.itemBits * p.labels.length / 8), P.itemBits * p.labels.length) := by
  have e1 : (if p.labelBytes ≠ 0 ∧ p.labels.isEmpty = true then 0 else p.labelBytes) = p.labelBytes := if_neg (by simp [hne])
  unfold labelPlan
  simp only [e1, if_pos hl]
  generalize P.itemBits * p.labels.length = bits at *
  generalize hgot : bits / 8 = got at *
  have e2 : ¬ got < p.nonceBytes := by omega
  have e4 : ∀ lb, ¬ (lb ≠ 0 ∧ keys ≠ n) := fun lb h => h.2 hk
  by_cases e3 : got < p.nonceBytes + p.labelBytes
  · simp only [if_neg e2, if_pos e3, if_neg (e4 _)]
    rw [Nat.min_eq_right (by omega), Nat.min_eq_right (by omega)]
  · simp only [if_neg e2, if_neg e3, if_neg (e4 _)]
    rw [Nat.min_eq_left (by omega), Nat.min_eq_left (by omega)]

omit [Field F] [DecidableEq F] in
theorem labelPlan_none (P : Params) (p : Package F) {keys n : Nat}
    (h : p.labelBytes = 0 ∨ p.labels = [] ∨ keys ≠ n ∨ P.itemBits * p.labels.length / 8 ≤ p.nonceBytes) : (labelPlan P p keys n).1 = 0 := by
  unfold labelPlan
  simp only
  generalize P.itemBits * p.labels.length = bits at *
  generalize hgot : bits / 8 = got at *
  rcases h with h | h | h | h
  · rw [h]
    split_ifs <;> simp_all
  · rw [h]
    split_ifs <;> simp_all
  · split_ifs <;> simp_all
  · by_cases hl : p.labelBytes ≠ 0 ∧ p.labels.isEmpty = true
    · rw [if_pos hl]
      split_ifs <;> simp_all
    · rw [if_neg hl]
      split_ifs <;> simp_all
      omega

/-- C109: the sender answers with one package for each bundle; when no item hits two bundles, the receiver makes its records
from the packages, in whatever order they come: an item is found exactly if one of the bundles of its place holds all its
field elements.  Of equal items only the last is found. -/
theorem C109_found_iff_partial (S : Setup P felt lab parts db ct items f es order) (hd : NoDouble P felt f ct items)
    (dec : List F → Nat → Nat → K → Nat → Lab) (keys : List K) :
    ∃ pkgs, runQuery P db (queryData P felt f es) order = .ok pkgs ∧
      pkgs.length = ((List.range P.bundleCount).map fun idx => (ct idx).length).sum ∧
      ∀ arrived : List (Option (Package F)), arrived.Perm (pkgs.map some) →
        ∃ mrs, processAll P dec keys items.length (ittOf f items) arrived = .ok mrs ∧
          ∀ j x, items[j]? = some x →
            ((mrs j).isSome ↔ Last items j ∧ ∃ c ∈ home P f ct x, Hits P felt f x c) := by
  obtain ⟨pkgs, g, h1, h2, h3, h4, h5, h6⟩ := parts_spec S dec keys
  refine ⟨pkgs, h1, h2, fun arrived ha => ?_⟩
  have hfm : (arrived.filterMap id).Perm pkgs := by
    have := ha.filterMap id
    simpa [List.filterMap_map] using this
  have hpw : (arrived.filterMap id).Pairwise fun p q => Apart (g p) (g q) :=
    (hfm.pairwise_iff (fun h => h.symm)).mpr (h6.mpr hd)
  obtain ⟨mrs, e, ho⟩ := (processAll_spec P dec keys items.length (ittOf f items) g h4 arrived (fun p _ => h3 p)).1 hpw
  refine ⟨mrs, e, fun j x hx => ?_⟩
  rw [Option.isSome_iff_exists]
  have hz : (db.caches (f.loc x / P.perBundle)).length = (home P f ct x).length := by
    have hlt : f.loc x / P.perBundle < P.bundleCount :=
      Nat.div_lt_of_lt_mul (by rw [Nat.mul_comm]; exact (S.fits x (List.mem_of_getElem? hx)).2)
    exact (S.rep _ hlt).length_eq
  constructor
  · rintro ⟨r, hr⟩
    obtain ⟨p, hp, hg⟩ := (ho j r).mp hr
    obtain ⟨y, k1, k2, b, c, k3, k4, _⟩ := (h5 j r).mp ⟨p, hfm.mem_iff.mp hp, hg⟩
    rw [hx] at k1
    cases k1
    exact ⟨k2, c, (List.of_mem_zip k3).2, k4⟩
  · rintro ⟨k2, c, hc, k4⟩
    obtain ⟨i, hi, rfl⟩ := List.getElem_of_mem hc
    have hb : ((db.caches (f.loc x / P.perBundle))[i]'(by omega), (home P f ct x)[i]) ∈
        (db.caches (f.loc x / P.perBundle)).zip (home P f ct x) := by
      have := List.getElem_mem (l := (db.caches (f.loc x / P.perBundle)).zip (home P f ct x)) (n := i) (by rw [List.length_zip]; omega)
      rwa [List.getElem_zip] at this
    obtain ⟨p, hp, hg⟩ := (h5 j _).mpr ⟨x, hx, k2, _, _, hb, k4, rfl⟩
    exact ⟨_, (ho j _).mpr ⟨p, hfm.mem_iff.mpr hp, hg⟩⟩

/-- C109: when some item hits two bundles, the query fails, whatever the order of the packages. -/
theorem C109_double_hit_throws (S : Setup P felt lab parts db ct items f es order) (hd : ¬ NoDouble P felt f ct items)
    (dec : List F → Nat → Nat → K → Nat → Lab) (keys : List K) :
    ∃ pkgs, runQuery P db (queryData P felt f es) order = .ok pkgs ∧
      ∀ arrived : List (Option (Package F)), arrived.Perm (pkgs.map some) →
        processAll P dec keys items.length (ittOf f items) arrived = .throws := by
  obtain ⟨pkgs, g, h1, _, h3, h4, _, h6⟩ := parts_spec S dec keys
  refine ⟨pkgs, h1, fun arrived ha => ?_⟩
  have hfm : (arrived.filterMap id).Perm pkgs := by
    have := ha.filterMap id
    simpa [List.filterMap_map] using this
  apply (processAll_spec P dec keys items.length (ittOf f items) g h4 arrived (fun p _ => h3 p)).2
  rw [hfm.pairwise_iff (fun h => h.symm), h6]
  exact hd

/-- C109: if no field element of an item is that of another item at its place, exactly the items of the sender are found. -/
theorem C109_exact_partial (S : Setup P felt lab parts db ct items f es order) (hd : NoDouble P felt f ct items) (hpos : 0 < P.felts)
    (hco : ∀ x ∈ items, ∀ c ∈ home P f ct x, ∀ y ∈ c (f.loc x % P.perBundle), ∀ k < P.felts, felt y k = felt x k → y = x)
    (dec : List F → Nat → Nat → K → Nat → Lab) (keys : List K) :
    ∃ pkgs, runQuery P db (queryData P felt f es) order = .ok pkgs ∧
      ∀ arrived : List (Option (Package F)), arrived.Perm (pkgs.map some) →
        ∃ mrs, processAll P dec keys items.length (ittOf f items) arrived = .ok mrs ∧
          ∀ j x, items[j]? = some x →
            ((mrs j).isSome ↔ Last items j ∧ ∃ c ∈ home P f ct x, x ∈ c (f.loc x % P.perBundle)) := by
  obtain ⟨pkgs, h1, _, h2⟩ := C109_found_iff_partial S hd dec keys
  refine ⟨pkgs, h1, fun arrived ha => ?_⟩
  obtain ⟨mrs, e, h3⟩ := h2 arrived ha
  refine ⟨mrs, e, fun j x hx => ?_⟩
  rw [h3 j x hx]
  apply and_congr_right'
  constructor
  · rintro ⟨c, hc, hh⟩
    obtain ⟨y, hy, he⟩ := hh 0 hpos
    have := hco x (List.mem_of_getElem? hx) c hc y hy 0 hpos he
    subst this
    exact ⟨c, hc, hy⟩
  · rintro ⟨c, hc, hxc⟩
    exact ⟨c, hc, fun k _ => ⟨x, hxc, rfl⟩⟩

/-- C109: an item of the sender is found with its own label, although other items of the bundle may share field elements with
it: the label opened with the key of the item, from the field elements of its label, all parts of it, one after the
other.  If fewer bytes were sent than announced, the label is shorter. -/
theorem C109_label (S : Setup P felt lab parts db ct items f es order) (hd : NoDouble P felt f ct items)
    (dec : List F → Nat → Nat → K → Nat → Lab) (keys : List K) (hk : keys.length = items.length) (hl : 0 < db.labelBytes)
    (hb : db.nonceBytes < P.itemBits * parts / 8) :
    ∃ pkgs, runQuery P db (queryData P felt f es) order = .ok pkgs ∧
      ∀ arrived : List (Option (Package F)), arrived.Perm (pkgs.map some) →
        ∃ mrs, processAll P dec keys items.length (ittOf f items) arrived = .ok mrs ∧
          ∀ j x key, items[j]? = some x → Last items j → keys[j]? = some key →
            ∀ c ∈ home P f ct x, x ∈ c (f.loc x % P.perBundle) →
              mrs j = some (some (dec ((List.range parts).flatMap fun i => (List.range P.felts).map fun k => lab x i k)
                (P.itemBits * parts) (min (db.nonceBytes + db.labelBytes) (P.itemBits * parts / 8)) key db.nonceBytes)) := by
  obtain ⟨pkgs, g, h1, _, h3, h4, h5, h6⟩ := parts_spec S dec keys
  refine ⟨pkgs, h1, fun arrived ha => ?_⟩
  have hfm : (arrived.filterMap id).Perm pkgs := by
    have := ha.filterMap id
    simpa [List.filterMap_map] using this
  have hpw : (arrived.filterMap id).Pairwise fun p q => Apart (g p) (g q) :=
    (hfm.pairwise_iff (fun h => h.symm)).mpr (h6.mpr hd)
  obtain ⟨mrs, e, ho⟩ := (processAll_spec P dec keys items.length (ittOf f items) g h4 arrived (fun p _ => h3 p)).1 hpw
  refine ⟨mrs, e, fun j x key hx hlast hkey c hc hxc => ?_⟩
  have hlt : f.loc x / P.perBundle < P.bundleCount :=
    Nat.div_lt_of_lt_mul (by rw [Nat.mul_comm]; exact (S.fits x (List.mem_of_getElem? hx)).2)
  have hF := S.rep _ hlt
  obtain ⟨i, hi, rfl⟩ := List.getElem_of_mem hc
  have hi' : i < (db.caches (f.loc x / P.perBundle)).length := by
    rw [hF.length_eq]; exact hi
  have hz : ((db.caches (f.loc x / P.perBundle))[i], (home P f ct x)[i]) ∈
      (db.caches (f.loc x / P.perBundle)).zip (home P f ct x) := by
    have := List.getElem_mem (l := (db.caches (f.loc x / P.perBundle)).zip (home P f ct x)) (n := i) (by rw [List.length_zip]; omega)
    rwa [List.getElem_zip] at this
  have hbc : BundleOf P felt lab parts (db.caches (f.loc x / P.perBundle))[i] (home P f ct x)[i] := hF.get hi' hi
  obtain ⟨p, hp, hg⟩ := (h5 j _).mpr ⟨x, hx, hlast, _, _, hz, fun k _ => ⟨x, hxc, rfl⟩, rfl⟩
  rw [(ho j _).mpr ⟨p, hfm.mem_iff.mpr hp, hg⟩]
  generalize (db.caches (f.loc x / P.perBundle))[i] = b at *
  generalize (home P f ct x)[i] = c at *
  congr 1
  unfold recOf
  have hplan : labelPlan P (answer db (querySlots P felt f (f.loc x / P.perBundle)) (f.loc x / P.perBundle) b) keys.length items.length =
      (min db.labelBytes (P.itemBits * parts / 8 - db.nonceBytes), db.nonceBytes,
        min (db.nonceBytes + db.labelBytes) (P.itemBits * parts / 8), P.itemBits * parts) := by
    have hne : b.labels.isEmpty = false := by
      rw [List.isEmpty_eq_false_iff, ← List.length_pos_iff, hbc.parts]
      rcases Nat.eq_zero_or_pos parts with h0 | h0
      · rw [h0] at hb; simp at hb
      · exact h0
    have h := labelPlan_full P (answer db (querySlots P felt f (f.loc x / P.perBundle)) (f.loc x / P.perBundle) b) (keys := keys.length)
      (n := items.length) (show db.labelBytes ≠ 0 by omega) (by simp [answer, hne]) (by
        simp only [answer, List.length_map, hbc.parts]; exact hb) hk
    simpa only [answer, List.length_map, hbc.parts] using h
  rw [hplan]
  simp only
  rw [if_pos (by omega), hkey, Option.map_some]
  have hfe : labelFelts P (answer db (querySlots P felt f (f.loc x / P.perBundle)) (f.loc x / P.perBundle) b) (f.loc x % P.perBundle) =
      (List.range parts).flatMap fun i => (List.range P.felts).map fun k => lab x i k := by
    unfold labelFelts answer
    simp only
    have hr : b.labels = (List.range parts).map fun i => b.labels.getD i [] := by
      apply List.ext_getElem
      · simp [hbc.parts]
      · intro m h1 h2
        simp [h1]
    rw [hr, List.map_map, List.flatMap_map]
    apply List.flatMap_congr
    intro m hm
    apply List.map_congr_left
    intro k hk'
    rw [List.mem_range] at hm hk'
    simp only [Function.comp]
    have hmod : f.loc x % P.perBundle < P.perBundle := Nat.mod_lt _ S.pos
    rw [slot_eq P felt f _ _ hk']
    have hloc : f.loc x / P.perBundle * P.perBundle + f.loc x % P.perBundle = f.loc x := Nat.div_add_mod' _ _
    rw [hloc, (S.fits x (List.mem_of_getElem? hx)).1]
    have hg' : b.labels[m]? = some (b.labels.getD m []) := by
      rw [List.getD_eq_getElem?_getD, List.getElem?_eq_getElem (by rw [hbc.parts]; exact hm)]
      rfl
    exact hbc.label _ hmod k hk' x hxc m _ hg'
  rw [hfe]

/-- C109: without label data, without the keys of all items, or with less data than the nonce takes, items are still found, but
without a label. -/
theorem C109_no_label (S : Setup P felt lab parts db ct items f es order) (dec : List F → Nat → Nat → K → Nat → Lab) (keys : List K)
    (hn : db.labelBytes = 0 ∨ parts = 0 ∨ keys.length ≠ items.length ∨ P.itemBits * parts / 8 ≤ db.nonceBytes)
    {pkgs : List (Package F)} (hq : runQuery P db (queryData P felt f es) order = .ok pkgs)
    {arrived : List (Option (Package F))} (ha : arrived.Perm (pkgs.map some)) {mrs : Recs Lab}
    (hm : processAll P dec keys items.length (ittOf f items) arrived = .ok mrs) (j : Nat) (l : Lab) : mrs j ≠ some (some l) := by
  obtain ⟨pkgs', g, h1, _, h3, h4, h5, h6⟩ := parts_spec S dec keys
  rw [hq] at h1
  cases h1
  have hfm : (arrived.filterMap id).Perm pkgs := by
    have := ha.filterMap id
    simpa [List.filterMap_map] using this
  obtain ⟨k1, k2⟩ := processAll_spec P dec keys items.length (ittOf f items) g h4 arrived (fun p _ => h3 p)
  by_cases hpw : (arrived.filterMap id).Pairwise fun p q => Apart (g p) (g q)
  · obtain ⟨out, e, ho⟩ := k1 hpw
    rw [hm] at e
    cases e
    intro hj
    obtain ⟨p, hp, hg⟩ := (ho j _).mp hj
    obtain ⟨x, hx, _, b, c, hbc, _, hr⟩ := (h5 j _).mp ⟨p, hfm.mem_iff.mp hp, hg⟩
    have hlt : f.loc x / P.perBundle < P.bundleCount :=
      Nat.div_lt_of_lt_mul (by rw [Nat.mul_comm]; exact (S.fits x (List.mem_of_getElem? hx)).2)
    obtain ⟨c', _, hb⟩ := forall₂_mem_left (S.rep _ hlt) (List.of_mem_zip hbc).1
    have hlb := labelPlan_none P (answer db (querySlots P felt f (f.loc x / P.perBundle)) (f.loc x / P.perBundle) b) (keys := keys.length)
      (n := items.length) (by
        simp only [answer, List.length_map, hb.parts, List.map_eq_nil_iff]
        rcases hn with h | h | h
        · exact Or.inl h
        · exact Or.inr (Or.inl (List.length_eq_zero_iff.mp (by rw [hb.parts, h])))
        · exact Or.inr (Or.inr h))
    unfold recOf at hr
    generalize labelPlan P (answer db (querySlots P felt f (f.loc x / P.perBundle)) (f.loc x / P.perBundle) b) keys.length
      items.length = pl at *
    obtain ⟨lb, nb, eff, bits⟩ := pl
    simp only at hlb hr
    rw [if_neg (by simp [hlb])] at hr
    simp at hr
  · rw [k2 hpw] at hm
    cases hm

/-- C109: the records (and whether there are any) do not depend on the order in which packages come, whoever made them. -/
theorem C109_any_order (hf : Fits P items f) (dec : List F → Nat → Nat → K → Nat → Lab) (keys : List K)
    {arrived arrived' : List (Option (Package F))} (hp : arrived.Perm arrived') :
    processAll P dec keys items.length (ittOf f items) arrived = processAll P dec keys items.length (ittOf f items) arrived' := by
  choose g hg1 hg2 using processPart_ok P dec keys items.length (ittOf f items) (itt_lt hf) (itt_inj hf)
  have hn : ∀ p j, (g p j).isSome → j < items.length := by
    intro p j hs
    obtain ⟨r, hr⟩ := Option.isSome_iff_exists.mp hs
    obtain ⟨i, _, _, h, _⟩ := (hg2 p j r).mp hr
    exact itt_lt hf _ _ h
  have hfm : (arrived.filterMap id).Perm (arrived'.filterMap id) := hp.filterMap id
  obtain ⟨a1, a2⟩ := processAll_spec P dec keys items.length (ittOf f items) g hn arrived (fun p _ => hg1 p)
  obtain ⟨b1, b2⟩ := processAll_spec P dec keys items.length (ittOf f items) g hn arrived' (fun p _ => hg1 p)
  by_cases hpw : (arrived.filterMap id).Pairwise fun p q => Apart (g p) (g q)
  · have hpw' := (hfm.pairwise_iff (fun h => h.symm)).mp hpw
    obtain ⟨out, e, ho⟩ := a1 hpw
    obtain ⟨out', e', ho'⟩ := b1 hpw'
    rw [e, e']
    congr 1
    funext j
    apply Option.ext
    intro r
    rw [ho j r, ho' j r]
    exact exists_congr fun p => and_congr_left fun _ => hfm.mem_iff
  · rw [a2 hpw, b2 (fun h => hpw ((hfm.pairwise_iff (fun h => h.symm)).mpr h))]

end

end Psi.ApsiCore
