import Verif.ApsiCore.SenderLemmas

/-! # The receiver: one part, all parts -/

namespace Psi.ApsiCore

open Psi.Spiral (Res mapRes)

section

variable {F : Type} [Field F] [DecidableEq F] {ι K Lab : Type}

/-! ## The translation table -/

theorem translate_other (f : Filled ι) (a : Nat) : ∀ (items : List ι) (i : Nat) (t : Nat → Option Nat), (∀ x ∈ items, f.loc x ≠ a) →
    translate f i items t a = t a
  | [], _, _, _ => rfl
  | x :: xs, i, t, h => by
    simp only [translate]
    rw [translate_other f a xs (i + 1) _ (fun y hy => h y (List.mem_cons_of_mem _ hy)),
      Function.update_of_ne (fun e => h x (by simp) e.symm)]

/-- A place of the table is translated to `j` exactly if `j` is the last place of an item there. -/
theorem translate_iff (f : Filled ι) (a j : Nat) : ∀ (items : List ι) (i : Nat) (t : Nat → Option Nat),
    (∀ x ∈ items, ∀ y ∈ items, f.loc x = f.loc y → x = y) → (∀ j', t a = some j' → j' < i) →
    (translate f i items t a = some j ↔
      (∃ k x, j = i + k ∧ items[k]? = some x ∧ f.loc x = a ∧ Last items k) ∨ (t a = some j ∧ ∀ x ∈ items, f.loc x ≠ a))
  | [], i, t, _, _ => by simp [translate]
  | x :: xs, i, t, hinj, ht => by
    simp only [translate]
    rw [translate_iff f a j xs (i + 1) _ (fun y hy z hz => hinj y (List.mem_cons_of_mem _ hy) z (List.mem_cons_of_mem _ hz))]
    · constructor
      · rintro (⟨k, y, hj, hk, hl, hlast⟩ | ⟨h1, h2⟩)
        · refine Or.inl ⟨k + 1, y, by omega, by simpa using hk, hl, ?_⟩
          intro j' hj'
          obtain ⟨m, rfl⟩ : ∃ m, j' = m + 1 := ⟨j' - 1, by omega⟩
          have := hlast m (by omega)
          simpa using this
        · by_cases hx : f.loc x = a
          · subst hx
            rw [Function.update_self] at h1
            cases h1
            refine Or.inl ⟨0, x, rfl, rfl, rfl, ?_⟩
            intro j' hj'
            obtain ⟨m, rfl⟩ : ∃ m, j' = m + 1 := ⟨j' - 1, by omega⟩
            simp only [List.getElem?_cons_succ, List.getElem?_cons_zero]
            intro hm
            exact h2 x (List.mem_of_getElem? hm) rfl
          · rw [Function.update_of_ne (fun e => hx e.symm)] at h1
            refine Or.inr ⟨h1, fun y hy => ?_⟩
            rcases List.mem_cons.mp hy with rfl | hy
            · exact hx
            · exact h2 y hy
      · rintro (⟨k, y, hj, hk, hl, hlast⟩ | ⟨h1, h2⟩)
        · cases k with
          | zero =>
            simp only [List.getElem?_cons_zero, Option.some.injEq] at hk
            subst hk
            right
            rw [hl, Function.update_self]
            refine ⟨by rw [hj]; rfl, fun y hy hy2 => ?_⟩
            have : x = y := hinj x (by simp) y (List.mem_cons_of_mem _ hy) (by rw [hl, hy2])
            subst this
            obtain ⟨m, hm⟩ := List.getElem?_of_mem hy
            exact hlast (m + 1) (by omega) (by simpa using hm)
          | succ m =>
            left
            refine ⟨m, y, by omega, by simpa using hk, hl, ?_⟩
            intro j' hj'
            have := hlast (j' + 1) (by omega)
            simpa using this
        · right
          rw [Function.update_of_ne (fun e => h2 x (by simp) e.symm)]
          exact ⟨h1, fun y hy => h2 y (List.mem_cons_of_mem _ hy)⟩
    · intro j' hj'
      by_cases hx : a = f.loc x
      · subst hx
        rw [Function.update_self] at hj'
        cases hj'
        omega
      · rw [Function.update_of_ne hx] at hj'
        have := ht j' hj'
        omega

theorem fits_inj {P : Params} {items : List ι} {f : Filled ι} (h : Fits P items f) : ∀ x ∈ items, ∀ y ∈ items, f.loc x = f.loc y → x = y := by
  intro x hx y hy e
  rw [← (h x hx).1, ← (h y hy).1, e]

/-- The table made by `create_query`. -/
theorem itt_iff {P : Params} {items : List ι} {f : Filled ι} (h : Fits P items f) (a j : Nat) :
    translate f 0 items (fun _ => none) a = some j ↔ ∃ x, items[j]? = some x ∧ f.loc x = a ∧ Last items j := by
  rw [translate_iff f a j items 0 _ (fits_inj h) (by simp)]
  constructor
  · rintro (⟨k, x, hj, hk, hl, hlast⟩ | ⟨h1, _⟩)
    · obtain rfl : j = k := by omega
      exact ⟨x, hk, hl, hlast⟩
    · simp at h1
  · rintro ⟨x, hk, hl, hlast⟩
    exact Or.inl ⟨j, x, by omega, hk, hl, hlast⟩

/-! ## One part -/

/-- The record for place `i` of a part. -/
def recOf (P : Params) (dec : List F → Nat → Nat → K → Nat → Lab) (keys : List K) (n : Nat) (p : Package F) (i j : Nat) : Option Lab :=
  let (lb, nb, eff, bits) := labelPlan P p keys.length n
  if lb ≠ 0 then (keys[j]?).map fun key => dec (labelFelts P p i) bits eff key nb else none

omit [Field F] [DecidableEq F] in
theorem labelPlan_keys (P : Params) (p : Package F) (keys n : Nat) (h : (labelPlan P p keys n).1 ≠ 0) : keys = n := by
  unfold labelPlan at h
  simp only at h
  by_contra hne
  apply h
  split_ifs <;> simp_all

theorem partStep_eq (P : Params) (dec : List F → Nat → Nat → K → Nat → Lab) (keys : List K) (n : Nat) (itt : Nat → Option Nat)
    (hitt : ∀ a j, itt a = some j → j < n) (p : Package F) (mrs : Recs Lab) (i : Nat) :
    partStep P dec keys n itt p mrs i =
      if isMatch P p.psi i then
        match itt (i + p.bundleIdx * P.perBundle) with
        | none => .ok mrs
        | some j => if (mrs j).isSome then .throws else .ok (Function.update mrs j (some (recOf P dec keys n p i j)))
      else .ok mrs := by
  unfold partStep recOf
  split
  · split
    · rename_i h
      rw [h]
    · rename_i j h
      rw [h]
      simp only
      split
      · rfl
      · have hk := labelPlan_keys P p keys.length n
        generalize labelPlan P p keys.length n = pl at *
        obtain ⟨lb, nb, eff, bits⟩ := pl
        simp only at hk ⊢
        by_cases hlb : lb ≠ 0
        · rw [if_pos hlb, if_pos hlb]
          have hj : j < keys.length := by rw [hk hlb]; exact hitt _ _ h
          rw [List.getElem?_eq_getElem hj]
          rfl
        · rw [if_neg hlb, if_neg hlb]
  · rfl

/-- The records of a part, given by the places that match. -/
def PartRecs (P : Params) (dec : List F → Nat → Nat → K → Nat → Lab) (keys : List K) (n : Nat) (itt : Nat → Option Nat) (p : Package F)
    (places : List Nat) (this : Recs Lab) : Prop :=
  ∀ j r, this j = some r ↔ ∃ i ∈ places, isMatch P p.psi i = true ∧ itt (i + p.bundleIdx * P.perBundle) = some j ∧
    r = recOf P dec keys n p i j

theorem processPart_fold (P : Params) (dec : List F → Nat → Nat → K → Nat → Lab) (keys : List K) (n : Nat) (itt : Nat → Option Nat)
    (hitt : ∀ a j, itt a = some j → j < n) (hinj : ∀ a b j, itt a = some j → itt b = some j → a = b) (p : Package F) :
    ∀ (todo seen : List Nat) (mrs : Recs Lab), (∀ i ∈ todo, i ∉ seen) → todo.Nodup → PartRecs P dec keys n itt p seen mrs →
      ∃ this, foldRes (partStep P dec keys n itt p) todo mrs = .ok this ∧ PartRecs P dec keys n itt p (todo ++ seen) this
  | [], seen, mrs, _, _, h => ⟨mrs, rfl, h⟩
  | i :: todo, seen, mrs, hd, hnd, h => by
    rw [List.nodup_cons] at hnd
    have step : ∃ m1, partStep P dec keys n itt p mrs i = .ok m1 ∧ PartRecs P dec keys n itt p (i :: seen) m1 := by
      rw [partStep_eq P dec keys n itt hitt]
      by_cases hm : isMatch P p.psi i = true
      · rw [if_pos hm]
        cases hi : itt (i + p.bundleIdx * P.perBundle) with
        | none =>
          refine ⟨mrs, rfl, fun j r => ?_⟩
          rw [h j r]
          constructor
          · rintro ⟨i', h1, h2⟩
            exact ⟨i', List.mem_cons_of_mem _ h1, h2⟩
          · rintro ⟨i', h1, h2, h3, h4⟩
            rcases List.mem_cons.mp h1 with rfl | h1
            · rw [hi] at h3; simp at h3
            · exact ⟨i', h1, h2, h3, h4⟩
        | some j0 =>
          have hnone : ¬ (mrs j0).isSome = true := by
            intro hs
            obtain ⟨r, hr⟩ := Option.isSome_iff_exists.mp hs
            obtain ⟨i', h1, _, h3, _⟩ := (h j0 r).mp hr
            have := hinj _ _ _ hi h3
            have : i = i' := by omega
            subst this
            exact hd i (by simp) h1
          simp only
          rw [if_neg hnone]
          refine ⟨_, rfl, fun j r => ?_⟩
          by_cases hj : j = j0
          · subst hj
            rw [Function.update_self]
            constructor
            · intro e
              cases e
              exact ⟨i, by simp, hm, hi, rfl⟩
            · rintro ⟨i', h1, h2, h3, h4⟩
              have := hinj _ _ _ hi h3
              have : i = i' := by omega
              subst this
              rw [h4]
          · rw [Function.update_of_ne hj, h j r]
            constructor
            · rintro ⟨i', h1, h2⟩
              exact ⟨i', List.mem_cons_of_mem _ h1, h2⟩
            · rintro ⟨i', h1, h2, h3, h4⟩
              rcases List.mem_cons.mp h1 with rfl | h1
              · rw [hi] at h3
                exact absurd (Option.some.inj h3).symm hj
              · exact ⟨i', h1, h2, h3, h4⟩
      · rw [if_neg hm]
        refine ⟨mrs, rfl, fun j r => ?_⟩
        rw [h j r]
        constructor
        · rintro ⟨i', h1, h2⟩
          exact ⟨i', List.mem_cons_of_mem _ h1, h2⟩
        · rintro ⟨i', h1, h2, h3, h4⟩
          rcases List.mem_cons.mp h1 with rfl | h1
          · exact absurd h2 hm
          · exact ⟨i', h1, h2, h3, h4⟩
    obtain ⟨m1, e1, k1⟩ := step
    obtain ⟨this, e2, k2⟩ := processPart_fold P dec keys n itt hitt hinj p todo (i :: seen) m1
      (fun a ha hs => by
        rcases List.mem_cons.mp hs with rfl | hs
        · exact hnd.1 ha
        · exact hd a (List.mem_cons_of_mem _ ha) hs) hnd.2 k1
    refine ⟨this, ?_, fun j r => ?_⟩
    · simp only [foldRes, e1, Res.bind, e2]
    · rw [k2 j r]
      simp only [List.mem_append, List.mem_cons, List.cons_append]
      constructor
      · rintro ⟨a, ha, hb⟩
        exact ⟨a, by tauto, hb⟩
      · rintro ⟨a, ha, hb⟩
        exact ⟨a, by tauto, hb⟩

/-- A part is processed without an error, and has a record exactly for the items whose places match. -/
theorem processPart_ok (P : Params) (dec : List F → Nat → Nat → K → Nat → Lab) (keys : List K) (n : Nat) (itt : Nat → Option Nat)
    (hitt : ∀ a j, itt a = some j → j < n) (hinj : ∀ a b j, itt a = some j → itt b = some j → a = b) (p : Package F) :
    ∃ this, processPart P dec keys n itt p = .ok this ∧ PartRecs P dec keys n itt p (List.range P.perBundle) this := by
  have h := processPart_fold P dec keys n itt hitt hinj p (List.range P.perBundle) [] (fun _ => none) (by simp) List.nodup_range
    (by intro j r; simp)
  rw [List.append_nil] at h
  exact h

/-! ## All parts -/

theorem merge_ok (this : Recs Lab) : ∀ (l : List Nat) (mrs : Recs Lab), l.Nodup →
    (∀ i ∈ l, ¬ ((this i).isSome ∧ (mrs i).isSome)) →
      foldRes (mergeStep this) l mrs = .ok fun i => if i ∈ l ∧ (this i).isSome then this i else mrs i
  | [], mrs, _, _ => by
    simp [foldRes]
  | i :: l, mrs, hnd, h => by
    rw [List.nodup_cons] at hnd
    simp only [foldRes, mergeStep]
    cases hi : this i with
    | none =>
      simp only [Res.bind]
      rw [merge_ok this l mrs hnd.2 (fun a ha => h a (List.mem_cons_of_mem _ ha))]
      congr 1
      funext a
      by_cases ha : a = i
      · subst ha
        simp [hi]
      · simp [ha]
    | some r =>
      have hns : ¬ (mrs i).isSome = true := fun hs => h i (by simp) ⟨by rw [hi]; rfl, hs⟩
      simp only [if_neg hns, Res.bind]
      rw [merge_ok this l _ hnd.2]
      · congr 1
        funext a
        by_cases ha : a = i
        · subst ha
          simp [hi]
        · simp [ha]
      · intro a ha
        have hai : a ≠ i := fun e => hnd.1 (e ▸ ha)
        rw [Function.update_of_ne hai]
        exact h a (List.mem_cons_of_mem _ ha)

theorem merge_throws (this : Recs Lab) : ∀ (l : List Nat) (mrs : Recs Lab), l.Nodup →
    (∃ i ∈ l, (this i).isSome ∧ (mrs i).isSome) → foldRes (mergeStep this) l mrs = .throws
  | [], mrs, _, h => by simp at h
  | i :: l, mrs, hnd, h => by
    rw [List.nodup_cons] at hnd
    simp only [foldRes, mergeStep]
    obtain ⟨a, ha, h1, h2⟩ := h
    cases hi : this i with
    | none =>
      simp only [Res.bind]
      rcases List.mem_cons.mp ha with rfl | ha
      · rw [hi] at h1; simp at h1
      · exact merge_throws this l mrs hnd.2 ⟨a, ha, h1, h2⟩
    | some r =>
      by_cases hm : (mrs i).isSome = true
      · simp only [if_pos hm, Res.bind]
      · simp only [if_neg hm, Res.bind]
        rcases List.mem_cons.mp ha with rfl | ha
        · exact absurd h2 hm
        · apply merge_throws this l _ hnd.2
          refine ⟨a, ha, h1, ?_⟩
          have hai : a ≠ i := fun e => hnd.1 (e ▸ ha)
          rw [Function.update_of_ne hai]
          exact h2

/-- Two lists of records have none for the same item. -/
def Apart (a b : Recs Lab) : Prop := ∀ j, ¬ ((a j).isSome ∧ (b j).isSome)

theorem Apart.symm {a b : Recs Lab} (h : Apart a b) : Apart b a := fun j hj => h j hj.symm

theorem processAll_fold (P : Params) (dec : List F → Nat → Nat → K → Nat → Lab) (keys : List K) (n : Nat) (itt : Nat → Option Nat)
    (g : Package F → Recs Lab) (hn : ∀ p j, (g p j).isSome → j < n) : ∀ (parts : List (Option (Package F))) (mrs : Recs Lab),
    (∀ p, some p ∈ parts → processPart P dec keys n itt p = .ok (g p)) →
    let r := foldRes (fun mrs part =>
      match part with
      | none => .ok mrs
      | some p => (processPart P dec keys n itt p).bind fun this => foldRes (mergeStep this) (List.range n) mrs) parts mrs
    (((parts.filterMap id).Pairwise fun p q => Apart (g p) (g q)) → (∀ p ∈ parts.filterMap id, Apart (g p) mrs) →
      ∃ out, r = .ok out ∧ ∀ j x, out j = some x ↔ mrs j = some x ∨ ∃ p ∈ parts.filterMap id, g p j = some x) ∧
    (¬ (((parts.filterMap id).Pairwise fun p q => Apart (g p) (g q)) ∧ ∀ p ∈ parts.filterMap id, Apart (g p) mrs) → r = .throws)
  | [], mrs, _ => by
    simp only [foldRes, List.filterMap_nil]
    refine ⟨fun _ _ => ⟨mrs, rfl, by simp⟩, fun h => absurd ⟨List.Pairwise.nil, by simp⟩ h⟩
  | none :: parts, mrs, hp => by
    have := processAll_fold P dec keys n itt g hn parts mrs (fun p h => hp p (List.mem_cons_of_mem _ h))
    simpa only [foldRes, Res.bind, List.filterMap_cons, id] using this
  | some p :: parts, mrs, hp => by
    simp only [foldRes, hp p (by simp), Res.bind, List.filterMap_cons, id, List.pairwise_cons]
    by_cases ha : Apart (g p) mrs
    · rw [merge_ok (g p) (List.range n) mrs List.nodup_range (fun i _ => ha i)]
      simp only
      have hm : (fun i => if i ∈ List.range n ∧ (g p i).isSome = true then g p i else mrs i) =
          fun i => if (g p i).isSome then g p i else mrs i := by
        funext i
        by_cases hs : (g p i).isSome = true
        · rw [if_pos ⟨List.mem_range.mpr (hn p i hs), hs⟩, if_pos hs]
        · rw [if_neg (fun h => hs h.2), if_neg hs]
      rw [hm]
      obtain ⟨ih1, ih2⟩ := processAll_fold P dec keys n itt g hn parts (fun i => if (g p i).isSome then g p i else mrs i)
        (fun q h => hp q (List.mem_cons_of_mem _ h))
      have hap : ∀ q, Apart (g q) (fun i => if (g p i).isSome then g p i else mrs i) ↔ Apart (g p) (g q) ∧ Apart (g q) mrs := by
        intro q
        constructor
        · intro h
          refine ⟨fun j hj => h j ⟨hj.2, ?_⟩, fun j hj => h j ⟨hj.1, ?_⟩⟩
          · show (if (g p j).isSome then g p j else mrs j).isSome = true
            rw [if_pos hj.1]; exact hj.1
          · show (if (g p j).isSome then g p j else mrs j).isSome = true
            split
            · assumption
            · exact hj.2
        · rintro ⟨h1, h2⟩ j ⟨hj1, hj2⟩
          change (if (g p j).isSome then g p j else mrs j).isSome = true at hj2
          split at hj2
          · exact h1 j ⟨hj2, hj1⟩
          · exact h2 j ⟨hj1, hj2⟩
      constructor
      · rintro ⟨h1, h2⟩ h3
        obtain ⟨out, e, ho⟩ := ih1 h2 (fun q hq => (hap q).mpr ⟨h1 q hq, h3 q (List.mem_cons_of_mem _ hq)⟩)
        refine ⟨out, e, fun j x => ?_⟩
        rw [ho j x]
        simp only [List.mem_cons, exists_eq_or_imp]
        by_cases hs : (g p j).isSome = true
        · rw [if_pos hs]
          have : mrs j ≠ some x := fun e => ha j ⟨hs, by rw [e]; rfl⟩
          tauto
        · rw [if_neg hs]
          have : g p j ≠ some x := fun e => hs (by rw [e]; rfl)
          tauto
      · intro h
        apply ih2
        rintro ⟨h1, h2⟩
        apply h
        refine ⟨⟨fun q hq => ((hap q).mp (h2 q hq)).1, h1⟩, fun q hq => ?_⟩
        rcases List.mem_cons.mp hq with rfl | hq
        · exact ha
        · exact ((hap q).mp (h2 q hq)).2
    · constructor
      · intro _ h
        exact absurd (h p (by simp)) ha
      · intro _
        rw [merge_throws (g p) (List.range n) mrs List.nodup_range]
        unfold Apart at ha
        push Not at ha
        obtain ⟨j, h1, h2⟩ := ha
        exact ⟨j, List.mem_range.mpr (hn p j h1), h1, h2⟩

/-- All parts: an error exactly if two parts have a record for the same item; otherwise all records. -/
theorem processAll_spec (P : Params) (dec : List F → Nat → Nat → K → Nat → Lab) (keys : List K) (n : Nat) (itt : Nat → Option Nat)
    (g : Package F → Recs Lab) (hn : ∀ p j, (g p j).isSome → j < n) (parts : List (Option (Package F)))
    (hp : ∀ p, some p ∈ parts → processPart P dec keys n itt p = .ok (g p)) :
    (((parts.filterMap id).Pairwise fun p q => Apart (g p) (g q)) →
      ∃ out, processAll P dec keys n itt parts = .ok out ∧ ∀ j x, out j = some x ↔ ∃ p ∈ parts.filterMap id, g p j = some x) ∧
    (¬ ((parts.filterMap id).Pairwise fun p q => Apart (g p) (g q)) → processAll P dec keys n itt parts = .throws) := by
  have hno : ∀ p ∈ parts.filterMap id, Apart (g p) (fun _ => none) := by
    intro p _ j hj
    simp at hj
  obtain ⟨h1, h2⟩ := processAll_fold P dec keys n itt g hn parts (fun _ => none) hp
  constructor
  · intro h
    obtain ⟨out, e, ho⟩ := h1 h hno
    exact ⟨out, e, fun j x => by rw [ho j x]; simp⟩
  · intro h
    exact h2 (fun h' => h h'.1)

end

end Psi.ApsiCore
