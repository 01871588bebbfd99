import Verif.Okvs.Model
import Mathlib.Data.List.GetD
import Mathlib.Data.List.Nodup
import Mathlib.Data.List.Count
import Mathlib.Algebra.Order.BigOperators.Group.List

/-! # Facts about the triangulation -/

namespace Psi.Okvs

/-- Rows as the hash builds them: distinct columns, at least one, all below `S`. -/
def RowsOk (rows : List Row) (S : Nat) : Prop :=
  ∀ r ∈ rows, r.cols.Nodup ∧ r.cols ≠ [] ∧ ∀ c ∈ r.cols, c < S

theorem cols_nodup {rows : List Row} {S : Nat} (h : RowsOk rows S) (i : Nat) : (cols rows i).Nodup := by
  unfold cols
  by_cases hi : i < rows.length
  · rw [List.getD_eq_getElem _ _ hi]
    exact (h _ (List.getElem_mem hi)).1
  · rw [List.getD_eq_default _ _ (by omega)]
    exact List.nodup_nil

theorem cols_lt {rows : List Row} {S : Nat} (h : RowsOk rows S) {i c : Nat} (hc : c ∈ cols rows i) : c < S := by
  unfold cols at hc
  by_cases hi : i < rows.length
  · rw [List.getD_eq_getElem _ _ hi] at hc
    exact (h _ (List.getElem_mem hi)).2.2 c hc
  · rw [List.getD_eq_default _ _ (by omega)] at hc
    exact absurd hc (by simp [default, instInhabitedRow.default])

theorem cols_ne_nil {rows : List Row} {S : Nat} (h : RowsOk rows S) {i : Nat} (hi : i < rows.length) :
    cols rows i ≠ [] := by
  unfold cols
  rw [List.getD_eq_getElem _ _ hi]
  exact (h _ (List.getElem_mem hi)).2.1

theorem mem_colRows {rows : List Row} {c r : Nat} : r ∈ colRows rows c ↔ r < rows.length ∧ c ∈ cols rows r := by
  unfold colRows
  simp only [List.mem_flatMap, List.mem_range, List.mem_map, List.mem_filter, decide_eq_true_eq]
  constructor
  · rintro ⟨a, ha, x, ⟨hx, rfl⟩, rfl⟩
    exact ⟨ha, hx⟩
  · rintro ⟨h1, h2⟩
    exact ⟨r, h1, c, ⟨h2, rfl⟩, rfl⟩

/-- Rows of column `c` that are not set. -/
def unset (rows : List Row) (set : Nat → Bool) (c : Nat) : Nat :=
  ((List.range rows.length).filter (fun r => !set r && decide (c ∈ cols rows r))).length

theorem filter_eq_of_nodup {l : List Nat} (h : l.Nodup) (c : Nat) : (l.filter (· = c)).length = if c ∈ l then 1 else 0 := by
  have : (l.filter (· = c)).length = l.count c := by
    rw [List.count_eq_length_filter]
    congr 1
  rw [this]
  by_cases hc : c ∈ l
  · rw [if_pos hc]; exact List.count_eq_one_of_mem h hc
  · rw [if_neg hc]; exact List.count_eq_zero_of_not_mem hc

theorem sum_ite_filter (l : List Nat) (p : Nat → Bool) :
    (l.map (fun i => if p i then 1 else 0)).sum = (l.filter p).length := by
  induction l with
  | nil => rfl
  | cons a t ih =>
    rw [List.map_cons, List.sum_cons, ih, List.filter_cons]
    by_cases h : p a
    · simp [h]; omega
    · simp [h]

theorem init_wt {rows : List Row} {S : Nat} (h : RowsOk rows S) (c : Nat) :
    (Tri.init rows).wt c = unset rows (fun _ => false) c := by
  unfold Tri.init unset colRows
  simp only
  rw [List.length_flatMap]
  have : (fun i => (((cols rows i).filter (· = c)).map (fun _ => i)).length) =
      fun i => if (decide (c ∈ cols rows i)) = true then 1 else 0 := by
    funext i
    rw [List.length_map, filter_eq_of_nodup (cols_nodup h i)]
    simp
  rw [this, sum_ite_filter]
  simp

theorem decs_apply {cs : List Nat} (h : cs.Nodup) (w : Nat → Nat) (c : Nat) :
    decs cs w c = if c ∈ cs then w c - 1 else w c := by
  unfold decs
  induction cs generalizing w with
  | nil => simp
  | cons a t ih =>
    rw [List.nodup_cons] at h
    rw [List.foldl_cons, ih h.2]
    by_cases hca : c = a
    · subst hca
      rw [if_neg h.1, if_pos (List.mem_cons_self)]
      by_cases hw : w c ≠ 0
      · rw [if_pos hw, Function.update_self]
      · rw [if_neg hw]; omega
    · have hu : (if w a ≠ 0 then Function.update w a (w a - 1) else w) c = w c := by
        split
        · rw [Function.update_of_ne hca]
        · rfl
      rw [hu]
      simp [hca]

theorem unset_update {rows : List Row} {set : Nat → Bool} {r : Nat} (hr : r < rows.length) (hs : set r = false) (c : Nat) :
    unset rows set c = unset rows (Function.update set r true) c + if c ∈ cols rows r then 1 else 0 := by
  unfold unset
  have hgen : ∀ l : List Nat, l.Nodup →
      (l.filter (fun x => !set x && decide (c ∈ cols rows x))).length =
      (l.filter (fun x => !(Function.update set r true) x && decide (c ∈ cols rows x))).length +
        if r ∈ l ∧ c ∈ cols rows r then 1 else 0 := by
    intro l
    induction l with
    | nil => simp
    | cons a t ih =>
      intro hn
      rw [List.nodup_cons] at hn
      rw [List.filter_cons, List.filter_cons]
      have ih := ih hn.2
      by_cases har : a = r
      · subst har
        rw [Function.update_self]
        have hat : ¬ (a ∈ t ∧ c ∈ cols rows a) := fun h => hn.1 h.1
        rw [if_neg hat] at ih
        by_cases hc : c ∈ cols rows a
        · simp [hs, hc]; omega
        · simp [hc]; omega
      · rw [Function.update_of_ne har]
        have hmem : (r ∈ a :: t ∧ c ∈ cols rows r) ↔ (r ∈ t ∧ c ∈ cols rows r) := by
          rw [List.mem_cons]
          constructor
          · rintro ⟨h | h, h2⟩
            · exact absurd h.symm har
            · exact ⟨h, h2⟩
          · rintro ⟨h, h2⟩; exact ⟨Or.inr h, h2⟩
        simp only [hmem]
        split
        · rw [List.length_cons, List.length_cons, ih]; omega
        · exact ih
  rw [hgen _ List.nodup_range]
  simp [hr]

/-- What holds between two columns. -/
structure Inv (rows : List Row) (t : Tri) : Prop where
  wt : ∀ c, t.wt c = unset rows t.set c
  setIff : ∀ r, t.set r = true ↔ r ∈ t.main.map Prod.fst ∨ r ∈ t.gap.map Prod.fst
  lt : ∀ r, t.set r = true → r < rows.length
  memCol : ∀ x ∈ t.main, x.2 ∈ cols rows x.1
  fixed : ∀ x ∈ t.main, ∀ r < rows.length, x.2 ∈ cols rows r → t.set r = true
  tri : t.main.Pairwise (fun x y => x.2 ∉ cols rows y.1)
  gapMain : ∀ x ∈ t.gap, x.2 ∈ t.main.map Prod.fst

theorem inv_init {rows : List Row} {S : Nat} (h : RowsOk rows S) : Inv rows (Tri.init rows) where
  wt := init_wt h
  setIff := by intro r; simp [Tri.init]
  lt := by intro r hr; simp [Tri.init] at hr
  memCol := by intro x hx; simp [Tri.init] at hx
  fixed := by intro x hx; simp [Tri.init] at hx
  tri := by simp [Tri.init]
  gapMain := by intro x hx; simp [Tri.init] at hx

/-- What holds inside the loop over the rows of column `c`: `done` are the rows already looked at. -/
structure Mid (rows : List Row) (c : Nat) (old : List (Nat × Nat)) (done : List Nat) (s : Tri × Bool) : Prop where
  wt : ∀ c', c' ≠ c → s.1.wt c' = unset rows s.1.set c'
  wtc : s.1.wt c = 0
  setIff : ∀ r, s.1.set r = true ↔ r ∈ s.1.main.map Prod.fst ∨ r ∈ s.1.gap.map Prod.fst
  lt : ∀ r, s.1.set r = true → r < rows.length
  memCol : ∀ x ∈ s.1.main, x.2 ∈ cols rows x.1
  fixed : ∀ x ∈ old, ∀ r < rows.length, x.2 ∈ cols rows r → s.1.set r = true
  tri : s.1.main.Pairwise (fun x y => x.2 ∉ cols rows y.1)
  gapMain : ∀ x ∈ s.1.gap, x.2 ∈ s.1.main.map Prod.fst
  done : ∀ r ∈ done, s.1.set r = true
  mainEq : (s.2 = true → s.1.main = old) ∧ (s.2 = false → ∃ r, s.1.main = old ++ [(r, c)])

theorem mid_visit {rows : List Row} {S c : Nat} (h : RowsOk rows S) {old : List (Nat × Nat)} {done : List Nat}
    {s s' : Tri × Bool} {r : Nat} (hm : Mid rows c old done s) (hr : r < rows.length) (hc : c ∈ cols rows r)
    (hv : visit rows c s r = .ok s') :
    Mid rows c old (done ++ [r]) s' ∧ (s.1.set r = false → s'.2 = false) ∧ (s.2 = false → s'.2 = false) := by
  unfold visit at hv
  by_cases hs : s.1.set r = true
  · rw [if_pos hs] at hv
    cases hv
    refine ⟨⟨hm.wt, hm.wtc, hm.setIff, hm.lt, hm.memCol, hm.fixed, hm.tri, hm.gapMain, ?_, hm.mainEq⟩, ?_, id⟩
    · intro x hx
      rcases List.mem_append.mp hx with hx | hx
      · exact hm.done x hx
      · rw [List.mem_singleton] at hx; subst hx; exact hs
    · intro h0; rw [hs] at h0; exact absurd h0 (by decide)
  · rw [if_neg hs] at hv
    have hs : s.1.set r = false := by simpa using hs
    have hwt : ∀ c', c' ≠ c → decs (cols rows r) s.1.wt c' = unset rows (Function.update s.1.set r true) c' := by
      intro c' hc'
      rw [decs_apply (cols_nodup h r), hm.wt c' hc', unset_update hr hs c']
      split <;> omega
    have hwtc : decs (cols rows r) s.1.wt c = 0 := by
      rw [decs_apply (cols_nodup h r), hm.wtc]; split <;> rfl
    have hset : ∀ x, Function.update s.1.set r true x = true ↔ x = r ∨ s.1.set x = true := by
      intro x
      by_cases hx : x = r
      · subst hx; simp
      · rw [Function.update_of_ne hx]; simp [hx]
    have hold : ∀ x ∈ old, x.2 ∉ cols rows r := by
      intro x hx hcx
      have := hm.fixed x hx r hr hcx
      rw [hs] at this; exact absurd this (by decide)
    have hdone : ∀ x ∈ done ++ [r], Function.update s.1.set r true x = true := by
      intro x hx
      rw [hset]
      rcases List.mem_append.mp hx with hx | hx
      · exact Or.inr (hm.done x hx)
      · exact Or.inl (List.mem_singleton.mp hx)
    have hfix : ∀ x ∈ old, ∀ r' < rows.length, x.2 ∈ cols rows r' → Function.update s.1.set r true r' = true := by
      intro x hx r' hr' hc'
      rw [hset]; exact Or.inr (hm.fixed x hx r' hr' hc')
    have hlt : ∀ x, Function.update s.1.set r true x = true → x < rows.length := by
      intro x hx
      rcases (hset x).mp hx with rfl | hx
      · exact hr
      · exact hm.lt x hx
    by_cases hf : s.2 = true
    · simp only [hf, if_true] at hv
      cases hv
      have hmo := hm.mainEq.1 hf
      refine ⟨⟨hwt, hwtc, ?_, hlt, ?_, hfix, ?_, ?_, hdone, ?_⟩, fun _ => rfl, fun _ => rfl⟩
      · intro x
        simp only [List.map_append, List.map_cons, List.map_nil, List.mem_append, List.mem_singleton]
        rw [hset, hm.setIff]
        constructor
        · rintro (h | h | h)
          · exact Or.inl (Or.inr h)
          · exact Or.inl (Or.inl h)
          · exact Or.inr h
        · rintro ((h | h) | h)
          · exact Or.inr (Or.inl h)
          · exact Or.inl h
          · exact Or.inr (Or.inr h)
      · intro x hx
        rcases List.mem_append.mp hx with hx | hx
        · exact hm.memCol x hx
        · rw [List.mem_singleton] at hx; subst hx; exact hc
      · rw [List.pairwise_append]
        refine ⟨hm.tri, List.pairwise_singleton _ _, ?_⟩
        intro x hx y hy
        rw [List.mem_singleton] at hy; subst hy
        rw [hmo] at hx
        exact hold x hx
      · intro x hx
        simp only [List.map_append, List.mem_append]
        exact Or.inl (hm.gapMain x hx)
      · refine ⟨fun h => absurd h (by simp), fun _ => ⟨r, ?_⟩⟩
        simp only; rw [hmo]
    · have hf : s.2 = false := by simpa using hf
      simp only [hf, Bool.false_eq_true, if_false] at hv
      split at hv
      · cases hv
      · cases hv
        obtain ⟨m, hmo⟩ := hm.mainEq.2 hf
        have hback : (s.1.main.getLastD (0, 0)).1 = m := by rw [hmo]; simp
        refine ⟨⟨hwt, hwtc, ?_, hlt, hm.memCol, hfix, hm.tri, ?_, hdone, ?_⟩, fun _ => rfl, fun _ => rfl⟩
        · intro x
          simp only [List.map_append, List.map_cons, List.map_nil, List.mem_append, List.mem_singleton]
          rw [hset, hm.setIff]
          constructor
          · rintro (h | h | h)
            · exact Or.inr (Or.inr h)
            · exact Or.inl h
            · exact Or.inr (Or.inl h)
          · rintro (h | h | h)
            · exact Or.inr (Or.inl h)
            · exact Or.inr (Or.inr h)
            · exact Or.inl h
        · intro x hx
          rcases List.mem_append.mp hx with hx | hx
          · exact hm.gapMain x hx
          · rw [List.mem_singleton] at hx; subst hx
            rw [hmo]
            simp
        · exact ⟨fun h => absurd h (by simp), fun _ => ⟨m, hmo⟩⟩

theorem mid_fold {rows : List Row} {S c : Nat} (h : RowsOk rows S) {old : List (Nat × Nat)} (l : List Nat)
    (hl : ∀ r ∈ l, r < rows.length ∧ c ∈ cols rows r) {done : List Nat} {s s' : Tri × Bool}
    (hm : Mid rows c old done s) (hv : l.foldlM (visit rows c) s = .ok s') :
    Mid rows c old (done ++ l) s' ∧ ((∃ r ∈ l, s.1.set r = false) → s'.2 = false) ∧ (s.2 = false → s'.2 = false) := by
  induction l generalizing done s with
  | nil =>
    rw [List.foldlM_nil] at hv
    cases hv
    refine ⟨by simpa using hm, by simp, id⟩
  | cons a t ih =>
    rw [List.foldlM_cons] at hv
    cases h1 : visit rows c s a with
    | error e => rw [h1] at hv; cases hv
    | ok s1 =>
      rw [h1] at hv
      obtain ⟨m1, n1, k1⟩ := mid_visit h hm (hl a List.mem_cons_self).1 (hl a List.mem_cons_self).2 h1
      obtain ⟨m2, n2, k2⟩ := ih (fun r hr => hl r (List.mem_cons_of_mem _ hr)) m1 hv
      refine ⟨by simpa using m2, ?_, fun hf => k2 (k1 hf)⟩
      rintro ⟨r, hr, hrs⟩
      by_cases ha : s.1.set a = false
      · exact k2 (n1 ha)
      · rcases List.mem_cons.mp hr with rfl | hr
        · exact absurd hrs ha
        · -- s1 = s as `a` was set
          have hset : s.1.set a = true := by simpa using ha
          unfold visit at h1
          rw [if_pos hset] at h1
          cases h1
          exact n2 ⟨r, hr, hrs⟩

theorem unset_zero_of {rows : List Row} {set : Nat → Bool} {c : Nat}
    (h : ∀ r < rows.length, c ∈ cols rows r → set r = true) : unset rows set c = 0 := by
  unfold unset
  rw [List.length_eq_zero_iff, List.filter_eq_nil_iff]
  intro r hr
  rw [List.mem_range] at hr
  by_cases hc : c ∈ cols rows r
  · simp [h r hr hc]
  · simp [hc]

theorem exists_unset {rows : List Row} {set : Nat → Bool} {c : Nat} (h : 0 < unset rows set c) :
    ∃ r < rows.length, c ∈ cols rows r ∧ set r = false := by
  unfold unset at h
  obtain ⟨r, hr⟩ := List.exists_mem_of_length_pos h
  rw [List.mem_filter, List.mem_range] at hr
  simp at hr
  exact ⟨r, hr.1, hr.2.2, hr.2.1⟩

theorem colStep_inv {rows : List Row} {S c : Nat} (h : RowsOk rows S) {t : Tri} (hi : Inv rows t)
    (hc : 0 < t.wt c) :
    (∃ t', colStep rows t c = .ok t' ∧ Inv rows t' ∧ t'.wt c = 0 ∧ ∀ c', t'.wt c' ≤ t.wt c') ∨
      colStep rows t c = .error .duplicate := by
  have herr : ∀ (l : List Nat) (s : Tri × Bool) e, l.foldlM (visit rows c) s = .error e → e = .duplicate := by
    intro l
    induction l with
    | nil => intro s e he; cases he
    | cons a l ih =>
      intro s e he
      rw [List.foldlM_cons] at he
      cases h1 : visit rows c s a with
      | error e' =>
        rw [h1] at he
        cases he
        unfold visit at h1
        split at h1
        · cases h1
        · simp only at h1
          split at h1
          · cases h1
          · split at h1
            · cases h1; rfl
            · cases h1
      | ok s1 => rw [h1] at he; exact ih s1 e he
  have hmono : ∀ (l : List Nat) (s s' : Tri × Bool), l.foldlM (visit rows c) s = .ok s' → ∀ c', s'.1.wt c' ≤ s.1.wt c' := by
    intro l
    induction l with
    | nil => intro s s' he; cases he; intro c'; exact Nat.le_refl _
    | cons a l ih =>
      intro s s' he c'
      rw [List.foldlM_cons] at he
      cases h1 : visit rows c s a with
      | error e' => rw [h1] at he; cases he
      | ok s1 =>
        rw [h1] at he
        refine Nat.le_trans (ih s1 s' he c') ?_
        unfold visit at h1
        split at h1
        · cases h1; exact Nat.le_refl _
        · have hd := decs_apply (cols_nodup h a) s.1.wt c'
          have hle : decs (cols rows a) s.1.wt c' ≤ s.1.wt c' := by rw [hd]; split <;> omega
          simp only at h1
          split at h1
          · cases h1; exact hle
          · split at h1
            · cases h1
            · cases h1; exact hle
  unfold colStep
  cases hv : (colRows rows c).foldlM (visit rows c) ({ t with wt := Function.update t.wt c 0 }, true) with
  | error e =>
    right
    rw [herr _ _ _ hv]; rfl
  | ok s' =>
    left
    have hm0 : Mid rows c t.main [] ({ t with wt := Function.update t.wt c 0 }, true) := by
      refine ⟨?_, ?_, hi.setIff, hi.lt, hi.memCol, hi.fixed, hi.tri, hi.gapMain, by simp, ⟨fun _ => rfl, fun h => absurd h (by simp)⟩⟩
      · intro c' hc'
        simp only
        rw [Function.update_of_ne hc', hi.wt]
      · simp
    obtain ⟨m, n, _⟩ := mid_fold h (colRows rows c) (fun r hr => mem_colRows.mp hr) hm0 hv
    have hfalse : s'.2 = false := by
      apply n
      rw [hi.wt] at hc
      obtain ⟨r, hr, hcr, hs⟩ := exists_unset hc
      exact ⟨r, mem_colRows.mpr ⟨hr, hcr⟩, hs⟩
    obtain ⟨mr, hmain⟩ := m.mainEq.2 hfalse
    have hallc : ∀ r < rows.length, c ∈ cols rows r → s'.1.set r = true := by
      intro r hr hcr
      exact m.done r (by simpa using mem_colRows.mpr ⟨hr, hcr⟩)
    refine ⟨s'.1, ?_, ?_, m.wtc, ?_⟩
    · show (if s'.2 = true then Except.error Err.noRow else Except.ok s'.1) = _
      rw [hfalse]; rfl
    · refine ⟨?_, m.setIff, m.lt, m.memCol, ?_, m.tri, m.gapMain⟩
      · intro c'
        by_cases hcc : c' = c
        · subst hcc
          rw [m.wtc, unset_zero_of hallc]
        · exact m.wt c' hcc
      · intro x hx r hr hcr
        rw [hmain] at hx
        rcases List.mem_append.mp hx with hx | hx
        · exact m.fixed x hx r hr hcr
        · rw [List.mem_singleton] at hx; subst hx
          exact hallc r hr hcr
    · intro c'
      refine Nat.le_trans (hmono _ _ _ hv c') ?_
      simp only
      by_cases hcc : c' = c
      · subst hcc; simp
      · rw [Function.update_of_ne hcc]

/-- `GetMinWeightNode` returns a column of positive weight if there is one. -/
def PickOk (S : Nat) (pick : Tri → Nat) : Prop :=
  ∀ t : Tri, (∃ c < S, t.wt c ≠ 0) → pick t < S ∧ t.wt (pick t) ≠ 0

/-- Columns with positive weight. -/
def live (S : Nat) (t : Tri) : Nat := ((List.range S).filter (fun c => t.wt c ≠ 0)).length

theorem triangulate_ok {rows : List Row} {S : Nat} (h : RowsOk rows S) {pick : Tri → Nat} (hp : PickOk S pick)
    (fuel : Nat) {t : Tri} (hi : Inv rows t) (hf : live S t ≤ fuel) :
    (∃ t', triangulate rows S pick fuel t = .ok t' ∧ Inv rows t' ∧ ∀ c < S, t'.wt c = 0) ∨
      triangulate rows S pick fuel t = .error .duplicate := by
  induction fuel generalizing t with
  | zero =>
    left
    refine ⟨t, rfl, hi, ?_⟩
    intro c hc
    have h0 : live S t = 0 := by omega
    unfold live at h0
    rw [List.length_eq_zero_iff, List.filter_eq_nil_iff] at h0
    simpa using h0 c (List.mem_range.mpr hc)
  | succ fuel ih =>
    unfold triangulate
    by_cases hz : ∀ c < S, t.wt c = 0
    · left
      rw [if_pos hz]
      exact ⟨t, rfl, hi, hz⟩
    · rw [if_neg hz]
      have hex : ∃ c < S, t.wt c ≠ 0 := by
        apply Classical.byContradiction
        intro hn
        apply hz
        intro c hc
        apply Classical.byContradiction
        intro h0; exact hn ⟨c, hc, h0⟩
      obtain ⟨hlt, hpos⟩ := hp t hex
      rcases colStep_inv h hi (c := pick t) (by omega) with ⟨t', h1, h2, h3, h4⟩ | herr
      · rw [h1]
        apply ih h2
        -- one live column less
        have hsub : live S t' < live S t := by
          unfold live
          have hgen : ∀ l : List Nat, (∀ c, t'.wt c ≠ 0 → t.wt c ≠ 0) →
              (l.filter (fun c => decide (t'.wt c ≠ 0))).length + (if pick t ∈ l then 1 else 0) ≤
                (l.filter (fun c => decide (t.wt c ≠ 0))).length := by
            intro l himp
            induction l with
            | nil => simp
            | cons a l ihl =>
              rw [List.filter_cons, List.filter_cons]
              by_cases ha : a = pick t
              · subst ha
                have e1 : decide (t'.wt (pick t) ≠ 0) = false := by simp [h3]
                have e2 : decide (t.wt (pick t) ≠ 0) = true := by simp [hpos]
                rw [e1, e2]
                simp only [List.mem_cons, true_or, if_true, Bool.false_eq_true, if_false, List.length_cons]
                have : (l.filter (fun c => decide (t'.wt c ≠ 0))).length ≤ (l.filter (fun c => decide (t.wt c ≠ 0))).length := by
                  split at ihl <;> omega
                omega
              · have hm : (pick t ∈ a :: l) ↔ pick t ∈ l := by
                  rw [List.mem_cons]
                  exact ⟨fun h => h.elim (fun h => absurd h.symm ha) id, Or.inr⟩
                simp only [hm]
                by_cases hw : t'.wt a ≠ 0
                · have hw2 := himp a hw
                  have e1 : decide (t'.wt a ≠ 0) = true := by simpa using hw
                  have e2 : decide (t.wt a ≠ 0) = true := by simpa using hw2
                  rw [e1, e2]
                  simp only [if_true, List.length_cons]
                  omega
                · have e1 : decide (t'.wt a ≠ 0) = false := by simpa using hw
                  rw [e1]
                  by_cases hw2 : t.wt a ≠ 0
                  · have e2 : decide (t.wt a ≠ 0) = true := by simpa using hw2
                    rw [e2]
                    simp only [if_true, Bool.false_eq_true, if_false, List.length_cons]
                    omega
                  · have e2 : decide (t.wt a ≠ 0) = false := by simpa using hw2
                    rw [e2]
                    simp only [Bool.false_eq_true, if_false]
                    exact ihl
          have := hgen (List.range S) (fun c hc => by have := h4 c; omega)
          rw [if_pos (List.mem_range.mpr hlt)] at this
          omega
        omega
      · right
        rw [herr]; rfl

theorem live_le (S : Nat) (t : Tri) : live S t ≤ S := by
  unfold live
  have := List.length_filter_le (fun c => decide (t.wt c ≠ 0)) (List.range S)
  simpa using this

/-- The result of the triangulation. -/
theorem triangulate_spec {rows : List Row} {S : Nat} (h : RowsOk rows S) {pick : Tri → Nat} (hp : PickOk S pick) :
    (∃ t, triangulate rows S pick S (Tri.init rows) = .ok t ∧ Inv rows t ∧
        ∀ r < rows.length, r ∈ t.main.map Prod.fst ∨ r ∈ t.gap.map Prod.fst) ∨
      triangulate rows S pick S (Tri.init rows) = .error .duplicate := by
  rcases triangulate_ok h hp S (inv_init h) (live_le S _) with ⟨t, h1, h2, h3⟩ | he
  · left
    refine ⟨t, h1, h2, ?_⟩
    intro r hr
    rw [← h2.setIff]
    obtain ⟨c, hc⟩ := List.exists_mem_of_ne_nil _ (cols_ne_nil h hr)
    have h0 := h3 c (cols_lt h hc)
    rw [h2.wt] at h0
    apply Classical.byContradiction
    intro hs
    unfold unset at h0
    rw [List.length_eq_zero_iff, List.filter_eq_nil_iff] at h0
    have := h0 r (List.mem_range.mpr hr)
    simp [hc, hs] at this
  · exact Or.inr he

end Psi.Okvs
