import Verif.Okvs.TriLemmas
import Mathlib.Algebra.BigOperators.Group.List.Lemmas
import Mathlib.Tactic.Abel

/-! # Back-substitution and the cancelling of the gap rows -/

namespace Psi.Okvs

section
variable {V : Type} [AddCommGroup V]

theorem sparse_update_not_mem {P : Nat → V} {cs : List Nat} {c : Nat} (h : c ∉ cs) (y : V) :
    sparsePart (Function.update P c y) cs = sparsePart P cs := by
  unfold sparsePart
  congr 1
  apply List.map_congr_left
  intro x hx
  rw [Function.update_of_ne]
  rintro rfl; exact h hx

theorem sparse_update_mem {P : Nat → V} {cs : List Nat} {c : Nat} (hn : cs.Nodup) (h : c ∈ cs) (h0 : P c = 0) (y : V) :
    sparsePart (Function.update P c y) cs = sparsePart P cs + y := by
  induction cs with
  | nil => simp at h
  | cons a t ih =>
    rw [List.nodup_cons] at hn
    have e1 : ∀ Q : Nat → V, sparsePart Q (a :: t) = Q a + sparsePart Q t := by
      intro Q; simp [sparsePart]
    rw [e1, e1]
    by_cases hc : c = a
    · subst hc
      rw [sparse_update_not_mem hn.1, Function.update_self, h0, zero_add, add_comm]
    · have hct : c ∈ t := (List.mem_cons.mp h).resolve_left hc
      rw [ih hn.2 hct, Function.update_of_ne (Ne.symm hc), add_assoc]

/-- The main rows, from the last one found to the first. -/
structure RevOk (rows : List Row) (rev : List (Nat × Nat)) : Prop where
  mem : ∀ x ∈ rev, x.2 ∈ cols rows x.1
  tri : rev.Pairwise (fun x y => y.2 ∉ cols rows x.1)

theorem backfill_spec {rows : List Row} {S : Nat} (h : RowsOk rows S) (h2 : ∀ v : V, v + v = 0)
    (X d : Nat → V) (rev : List (Nat × Nat)) (hr : RevOk rows rev) :
    (∀ x ∈ rev, sparsePart (backfill rows rev X d) (cols rows x.1) = X x.1 + d x.1) ∧
      ∀ c, c ∉ rev.map Prod.snd → backfill rows rev X d c = 0 := by
  induction rev using List.reverseRecOn with
  | nil => simp [backfill]
  | append_singleton rev x ih =>
    have hr' : RevOk rows rev := by
      refine ⟨fun y hy => hr.mem y (List.mem_append_left _ hy), ?_⟩
      exact (List.pairwise_append.mp hr.tri).1
    obtain ⟨i1, i2⟩ := ih hr'
    have hx : ∀ y ∈ rev, x.2 ∉ cols rows y.1 := by
      intro y hy
      exact (List.pairwise_append.mp hr.tri).2.2 y hy x (List.mem_singleton_self x)
    have hxm : x.2 ∈ cols rows x.1 := hr.mem x (by simp)
    have hxc : x.2 ∉ rev.map Prod.snd := by
      intro hm
      obtain ⟨y, hy, hyx⟩ := List.mem_map.mp hm
      exact hx y hy (hyx ▸ hr.mem y (List.mem_append_left _ hy))
    have hstep : backfill rows (rev ++ [x]) X d = Function.update (backfill rows rev X d) x.2
        (X x.1 + sparsePart (backfill rows rev X d) (cols rows x.1) + d x.1) := by
      unfold backfill
      rw [List.foldl_append]; rfl
    constructor
    · intro y hy
      rw [hstep]
      rcases List.mem_append.mp hy with hy | hy
      · rw [sparse_update_not_mem (hx y hy), i1 y hy]
      · rw [List.mem_singleton] at hy; subst hy
        rw [sparse_update_mem (cols_nodup h y.1) hxm (i2 _ hxc)]
        have := h2 (sparsePart (backfill rows rev X d) (cols rows y.1))
        have e : sparsePart (backfill rows rev X d) (cols rows y.1) +
            (X y.1 + sparsePart (backfill rows rev X d) (cols rows y.1) + d y.1) =
            (sparsePart (backfill rows rev X d) (cols rows y.1) + sparsePart (backfill rows rev X d) (cols rows y.1)) +
              (X y.1 + d y.1) := by abel
        rw [e, this, zero_add]
    · intro c hc
      rw [List.map_append, List.mem_append, not_or] at hc
      rw [hstep, Function.update_of_ne (by simpa using hc.2), i2 c hc.1]

/-! ## GetFCInv -/

/-- Value at a position of the reversed main rows. -/
def at' (rev : List (Nat × Nat)) (P : Nat → V) (k : Nat) : V := P (rev.getD k (0, 0)).2

theorem sum_toggle (h2 : ∀ v : V, v + v = 0) (f : Nat → V) (l : List Nat) (x : Nat) :
    ((toggle l x).map f).sum = (l.map f).sum + f x := by
  unfold toggle
  split
  · rename_i hx
    have := List.sum_map_erase f hx
    rw [← this, add_comm (f x), add_assoc, h2, add_zero]
  · rw [List.map_cons, List.sum_cons, add_comm]

theorem colIdx_some {rev : List (Nat × Nat)} {c k : Nat} (h : colIdx rev c = some k) :
    k < rev.length ∧ (rev.getD k (0, 0)).2 = c := by
  unfold colIdx at h
  rw [List.idxOf?_eq_some_iff] at h
  obtain ⟨hk, he, _⟩ := h
  have hk' : k < rev.length := by simpa using hk
  refine ⟨hk', ?_⟩
  rw [List.getD_eq_getElem _ _ hk']
  simpa using he

theorem colIdx_none {rev : List (Nat × Nat)} {c : Nat} (h : colIdx rev c = none) : c ∉ rev.map Prod.snd := by
  unfold colIdx at h
  rwa [List.idxOf?_eq_none_iff] at h

theorem sum_filterMap (rev : List (Nat × Nat)) (P : Nat → V) (hP : ∀ c, c ∉ rev.map Prod.snd → P c = 0) (cs : List Nat) :
    ((cs.filterMap (colIdx rev)).map (at' rev P)).sum = sparsePart P cs := by
  induction cs with
  | nil => rfl
  | cons a t ih =>
    have e1 : sparsePart P (a :: t) = P a + sparsePart P t := by simp [sparsePart]
    rw [e1, ← ih, List.filterMap_cons]
    cases hc : colIdx rev a with
    | none => simp only; rw [hP a (colIdx_none hc), zero_add]
    | some k =>
      simp only [List.map_cons, List.sum_cons]
      unfold at'
      rw [(colIdx_some hc).2]

theorem addRow_sum (h2 : ∀ v : V, v + v = 0) {rows : List Row} {rev : List (Nat × Nat)} (P : Nat → V)
    (hP : ∀ c, c ∉ rev.map Prod.snd → P c = 0) (cc h : Nat) {row row' : List Nat}
    (ha : addRow rows rev cc h row = .ok row') :
    (row'.map (at' rev P)).sum = (row.map (at' rev P)).sum + sparsePart P (cols rows h) := by
  unfold addRow at ha
  generalize cols rows h = cs at ha
  induction cs generalizing row with
  | nil => cases ha; simp [sparsePart]
  | cons a t ih =>
    rw [List.foldlM_cons] at ha
    have e1 : sparsePart P (a :: t) = P a + sparsePart P t := by simp [sparsePart]
    cases hc : colIdx rev a with
    | none =>
      simp only [hc] at ha
      rw [ih ha, e1, hP a (colIdx_none hc), zero_add]
    | some k =>
      simp only [hc] at ha
      by_cases hk : k ≤ cc
      · rw [if_pos hk] at ha
        rw [ih ha, sum_toggle h2, e1]
        unfold at'
        rw [(colIdx_some hc).2, add_assoc]
      · rw [if_neg hk] at ha; cases ha

theorem fcLoop_sum (h2 : ∀ v : V, v + v = 0) {rows : List Row} {rev : List (Nat × Nat)} (P : Nat → V)
    (hP : ∀ c, c ∉ rev.map Prod.snd → P c = 0) (fuel : Nat) {row acc out : List Nat}
    (hl : fcLoop rows rev fuel row acc = .ok out) :
    (out.map (fun j => sparsePart P (cols rows j))).sum =
      (row.map (at' rev P)).sum + (acc.map (fun j => sparsePart P (cols rows j))).sum := by
  induction fuel generalizing row acc with
  | zero =>
    unfold fcLoop at hl
    split at hl
    · rename_i h0; cases hl; rw [h0]; simp
    · cases hl
  | succ fuel ih =>
    unfold fcLoop at hl
    cases hm : row.max? with
    | none =>
      rw [hm] at hl
      cases hl
      rw [List.max?_eq_none_iff] at hm
      rw [hm]; simp
    | some cc =>
      rw [hm] at hl
      simp only at hl
      cases ha : addRow rows rev cc (rev.getD cc (0, 0)).1 row with
      | error e => rw [ha] at hl; cases hl
      | ok row' =>
        rw [ha] at hl
        change (if row'.max? = some cc then Except.error Err.fcinv else
          fcLoop rows rev fuel row' (acc ++ [(rev.getD cc (0, 0)).1])) = _ at hl
        split at hl
        · cases hl
        · rw [ih hl, addRow_sum h2 P hP _ _ ha, List.map_append, List.sum_append]
          simp only [List.map_cons, List.map_nil, List.sum_cons, List.sum_nil, add_zero]
          have := h2 (sparsePart P (cols rows (rev.getD cc (0, 0)).1))
          have e : ∀ a b c : V, b + b = 0 → a + b + (c + b) = a + c := by
            intro a b c hb
            have : a + b + (c + b) = a + c + (b + b) := by abel
            rw [this, hb, add_zero]
          exact e _ _ _ this

theorem fcRow_sum (h2 : ∀ v : V, v + v = 0) {rows : List Row} {rev : List (Nat × Nat)} (P : Nat → V)
    (hP : ∀ c, c ∉ rev.map Prod.snd → P c = 0) {gap : Nat × Nat} {out : List Nat}
    (hf : fcRow rows rev gap = .ok out) :
    (out.map (fun j => sparsePart P (cols rows j))).sum = sparsePart P (cols rows gap.1) := by
  unfold fcRow at hf
  split at hf
  · rename_i he
    cases hf
    simp [he]
  · rw [fcLoop_sum h2 P hP _ hf, sum_filterMap rev P hP]
    simp

end

/-- Only main rows are used. -/
theorem fcLoop_mem {rows : List Row} {rev : List (Nat × Nat)} (fuel : Nat) {row acc out : List Nat}
    (hrow : ∀ k ∈ row, k < rev.length) (hacc : ∀ j ∈ acc, j ∈ rev.map Prod.fst)
    (hl : fcLoop rows rev fuel row acc = .ok out) : ∀ j ∈ out, j ∈ rev.map Prod.fst := by
  induction fuel generalizing row acc with
  | zero =>
    unfold fcLoop at hl
    split at hl
    · cases hl; exact hacc
    · cases hl
  | succ fuel ih =>
    unfold fcLoop at hl
    cases hm : row.max? with
    | none => rw [hm] at hl; cases hl; exact hacc
    | some cc =>
      rw [hm] at hl
      simp only at hl
      have hcc : cc < rev.length := hrow cc (List.max?_mem hm)
      cases ha : addRow rows rev cc (rev.getD cc (0, 0)).1 row with
      | error e => rw [ha] at hl; cases hl
      | ok row' =>
        rw [ha] at hl
        change (if row'.max? = some cc then Except.error Err.fcinv else
          fcLoop rows rev fuel row' (acc ++ [(rev.getD cc (0, 0)).1])) = _ at hl
        split at hl
        · cases hl
        · refine ih ?_ ?_ hl
          · unfold addRow at ha
            generalize cols rows (rev.getD cc (0, 0)).1 = cs at ha
            clear hm
            induction cs generalizing row with
            | nil => cases ha; exact hrow
            | cons a t iht =>
              rw [List.foldlM_cons] at ha
              cases hc : colIdx rev a with
              | none => simp only [hc] at ha; exact iht hrow ha
              | some k =>
                simp only [hc] at ha
                by_cases hk : k ≤ cc
                · rw [if_pos hk] at ha
                  refine iht ?_ ha
                  intro x hx
                  unfold toggle at hx
                  split at hx
                  · exact hrow x (List.mem_of_mem_erase hx)
                  · rcases List.mem_cons.mp hx with rfl | hx
                    · exact (colIdx_some hc).1
                    · exact hrow x hx
                · rw [if_neg hk] at ha; cases ha
          · intro j hj
            rcases List.mem_append.mp hj with hj | hj
            · exact hacc j hj
            · rw [List.mem_singleton] at hj
              rw [hj, List.getD_eq_getElem _ _ hcc]
              exact List.mem_map.mpr ⟨_, List.getElem_mem hcc, rfl⟩

theorem fcRow_mem {rows : List Row} {rev : List (Nat × Nat)} {gap : Nat × Nat} {out : List Nat}
    (hg : gap.2 ∈ rev.map Prod.fst) (hf : fcRow rows rev gap = .ok out) : ∀ j ∈ out, j ∈ rev.map Prod.fst := by
  unfold fcRow at hf
  split at hf
  · cases hf
    intro j hj
    rw [List.mem_singleton] at hj
    rw [hj]; exact hg
  · refine fcLoop_mem _ ?_ (by simp) hf
    intro k hk
    rw [List.mem_filterMap] at hk
    obtain ⟨c, _, hc⟩ := hk
    exact (colIdx_some hc).1

/-! ## The checks of GetFCInv never fail -/

theorem rev_getD_mem {rev : List (Nat × Nat)} {k : Nat} (hk : k < rev.length) : rev.getD k (0, 0) ∈ rev := by
  rw [List.getD_eq_getElem _ _ hk]
  exact List.getElem_mem hk

theorem rev_tri {rows : List Row} {rev : List (Nat × Nat)} (hr : RevOk rows rev) {a b : Nat} (hab : a < b)
    (hb : b < rev.length) : (rev.getD b (0, 0)).2 ∉ cols rows (rev.getD a (0, 0)).1 := by
  have := List.pairwise_iff_getElem.mp hr.tri a b (by omega) hb hab
  rwa [List.getD_eq_getElem _ _ hb, List.getD_eq_getElem _ _ (by omega : a < rev.length)]

theorem colIdx_at {rows : List Row} {rev : List (Nat × Nat)} (hr : RevOk rows rev) {cc c : Nat} (hcc : cc < rev.length) :
    colIdx rev c = some cc ↔ c = (rev.getD cc (0, 0)).2 := by
  constructor
  · intro h; exact (colIdx_some h).2.symm
  · intro h
    cases hk : colIdx rev c with
    | none =>
      exfalso
      apply colIdx_none hk
      rw [h]
      exact List.mem_map.mpr ⟨_, rev_getD_mem hcc, rfl⟩
    | some k =>
      obtain ⟨h1, h3⟩ := colIdx_some hk
      rcases Nat.lt_trichotomy k cc with hlt | heq | hgt
      · exfalso
        apply rev_tri hr hlt hcc
        rw [← h, ← h3]
        exact hr.mem _ (rev_getD_mem h1)
      · rw [heq]
      · exfalso
        apply rev_tri hr hgt h1
        rw [h3, h]
        exact hr.mem _ (rev_getD_mem hcc)

theorem toggle_nodup {l : List Nat} (h : l.Nodup) (x : Nat) : (toggle l x).Nodup := by
  unfold toggle
  split
  · exact h.erase x
  · rename_i hx
    exact List.nodup_cons.mpr ⟨hx, h⟩

theorem mem_toggle {l : List Nat} (h : l.Nodup) (x y : Nat) :
    y ∈ toggle l x ↔ if y = x then y ∉ l else y ∈ l := by
  unfold toggle
  by_cases hx : x ∈ l
  · rw [if_pos hx, h.mem_erase_iff]
    by_cases hy : y = x
    · subst hy; simp [hx]
    · simp [hy]
  · rw [if_neg hx]
    by_cases hy : y = x
    · subst hy; simp [hx]
    · simp [hy]

theorem addRow_ok {rows : List Row} {rev : List (Nat × Nat)} (hr : RevOk rows rev) {cc : Nat} (hcc : cc < rev.length)
    (cs : List Nat) (hn : cs.Nodup) (hle : ∀ c ∈ cs, ∀ k, colIdx rev c = some k → k ≤ cc) (row : List Nat) (hrow : row.Nodup) :
    ∃ row', cs.foldlM (fun row c =>
        match colIdx rev c with
        | none => Except.ok row
        | some k => if k ≤ cc then Except.ok (toggle row k) else Except.error Err.fcinv) row = .ok row' ∧
      row'.Nodup ∧ (∀ x ∈ row', x ∈ row ∨ x ≤ cc) ∧
      (cc ∈ row' ↔ if (rev.getD cc (0, 0)).2 ∈ cs then cc ∉ row else cc ∈ row) := by
  induction cs generalizing row with
  | nil => exact ⟨row, rfl, hrow, fun x hx => Or.inl hx, by simp⟩
  | cons a t ih =>
    rw [List.nodup_cons] at hn
    have hle' : ∀ c ∈ t, ∀ k, colIdx rev c = some k → k ≤ cc := fun c hc => hle c (List.mem_cons_of_mem _ hc)
    simp only [List.foldlM_cons]
    cases hc : colIdx rev a with
    | none =>
      obtain ⟨row', h1, h2, h3, h4⟩ := ih hn.2 hle' row hrow
      have hne : (rev.getD cc (0, 0)).2 ≠ a := by
        intro he
        have := (colIdx_at hr hcc).mpr he.symm
        rw [hc] at this; cases this
      refine ⟨row', h1, h2, h3, ?_⟩
      have hmem : (rev.getD cc (0, 0)).2 ∈ a :: t ↔ (rev.getD cc (0, 0)).2 ∈ t := by
        rw [List.mem_cons]; exact or_iff_right hne
      simp only [hmem]
      exact h4
    | some k =>
      have hk := hle a List.mem_cons_self k hc
      simp only [hk, if_true]
      obtain ⟨row', h1, h2, h3, h4⟩ := ih hn.2 hle' (toggle row k) (toggle_nodup hrow k)
      refine ⟨row', h1, h2, ?_, ?_⟩
      · intro x hx
        rcases h3 x hx with h | h
        · rw [mem_toggle hrow] at h
          by_cases hxk : x = k
          · subst hxk; exact Or.inr hk
          · rw [if_neg hxk] at h; exact Or.inl h
        · exact Or.inr h
      · rw [h4]
        by_cases hkc : k = cc
        · subst hkc
          have ha := (colIdx_at hr hcc).mp hc
          have hnt : (rev.getD k (0, 0)).2 ∉ t := ha ▸ hn.1
          rw [if_neg hnt, mem_toggle hrow, if_pos rfl, if_pos]
          rw [← ha]; exact List.mem_cons_self
        · have hne : (rev.getD cc (0, 0)).2 ≠ a := by
            intro he
            have := (colIdx_at hr hcc).mpr he.symm
            rw [hc] at this
            exact hkc (Option.some.inj this)
          have hmem : (rev.getD cc (0, 0)).2 ∈ a :: t ↔ (rev.getD cc (0, 0)).2 ∈ t := by
            rw [List.mem_cons]; exact or_iff_right hne
          have htog : cc ∈ toggle row k ↔ cc ∈ row := by
            rw [mem_toggle hrow, if_neg (Ne.symm hkc)]
          simp only [hmem, htog]

theorem fcLoop_ok {rows : List Row} {S : Nat} (h : RowsOk rows S) {rev : List (Nat × Nat)} (hr : RevOk rows rev)
    (fuel : Nat) (row acc : List Nat) (hrow : row.Nodup) (hlt : ∀ k ∈ row, k < fuel) (hlen : fuel ≤ rev.length) :
    ∃ out, fcLoop rows rev fuel row acc = .ok out := by
  induction fuel generalizing row acc with
  | zero =>
    have : row = [] := by
      cases row with
      | nil => rfl
      | cons a t => exact absurd (hlt a List.mem_cons_self) (by omega)
    exact ⟨acc, by unfold fcLoop; rw [if_pos this]⟩
  | succ fuel ih =>
    unfold fcLoop
    cases hm : row.max? with
    | none => exact ⟨acc, rfl⟩
    | some cc =>
      simp only
      have hccm : cc ∈ row := List.max?_mem hm
      have hmax : ∀ x ∈ row, x ≤ cc := fun x hx => (List.max?_le_iff hm).1 (Nat.le_refl _) x hx
      have hcc : cc < rev.length := by have := hlt cc hccm; omega
      have hle : ∀ c ∈ cols rows (rev.getD cc (0, 0)).1, ∀ k, colIdx rev c = some k → k ≤ cc := by
        intro c hc k hk
        obtain ⟨h1, h3⟩ := colIdx_some hk
        apply Classical.byContradiction
        intro hgt
        exact rev_tri hr (show cc < k by omega) h1 (h3 ▸ hc)
      obtain ⟨row', h1, h2, h3, h4⟩ := addRow_ok hr hcc _ (cols_nodup h _) hle row hrow
      have ha : addRow rows rev cc (rev.getD cc (0, 0)).1 row = .ok row' := h1
      rw [ha]
      have hnc : cc ∉ row' := by
        rw [h4, if_pos (hr.mem _ (rev_getD_mem hcc))]
        exact fun hn => hn hccm
      change ∃ out, (if row'.max? = some cc then Except.error Err.fcinv else
          fcLoop rows rev fuel row' (acc ++ [(rev.getD cc (0, 0)).1])) = Except.ok out
      rw [if_neg (fun he => hnc (List.max?_mem he))]
      apply ih _ _ h2
      · intro k hk
        have hkc : k ≠ cc := fun he => hnc (he ▸ hk)
        have : k ≤ cc := by
          rcases h3 k hk with h | h
          · exact hmax k h
          · exact h
        have := hlt cc hccm
        omega
      · omega

theorem filterMap_nodup (rev : List (Nat × Nat)) {cs : List Nat} (hn : cs.Nodup) :
    (cs.filterMap (colIdx rev)).Nodup := by
  apply List.Nodup.filterMap _ hn
  intro a b k ha hb
  have h1 := (colIdx_some ha).2
  have h2 := (colIdx_some hb).2
  rw [← h1, ← h2]

theorem fcRow_ok {rows : List Row} {S : Nat} (h : RowsOk rows S) {rev : List (Nat × Nat)} (hr : RevOk rows rev)
    (gap : Nat × Nat) : ∃ out, fcRow rows rev gap = .ok out := by
  unfold fcRow
  split
  · exact ⟨_, rfl⟩
  · apply fcLoop_ok h hr _ _ _ (filterMap_nodup rev (cols_nodup h _)) _ (Nat.le_refl _)
    intro k hk
    rw [List.mem_filterMap] at hk
    obtain ⟨c, _, hc⟩ := hk
    exact (colIdx_some hc).1

theorem fcInv_ok {rows : List Row} {S : Nat} (h : RowsOk rows S) {rev : List (Nat × Nat)} (hr : RevOk rows rev)
    (gaps : List (Nat × Nat)) :
    ∃ fc, fcInv rows rev gaps = .ok fc ∧ fc.length = gaps.length ∧
      ∀ i < gaps.length, fcRow rows rev (gaps.getD i (0, 0)) = .ok (fc.getD i []) := by
  unfold fcInv
  induction gaps with
  | nil => exact ⟨[], rfl, rfl, by simp⟩
  | cons a t ih =>
    obtain ⟨out, ho⟩ := fcRow_ok h hr a
    obtain ⟨fc, h1, h2, h3⟩ := ih
    refine ⟨out :: fc, ?_, by simp [h2], ?_⟩
    · rw [List.mapM_cons, ho, h1]; rfl
    · intro i hi
      cases i with
      | zero => simpa using ho
      | succ i => simpa using h3 i (by simpa using hi)

end Psi.Okvs
