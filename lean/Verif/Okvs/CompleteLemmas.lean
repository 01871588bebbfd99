import Verif.Okvs.EncodeLemmas
import Verif.Okvs.DupLemmas
import Verif.Okvs.RankLemmas
import Verif.Okvs.Spec
import Mathlib.Algebra.Field.ZMod

/-! # When the binary encoding fails -/

namespace Psi.Okvs
open Psi.Okvs.Spec

theorem zmod2_one {a : ZMod 2} (h : a ≠ 0) : a = 1 := by
  revert h; revert a; decide

theorem zmod2_add (a : ZMod 2) : a + a = 0 := by revert a; decide

theorem module_add {V : Type} [AddCommGroup V] [Module (ZMod 2) V] (v : V) : v + v = 0 := by
  have h : v + v = ((1 : ZMod 2) + 1) • v := by rw [add_smul, one_smul]
  rw [h, zmod2_add, zero_smul]

theorem list_sum_count (n : Nat) (f : Nat → ZMod 2) (l : List Nat) (hl : ∀ x ∈ l, x < n) :
    (l.map f).sum = ∑ r ∈ Finset.range n, (l.count r : ZMod 2) * f r := by
  induction l with
  | nil => simp
  | cons a l ih =>
    rw [List.map_cons, List.sum_cons, ih (fun x hx => hl x (List.mem_cons_of_mem _ hx))]
    have : ∀ r ∈ Finset.range n, (((a :: l).count r : Nat) : ZMod 2) * f r = (l.count r : ZMod 2) * f r + if r = a then f a else 0 := by
      intro r _
      rw [List.count_cons]
      by_cases h : r = a
      · subst h; simp; ring
      · have : (a == r) = false := by simpa using (Ne.symm h)
        simp [h, this]
    rw [Finset.sum_congr rfl this, Finset.sum_add_distrib, Finset.sum_ite_eq']
    rw [if_pos (Finset.mem_range.mpr (hl a List.mem_cons_self)), add_comm]

/-- Parity of a selection as a sum. -/
theorem even_card_iff (n : Nat) (u : Nat → ZMod 2) (p : Nat → Prop) [DecidablePred p] :
    Even ((((Finset.range n).filter (fun r => u r ≠ 0)).filter p).card) ↔
      ∑ r ∈ Finset.range n, u r * (if p r then 1 else 0) = 0 := by
  rw [← ZMod.natCast_eq_zero_iff_even, Finset.card_eq_sum_ones]
  rw [Finset.filter_filter, Finset.sum_filter]
  push_cast
  have : ∀ r ∈ Finset.range n, (if u r ≠ 0 ∧ p r then (1 : ZMod 2) else 0) = u r * (if p r then 1 else 0) := by
    intro r _
    by_cases hu : u r = 0
    · simp [hu]
    · rw [zmod2_one hu]; simp
  rw [Finset.sum_congr rfl this]

theorem sparsePart_ind {cs : List Nat} (hn : cs.Nodup) (c : Nat) :
    sparsePart (fun x => if x = c then (1 : ZMod 2) else 0) cs = if c ∈ cs then 1 else 0 := by
  unfold sparsePart
  induction cs with
  | nil => simp
  | cons a cs ih =>
    rw [List.map_cons, List.sum_cons, ih (List.nodup_cons.mp hn).2]
    by_cases h : a = c
    · subst h
      have := (List.nodup_cons.mp hn).1
      simp [this]
    · have : (c ∈ a :: cs) ↔ c ∈ cs := by
        rw [List.mem_cons]; exact or_iff_right (Ne.symm h)
      simp [h, this]

/-- If no column set is invertible, some keys cancel on the pivot columns. -/
theorem singular_dependent {rows : List Row} {S D : Nat} (h : RowsOk rows S) {t : Tri} (hi : Inv rows t) (ho : Once rows t)
    {fc : List (List Nat)}
    (hfc : ∀ i < t.gap.length, fcRow rows t.main.reverse (t.gap.getD i (0, 0)) = .ok (fc.getD i []))
    (hg : t.gap.length ≤ D) (hov : NoOverflow D t.gap.length)
    (hn : gapCols rows bitCoef (combs D t.gap.length) t.gap fc = none) :
    ∃ T, CancelOn rows (fun c => c ∈ t.main.map Prod.snd) D T := by
  have hy : ∃ y : Fin t.gap.length → ZMod 2, (∀ k < D, ∑ i : Fin t.gap.length, y i * ee rows bitCoef t.gap fc i k = 0) ∧ y ≠ 0 := by
    apply Classical.byContradiction
    intro hno
    obtain ⟨cs, h1, h2⟩ := exists_comb (D := D) (ee rows bitCoef t.gap fc) (g := t.gap.length) (fun y hy => by
      apply Classical.byContradiction
      intro hne; exact hno ⟨y, hy, hne⟩)
    unfold gapCols at hn
    have := List.find?_eq_none.mp hn cs (combs_complete hg hov h1)
    rw [Bool.not_eq_true, Option.isSome_eq_false_iff, Option.isNone_iff_eq_none] at this
    exact gaussJordan_none zmod2_add (fun a => zmod2_one) id (fun a ha => by rw [zmod2_one ha]; rfl) this h2
  obtain ⟨y, hy0, hyne⟩ := hy
  let γ : Nat → Nat := fun i => (t.gap.getD i (0, 0)).1
  let u : Nat → ZMod 2 := fun r => ∑ i : Fin t.gap.length, y i * ((if r = γ i then 1 else 0) + ((fc.getD i []).count r : ZMod 2))
  have hγmem : ∀ i < t.gap.length, γ i ∈ t.gap.map Prod.fst := by
    intro i hil
    apply List.mem_map_of_mem
    rw [List.getD_eq_getElem _ _ hil]
    exact List.getElem_mem hil
  have hγlt : ∀ i < t.gap.length, γ i < rows.length := fun i hil =>
    ho.lt _ (List.mem_append_right _ (hγmem i hil))
  have hfcm : ∀ i < t.gap.length, ∀ j ∈ fc.getD i [], j ∈ t.main.map Prod.fst := by
    intro i hil j hj
    have hgm : (t.gap.getD i (0, 0)).2 ∈ t.main.reverse.map Prod.fst := by
      rw [List.map_reverse, List.mem_reverse, List.getD_eq_getElem _ _ hil]
      exact hi.gapMain _ (List.getElem_mem hil)
    have := fcRow_mem hgm (hfc i hil) j hj
    rw [List.map_reverse, List.mem_reverse] at this
    exact this
  have hfclt : ∀ i < t.gap.length, ∀ j ∈ fc.getD i [], j < rows.length := fun i hil j hj =>
    ho.lt _ (List.mem_append_left _ (hfcm i hil j hj))
  have hu : ∀ f : Nat → ZMod 2, ∑ r ∈ Finset.range rows.length, u r * f r =
      ∑ i : Fin t.gap.length, y i * (f (γ i) + ((fc.getD i []).map f).sum) := by
    intro f
    simp only [u, Finset.sum_mul]
    rw [Finset.sum_comm]
    apply Finset.sum_congr rfl
    intro i _
    rw [list_sum_count rows.length f _ (hfclt i i.2)]
    simp only [mul_assoc]
    rw [← Finset.mul_sum]
    congr 1
    simp only [add_mul]
    rw [Finset.sum_add_distrib]
    congr 1
    simp only [ite_mul, one_mul, zero_mul]
    rw [Finset.sum_ite_eq' , if_pos (Finset.mem_range.mpr (hγlt i i.2))]
  have hnd : (t.gap.map Prod.fst).Nodup := (List.nodup_append.mp ho.nodup).2.1
  have hdis : ∀ i < t.gap.length, γ i ∉ t.main.map Prod.fst := by
    intro i hil hm
    exact (List.nodup_append.mp ho.nodup).2.2 _ hm _ (hγmem i hil) rfl
  have hγinj : ∀ i < t.gap.length, ∀ j < t.gap.length, γ i = γ j → i = j := by
    intro i hil j hjl he
    have e1 : γ i = (t.gap.map Prod.fst)[i]'(by simpa using hil) := by
      simp only [γ]; rw [List.getD_eq_getElem _ _ hil]; simp
    have e2 : γ j = (t.gap.map Prod.fst)[j]'(by simpa using hjl) := by
      simp only [γ]; rw [List.getD_eq_getElem _ _ hjl]; simp
    rw [e1, e2] at he
    exact (List.Nodup.getElem_inj_iff hnd).mp he
  refine ⟨(Finset.range rows.length).filter (fun r => u r ≠ 0), ?_, ?_, ?_, ?_⟩
  · obtain ⟨i, hyi⟩ := Function.ne_iff.mp hyne
    refine ⟨γ i, Finset.mem_filter.mpr ⟨Finset.mem_range.mpr (hγlt i i.2), ?_⟩⟩
    have hui : u (γ i) = y i := by
      simp only [u]
      rw [Finset.sum_eq_single i]
      · rw [if_pos rfl, List.count_eq_zero_of_not_mem (fun hm => hdis i i.2 (hfcm i i.2 _ hm))]
        simp
      · intro j _ hji
        rw [if_neg (fun he => hji (Fin.ext (hγinj i i.2 j j.2 he)).symm),
          List.count_eq_zero_of_not_mem (fun hm => hdis i i.2 (hfcm j j.2 _ hm))]
        simp
      · intro hno; exact absurd (Finset.mem_univ i) hno
    rw [hui]
    exact hyi
  · intro r hr
    exact Finset.mem_range.mp (Finset.mem_filter.mp hr).1
  · intro c hc
    rw [even_card_iff, hu]
    apply Finset.sum_eq_zero
    intro i _
    have hz : ∀ x, x ∉ t.main.reverse.map Prod.snd → (fun x => if x = c then (1 : ZMod 2) else 0) x = 0 := by
      intro x hx
      rw [List.map_reverse, List.mem_reverse] at hx
      show (if x = c then (1 : ZMod 2) else 0) = 0
      rw [if_neg (fun he : x = c => hx (by rw [he]; exact hc))]
    have hsum := fcRow_sum (V := ZMod 2) zmod2_add (fun x => if x = c then (1 : ZMod 2) else 0) hz (hfc i i.2)
    have e : ∀ r, sparsePart (fun x => if x = c then (1 : ZMod 2) else 0) (cols rows r) = if c ∈ (rows.getD r default).cols then 1 else 0 :=
      fun r => sparsePart_ind (cols_nodup h r) c
    rw [e] at hsum
    simp only [e] at hsum
    rw [← hsum, zmod2_add, mul_zero]
  · intro k hk
    rw [even_card_iff, hu]
    exact hy0 k hk

section
variable {V W : Type} [AddCommGroup V] [Module (ZMod 2) V] [AddCommGroup W] [Module (ZMod 2) W]

/-- Whether the encoding succeeds does not depend on the values. -/
theorem encodeBin_any {rows : List Row} {S D gMax : Nat} {pick : Tri → Nat} {X : Nat → V} {out : (Nat → V) × (Nat → V)}
    (h : encodeBin rows S D gMax pick bitCoef X = .ok out) (X' : Nat → W) :
    ∃ out', encodeBin rows S D gMax pick bitCoef X' = .ok out' := by
  unfold encodeBin at h ⊢
  cases ht : triangulate rows S pick S (Tri.init rows) with
  | error e => rw [ht] at h; cases h
  | ok t =>
    rw [ht] at h
    change backfillBin rows bitCoef D gMax t X = _ at h
    show ∃ out', backfillBin rows bitCoef D gMax t X' = .ok out'
    unfold backfillBin at h ⊢
    simp only at h ⊢
    by_cases h1 : gMax < t.gap.length
    · rw [if_pos h1] at h; cases h
    rw [if_neg h1] at h ⊢
    by_cases h0 : t.gap.length = 0
    · rw [if_pos h0] at h ⊢
      by_cases hD : 64 < D ∧ t.main.reverse ≠ []
      · rw [if_pos hD] at h; cases h
      · rw [if_neg hD]; exact ⟨_, rfl⟩
    rw [if_neg h0] at h ⊢
    cases hf : fcInv rows t.main.reverse t.gap with
    | error e => rw [hf] at h; cases h
    | ok fc =>
      rw [hf] at h
      simp only [bind, Except.bind] at h ⊢
      cases hg : gapCols rows bitCoef (combs D t.gap.length) t.gap fc with
      | none => rw [hg] at h; cases h
      | some gc =>
        rw [hg] at h
        simp only at h ⊢
        cases hN : gaussJordan id t.gap.length (fun i j => ee rows bitCoef t.gap fc i (gc.getD j 0)) with
        | none => rw [hN] at h; cases h
        | some N =>
          rw [hN] at h
          simp only at h ⊢
          by_cases hD : 64 < D ∧ t.main.reverse ≠ []
          · rw [if_pos hD] at h; cases h
          · rw [if_neg hD]; exact ⟨_, rfl⟩

theorem encodeBin_decode {rows : List Row} {S D gMax : Nat} {pick : Tri → Nat} (h : RowsOk rows S) (hp : PickOk S pick)
    (hg : gMax ≤ D) (hov : ∀ g ≤ gMax, NoOverflow D g) {X : Nat → V} {out : (Nat → V) × (Nat → V)}
    (he : encodeBin rows S D gMax pick bitCoef X = .ok out) {r : Nat} (hr : r < rows.length) :
    decode bitCoef D out.1 out.2 rows[r] = X r := by
  unfold encodeBin at he
  rcases triangulate_spec h hp with ⟨t, h1, h2, h3⟩ | h1
  · rw [h1] at he
    refine decode_bin zmod2_add (fun a ha => by rw [zmod2_one ha]; rfl) module_add h h2 h3 bitCoef D gMax ?_ X he hr
    intro g hgm cs hcs
    have := mem_combs (Nat.le_trans hgm hg) (hov g hgm) hcs
    exact ⟨this.1, this.2.2⟩
  · rw [h1] at he; cases he

theorem sum_sparse (rows : List Row) {S : Nat} (h : RowsOk rows S) (T : Finset Nat) (P : Nat → ZMod 2) :
    ∑ r ∈ T, sparsePart P (cols rows r) =
      ∑ c ∈ Finset.range S, ((T.filter (fun r => c ∈ cols rows r)).card : ZMod 2) * P c := by
  have : ∀ r, sparsePart P (cols rows r) = ∑ c ∈ Finset.range S, if c ∈ cols rows r then P c else 0 := by
    intro r
    have hl := fun c (hc : c ∈ cols rows r) => cols_lt h hc
    have hn := cols_nodup h r
    revert hl hn
    generalize cols rows r = cs
    intro hl hn
    unfold sparsePart
    rw [list_sum_count S P cs hl]
    apply Finset.sum_congr rfl
    intro c _
    rw [hn.count]
    split <;> simp
  simp only [this]
  rw [Finset.sum_comm]
  apply Finset.sum_congr rfl
  intro c _
  rw [← Finset.sum_filter, Finset.sum_const, nsmul_eq_mul]

theorem encodeBin_independent {rows : List Row} {S D gMax : Nat} {pick : Tri → Nat} (h : RowsOk rows S) (hp : PickOk S pick)
    (hg : gMax ≤ D) (hov : ∀ g ≤ gMax, NoOverflow D g) {X : Nat → V} {out : (Nat → V) × (Nat → V)}
    (he : encodeBin rows S D gMax pick bitCoef X = .ok out) : ¬ Dependent rows D := by
  rintro ⟨T, ⟨r0, hr0⟩, hT1, hT2, hT3⟩
  obtain ⟨o, ho⟩ := encodeBin_any (W := ZMod 2) he (fun r => if r = r0 then 1 else 0)
  have hd : ∀ r ∈ T, sparsePart o.1 (cols rows r) + densePart (bitCoef (dns rows r)) o.2 D = if r = r0 then 1 else 0 := by
    intro r hr
    rw [← decode_row bitCoef D o.1 o.2 (hT1 r hr)]
    exact encodeBin_decode h hp hg hov ho (hT1 r hr)
  have h1 : ∑ r ∈ T, (sparsePart o.1 (cols rows r) + densePart (bitCoef (dns rows r)) o.2 D) = 1 := by
    rw [Finset.sum_congr rfl hd, Finset.sum_ite_eq', if_pos hr0]
  rw [Finset.sum_add_distrib, sum_sparse rows h] at h1
  have hz1 : ∑ c ∈ Finset.range S, ((T.filter (fun r => c ∈ cols rows r)).card : ZMod 2) * o.1 c = 0 := by
    apply Finset.sum_eq_zero
    intro c _
    have e : ((T.filter (fun r => c ∈ cols rows r)).card : ZMod 2) = 0 := ZMod.natCast_eq_zero_iff_even.mpr (hT2 c trivial)
    rw [e, zero_mul]
  have hz2 : ∑ r ∈ T, densePart (bitCoef (dns rows r)) o.2 D = 0 := by
    simp only [densePart_eq]
    rw [Finset.sum_comm]
    apply Finset.sum_eq_zero
    intro k hk
    rw [← Finset.sum_smul]
    have : ∑ r ∈ T, bitCoef (dns rows r) k = ((T.filter (fun r => (dns rows r).testBit k = true)).card : ZMod 2) := by
      unfold bitCoef
      rw [← Finset.sum_filter, Finset.sum_const, nsmul_eq_mul, mul_one]
    have e : ((T.filter (fun r => (dns rows r).testBit k = true)).card : ZMod 2) = 0 :=
      ZMod.natCast_eq_zero_iff_even.mpr (hT3 k (Finset.mem_range.mp hk))
    rw [this, e, zero_smul]
  rw [hz1, hz2, add_zero] at h1
  exact zero_ne_one h1

end

end Psi.Okvs
