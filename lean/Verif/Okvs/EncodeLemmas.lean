import Verif.Okvs.FillLemmas
import Verif.Okvs.GaussLemmas

/-! # Decoding what has been encoded -/

namespace Psi.Okvs

section
variable {K V : Type} [CommRing K] [DecidableEq K] [AddCommGroup V] [Module K V]

theorem revOk_of_inv {rows : List Row} {t : Tri} (h : Inv rows t) : RevOk rows t.main.reverse where
  mem := fun x hx => h.memCol x (List.mem_reverse.mp hx)
  tri := by
    rw [List.pairwise_reverse]
    exact h.tri

theorem decode_row {rows : List Row} (coef : Nat → Nat → K) (D : Nat) (P p2 : Nat → V) {r : Nat} (hr : r < rows.length) :
    decode coef D P p2 rows[r] = sparsePart P (cols rows r) + densePart (coef (dns rows r)) p2 D := by
  unfold decode cols dns
  rw [List.getD_eq_getElem _ _ hr]

theorem cancel {v a : V} (h2 : ∀ v : V, v + v = 0) : v + a + a = v := by
  rw [add_assoc, h2, add_zero]

/-- All rows decode, if the dense part solves the equations of the gap rows. -/
theorem decode_all {rows : List Row} {S : Nat} (h : RowsOk rows S) (h2 : ∀ v : V, v + v = 0) {t : Tri} (hi : Inv rows t)
    (hall : ∀ r < rows.length, r ∈ t.main.map Prod.fst ∨ r ∈ t.gap.map Prod.fst)
    (coef : Nat → Nat → K) (D : Nat) (X p2 : Nat → V) {fc : List (List Nat)}
    (hfc : ∀ i < t.gap.length, fcRow rows t.main.reverse (t.gap.getD i (0, 0)) = .ok (fc.getD i []))
    (hgap : ∀ i < t.gap.length, densePart (coef (dns rows (t.gap.getD i (0, 0)).1)) p2 D +
      ((fc.getD i []).map (fun j => densePart (coef (dns rows j)) p2 D)).sum = xx t.gap fc X i)
    {r : Nat} (hr : r < rows.length) :
    decode coef D (backfill rows t.main.reverse X (fun r => densePart (coef (dns rows r)) p2 D)) p2 rows[r] = X r := by
  have hrev := revOk_of_inv hi
  obtain ⟨b1, b2⟩ := backfill_spec h h2 X (fun r => densePart (coef (dns rows r)) p2 D) _ hrev
  rw [decode_row coef D _ p2 hr]
  generalize backfill rows t.main.reverse X (fun r => densePart (coef (dns rows r)) p2 D) = P at *
  have hmain : ∀ j ∈ t.main.reverse.map Prod.fst,
      sparsePart P (cols rows j) = X j + densePart (coef (dns rows j)) p2 D := by
    intro j hj
    obtain ⟨x, hx, rfl⟩ := List.mem_map.mp hj
    exact b1 x hx
  rcases hall r hr with hm | hg
  · rw [hmain r (by rw [List.map_reverse, List.mem_reverse]; exact hm)]
    exact cancel h2
  · obtain ⟨x, hx, rfl⟩ := List.mem_map.mp hg
    obtain ⟨i, hil, hie⟩ := List.getElem_of_mem hx
    have hgd : t.gap.getD i (0, 0) = x := by rw [List.getD_eq_getElem _ _ hil, hie]
    have e1 := hfc i hil
    have e2 := hgap i hil
    have hsum := fcRow_sum h2 P b2 e1
    have hmem := fcRow_mem (by rw [List.map_reverse, List.mem_reverse, hgd]; exact hi.gapMain x hx) e1
    unfold xx at e2
    rw [hgd] at e2 hsum
    rw [← hsum]
    have hmap : ((fc.getD i []).map (fun j => sparsePart P (cols rows j))).sum =
        ((fc.getD i []).map X).sum + ((fc.getD i []).map (fun j => densePart (coef (dns rows j)) p2 D)).sum := by
      generalize fc.getD i [] = l at hmem
      clear hsum e1 e2 hfc hgap
      induction l with
      | nil => simp
      | cons a l ih =>
        simp only [List.map_cons, List.sum_cons]
        rw [ih (fun j hj => hmem j (List.mem_cons_of_mem _ hj)), hmain a (hmem a List.mem_cons_self)]
        abel
    rw [hmap]
    have : ∀ a b c d : V, c + b = d + a → a + b + c = d := by
      intro a b c d hcd
      have : a + b + c = a + (c + b) := by abel
      rw [this, hcd, add_comm d a, ← add_assoc, h2, zero_add]
    exact this _ _ _ _ e2

theorem densePart_eq (coef : Nat → K) (p2 : Nat → V) (D : Nat) :
    densePart coef p2 D = ∑ k ∈ Finset.range D, coef k • p2 k := by
  unfold densePart
  induction D with
  | zero => rfl
  | succ n ih =>
    rw [List.range_succ, List.map_append, List.sum_append, ih, Finset.sum_range_succ]
    simp

/-- The equation of a gap row in terms of `EE`. -/
theorem gap_eq (rows : List Row) (coef : Nat → Nat → K) (gaps : List (Nat × Nat)) (fc : List (List Nat)) (i : Nat)
    (s : Finset Nat) (p : Nat → V) :
    (∑ k ∈ s, coef (dns rows (gaps.getD i (0, 0)).1) k • p k) +
        ((fc.getD i []).map (fun j => ∑ k ∈ s, coef (dns rows j) k • p k)).sum =
      ∑ k ∈ s, ee rows coef gaps fc i k • p k := by
  unfold ee
  simp only [add_smul]
  rw [Finset.sum_add_distrib]
  congr 1
  generalize fc.getD i [] = l
  induction l with
  | nil => simp
  | cons a l ih =>
    simp only [List.map_cons, List.sum_cons, add_smul]
    rw [Finset.sum_add_distrib, ih]

theorem gfInverse_ok {inv : K → K} {n : Nat} {M N : Nat → Nat → K} (h : gfInverse inv n M = .ok N) :
    gaussJordan inv n M = some N := by
  unfold gfInverse at h
  split at h
  · cases h
  · cases hg : gaussJordan inv n M with
    | none => rw [hg] at h; cases h
    | some N' => rw [hg] at h; cases h; rfl

theorem densePart_zero (coef : Nat → K) (D : Nat) : densePart coef (fun _ => (0 : V)) D = 0 := by
  rw [densePart_eq]; simp

/-- Decoding after `BackfillGf128`, if the inverse is right. -/
theorem decode_gf_of [Nontrivial K] (hK : ∀ a : K, a + a = 0) (h2 : ∀ v : V, v + v = 0) {rows : List Row} {S : Nat}
    (h : RowsOk rows S) {t : Tri} (hi : Inv rows t)
    (hall : ∀ r < rows.length, r ∈ t.main.map Prod.fst ∨ r ∈ t.gap.map Prod.fst)
    (coef : Nat → Nat → K) (inv : K → K) (hinv : ∀ a : K, a ≠ 0 → a * inv a = 1) (D : Nat) (X : Nat → V)
    (hD : t.gap.length ≤ D) {fc : List (List Nat)} (hfc : fcInv rows t.main.reverse t.gap = .ok fc)
    {N : Nat → Nat → K} (hN : gaussJordan inv t.gap.length (ee rows coef t.gap fc) = some N)
    {r : Nat} (hr : r < rows.length) :
    let p2 := fun i => if i < t.gap.length then mulVec t.gap.length N (xx t.gap fc X) i else 0
    decode coef D (backfill rows t.main.reverse X (fun r => densePart (coef (dns rows r)) p2 D)) p2 rows[r] = X r := by
  obtain ⟨fc', f1, f2, f3⟩ := fcInv_ok h (revOk_of_inv hi) t.gap
  rw [f1] at hfc
  cases hfc
  have hs := fun i (hi : i < t.gap.length) => gaussJordan_solves hK inv hinv hN (xx t.gap fc X) hi
  apply decode_all h h2 hi hall coef D X _ f3 _ hr
  intro i hil
  have hd : ∀ d : Nat, densePart (coef d) (fun i => if i < t.gap.length then mulVec t.gap.length N (xx t.gap fc X) i else 0) D =
      ∑ k ∈ Finset.range t.gap.length, coef d k • mulVec t.gap.length N (xx t.gap fc X) k := by
    intro d
    rw [densePart_eq]
    have hsub : Finset.range t.gap.length ⊆ Finset.range D := Finset.range_subset_range.mpr (by omega)
    rw [← Finset.sum_subset hsub]
    · apply Finset.sum_congr rfl
      intro k hk
      rw [if_pos (Finset.mem_range.mp hk)]
    · intro k _ hk
      rw [if_neg (by simpa using hk), smul_zero]
  simp only [hd]
  rw [gap_eq, ← mulVec_eq]
  exact hs i hil

/-- Decoding after `BackfillGf128`. -/
theorem decode_gf [Nontrivial K] (hK : ∀ a : K, a + a = 0) (h2 : ∀ v : V, v + v = 0) {rows : List Row} {S : Nat}
    (h : RowsOk rows S) {t : Tri} (hi : Inv rows t)
    (hall : ∀ r < rows.length, r ∈ t.main.map Prod.fst ∨ r ∈ t.gap.map Prod.fst)
    (coef : Nat → Nat → K) (inv : K → K) (hinv : ∀ a : K, a ≠ 0 → a * inv a = 1) (D : Nat) (X : Nat → V)
    {out : (Nat → V) × (Nat → V)} (ho : backfillGf rows coef inv D t X = .ok out) {r : Nat} (hr : r < rows.length) :
    decode coef D out.1 out.2 rows[r] = X r := by
  unfold backfillGf at ho
  simp only at ho
  split at ho
  · cases ho
  · rename_i hD
    split at ho
    · rename_i h0
      cases ho
      have hz : (fun _ : Nat => (0 : V)) = fun r => densePart (coef (dns rows r)) (fun _ => (0 : V)) D := by
        funext r; rw [densePart_zero]
      have := decode_all h h2 hi hall coef D X (fun _ => 0) (fc := []) (by omega) (by omega) hr
      rw [← hz] at this
      exact this
    · obtain ⟨fc, f1, f2, f3⟩ := fcInv_ok h (revOk_of_inv hi) t.gap
      rw [f1] at ho
      change (gfInverse inv t.gap.length (ee rows coef t.gap fc)).bind _ = _ at ho
      cases hN : gfInverse inv t.gap.length (ee rows coef t.gap fc) with
      | error e => rw [hN] at ho; cases ho
      | ok N =>
        rw [hN] at ho
        cases ho
        exact decode_gf_of hK h2 h hi hall coef inv hinv D X (by omega) f1 (gfInverse_ok hN) hr

/-- Writing distinct positions. -/
theorem foldl_update (g : Nat) (γ : Nat → Nat) (f : Nat → V) (hγ : ∀ a < g, ∀ b < g, γ a = γ b → a = b) :
    let p := (List.range g).foldl (fun (p : Nat → V) i => Function.update p (γ i) (p (γ i) + f i)) (fun _ => (0 : V))
    (∀ i < g, p (γ i) = f i) ∧ ∀ c, (∀ i < g, γ i ≠ c) → p c = 0 := by
  induction g with
  | zero => simp
  | succ g ih =>
    simp only at ih ⊢
    rw [List.range_succ, List.foldl_append]
    simp only [List.foldl_cons, List.foldl_nil]
    obtain ⟨i1, i2⟩ := ih (fun a ha b hb => hγ a (by omega) b (by omega))
    have hnew : ∀ i < g, γ i ≠ γ g := fun i hi he => by
      have := hγ i (by omega) g (by omega) he
      omega
    constructor
    · intro i hi
      by_cases hig : i = g
      · subst hig
        rw [Function.update_self, i2 _ (fun j hj => hnew j hj), zero_add]
      · rw [Function.update_of_ne (hnew i (by omega)), i1 i (by omega)]
    · intro c hc
      rw [Function.update_of_ne (Ne.symm (hc g (by omega))), i2 c (fun i hi => hc i (by omega))]

/-- Columns of an invertible matrix are distinct. -/
theorem cols_distinct [Nontrivial K] (hK : ∀ a : K, a + a = 0) (inv : K → K) (hinv : ∀ a : K, a ≠ 0 → a * inv a = 1)
    {n : Nat} (f : Nat → Nat → K) (γ : Nat → Nat) {N : Nat → Nat → K}
    (h : gaussJordan inv n (fun i j => f i (γ j)) = some N) {a b : Nat} (ha : a < n) (hb : b < n) (hab : γ a = γ b) : a = b := by
  have hm := gaussJordan_mul hK inv hinv h
  have e1 := congrFun (congrFun hm ⟨a, ha⟩) ⟨a, ha⟩
  have e2 := congrFun (congrFun hm ⟨a, ha⟩) ⟨b, hb⟩
  rw [toMat_mul] at e1 e2
  simp only [hab] at e1
  simp only at e2
  rw [e1] at e2
  rw [Matrix.one_apply_eq] at e2
  apply Classical.byContradiction
  intro hne
  rw [Matrix.one_apply_ne (by simpa [Fin.ext_iff] using hne)] at e2
  exact one_ne_zero e2

/-- Decoding after `BackfillBinary`. -/
theorem decode_bin [Nontrivial K] (hK : ∀ a : K, a + a = 0) (hone : ∀ a : K, a ≠ 0 → a * a = 1) (h2 : ∀ v : V, v + v = 0)
    {rows : List Row} {S : Nat} (h : RowsOk rows S) {t : Tri} (hi : Inv rows t)
    (hall : ∀ r < rows.length, r ∈ t.main.map Prod.fst ∨ r ∈ t.gap.map Prod.fst)
    (coef : Nat → Nat → K) (D gMax : Nat)
    (hcomb : ∀ g ≤ gMax, ∀ cs ∈ combs D g, cs.length = g ∧ ∀ c ∈ cs, c < D) (X : Nat → V)
    {out : (Nat → V) × (Nat → V)} (ho : backfillBin rows coef D gMax t X = .ok out) {r : Nat} (hr : r < rows.length) :
    decode coef D out.1 out.2 rows[r] = X r := by
  unfold backfillBin at ho
  simp only at ho
  split at ho
  · cases ho
  · rename_i hgm
    split at ho
    · rename_i h0
      split at ho
      · cases ho
      cases ho
      have hz : (fun _ : Nat => (0 : V)) = fun r => densePart (coef (dns rows r)) (fun _ => (0 : V)) D := by
        funext r; rw [densePart_zero]
      have := decode_all h h2 hi hall coef D X (fun _ => 0) (fc := []) (by omega) (by omega) hr
      rw [← hz] at this
      exact this
    · obtain ⟨fc, f1, f2, f3⟩ := fcInv_ok h (revOk_of_inv hi) t.gap
      rw [f1] at ho
      change (match gapCols rows coef (combs D t.gap.length) t.gap fc with
        | none => _
        | some gc => _) = _ at ho
      cases hgc : gapCols rows coef (combs D t.gap.length) t.gap fc with
      | none => rw [hgc] at ho; cases ho
      | some gc =>
        rw [hgc] at ho
        simp only at ho
        cases hN : gaussJordan id t.gap.length (fun i j => ee rows coef t.gap fc i (gc.getD j 0)) with
        | none => rw [hN] at ho; cases ho
        | some N =>
          rw [hN] at ho
          simp only at ho
          split at ho
          · cases ho
          cases ho
          have hmem : gc ∈ combs D t.gap.length := List.mem_of_find?_eq_some hgc
          obtain ⟨hlen, hlt⟩ := hcomb _ (by omega) gc hmem
          have hγlt : ∀ j < t.gap.length, gc.getD j 0 < D := by
            intro j hj
            rw [List.getD_eq_getElem _ _ (by omega)]
            exact hlt _ (List.getElem_mem _)
          have hγinj : ∀ a < t.gap.length, ∀ b < t.gap.length, gc.getD a 0 = gc.getD b 0 → a = b :=
            fun a ha b hb hab => cols_distinct hK id hone _ (fun j => gc.getD j 0) hN ha hb hab
          have hs := fun i (hi : i < t.gap.length) => gaussJordan_solves hK id hone hN (xx t.gap fc X) hi
          obtain ⟨u1, u2⟩ := foldl_update t.gap.length (fun j => gc.getD j 0)
            (mulVec t.gap.length N (xx t.gap fc X)) hγinj
          simp only at u1 u2 ⊢
          generalize (List.range t.gap.length).foldl (fun (p : Nat → V) i =>
            Function.update p (gc.getD i 0) (p (gc.getD i 0) + mulVec t.gap.length N (xx t.gap fc X) i)) (fun _ => 0) = p2 at u1 u2 ⊢
          have hd : ∀ d : Nat, densePart (coef d) p2 D =
              ∑ j ∈ Finset.range t.gap.length, coef d (gc.getD j 0) • p2 (gc.getD j 0) := by
            intro d
            rw [densePart_eq]
            have himg : ∑ j ∈ Finset.range t.gap.length, coef d (gc.getD j 0) • p2 (gc.getD j 0) =
                ∑ k ∈ (Finset.range t.gap.length).image (fun j => gc.getD j 0), coef d k • p2 k := by
              rw [Finset.sum_image]
              intro a ha b hb hab
              exact hγinj a (by simpa using ha) b (by simpa using hb) hab
            rw [himg]
            symm
            apply Finset.sum_subset
            · intro k hk
              obtain ⟨j, hj, rfl⟩ := Finset.mem_image.mp hk
              exact Finset.mem_range.mpr (hγlt j (Finset.mem_range.mp hj))
            · intro k _ hk
              rw [u2 k, smul_zero]
              intro j hj he
              exact hk (Finset.mem_image.mpr ⟨j, Finset.mem_range.mpr hj, he⟩)
          have hdl : ∀ d : Nat, ((List.range t.gap.length).map (fun j => coef d (gc.getD j 0) • p2 (gc.getD j 0))).sum =
              densePart (coef d) p2 D := by
            intro d
            rw [hd]
            exact densePart_eq (fun j => coef d (gc.getD j 0)) (fun j => p2 (gc.getD j 0)) _
          simp only [hdl]
          apply decode_all h h2 hi hall coef D X _ f3 _ hr
          intro i hil
          simp only [hd]
          have hg := gap_eq rows (fun d j => coef d (gc.getD j 0)) t.gap fc i (Finset.range t.gap.length)
            (fun j => p2 (gc.getD j 0))
          rw [hg]
          have hee : ∀ k ∈ Finset.range t.gap.length,
              ee rows (fun d j => coef d (gc.getD j 0)) t.gap fc i k • p2 (gc.getD k 0) =
              ee rows coef t.gap fc i (gc.getD k 0) • mulVec t.gap.length N (xx t.gap fc X) k := by
            intro k hk
            rw [u1 k (Finset.mem_range.mp hk)]
            rfl
          rw [Finset.sum_congr rfl hee]
          have := hs i hil
          rw [mulVec_eq] at this
          exact this

end

end Psi.Okvs
