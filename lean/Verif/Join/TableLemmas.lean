import Verif.Join.MergeLemmas
import Verif.Join.Spec
import Mathlib.Data.List.Sort

/-! Helper lemmas relating key records, groups of rows and the specification. -/

namespace Psi.Join
open Spec
variable {RA RB K : Type} [LinearOrder K]

/-- Cut rows into groups along the records. -/
def cut : List (KeyRec K) → List RA → List (List RA)
  | [], _ => []
  | r :: rs, rows => rows.take (r.dup + 1) :: cut rs (rows.drop (r.dup + 1))

omit [LinearOrder K] in
theorem cut_spec (key : RA → K) (rs : List (KeyRec K)) (rows : List RA) (pos : Nat)
    (he : expand rs = rows.map key) (hs : StartsFrom pos rs) :
    RecsFor pos rs (cut rs rows) ∧ (cut rs rows).flatten = rows := by
  induction rs generalizing rows pos with
  | nil =>
    have : rows = [] := by simpa using he.symm
    subst this
    exact ⟨trivial, rfl⟩
  | cons r rs ih =>
    rw [expand_cons] at he
    have hlen : r.dup + 1 ≤ rows.length := by
      have := congrArg List.length he
      simp at this; omega
    have he' : expand rs = (rows.drop (r.dup + 1)).map key := by
      have := congrArg (List.drop (r.dup + 1)) he
      rw [List.drop_left' (by simp), ← List.map_drop] at this
      exact this
    obtain ⟨h1, h2⟩ := ih (rows.drop (r.dup + 1)) (pos + r.dup + 1) he' hs.2
    refine ⟨⟨hs.1, by simp; omega, ?_⟩, ?_⟩
    · have : pos + (rows.take (r.dup + 1)).length = pos + r.dup + 1 := by simp; omega
      rw [this]; exact h1
    · simp only [cut, List.flatten_cons, h2, List.take_append_drop]

/-- Marks determined by a counting function. -/
def marksOf (f : K → Nat) (rs : List (KeyRec K)) : List (Option Nat) :=
  rs.map fun r => if f r.key = 0 then none else some (f r.key - 1)

omit [LinearOrder K] in
theorem cut_head (key : RA → K) (r : KeyRec K) (rs : List (KeyRec K)) (rows : List RA)
    (he : expand (r :: rs) = rows.map key) :
    (∀ a ∈ rows.take (r.dup + 1), key a = r.key) ∧ (rows.take (r.dup + 1)).length = r.dup + 1 ∧
    expand rs = (rows.drop (r.dup + 1)).map key := by
  rw [expand_cons] at he
  have hlen : r.dup + 1 ≤ rows.length := by
    have := congrArg List.length he
    simp at this; omega
  refine ⟨?_, by simp; omega, ?_⟩
  · have h := congrArg (List.take (r.dup + 1)) he
    rw [List.take_left' (by simp), ← List.map_take] at h
    intro a ha
    have : key a ∈ List.replicate (r.dup + 1) r.key := by
      rw [h]; exact List.mem_map_of_mem ha
    exact (List.mem_replicate.mp this).2
  · have := congrArg (List.drop (r.dup + 1)) he
    rw [List.drop_left' (by simp), ← List.map_drop] at this
    exact this

omit [LinearOrder K] in
theorem rows_spec (f : K → Nat) (key : RA → K) (rs : List (KeyRec K)) (rows : List RA)
    (he : expand rs = rows.map key) :
    interRows (cut rs rows) (marksOf f rs) = rows.flatMap (fun a => List.replicate (f (key a)) a) ∧
    exceptRows (cut rs rows) (marksOf f rs) = rows.filter (fun a => f (key a) = 0) ∧
    selfCount (cut rs rows) (marksOf f rs) = rows.countP (fun a => f (key a) ≠ 0) ∧
    (infosOf rs (marksOf f rs)).length = (rs.map (·.key)).countP (fun k => f k ≠ 0) ∧
    peerCount (marksOf f rs) = ((rs.map (·.key)).map f).sum := by
  induction rs generalizing rows with
  | nil =>
    have : rows = [] := by simpa using he.symm
    subst this
    simp [cut, marksOf, interRows, exceptRows, selfCount, infosOf, peerCount]
  | cons r rs ih =>
    obtain ⟨hk, hlen, he'⟩ := cut_head key r rs rows he
    obtain ⟨h1, h2, h3, h4, h5⟩ := ih _ he'
    have hsplit : rows = rows.take (r.dup + 1) ++ rows.drop (r.dup + 1) := by simp
    have hflat : (rows.take (r.dup + 1)).flatMap (fun a => List.replicate (f (key a)) a)
        = (rows.take (r.dup + 1)).flatMap (fun a => List.replicate (f r.key) a) := by
      apply List.flatMap_congr
      intro a ha; rw [hk a ha]
    by_cases hf : f r.key = 0
    · have hm : marksOf f (r :: rs) = none :: marksOf f rs := by simp [marksOf, hf]
      rw [hm]
      simp only [cut, interRows, exceptRows, selfCount, infosOf, peerCount, h1, h2, h3, h4, h5]
      refine ⟨?_, ?_, ?_, ?_, ?_⟩
      · conv_rhs => rw [hsplit]
        rw [List.flatMap_append, hflat, hf]; simp
      · conv_rhs => rw [hsplit]
        rw [List.filter_append]
        congr 1
        symm
        rw [List.filter_eq_self]
        intro a ha; simp [hk a ha, hf]
      · conv_rhs => rw [hsplit]
        rw [List.countP_append]
        have : List.countP (fun a => decide (f (key a) ≠ 0)) (rows.take (r.dup + 1)) = 0 := by
          rw [List.countP_eq_zero]
          intro a ha; simp [hk a ha, hf]
        omega
      · simp [hf]
      · simp [hf]
    · have hm : marksOf f (r :: rs) = some (f r.key - 1) :: marksOf f rs := by simp [marksOf, hf]
      have hf1 : f r.key - 1 + 1 = f r.key := by omega
      rw [hm]
      simp only [cut, interRows, exceptRows, selfCount, infosOf, peerCount, h1, h2, h3, h5, hf1]
      refine ⟨?_, ?_, ?_, ?_, ?_⟩
      · conv_rhs => rw [hsplit]
        rw [List.flatMap_append, hflat]
      · conv_rhs => rw [hsplit]
        rw [List.filter_append]
        have : (rows.take (r.dup + 1)).filter (fun a => decide (f (key a) = 0)) = [] := by
          rw [List.filter_eq_nil_iff]
          intro a ha; simp [hk a ha, hf]
        rw [this]; simp
      · conv_rhs => rw [hsplit]
        rw [List.countP_append]
        have : List.countP (fun a => decide (f (key a) ≠ 0)) (rows.take (r.dup + 1))
            = (rows.take (r.dup + 1)).length := by
          rw [List.countP_eq_length]
          intro a ha; simp [hk a ha, hf]
        omega
      · simp [hf, h4]
      · simp

/-- Two index lists, both strictly increasing, with the same members are equal. -/
theorem strict_ext (I J : List (Nat × Nat)) (hI : I.Pairwise (fun a b => a.1 < b.1))
    (hJ : J.Pairwise (fun a b => a.1 < b.1)) (h : ∀ x, x ∈ I ↔ x ∈ J) : I = J := by
  have hnI : I.Nodup := hI.imp (fun hab he => by rw [he] at hab; omega)
  have hnJ : J.Nodup := hJ.imp (fun hab he => by rw [he] at hab; omega)
  have hp : I.Perm J := (List.perm_ext_iff_of_nodup hnI hnJ).mpr h
  exact hp.eq_of_pairwise (fun a b _ _ h1 h2 => by omega) hI hJ

theorem mem_idxOf (k : Nat) (ms : List (Option Nat)) (i c : Nat) :
    (i, c) ∈ idxOf k ms ↔ ∃ j, ∃ h : j < ms.length, i = k + j ∧ ms[j] = some c := by
  induction ms generalizing k with
  | nil => simp [idxOf]
  | cons m ms ih =>
    have hsucc : (∃ j, ∃ h : j < (m :: ms).length, i = k + j ∧ (m :: ms)[j] = some c) ↔
        (i = k ∧ m = some c) ∨ ∃ j, ∃ h : j < ms.length, i = (k + 1) + j ∧ ms[j] = some c := by
      constructor
      · rintro ⟨j, hj, h1, h2⟩
        cases j with
        | zero => left; exact ⟨by omega, by simpa using h2⟩
        | succ j => right; exact ⟨j, by simpa using hj, by omega, by simpa using h2⟩
      · rintro (⟨h1, h2⟩ | ⟨j, hj, h1, h2⟩)
        · exact ⟨0, by simp, by omega, by simpa using h2⟩
        · exact ⟨j + 1, by simpa using hj, by omega, by simpa using h2⟩
    rw [hsucc, ← ih]
    cases m with
    | none => simp [idxOf]
    | some c' =>
      simp only [idxOf, List.mem_cons, Prod.mk.injEq, Option.some.injEq]
      constructor
      · rintro (⟨rfl, rfl⟩ | h)
        · exact Or.inl ⟨rfl, rfl⟩
        · exact Or.inr h
      · rintro (⟨rfl, rfl⟩ | h)
        · exact Or.inl ⟨rfl, rfl⟩
        · exact Or.inr h

theorem sortIndex_perm (idx : List (Nat × Nat)) : (sortIndex idx).Perm idx :=
  List.mergeSort_perm _ _

theorem sortIndex_sorted (idx : List (Nat × Nat)) :
    (sortIndex idx).Pairwise (fun a b => a.1 ≤ b.1) := by
  have := List.pairwise_mergeSort (le := fun a b : Nat × Nat => decide (a.1 ≤ b.1))
    (fun a b c h1 h2 => by simp at *; omega) (fun a b => by simp; omega) idx
  exact this.imp (by simp)

theorem sortIndex_strict (idx : List (Nat × Nat)) (h : (idx.map Prod.fst).Nodup) :
    (sortIndex idx).Pairwise (fun a b => a.1 < b.1) := by
  have h1 := sortIndex_sorted idx
  have h2 : ((sortIndex idx).map Prod.fst).Nodup :=
    ((sortIndex_perm idx).map _).nodup_iff.mpr h
  rw [List.Nodup, List.pairwise_map] at h2
  exact (h1.and h2).imp (fun ⟨a, b⟩ => by omega)

theorem lawful_sort (rs : List (KeyRec K)) (keyB : RB → K) (B : List RB) (idx : List (Nat × Nat))
    (h : LawfulIndex (rs.map (·.key)) keyB B idx) :
    sortIndex idx = idxOf 0 (marksOf (cnt keyB B) rs) := by
  apply strict_ext _ _ (sortIndex_strict idx h.nodup) (idxOf_strict _ _)
  rintro ⟨i, c⟩
  rw [(sortIndex_perm idx).mem_iff, h.mem, mem_idxOf]
  constructor
  · rintro ⟨hi, hc⟩
    simp only [List.length_map] at hi
    refine ⟨i, by simpa [marksOf] using hi, by omega, ?_⟩
    simp only [List.getElem_map] at hc
    simp [marksOf, hc]
  · rintro ⟨j, hj, h1, h2⟩
    simp only [marksOf, List.length_map] at hj
    have hij : i = j := by omega
    subst hij
    refine ⟨by simpa using hj, ?_⟩
    simp only [marksOf, List.getElem_map] at h2 ⊢
    split at h2
    · simp at h2
    · simp at h2; omega

/-- The order used by the table sort. -/
abbrev leK (a b : K) : Bool := decide (a ≤ b)

theorem sortTable_perm (key : RA → K) (A : List RA) : (sortTable leK key A).Perm A :=
  List.mergeSort_perm _ _

theorem sortTable_sorted (key : RA → K) (A : List RA) :
    ((sortTable leK key A).map key).Pairwise (· ≤ ·) := by
  rw [List.pairwise_map]
  have := List.pairwise_mergeSort (le := fun a b : RA => leK (key a) (key b))
    (fun a b c h1 h2 => by simp [leK] at *; exact le_trans h1 h2)
    (fun a b => by simp [leK]; exact le_total _ _) A
  exact this.imp (by simp [leK])

/-- The complete result of the join step for one party, for a table file with body `rows`. -/
theorem dealResult_rows (t : JoinType) (isLeft : Bool) (header : RA) (keyA : RA → K) (rows : List RA)
    (keyB : RB → K) (B : List RB) (rs : List (KeyRec K))
    (he : expand rs = rows.map keyA) (hst : StartsFrom 0 rs)
    (batches : List (List (KeyRec K))) (hb : ∀ b ∈ batches, b ≠ []) (hfl : batches.flatten = rs)
    (idx : List (Nat × Nat)) (hidx : LawfulIndex (rs.map (·.key)) keyB B idx) :
    dealResult t isLeft header rows batches (sortIndex idx) =
      .ok (⟨rows.countP (fun a => cnt keyB B (keyA a) ≠ 0),
            ((rs.map (·.key)).map (cnt keyB B)).sum, rows.length,
            (rows.flatMap (fun a => List.replicate (cnt keyB B (keyA a)) a)).length,
            (rs.map (·.key)).countP (fun k => cnt keyB B k ≠ 0)⟩,
           (Dumper.make (interOn t) (exceptOn t isLeft)).add
            (header :: rows.flatMap (fun a => List.replicate (cnt keyB B (keyA a)) a))
            (header :: rows.filter (fun a => cnt keyB B (keyA a) = 0))) := by
  obtain ⟨h1, h2⟩ := cut_spec keyA rs rows 0 he hst
  obtain ⟨r1, r2, r3, r4, r5⟩ := rows_spec (cnt keyB B) keyA rs rows he
  have := applyPeerDupCnt_spec header rs (cut rs rows) (marksOf (cnt keyB B) rs)
    h1 (by simp [marksOf]) batches hb hfl (Dumper.make (interOn t) (exceptOn t isLeft))
  rw [h2, r1, r2, r3, r4, r5] at this
  unfold dealResult
  rw [lawful_sort rs keyB B idx hidx, this]
  simp only [Dumper.make, Nat.zero_add]

/-- The same for a key-sorted table. -/
theorem dealResult_spec (t : JoinType) (isLeft : Bool) (header : RA) (keyA : RA → K) (A : List RA)
    (keyB : RB → K) (B : List RB) (rs : List (KeyRec K))
    (he : expand rs = (sortTable leK keyA A).map keyA) (hst : StartsFrom 0 rs)
    (batches : List (List (KeyRec K))) (hb : ∀ b ∈ batches, b ≠ []) (hfl : batches.flatten = rs)
    (idx : List (Nat × Nat)) (hidx : LawfulIndex (rs.map (·.key)) keyB B idx) :
    finalizeStat t isLeft header (sortTable leK keyA A) batches idx =
      .ok (⟨A.countP (fun a => cnt keyB B (keyA a) ≠ 0),
            ((rs.map (·.key)).map (cnt keyB B)).sum, A.length,
            ((sortTable leK keyA A).flatMap
              (fun a => List.replicate (cnt keyB B (keyA a)) a)).length,
            (rs.map (·.key)).countP (fun k => cnt keyB B k ≠ 0)⟩,
           (Dumper.make (interOn t) (exceptOn t isLeft)).add
            (header :: (sortTable leK keyA A).flatMap
              (fun a => List.replicate (cnt keyB B (keyA a)) a))
            (header :: (sortTable leK keyA A).filter (fun a => cnt keyB B (keyA a) = 0))) := by
  unfold finalizeStat
  rw [dealResult_rows t isLeft header keyA _ keyB B rs he hst batches hb hfl idx hidx,
    (sortTable_perm keyA A).countP_eq, (sortTable_perm keyA A).length_eq]

end Psi.Join
