import Verif.Common.Spec

/-! # Lemmas about the shared specification -/

namespace Psi.Spec
variable {α : Type}

theorem find_unique [DecidableEq α] (l : List (α × Nat)) (hd : (l.map Prod.fst).Nodup) (x : α)
    (d : Nat) : (l.find? (fun y => y.1 = x)).map Prod.snd = some d ↔ (x, d) ∈ l := by
  induction l with
  | nil => simp
  | cons y l ih =>
    rw [List.map_cons, List.nodup_cons] at hd
    rw [List.find?_cons]
    by_cases hy : y.1 = x
    · simp only [hy, decide_true, Option.map_some, Option.some.injEq, List.mem_cons]
      constructor
      · rintro rfl; left; rw [← hy]
      · rintro (h | h)
        · rw [← h]
        · exact absurd (List.mem_map_of_mem (f := Prod.fst) h) (by rw [← hy]; exact hd.1)
    · simp only [hy, decide_false, ih hd.2, List.mem_cons]
      constructor
      · exact Or.inr
      · rintro (h | h)
        · exact absurd (by rw [← h]) hy
        · exact h

theorem sum_common [DecidableEq α] (own peer : List (α × Nat)) (ho : (own.map Prod.fst).Nodup)
    (hp : (peer.map Prod.fst).Nodup) :
    (own.map (fun x => ((peer.find? (fun y => y.1 = x.1)).map (fun y => y.2 + 1)).getD 0)).sum =
      peerCommonRows own peer := by
  unfold peerCommonRows
  induction peer with
  | nil =>
    clear ho hp
    induction own with
    | nil => rfl
    | cons o own ih => simpa using ih
  | cons y peer ih =>
    rw [List.map_cons, List.nodup_cons] at hp
    have key : ∀ own : List (α × Nat), (own.map Prod.fst).Nodup →
        (own.map (fun x => (((y :: peer).find? (fun z => z.1 = x.1)).map (fun y => y.2 + 1)).getD 0)).sum =
        (if y.1 ∈ own.map Prod.fst then y.2 + 1 else 0) +
        (own.map (fun x => ((peer.find? (fun z => z.1 = x.1)).map (fun y => y.2 + 1)).getD 0)).sum := by
      intro own
      induction own with
      | nil => simp
      | cons o own iho =>
        intro hn
        rw [List.map_cons, List.nodup_cons] at hn
        rw [List.map_cons, List.sum_cons, iho hn.2, List.map_cons (l := own) (f := fun x => ((peer.find? (fun z => z.1 = x.1)).map (fun y => y.2 + 1)).getD 0),
          List.sum_cons]
        by_cases hy : y.1 = o.1
        · have hno : ¬ y.1 ∈ own.map Prod.fst := by rw [hy]; exact hn.1
          have hfind : peer.find? (fun z => z.1 = o.1) = none := by
            rw [List.find?_eq_none]
            intro z hz
            have : z.1 ≠ o.1 := by
              intro he
              exact hp.1 (by rw [hy, ← he]; exact List.mem_map_of_mem hz)
            simpa using this
          rw [if_neg hno, hfind, if_pos (by simp [hy]), List.find?_cons]
          simp [hy]
        · have h2 : (y.1 ∈ (o :: own).map Prod.fst) ↔ y.1 ∈ own.map Prod.fst := by
            simp [hy]
          simp only [List.find?_cons, hy, decide_false]
          simp only [h2]
          omega
    rw [key own ho, ih hp.2, List.filter_cons]
    by_cases hm : y.1 ∈ own.map Prod.fst
    · rw [if_pos hm, if_pos (by simpa using hm), List.map_cons, List.sum_cons]
    · rw [if_neg hm, if_neg (by simpa using hm), Nat.zero_add]

theorem mem_resultLines [DecidableEq α] (own peer : List (α × Nat))
    (hp : (peer.map Prod.fst).Nodup) (i d : Nat) :
    (i, d) ∈ resultLines own peer ↔ ∃ x e, own[i]? = some (x, e) ∧ (x, d) ∈ peer := by
  unfold resultLines
  rw [List.mem_filterMap]
  constructor
  · rintro ⟨⟨⟨x, e⟩, j⟩, hm, h⟩
    obtain ⟨y, hy, he⟩ := Option.map_eq_some_iff.mp h
    simp only [Prod.mk.injEq] at he
    obtain ⟨rfl, rfl⟩ := he
    refine ⟨x, e, List.mem_zipIdx_iff_getElem?.mp hm, ?_⟩
    exact (find_unique peer hp x y.2).mp (by rw [hy]; rfl)
  · rintro ⟨x, e, hg, hm⟩
    refine ⟨((x, e), i), List.mem_zipIdx_iff_getElem?.mpr hg, ?_⟩
    have := congrArg (Option.map (fun d => (i, d))) ((find_unique peer hp x d).mpr hm)
    rw [Option.map_map] at this
    exact this

theorem resultLines_nodup [DecidableEq α] (own peer : List (α × Nat)) :
    ((resultLines own peer).map Prod.fst).Nodup := by
  have h : ∀ k (own : List (α × Nat)), ((own.zipIdx k).filterMap (fun x =>
      (peer.find? (fun y => y.1 = x.1.1)).map (fun y => (x.2, y.2)))).map Prod.fst =
      ((own.zipIdx k).filter (fun x => (peer.find? (fun y => y.1 = x.1.1)).isSome)).map Prod.snd := by
    intro k own
    induction own generalizing k with
    | nil => rfl
    | cons x own ih =>
      rw [List.zipIdx_cons, List.filterMap_cons, List.filter_cons]
      cases hf : peer.find? (fun y => y.1 = x.1) with
      | none => simpa [hf] using ih (k + 1)
      | some y => simpa [hf] using ih (k + 1)
  unfold resultLines
  rw [h 0 own]
  apply List.Nodup.sublist (List.filter_sublist.map _)
  rw [List.zipIdx_map_snd]
  exact List.nodup_range'

/-- The lines, in any order, are the exact intersection. -/
theorem exact_of_lines [DecidableEq α] (own peer : List (α × Nat)) (w : List (Nat × Nat))
    (hp : (peer.map Prod.fst).Nodup) (hw : w.Perm (resultLines own peer)) :
    ExactIndex own peer w where
  nodup := ((hw.map Prod.fst).nodup_iff).mpr (resultLines_nodup own peer)
  mem := fun i d => (hw.mem_iff).trans (mem_resultLines own peer hp i d)

end Psi.Spec
