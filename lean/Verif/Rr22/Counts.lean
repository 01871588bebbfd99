import Verif.Rr22.IntersectProps
import Verif.Spiral.ArithModel

/-!
# RR22: the counts that come back to the sender

Models how the sender puts the counts of the receiver into a vector (`psi/algorithm/rr22/rr22_utils.cc:260-272`).
`senderLines` of `Verif/Rr22/Intersect.lean` looks them up; here is the loop itself, which writes to the positions that the
receiver names.
-/

namespace Psi.Rr22
open Psi.Spiral (Res)

/-- The loop `items_cnt_v[item.first] = item.second`: `rr22_utils.cc:268-271`.  A position behind the end is written
unchecked. -/
def writeCounts : List Nat → List (Nat × Nat) → Res (List Nat)
  | v, [] => .ok v
  | v, e :: l => if e.1 < v.length then writeCounts (v.set e.1 e.2) l else .undefined

/-- What the sender returns for the message with the positions and the one with the counts, in the order in which the table is
gone through: `rr22_utils.cc:260-272`. -/
def senderResult (positions : List Nat) (counts : List (Nat × Nat)) : Res (List (Nat × Nat)) :=
  (writeCounts (List.replicate positions.length 0) counts).bind fun v => .ok (positions.zip v)

theorem writeCounts_ok : ∀ (l : List (Nat × Nat)) (v : List Nat), (l.map Prod.fst).Nodup → (∀ e ∈ l, e.1 < v.length) →
    ∃ v', writeCounts v l = .ok v' ∧ v'.length = v.length ∧
      ∀ j, v'.getD j 0 = ((l.find? fun x => x.1 = j).map Prod.snd).getD (v.getD j 0)
  | [], v, _, _ => ⟨v, rfl, rfl, fun j => rfl⟩
  | e :: l, v, hn, hl => by
    rw [List.map_cons, List.nodup_cons] at hn
    obtain ⟨v', h1, h2, h3⟩ := writeCounts_ok l (v.set e.1 e.2) hn.2
      (fun x hx => by rw [List.length_set]; exact hl x (by simp [hx]))
    refine ⟨v', ?_, by rw [h2, List.length_set], fun j => ?_⟩
    · rw [writeCounts, if_pos (hl e (by simp)), h1]
    · rw [h3 j, List.find?_cons]
      by_cases hj : e.1 = j
      · have hnone : (l.find? fun x => x.1 = j) = none := by
          rw [List.find?_eq_none]
          intro x hx
          simp only [decide_eq_true_eq]
          rintro rfl
          exact hn.1 (hj ▸ List.mem_map_of_mem hx)
        have hlt := hl e (by simp)
        rw [hnone]
        subst hj
        simp [List.getD_eq_getElem?_getD, hlt]
      · have : (v.set e.1 e.2).getD j 0 = v.getD j 0 := by
          simp [List.getD_eq_getElem?_getD, hj]
        rw [this]
        simp [hj]

theorem cntMap_keys (dups : List Nat) : ((cntMap dups).map Prod.fst).Nodup := by
  have h : ((dups.zipIdx).map Prod.snd).Nodup := by rw [List.zipIdx_map_snd]; exact List.nodup_range'
  refine h.sublist ?_
  unfold cntMap
  generalize dups.zipIdx = l
  induction l with
  | nil => simp
  | cons x l ih =>
    by_cases hx : 0 < x.1
    · simpa [List.filterMap_cons, hx] using ih
    · simpa [List.filterMap_cons, hx] using ih.cons x.2

theorem cntMap_lt {dups : List Nat} {e : Nat × Nat} (h : e ∈ cntMap dups) : e.1 < dups.length := by
  unfold cntMap at h
  obtain ⟨x, h1, h2⟩ := List.mem_filterMap.1 h
  have := List.mem_zipIdx h1
  split at h2
  · cases h2; simp only; omega
  · cases h2

theorem find_of_mem {l : List (Nat × Nat)} (hn : (l.map Prod.fst).Nodup) {e : Nat × Nat} (he : e ∈ l) :
    (l.find? fun x => x.1 = e.1) = some e := by
  induction l with
  | nil => simp at he
  | cons x l ih =>
    rw [List.map_cons, List.nodup_cons] at hn
    rcases List.mem_cons.1 he with rfl | he
    · simp
    · have hne : x.1 ≠ e.1 := fun h => hn.1 (h ▸ List.mem_map_of_mem he)
      simpa [List.find?_cons, hne] using ih hn.2 he

theorem find_perm {l l' : List (Nat × Nat)} (hp : l.Perm l') (hn : (l'.map Prod.fst).Nodup) (j : Nat) :
    (l.find? fun x => x.1 = j) = l'.find? fun x => x.1 = j := by
  have hn' : (l.map Prod.fst).Nodup := (hp.map Prod.fst).nodup_iff.2 hn
  cases h : l.find? fun x => x.1 = j with
  | none =>
    symm
    rw [List.find?_eq_none] at h ⊢
    exact fun x hx => h x (hp.mem_iff.2 hx)
  | some e =>
    have hj : e.1 = j := by simpa using List.find?_some h
    subst hj
    exact (find_of_mem hn (hp.mem_iff.1 (List.mem_of_find?_eq_some h))).symm

/-! ## The property -/

/-- **C24.** The lines the sender gets are those of `senderLines`, in whatever order the counts come. -/
theorem C24_sender_counts {w : List Match} {counts : List (Nat × Nat)} (hp : counts.Perm (cntMap (w.map (·.selfCnt)))) :
    senderResult (w.map (·.peer)) counts = .ok (senderLines true w) := by
  have hn := cntMap_keys (w.map (·.selfCnt))
  obtain ⟨v, h1, h2, h3⟩ := writeCounts_ok counts (List.replicate (w.map (·.peer)).length 0)
    ((hp.map Prod.fst).nodup_iff.2 hn) (fun e he => by simpa using cntMap_lt (hp.mem_iff.1 he))
  unfold senderResult
  rw [h1, senderLines_eq]
  show Res.ok _ = Res.ok _
  congr 1
  have hv : v.length = w.length := by rw [h2]; simp
  apply List.ext_getElem
  · simp [hv]
  · intro i hi1 hi2
    have hi : i < w.length := by simpa using hi2
    have e := h3 i
    have z : (List.replicate (w.map (·.peer)).length 0).getD i 0 = 0 := by
      simp [List.getD_eq_getElem?_getD, hi]
    rw [z, find_perm hp hn] at e
    have e2 := cntAt_cntMap (w.map (·.selfCnt)) i
    unfold cntAt at e2
    rw [e2, List.getD_eq_getElem?_getD, List.getElem?_eq_getElem (by omega), List.getD_eq_getElem?_getD,
      List.getElem?_map, List.getElem?_eq_getElem hi] at e
    simp only [Option.getD_some, Option.map_some] at e
    simp [e]

/-- **C24 (limit).** A receiver that names a position behind the end of the result makes the sender write there. -/
theorem C24_count_outside {positions : List Nat} {counts : List (Nat × Nat)} {e : Nat × Nat} (he : e ∈ counts)
    (ho : positions.length ≤ e.1) : senderResult positions counts = .undefined := by
  have key : ∀ (l : List (Nat × Nat)) (v : List Nat), e ∈ l → v.length ≤ e.1 → writeCounts v l = .undefined := by
    intro l
    induction l with
    | nil => intro v h _; simp at h
    | cons x l ih =>
      intro v h hv
      rw [writeCounts]
      split
      · next hx =>
        rcases List.mem_cons.1 h with rfl | h
        · omega
        · exact ih _ h (by rw [List.length_set]; exact hv)
      · rfl
  unfold senderResult
  rw [key _ _ he (by simpa using ho)]
  rfl

example : senderResult [4, 7] [(2, 1)] = .undefined := C24_count_outside (e := (2, 1)) (by decide) (by decide)

example := C24_sender_counts (w := [⟨0, 3, 2, 0⟩, ⟨2, 4, 0, 1⟩]) (counts := [(1, 1)]) (by decide)

end Psi.Rr22
