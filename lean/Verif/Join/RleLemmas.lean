import Verif.Join.Model
import Mathlib.Order.Defs.LinearOrder
import Mathlib.Tactic.Common
import Mathlib.Data.List.Chain

/-! Helper lemmas about the streaming key grouping (`rleItem`, `rleBatch`, `rleRun`). -/

namespace Psi.Join
variable {K : Type} [DecidableEq K]

/-- Rows denoted by a list of key records. -/
def expand (rs : List (KeyRec K)) : List K := rs.flatMap fun r => List.replicate (r.dup + 1) r.key

/-- Records start one after the other from row `n`. -/
def StartsFrom : Nat → List (KeyRec K) → Prop
  | _, [] => True
  | n, r :: rs => r.start = n ∧ StartsFrom (n + r.dup + 1) rs

/-- The record that would be written for the current run. -/
def Rle.cur (s : Rle K) : KeyRec K := ⟨s.curKey, s.curStart, s.curDup⟩

omit [DecidableEq K] in
@[simp] theorem expand_nil : expand ([] : List (KeyRec K)) = [] := rfl
omit [DecidableEq K] in
@[simp] theorem expand_cons (r : KeyRec K) (rs) :
    expand (r :: rs) = List.replicate (r.dup + 1) r.key ++ expand rs := rfl
omit [DecidableEq K] in
@[simp] theorem expand_append (a b : List (KeyRec K)) : expand (a ++ b) = expand a ++ expand b := by
  simp [expand]

theorem rleRun_eq_batch (s : Rle K) (bs : List (List K)) (h : ∀ b ∈ bs, b ≠ []) :
    rleRun s bs = rleBatch s bs.flatten := by
  induction bs generalizing s with
  | nil => rfl
  | cons b bs ih =>
    cases b with
    | nil => exact absurd rfl (h [] (by simp))
    | cons k ks =>
      have happ : ∀ (l1 l2 : List K) (s : Rle K), rleBatch s (l1 ++ l2) =
          ((rleBatch (rleBatch s l1).1 l2).1, (rleBatch s l1).2 ++ (rleBatch (rleBatch s l1).1 l2).2) := by
        intro l1 l2
        induction l1 with
        | nil => intro s; simp [rleBatch]
        | cons a l ih => intro s; simp [rleBatch, ih]
      rw [rleRun, List.flatten_cons, happ]
      simp only [ih _ (fun b hb => h b (by simp [hb]))]

/-- Everything the grouping guarantees, from a state in the middle of a run. -/
theorem rleBatch_spec (ks : List K) (s : Rle K) (h0 : 0 < s.tableIndex)
    (hs : s.curStart + s.curDup + 1 = s.tableIndex) :
    let r := rleBatch s ks
    expand (r.2 ++ [r.1.cur]) = List.replicate (s.curDup + 1) s.curKey ++ ks ∧
    StartsFrom s.curStart (r.2 ++ [r.1.cur]) ∧
    (r.2 ++ [r.1.cur]).head?.map (·.key) = some s.curKey ∧
    List.IsChain (fun a b : KeyRec K => a.key ≠ b.key) (r.2 ++ [r.1.cur]) := by
  induction ks generalizing s with
  | nil => simp [rleBatch, Rle.cur, StartsFrom]
  | cons k ks ih =>
    have hne : s.tableIndex ≠ 0 := by omega
    by_cases hk : s.curKey = k
    · have := ih { s with curDup := s.curDup + 1, tableIndex := s.tableIndex + 1 } (by simp)
        (by simp; omega)
      simp only [rleBatch, rleItem, hne, hk, ne_eq, not_true_eq_false, if_false] at this ⊢
      subst hk
      simp only [List.nil_append]
      obtain ⟨h1, h2, h3, h4⟩ := this
      refine ⟨?_, h2, h3, h4⟩
      rw [h1]
      have : List.replicate (s.curDup + 1 + 1) s.curKey
          = List.replicate (s.curDup + 1) s.curKey ++ [s.curKey] := List.replicate_succ'
      simp [this]
    · have := ih ⟨s.tableIndex + 1, k, s.tableIndex, 0⟩ (by simp) (by simp)
      simp only [rleBatch, rleItem, hne, hk, ne_eq, not_false_eq_true, if_true, if_false] at this ⊢
      obtain ⟨h1, h2, h3, h4⟩ := this
      simp only [List.cons_append, List.nil_append, expand_cons, StartsFrom]
      refine ⟨?_, ⟨trivial, ?_⟩, rfl, ?_⟩
      · rw [h1]; simp
      · have : s.curStart + s.curDup + 1 = s.tableIndex := hs
        rw [this]; exact h2
      · rw [List.isChain_cons]
        refine ⟨?_, h4⟩
        intro y hy
        have h3' := h3
        rw [Option.mem_def] at hy
        rw [hy] at h3'
        simp at h3'
        simp [h3']; exact hk

/-- Same for the whole file, from the initial state. -/
theorem keyInfoMake_spec (empty : K) (batches : List (List K)) (hb : ∀ b ∈ batches, b ≠ [])
    (hne : batches ≠ []) :
    expand (keyInfoMake empty batches) = batches.flatten ∧
    StartsFrom 0 (keyInfoMake empty batches) ∧
    List.IsChain (fun a b : KeyRec K => a.key ≠ b.key) (keyInfoMake empty batches) := by
  unfold keyInfoMake
  rw [rleRun_eq_batch _ _ hb]
  cases batches with
  | nil => exact absurd rfl hne
  | cons b bs =>
    cases b with
    | nil => exact absurd rfl (hb [] (by simp))
    | cons k ks =>
      simp only [List.flatten_cons, List.cons_append]
      have := rleBatch_spec (ks ++ bs.flatten) ⟨1, k, 0, 0⟩ (by simp) (by simp)
      simp only [rleBatch, rleItem, if_true, List.nil_append, Rle.cur] at this ⊢
      obtain ⟨h1, h2, _, h4⟩ := this
      exact ⟨by simpa using h1, h2, h4⟩

omit [DecidableEq K] in
theorem StartsFrom_get {n : Nat} {rs : List (KeyRec K)} (h : StartsFrom n rs) (i : Nat)
    (hi : i < rs.length) : rs[i].start = n + (expand (rs.take i)).length := by
  induction rs generalizing n i with
  | nil => simp at hi
  | cons r rs ih =>
    cases i with
    | zero => simpa using h.1
    | succ i =>
      have := ih h.2 i (by simpa using hi)
      simp [this]; omega

omit [DecidableEq K] in
theorem StartsFrom_append {n : Nat} {a b : List (KeyRec K)} :
    StartsFrom n (a ++ b) ↔ StartsFrom n a ∧ StartsFrom (n + (expand a).length) b := by
  induction a generalizing n with
  | nil => simp [StartsFrom]
  | cons r a ih =>
    simp only [List.cons_append, StartsFrom, ih, expand_cons, List.length_append,
      List.length_replicate, and_assoc]
    have : n + (r.dup + 1 + (expand a).length) = n + r.dup + 1 + (expand a).length := by omega
    rw [this]

omit [DecidableEq K] in
/-- In a sorted key sequence the grouped keys are strictly increasing. -/
theorem keys_strict [LinearOrder K] (rs : List (KeyRec K))
    (hc : List.IsChain (fun a b : KeyRec K => a.key ≠ b.key) rs)
    (hs : (expand rs).Pairwise (· ≤ ·)) : (rs.map (·.key)).Pairwise (· < ·) := by
  induction rs with
  | nil => simp
  | cons r rs ih =>
    rw [expand_cons, List.pairwise_append] at hs
    rw [List.isChain_cons] at hc
    have ih' := ih hc.2 hs.2.1
    rw [List.map_cons, List.pairwise_cons]
    refine ⟨?_, ih'⟩
    cases rs with
    | nil => simp
    | cons r2 rs2 =>
      have hlt : r.key < r2.key := by
        have h1 : r.key ≤ r2.key := hs.2.2 _ (by simp) _ (by simp)
        have h2 := hc.1 r2 (by simp)
        exact lt_of_le_of_ne h1 h2
      intro a ha
      rw [List.map_cons, List.mem_cons] at ha
      rcases ha with rfl | ha
      · exact hlt
      · rw [List.map_cons, List.pairwise_cons] at ih'
        exact lt_trans hlt (ih'.1 a ha)

end Psi.Join
