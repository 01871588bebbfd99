import Verif.Ecdh.Resume
import Verif.Ecdh.StoreLemmas
import Verif.Bucket.Lemmas
import Verif.Common.Lemmas

/-! # ECDH-PSI with recovery: lemmas -/

namespace Psi.Ecdh
open Psi.Bucket (Cache Item itemsFrom)
open Psi.Text (base64)
open Psi.Spec
variable {α P : Type}

theorem skip_boundary (bs : List (List (α × Nat))) (h : ∀ b ∈ bs, b ≠ []) (j : Nat) :
    skip ((bs.take j).flatten.length) bs = some (bs.drop j) := by
  induction bs generalizing j with
  | nil => simp [skip]
  | cons b bs ih =>
    cases j with
    | zero => simp [skip]
    | succ j =>
      have hb : 0 < b.length := List.length_pos_iff.mpr (h b (by simp))
      have hl : ((b :: bs).take (j + 1)).flatten.length = b.length + (bs.take j).flatten.length := by
        simp
      rw [skip, hl, if_neg (by omega), if_pos (by omega), Nat.add_sub_cancel_left,
        ih (fun x hx => h x (by simp [hx]))]
      rfl

/-- The number of items in the first `j` batches. -/
def upTo (c : Cfg α P) (r : Bool) (j : Nat) : Nat := ((c.input r).take j).flatten.length

theorem allBatches_take (c : Cfg α P) (r : Bool) (j : Nat) :
    ((allBatches c r).take j).flatten = (c.items r).take (upTo c r j) := by
  have h1 : ((allBatches c r).take j).flatten = ((c.input r).take j).flatten := by
    unfold allBatches
    rw [List.take_append, List.flatten_append]
    have : ((([[]] : List (List (α × Nat))).take (j - (c.input r).length)).flatten) = [] := by
      cases j - (c.input r).length <;> simp
    rw [this, List.append_nil]
  rw [h1, upTo, Cfg.items]
  conv => rhs; rw [← List.take_append_drop j (c.input r), List.flatten_append]
  rw [List.take_left' (by simp [List.take_append_drop])]

theorem drop_items (c : Cfg α P) (r : Bool) (j : Nat) :
    ((c.input r).drop j).flatten = (c.items r).drop (upTo c r j) := by
  rw [upTo, Cfg.items]
  conv => rhs; rw [← List.take_append_drop j (c.input r), List.flatten_append]
  rw [List.drop_left' (by simp [List.take_append_drop])]

theorem upTo_le (c : Cfg α P) (r : Bool) (j : Nat) : upTo c r j ≤ (c.items r).length := by
  rw [upTo, Cfg.items]
  conv => rhs; rw [← List.take_append_drop j (c.input r), List.flatten_append, List.length_append]
  omega

/-- Contents of the stores in any reachable state. -/
theorem stores_prefix (c : Cfg α P) {L : Nat} (hc : c.Lawful L) (sched : List (Task × Bool))
    (s : State α) (h : exec c sched (init c) = some s) (r : Bool) :
    (c.target.canTouch r = true → ∃ j, (s.party r).selfStore =
      ((c.items r).take (upTo c r j)).map (fun x => (dual2 c r x.1, 0))) ∧
    (c.target.canTouch r = true → ∃ k, (s.party r).peerStore =
      ((c.items (!r)).take (upTo c (!r) k)).map (fun x => (dual2 c (!r) x.1, x.2))) := by
  obtain ⟨n, k, j, hi, -⟩ := good_reach c hc sched s h
  refine ⟨fun ht => ⟨j r, ?_⟩, fun ht => ⟨k (!r), ?_⟩⟩
  · have := ((hi r).yes ht).2.2.2.2
    rw [allBatches_take] at this
    exact this
  · have := (hi (!r)).peerStore
    rw [Bool.not_not, if_pos ht, allBatches_take] at this
    simpa [view] using this

theorem step_grow (c : Cfg α P) (t : Task) (q : Bool) (s s' : State α) (h : step c t q s = .ok s')
    (r : Bool) : (s.party r).selfStore.length ≤ (s'.party r).selfStore.length ∧
      (s.party r).peerStore.length ≤ (s'.party r).peerStore.length := by
  cases t with
  | maskSelf =>
    simp only [step, stepSelf] at h
    split at h
    · exact absurd h (by simp)
    · simp only [Outcome.ok.injEq] at h
      subst h
      by_cases hr : r = q <;> simp [upd, hr]
  | maskPeer =>
    simp only [step, stepPeer] at h
    split at h
    · exact absurd h (by simp)
    · split at h
      · exact absurd h (by simp)
      · split at h
        · exact absurd h (by simp)
        · simp only [Outcome.ok.injEq] at h
          subst h
          by_cases hr : r = q
          · simp only [upd, hr, if_true]
            refine ⟨Nat.le_refl _, ?_⟩
            split <;> simp
          · simp [upd, hr]
  | recvDual =>
    simp only [step, stepRecv] at h
    split at h
    · exact absurd h (by simp)
    · split at h
      · simp only [Outcome.ok.injEq] at h
        subst h
        by_cases hr : r = q <;> simp [upd, hr]
      · split at h
        · exact absurd h (by simp)
        · split at h
          · exact absurd h (by simp)
          · simp only [Outcome.ok.injEq] at h
            subst h
            by_cases hr : r = q <;> simp [upd, hr]

theorem exec_grow (c : Cfg α P) (sched : List (Task × Bool)) (s s' : State α)
    (h : exec c sched s = some s') (r : Bool) :
    (s.party r).selfStore.length ≤ (s'.party r).selfStore.length ∧
      (s.party r).peerStore.length ≤ (s'.party r).peerStore.length := by
  induction sched generalizing s with
  | nil => simp only [exec, Option.some.injEq] at h; subst h; exact ⟨Nat.le_refl _, Nat.le_refl _⟩
  | cons a sched ih =>
    obtain ⟨t, q⟩ := a
    simp only [exec] at h
    split at h
    · rename_i s1 hs
      have h1 := step_grow c t q s s1 hs r
      have h2 := ih s1 h
      exact ⟨Nat.le_trans h1.1 h2.1, Nat.le_trans h1.2 h2.2⟩
    · exact absurd h (by simp)

theorem exec_append (c : Cfg α P) (a b : List (Task × Bool)) (s t u : State α)
    (h : exec c a s = some t) (h' : exec c b t = some u) : exec c (a ++ b) s = some u := by
  induction a generalizing s with
  | nil => simp only [exec, Option.some.injEq] at h; subst h; exact h'
  | cons x a ih =>
    obtain ⟨tk, q⟩ := x
    simp only [List.cons_append, exec] at h ⊢
    split at h
    · rename_i s1 hs
      exact ih s1 h
    · exact absurd h (by simp)

theorem upTo_min (c : Cfg α P) (r : Bool) (i j : Nat) : ∃ k, min (upTo c r i) (upTo c r j) = upTo c r k := by
  rcases Nat.le_total (upTo c r i) (upTo c r j) with h | h
  · exact ⟨i, by rw [Nat.min_eq_left h]⟩
  · exact ⟨j, by rw [Nat.min_eq_right h]⟩

theorem length_take_upTo {β : Type} (c : Cfg α P) (r : Bool) (j : Nat) (f : α × Nat → β) :
    (((c.items r).take (upTo c r j)).map f).length = upTo c r j := by
  rw [List.length_map, List.length_take, Nat.min_eq_left (upTo_le c r j)]

/-- A restarted run starts between two batches. -/
theorem processed_boundary (c : Cfg α P) {L : Nat} (hc : c.Lawful L) (sched : List (Task × Bool))
    (s : State α) (h : exec c sched (init c) = some s) (r : Bool) :
    ∃ j, processed c.target s r = upTo c r j := by
  have h1 := stores_prefix c hc sched s h r
  have h2 := stores_prefix c hc sched s h (!r)
  have ex : c.target.canTouch r = true ∨ c.target.canTouch (!r) = true := by
    cases c.target with
    | all => exact Or.inl rfl
    | rank q => cases q <;> cases r <;> simp [Target.canTouch]
  unfold processed
  cases ht : c.target.canTouch r <;> cases ht' : c.target.canTouch (!r)
  · rcases ex with h | h <;> simp_all
  · obtain ⟨k, hk⟩ := h2.2 ht'
    rw [Bool.not_not] at hk
    exact ⟨k, by simp [hk, upTo_le]⟩
  · obtain ⟨j, hj⟩ := h1.1 ht
    exact ⟨j, by simp [hj, upTo_le]⟩
  · obtain ⟨k, hk⟩ := h2.2 ht'
    obtain ⟨j, hj⟩ := h1.1 ht
    rw [Bool.not_not] at hk
    obtain ⟨m, hm⟩ := upTo_min c r k j
    refine ⟨m, ?_⟩
    rw [hk, hj, length_take_upTo, length_take_upTo]
    simpa using hm

/-- The restarted run is a lawful run on the remaining items. -/
theorem resume_eq (c : Cfg α P) {L : Nat} (hc : c.Lawful L) (sched : List (Task × Bool))
    (s : State α) (h : exec c sched (init c) = some s) :
    ∃ c', resume c s = some c' ∧ c'.Lawful L ∧ c'.target = c.target ∧
      (∀ r x, dual2 c' r x = dual2 c r x) ∧
      (∀ r, c'.items r = (c.items r).drop (processed c.target s r)) := by
  obtain ⟨j, hj⟩ := Classical.skolem.mp (fun r => processed_boundary c hc sched s h r)
  have hs : ∀ r, skip (processed c.target s r) (c.input r) = some ((c.input r).drop (j r)) := by
    intro r
    rw [hj r, upTo]
    exact skip_boundary _ (hc.nonempty r) _
  refine ⟨{ c with input := fun r => if r then (c.input true).drop (j true)
    else (c.input false).drop (j false) }, by simp [resume, hs], ?_, rfl, fun _ _ => rfl, ?_⟩
  · constructor
    · exact hc.serLen
    · exact hc.round
    · exact hc.dualLe
    · exact hc.window
    · intro r b hb
      cases r
      · exact hc.nonempty false b (List.mem_of_mem_drop hb)
      · exact hc.nonempty true b (List.mem_of_mem_drop hb)
    · intro r b hb
      cases r
      · exact hc.small false b (List.mem_of_mem_drop hb)
      · exact hc.small true b (List.mem_of_mem_drop hb)
  · intro r
    rw [hj r, ← drop_items]
    cases r <;> rfl

theorem find_cover [DecidableEq α] (l : List (α × Nat)) (p k : Nat) (h : p ≤ k) (x : α) :
    (l.take k ++ l.drop p).find? (fun y => y.1 = x) = l.find? (fun y => y.1 = x) := by
  conv => rhs; rw [← List.take_append_drop k l]
  rw [List.find?_append, List.find?_append]
  cases hf : (l.take k).find? (fun y => y.1 = x) with
  | some z => rfl
  | none =>
    rw [Option.none_or, Option.none_or]
    have : l.drop p = (l.take k).drop p ++ l.drop k := by
      conv => lhs; rw [← List.take_append_drop k l]
      rw [List.drop_append]
      congr 1
      rw [List.length_take, List.drop_drop]
      by_cases hk : k ≤ l.length
      · rw [Nat.min_eq_left hk, Nat.sub_eq_zero_of_le h, Nat.add_zero]
      · rw [List.drop_eq_nil_of_le (by omega), List.drop_eq_nil_of_le (by omega)]
    rw [this, List.find?_append]
    have hn : ((l.take k).drop p).find? (fun y => decide (y.1 = x)) = none := by
      rw [List.find?_eq_none] at hf ⊢
      intro y hy
      exact hf y (List.mem_of_mem_drop hy)
    rw [hn, Option.none_or]

theorem lines_of_items [DecidableEq α] (l peer : List (α × Nat)) (f : α → Bytes)
    (lp : List Item)
    (hf : ∀ x ∈ l, (lp.find? (fun y => y.data64 == base64 (f x.1))).map (·.dup) =
      (peer.find? (fun y => y.1 = x.1)).map Prod.snd) :
    (itemsFrom 0 (l.map (fun x => (f x.1, 0)))).filterMap (fun x =>
        (lp.find? (fun y => y.data64 == x.data64)).map (fun y => (x.index, y.dup))) =
      resultLines l peer := by
  unfold resultLines
  have : ∀ k (m : List (α × Nat)), (∀ x ∈ m, x ∈ l) →
      (itemsFrom k (m.map (fun x => (f x.1, 0)))).filterMap (fun x =>
        (lp.find? (fun y => y.data64 == x.data64)).map (fun y => (x.index, y.dup))) =
      (m.zipIdx k).filterMap (fun x =>
        (peer.find? (fun y => y.1 = x.1.1)).map (fun y => (x.2, y.2))) := by
    intro k m
    induction m generalizing k with
    | nil => intro _; rfl
    | cons x m ih =>
      intro hm
      have h1 := congrArg (Option.map (fun d => (k, d))) (hf x (hm x (by simp)))
      simp only [Option.map_map, Function.comp_def] at h1
      simp only [List.map_cons, itemsFrom, List.filterMap_cons, List.zipIdx_cons, h1]
      rw [ih (k + 1) (fun y hy => hm y (by simp [hy]))]
  exact this 0 l (fun x hx => hx)

theorem find_items (P1 P2 : List (Bytes × Nat)) (d : Bytes) :
    ((itemsFrom 0 P1 ++ itemsFrom 0 P2).find? (fun y => y.data64 == base64 d)).map (·.dup) =
      ((P1 ++ P2).find? (fun p => p.1 = d)).map Prod.snd := by
  have h1 := Psi.Bucket.itemsFrom_find 0 P1 d
  have h2 := Psi.Bucket.itemsFrom_find 0 P2 d
  rw [List.find?_append, List.find?_append, Option.map_or, Option.map_or, h1, h2]

end Psi.Ecdh
