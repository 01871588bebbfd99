import Verif.ApsiCore.ReceiverLemmas
import Mathlib.Algebra.Order.BigOperators.Group.List

/-! # The workers of the receiver -/

namespace Psi.ApsiCore

open Psi.Spiral (Res mapRes)

section

variable {F : Type} [Field F] [DecidableEq F] {K Lab : Type}

/-- The sum of a weight over the first `T` workers. -/
def total (wt : Worker Lab → Nat) (w : Nat → Worker Lab) (T : Nat) : Nat := ((List.range T).map fun t => wt (w t)).sum

theorem total_update (wt : Worker Lab → Nat) (w : Nat → Worker Lab) (t : Nat) (v : Worker Lab) : ∀ T, t < T →
    total wt (Function.update w t v) T + wt (w t) = total wt w T + wt v
  | 0, h => absurd h (Nat.not_lt_zero _)
  | T + 1, h => by
    have hs : ∀ u : Nat → Worker Lab, total wt u (T + 1) = total wt u T + wt (u T) := by
      intro u
      simp [total, List.range_succ]
    rw [hs, hs]
    by_cases ht : t = T
    · subst ht
      rw [Function.update_self]
      have : total wt (Function.update w t v) t = total wt w t := by
        unfold total
        congr 1
        apply List.map_congr_left
        intro u hu
        rw [Function.update_of_ne (by have := List.mem_range.mp hu; omega)]
      rw [this]
      omega
    · rw [Function.update_of_ne (fun e => ht e.symm)]
      have := total_update wt w t v T (by omega)
      omega

theorem total_pos (wt : Worker Lab → Nat) (w : Nat → Worker Lab) {t T : Nat} (ht : t < T) : wt (w t) ≤ total wt w T := by
  unfold total
  exact List.single_le_sum (by simp) _ (List.mem_map.mpr ⟨t, List.mem_range.mpr ht, rfl⟩)

/-- A worker that has claimed a package and does not have it yet. -/
def isClaimed : Worker Lab → Nat
  | .claimed => 1
  | _ => 0

/-- What a worker still has to do. -/
def work (n : Nat) : Worker Lab → Nat
  | .idle => 1
  | .claimed => n + 3
  | .merging _ i => n - i + 2
  | .done => 0

/-- The record of item `j` that a worker has not merged yet. -/
def pending (n : Nat) (w : Worker Lab) (j : Nat) : Option (Option Lab) :=
  match w with
  | .merging this i => if i ≤ j ∧ j < n then this j else none
  | _ => none

/-- The place of the common records that the next step of a worker reads or writes. -/
def touches (n : Nat) (w : Worker Lab) : Option Nat :=
  match w with
  | .merging this i => if i < n ∧ (this i).isSome then some i else none
  | _ => none

/-- What holds while the workers run. -/
structure Inv (n T : Nat) (g : Package F → Recs Lab) (pkgs taken q : List (Package F)) (s : Pool F Lab) : Prop where
  split : pkgs = taken ++ q
  queue : s.queue = q.map some
  recs : ∀ j r, (s.mrs j = some r ∨ ∃ t < T, pending n (s.workers t) j = some r) ↔ ∃ p ∈ taken, g p j = some r
  balance : s.count + total isClaimed s.workers T = q.length
  apart : ∀ t < T, ∀ j, (pending n (s.workers t) j).isSome → s.mrs j = none
  one : ∀ t < T, ∀ t' < T, ∀ j, (pending n (s.workers t) j).isSome → (pending n (s.workers t') j).isSome → t = t'
  done : ∀ t < T, s.workers t = .done → s.count = 0
  fine : s.failed = false

omit [Field F] [DecidableEq F] in
theorem inv_start (n T : Nat) (g : Package F → Recs Lab) (pkgs : List (Package F)) :
    Inv n T g pkgs [] pkgs (poolStart pkgs.length (pkgs.map some) : Pool F Lab) where
  split := rfl
  queue := rfl
  recs := by simp [poolStart, pending]
  balance := by
    have : total isClaimed (poolStart pkgs.length (pkgs.map some) : Pool F Lab).workers T = 0 := by
      simp [total, poolStart, isClaimed]
    rw [this]
    rfl
  apart := by simp [poolStart, pending]
  one := by simp [poolStart, pending]
  done := by simp [poolStart]
  fine := rfl

/-- A worker that changes what it does, without records to merge before and after. -/
theorem pending_update {n : Nat} {w : Nat → Worker Lab} {t : Nat} {v : Worker Lab} (h : ∀ j, pending n v j = pending n (w t) j) (u j : Nat) :
    pending n (Function.update w t v u) j = pending n (w u) j := by
  by_cases hu : u = t
  · subst hu; rw [Function.update_self, h]
  · rw [Function.update_of_ne hu]

theorem done_update {w : Nat → Worker Lab} {t : Nat} {v : Worker Lab} (hv : v ≠ .done) (u : Nat) (h : Function.update w t v u = .done) :
    w u = .done := by
  by_cases hu : u = t
  · subst hu; rw [Function.update_self] at h; exact absurd h hv
  · rwa [Function.update_of_ne hu] at h

/-- Every step keeps it. -/
theorem inv_step {P : Params} {dec : List F → Nat → Nat → K → Nat → Lab} {keys : List K} {n : Nat} {itt : Nat → Option Nat}
    {g : Package F → Recs Lab} (hg : ∀ p, processPart P dec keys n itt p = .ok (g p)) (hn : ∀ p j, (g p j).isSome → j < n)
    {T : Nat} {pkgs taken q : List (Package F)} (hpw : pkgs.Pairwise fun p p' => Apart (g p) (g p')) {s : Pool F Lab}
    (h : Inv n T g pkgs taken q s) {t : Nat} (ht : t < T) :
    (∃ taken' q', Inv n T g pkgs taken' q' (workerStep P dec keys n itt s t)) ∧
      (s.workers t ≠ .done → (workerStep P dec keys n itt s t).count * (n + 3) +
        total (work n) (workerStep P dec keys n itt s t).workers T < s.count * (n + 3) + total (work n) s.workers T) ∧
      (∀ j, (s.mrs j).isSome → ((workerStep P dec keys n itt s t).mrs j).isSome) ∧
      (∀ j, touches n (s.workers t) = some j → ((workerStep P dec keys n itt s t).mrs j).isSome) := by
  unfold workerStep
  cases hw : s.workers t with
  | idle =>
    simp only
    by_cases hc : s.count = 0
    · rw [if_pos hc]
      have hp : ∀ j, pending n (.done : Worker Lab) j = pending n (s.workers t) j := fun j => by rw [hw]; rfl
      have e1 := total_update isClaimed s.workers t .done T ht
      have e2 := total_update (work n) s.workers t .done T ht
      rw [hw] at e1 e2
      simp only [isClaimed, work, Nat.add_zero] at e1 e2
      refine ⟨⟨taken, q, ?_⟩, fun _ => ?_, fun _ h => h, fun j hj => by simp [touches] at hj⟩
      · refine ⟨h.split, h.queue, ?_, ?_, ?_, ?_, fun _ _ _ => hc, h.fine⟩
        · simp only [pending_update hp]; exact h.recs
        · rw [← h.balance, e1]
        · simp only [pending_update hp]; exact h.apart
        · simp only [pending_update hp]; exact h.one
      · simp only
        omega
    · rw [if_neg hc]
      have hp : ∀ j, pending n (.claimed : Worker Lab) j = pending n (s.workers t) j := fun j => by rw [hw]; rfl
      have e1 := total_update isClaimed s.workers t .claimed T ht
      have e2 := total_update (work n) s.workers t .claimed T ht
      rw [hw] at e1 e2
      simp only [isClaimed, work, Nat.add_zero] at e1 e2
      refine ⟨⟨taken, q, ?_⟩, fun _ => ?_, fun _ h => h, fun j hj => by simp [touches] at hj⟩
      · refine ⟨h.split, h.queue, ?_, ?_, ?_, ?_, fun u hu hd => ?_, h.fine⟩
        · simp only [pending_update hp]; exact h.recs
        · have hb := h.balance
          simp only
          omega
        · simp only [pending_update hp]; exact h.apart
        · simp only [pending_update hp]; exact h.one
        · have := h.done u hu (done_update (by simp) u hd)
          omega
      · simp only
        have : s.count * (n + 3) = (s.count - 1) * (n + 3) + (n + 3) := by
          obtain ⟨m, hm⟩ : ∃ m, s.count = m + 1 := ⟨s.count - 1, by omega⟩
          rw [hm, Nat.add_sub_cancel, Nat.add_mul, Nat.one_mul]
        omega
  | claimed =>
    simp only
    cases hq : q with
    | nil =>
      exfalso
      have hb := h.balance
      have := total_pos isClaimed s.workers ht
      rw [hw] at this
      rw [hq] at hb
      simp only [isClaimed, List.length_nil] at this hb
      omega
    | cons p q' =>
      rw [h.queue, hq]
      simp only [List.map_cons, hg p]
      have e1 := total_update isClaimed s.workers t (.merging (g p) 0) T ht
      have e2 := total_update (work n) s.workers t (.merging (g p) 0) T ht
      rw [hw] at e1 e2
      simp only [isClaimed, work, Nat.add_zero] at e1 e2
      have hpend : ∀ j, pending n (.merging (g p) 0 : Worker Lab) j = g p j := by
        intro j
        unfold pending
        by_cases hj : j < n
        · simp [hj]
        · simp only [hj, and_false, if_false]
          cases hgp : g p j with
          | none => rfl
          | some r => exact absurd (hn p j (by rw [hgp]; rfl)) hj
      have hold : ∀ j, pending n (s.workers t) j = none := fun j => by rw [hw]; rfl
      have hother : ∀ j, (g p j).isSome → s.mrs j = none ∧ ∀ u < T, pending n (s.workers u) j = none := by
        intro j hj
        have hno : ∀ r, ¬ ∃ p' ∈ taken, g p' j = some r := by
          rintro r ⟨p', hp', hr⟩
          rw [h.split, hq, List.pairwise_append] at hpw
          exact hpw.2.2 p' hp' p (by simp) j ⟨by rw [hr]; rfl, hj⟩
        constructor
        · cases hm : s.mrs j with
          | none => rfl
          | some r => exact absurd ((h.recs j r).mp (Or.inl hm)) (hno r)
        · intro u hu
          cases hm : pending n (s.workers u) j with
          | none => rfl
          | some r => exact absurd ((h.recs j r).mp (Or.inr ⟨u, hu, hm⟩)) (hno r)
      refine ⟨⟨taken ++ [p], q', ?_⟩, fun _ => ?_, fun _ h => h, fun j hj => by simp [touches] at hj⟩
      · refine ⟨?_, rfl, ?_, ?_, ?_, ?_, ?_, h.fine⟩
        · rw [h.split, hq]; simp
        · intro j r
          simp only
          constructor
          · rintro (hm | ⟨u, hu, hr⟩)
            · obtain ⟨p', hp', hr⟩ := (h.recs j r).mp (Or.inl hm)
              exact ⟨p', by simp [hp'], hr⟩
            · by_cases hut : u = t
              · subst hut
                rw [Function.update_self, hpend] at hr
                exact ⟨p, by simp, hr⟩
              · rw [Function.update_of_ne hut] at hr
                obtain ⟨p', hp', hr⟩ := (h.recs j r).mp (Or.inr ⟨u, hu, hr⟩)
                exact ⟨p', by simp [hp'], hr⟩
          · rintro ⟨p', hp', hr⟩
            rw [List.mem_append, List.mem_singleton] at hp'
            rcases hp' with hp' | rfl
            · rcases (h.recs j r).mpr ⟨p', hp', hr⟩ with hm | ⟨u, hu, hr⟩
              · exact Or.inl hm
              · refine Or.inr ⟨u, hu, ?_⟩
                by_cases hut : u = t
                · subst hut; rw [hold] at hr; simp at hr
                · rw [Function.update_of_ne hut]; exact hr
            · exact Or.inr ⟨t, ht, by rw [Function.update_self, hpend]; exact hr⟩
        · have hb := h.balance
          rw [hq] at hb
          simp only [List.length_cons] at hb
          simp only
          omega
        · intro u hu j hj
          simp only at hj ⊢
          by_cases hut : u = t
          · subst hut
            rw [Function.update_self, hpend] at hj
            exact (hother j hj).1
          · rw [Function.update_of_ne hut] at hj
            exact h.apart u hu j hj
        · intro u hu u' hu' j hj hj'
          simp only at hj hj'
          by_cases hut : u = t
          · subst hut
            rw [Function.update_self, hpend] at hj
            by_cases hut' : u' = u
            · exact hut'.symm
            · rw [Function.update_of_ne hut', (hother j hj).2 u' hu'] at hj'
              simp at hj'
          · rw [Function.update_of_ne hut] at hj
            by_cases hut' : u' = t
            · subst hut'
              rw [Function.update_self, hpend] at hj'
              rw [(hother j hj').2 u hu] at hj
              simp at hj
            · rw [Function.update_of_ne hut'] at hj'
              exact h.one u hu u' hu' j hj hj'
        · intro u hu hd
          exact h.done u hu (done_update (by simp) u hd)
      · omega
  | merging this i =>
    simp only
    by_cases hi : n ≤ i
    · rw [if_pos hi]
      have hp : ∀ j, pending n (.idle : Worker Lab) j = pending n (s.workers t) j := fun j => by
        rw [hw]
        unfold pending
        simp only
        rw [if_neg (by omega)]
      have e1 := total_update isClaimed s.workers t .idle T ht
      have e2 := total_update (work n) s.workers t .idle T ht
      rw [hw] at e1 e2
      simp only [isClaimed, work, Nat.add_zero] at e1 e2
      refine ⟨⟨taken, q, ?_⟩, fun _ => ?_, fun _ h => h, fun j hj => ?_⟩
      · refine ⟨h.split, h.queue, ?_, ?_, ?_, ?_, fun u hu hd => h.done u hu (done_update (by simp) u hd), h.fine⟩
        · simp only [pending_update hp]; exact h.recs
        · rw [← h.balance, e1]
        · simp only [pending_update hp]; exact h.apart
        · simp only [pending_update hp]; exact h.one
      · simp only
        omega
      · unfold touches at hj
        simp only at hj
        rw [if_neg (by omega)] at hj
        simp at hj
    · rw [if_neg hi]
      have e1 := total_update isClaimed s.workers t (.merging this (i + 1)) T ht
      have e2 := total_update (work n) s.workers t (.merging this (i + 1)) T ht
      rw [hw] at e1 e2
      simp only [isClaimed, work, Nat.add_zero] at e1 e2
      have hstep : ∀ j, j ≠ i → pending n (.merging this (i + 1) : Worker Lab) j = pending n (s.workers t) j := by
        intro j hj
        rw [hw]
        unfold pending
        simp only
        by_cases hc : i ≤ j ∧ j < n
        · rw [if_pos hc, if_pos (by omega)]
        · rw [if_neg hc, if_neg (by omega)]
      have hat : pending n (s.workers t) i = this i := by
        rw [hw]
        unfold pending
        simp only
        rw [if_pos (by omega)]
      have hafter : pending n (.merging this (i + 1) : Worker Lab) i = none := by
        unfold pending
        simp only
        rw [if_neg (by omega)]
      cases hth : this i with
      | none =>
        have hm : mergeStep this s.mrs i = .ok s.mrs := by unfold mergeStep; rw [hth]
        rw [hm]
        simp only
        have hp : ∀ j, pending n (.merging this (i + 1) : Worker Lab) j = pending n (s.workers t) j := fun j => by
          by_cases hj : j = i
          · subst hj; rw [hafter, hat, hth]
          · exact hstep j hj
        refine ⟨⟨taken, q, ?_⟩, fun _ => ?_, fun _ h => h, fun j hj => ?_⟩
        · refine ⟨h.split, h.queue, ?_, ?_, ?_, ?_, fun u hu hd => h.done u hu (done_update (by simp) u hd), h.fine⟩
          · simp only [pending_update hp]; exact h.recs
          · rw [← h.balance, e1]
          · simp only [pending_update hp]; exact h.apart
          · simp only [pending_update hp]; exact h.one
        · omega
        · unfold touches at hj
          simp [hth] at hj
      | some r0 =>
        have hpi : (pending n (s.workers t) i).isSome := by rw [hat, hth]; rfl
        have hnone : s.mrs i = none := h.apart t ht i hpi
        have hm : mergeStep this s.mrs i = .ok (Function.update s.mrs i (some r0)) := by
          unfold mergeStep
          rw [hth, hnone]
          simp
        rw [hm]
        simp only
        have hpo : ∀ u < T, u ≠ t → pending n (s.workers u) i = none := by
          intro u hu hut
          cases hx : pending n (s.workers u) i with
          | none => rfl
          | some r => exact absurd (h.one u hu t ht i (by rw [hx]; rfl) hpi) hut
        have hnew : ∀ u < T, pending n (Function.update s.workers t (.merging this (i + 1)) u) i = none := by
          intro u hu
          by_cases hut : u = t
          · subst hut; rw [Function.update_self, hafter]
          · rw [Function.update_of_ne hut, hpo u hu hut]
        have hsame : ∀ u j, j ≠ i → pending n (Function.update s.workers t (.merging this (i + 1)) u) j = pending n (s.workers u) j := by
          intro u j hj
          by_cases hut : u = t
          · subst hut; rw [Function.update_self, hstep j hj]
          · rw [Function.update_of_ne hut]
        refine ⟨⟨taken, q, ?_⟩, fun _ => ?_, fun j hj => ?_, fun j hj => ?_⟩
        · refine ⟨h.split, h.queue, ?_, ?_, ?_, ?_, fun u hu hd => h.done u hu (done_update (by simp) u hd), h.fine⟩
          · intro j r
            simp only
            rw [← h.recs j r]
            by_cases hj : j = i
            · subst hj
              rw [Function.update_self]
              constructor
              · rintro (e | ⟨u, hu, hr⟩)
                · exact Or.inr ⟨t, ht, by rw [hat, hth]; exact e⟩
                · rw [hnew u hu] at hr; simp at hr
              · rintro (e | ⟨u, hu, hr⟩)
                · rw [hnone] at e; simp at e
                · left
                  by_cases hut : u = t
                  · subst hut; rw [hat, hth] at hr; exact hr
                  · rw [hpo u hu hut] at hr; simp at hr
            · rw [Function.update_of_ne hj]
              simp only [hsame _ j hj]
          · rw [← h.balance, e1]
          · intro u hu j hj
            simp only at hj ⊢
            by_cases hji : j = i
            · subst hji; rw [hnew u hu] at hj; simp at hj
            · rw [Function.update_of_ne hji]
              rw [hsame u j hji] at hj
              exact h.apart u hu j hj
          · intro u hu u' hu' j hj hj'
            simp only at hj hj'
            by_cases hji : j = i
            · subst hji; rw [hnew u hu] at hj; simp at hj
            · rw [hsame u j hji] at hj
              rw [hsame u' j hji] at hj'
              exact h.one u hu u' hu' j hj hj'
        · omega
        · by_cases hji : j = i
          · subst hji; rw [Function.update_self]; rfl
          · rw [Function.update_of_ne hji]; exact hj
        · unfold touches at hj
          simp only [hth, Option.isSome_some, and_true] at hj
          rw [if_pos (by omega)] at hj
          cases hj
          rw [Function.update_self]
          rfl
  | done =>
    simp only
    exact ⟨⟨taken, q, h⟩, fun hc => absurd rfl hc, fun _ h => h, fun j hj => by simp [touches] at hj⟩

/-- The steps of workers that are not done. -/
def busySteps (P : Params) (dec : List F → Nat → Nat → K → Nat → Lab) (keys : List K) (n : Nat) (itt : Nat → Option Nat) :
    List Nat → Pool F Lab → Nat
  | [], _ => 0
  | t :: ts, s =>
    (match s.workers t with
    | .done => 0
    | _ => 1) + busySteps P dec keys n itt ts (workerStep P dec keys n itt s t)

theorem run_inv {P : Params} {dec : List F → Nat → Nat → K → Nat → Lab} {keys : List K} {n : Nat} {itt : Nat → Option Nat}
    {g : Package F → Recs Lab} (hg : ∀ p, processPart P dec keys n itt p = .ok (g p)) (hn : ∀ p j, (g p j).isSome → j < n)
    {T : Nat} {pkgs : List (Package F)} (hpw : pkgs.Pairwise fun p p' => Apart (g p) (g p')) : ∀ (sched : List Nat) (s : Pool F Lab),
    (∀ t ∈ sched, t < T) → (∃ taken q, Inv n T g pkgs taken q s) →
      (∃ taken q, Inv n T g pkgs taken q (runWorkers P dec keys n itt sched s)) ∧
      busySteps P dec keys n itt sched s + (runWorkers P dec keys n itt sched s).count * (n + 3) +
        total (work n) (runWorkers P dec keys n itt sched s).workers T ≤ s.count * (n + 3) + total (work n) s.workers T ∧
      (∀ j, (s.mrs j).isSome → ((runWorkers P dec keys n itt sched s).mrs j).isSome)
  | [], s, _, h => ⟨h, by simp [busySteps, runWorkers], fun _ h => h⟩
  | t :: ts, s, ht, ⟨taken, q, h⟩ => by
    obtain ⟨h1, h2, h3, _⟩ := inv_step hg hn hpw h (ht t (by simp))
    obtain ⟨k1, k2, k3⟩ := run_inv hg hn hpw ts (workerStep P dec keys n itt s t) (fun u hu => ht u (List.mem_cons_of_mem _ hu)) h1
    refine ⟨k1, ?_, fun j hj => k3 j (h3 j hj)⟩
    change busySteps P dec keys n itt (t :: ts) s + (runWorkers P dec keys n itt ts (workerStep P dec keys n itt s t)).count * (n + 3) +
      total (work n) (runWorkers P dec keys n itt ts (workerStep P dec keys n itt s t)).workers T ≤ _
    unfold busySteps
    split
    · rename_i hd
      have : workerStep P dec keys n itt s t = s := by unfold workerStep; rw [hd]
      rw [this] at k2 ⊢
      omega
    · rename_i hd
      have := h2 (fun e => hd e)
      omega

end

end Psi.ApsiCore
