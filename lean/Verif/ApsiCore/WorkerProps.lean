import Verif.ApsiCore.WorkerLemmas
import Verif.ApsiCore.Sample

/-!
# C109: the workers of the streaming mode

Any number of workers, any schedule of their steps.  A package is claimed with an atomic counter, received, and its records are
merged into the common list, which no lock protects.
-/

namespace Psi.ApsiCore

open Psi.Spiral (Res mapRes)

section

variable {F : Type} [Field F] [DecidableEq F] {ι K Lab : Type}
variable {P : Params} {felt : ι → Nat → F} {lab : ι → Nat → Nat → F} {parts : Nat} {db : Db F} {ct : Content ι}
  {items : List ι} {f : Filled ι} {es : List Nat} {order : Nat → List Node}

/-- The receiver after some steps of its workers, the packages arriving in the order `arrived`. -/
def after (P : Params) (dec : List F → Nat → Nat → K → Nat → Lab) (keys : List K) (f : Filled ι) (items : List ι)
    (arrived : List (Package F)) (sched : List Nat) : Pool F Lab :=
  runWorkers P dec keys items.length (ittOf f items) sched (poolStart arrived.length (arrived.map some))

theorem after_append (P : Params) (dec : List F → Nat → Nat → K → Nat → Lab) (keys : List K) (f : Filled ι) (items : List ι)
    (arrived : List (Package F)) (a : List Nat) (t : Nat) (b : List Nat) :
    after P dec keys f items arrived (a ++ t :: b) = runWorkers P dec keys items.length (ittOf f items) b
      (workerStep P dec keys items.length (ittOf f items) (after P dec keys f items arrived a) t) := by
  simp [after, runWorkers]

/-- When all workers are done, the records are those of the other mode; no worker ever fails. -/
theorem C109_workers_agree (S : Setup P felt lab parts db ct items f es order) (hd : NoDouble P felt f ct items)
    (dec : List F → Nat → Nat → K → Nat → Lab) (keys : List K) {pkgs arrived : List (Package F)}
    (hq : runQuery P db (queryData P felt f es) order = .ok pkgs) (ha : arrived.Perm pkgs) {T : Nat} (hT : 0 < T) (sched : List Nat)
    (hs : ∀ t ∈ sched, t < T) :
    (after P dec keys f items arrived sched : Pool F Lab).failed = false ∧
      ((∀ t < T, (after P dec keys f items arrived sched : Pool F Lab).workers t = .done) →
        processAll P dec keys items.length (ittOf f items) (arrived.map some) =
          .ok (after P dec keys f items arrived sched).mrs) := by
  obtain ⟨pkgs', g, h1, _, h3, h4, _, h6⟩ := parts_spec S dec keys
  rw [hq] at h1
  cases h1
  have hpw : arrived.Pairwise fun p q => Apart (g p) (g q) := (ha.pairwise_iff (fun h => h.symm)).mpr (h6.mpr hd)
  obtain ⟨⟨taken, q, I⟩, _, _⟩ := run_inv h3 h4 hpw sched _ hs ⟨_, _, inv_start items.length T g arrived⟩
  change Inv items.length T g arrived taken q (after P dec keys f items arrived sched) at I
  refine ⟨I.fine, fun hdone => ?_⟩
  have hc : (after P dec keys f items arrived sched : Pool F Lab).count = 0 := I.done 0 hT (hdone 0 hT)
  have hcl : total isClaimed (after P dec keys f items arrived sched : Pool F Lab).workers T = 0 := by
    unfold total
    rw [List.sum_eq_zero_iff]
    intro x hx
    obtain ⟨t, ht, rfl⟩ := List.mem_map.mp hx
    rw [hdone t (List.mem_range.mp ht)]
    rfl
  have hb := I.balance
  have hq0 : q = [] := List.length_eq_zero_iff.mp (by omega)
  have ht : arrived = taken := by have := I.split; rw [hq0, List.append_nil] at this; exact this
  have hfm : (arrived.map some).filterMap id = arrived := by simp [List.filterMap_map]
  obtain ⟨k1, _⟩ := processAll_spec P dec keys items.length (ittOf f items) g h4 (arrived.map some) (fun p _ => h3 p)
  rw [hfm] at k1
  obtain ⟨out, e, ho⟩ := k1 hpw
  rw [e]
  congr 1
  funext j
  apply Option.ext
  intro r
  have hr := I.recs j r
  rw [← ht] at hr
  rw [ho j r, ← hr]
  constructor
  · rintro (h | ⟨t, ht', hr⟩)
    · exact h
    · rw [hdone t ht'] at hr
      simp [pending] at hr
  · exact Or.inl

/-- C109: the workers come to an end: they never make more than `(items + 3) * packages + workers` steps, and one that is not done
can always make a step (it does not wait for a package that does not come). -/
theorem C109_workers_finish (S : Setup P felt lab parts db ct items f es order) (hd : NoDouble P felt f ct items)
    (dec : List F → Nat → Nat → K → Nat → Lab) (keys : List K) {pkgs arrived : List (Package F)}
    (hq : runQuery P db (queryData P felt f es) order = .ok pkgs) (ha : arrived.Perm pkgs) {T : Nat} (sched : List Nat)
    (hs : ∀ t ∈ sched, t < T) :
    busySteps P dec keys items.length (ittOf f items) sched (poolStart arrived.length (arrived.map some) : Pool F Lab) ≤
        arrived.length * (items.length + 3) + T ∧
      ∀ t < T, (after P dec keys f items arrived sched : Pool F Lab).workers t ≠ .done →
        workerStep P dec keys items.length (ittOf f items) (after P dec keys f items arrived sched) t ≠
          after P dec keys f items arrived sched := by
  obtain ⟨pkgs', g, h1, _, h3, h4, _, h6⟩ := parts_spec S dec keys
  rw [hq] at h1
  cases h1
  have hpw : arrived.Pairwise fun p q => Apart (g p) (g q) := (ha.pairwise_iff (fun h => h.symm)).mpr (h6.mpr hd)
  obtain ⟨⟨taken, q, I⟩, k, _⟩ := run_inv h3 h4 hpw sched _ hs ⟨_, _, inv_start items.length T g arrived⟩
  change Inv items.length T g arrived taken q (after P dec keys f items arrived sched) at I
  constructor
  · have e : total (work items.length) (poolStart arrived.length (arrived.map some) : Pool F Lab).workers T = T := by
      simp [total, poolStart, work]
    rw [e] at k
    simp only [poolStart] at k ⊢
    omega
  · intro t ht hnd e
    have := (inv_step h3 h4 hpw I ht).2.1 hnd
    rw [e] at this
    omega

/-- C109: no place of the common list is read or written by two steps, so it needs no lock. -/
theorem C109_no_race (S : Setup P felt lab parts db ct items f es order) (hd : NoDouble P felt f ct items)
    (dec : List F → Nat → Nat → K → Nat → Lab) (keys : List K) {pkgs arrived : List (Package F)}
    (hq : runQuery P db (queryData P felt f es) order = .ok pkgs) (ha : arrived.Perm pkgs) {T : Nat} (a b : List Nat) (t t' : Nat)
    (hs : ∀ u ∈ a ++ t :: b ++ [t'], u < T) (j : Nat)
    (h1 : touches items.length ((after P dec keys f items arrived a : Pool F Lab).workers t) = some j) :
    touches items.length ((after P dec keys f items arrived (a ++ t :: b) : Pool F Lab).workers t') ≠ some j := by
  obtain ⟨pkgs', g, hq', _, h3, h4, _, h6⟩ := parts_spec S dec keys
  rw [hq] at hq'
  cases hq'
  have hpw : arrived.Pairwise fun p q => Apart (g p) (g q) := (ha.pairwise_iff (fun h => h.symm)).mpr (h6.mpr hd)
  obtain ⟨⟨taken, q, I⟩, _, _⟩ := run_inv h3 h4 hpw a _ (fun u hu => hs u (by simp [hu])) ⟨_, _, inv_start items.length T g arrived⟩
  change Inv items.length T g arrived taken q (after P dec keys f items arrived a) at I
  obtain ⟨hI, _, _, htouch⟩ := inv_step h3 h4 hpw I (hs t (by simp))
  obtain ⟨⟨taken', q', I'⟩, _, hmono⟩ := run_inv h3 h4 hpw b _ (fun u hu => hs u (by simp [hu])) hI
  rw [← after_append] at I' hmono
  have hsome := hmono j (htouch j h1)
  intro h2
  have : pending items.length ((after P dec keys f items arrived (a ++ t :: b) : Pool F Lab).workers t') j ≠ none := by
    unfold touches at h2
    split at h2
    · rename_i this i hw
      split at h2
      · rename_i hc
        cases h2
        rw [hw]
        unfold pending
        simp only
        rw [if_pos ⟨Nat.le_refl _, hc.1⟩]
        intro e
        rw [e] at hc
        simp at hc
      · simp at h2
    · simp at h2
  have := I'.apart t' (hs t' (by simp)) j (Option.isSome_iff_ne_none.mpr this)
  rw [this] at hsome
  simp at hsome

/-! ## A part that cannot be loaded -/

/-- How many parts in the channel can be loaded. -/
def loadable (q : List (Option (Package F))) : Nat := (q.filterMap id).length

theorem starve_step (P : Params) (dec : List F → Nat → Nat → K → Nat → Lab) (keys : List K) (n : Nat) (itt : Nat → Option Nat)
    {T N : Nat} {s : Pool F Lab} (h : loadable s.queue + N ≤ s.count + total isClaimed s.workers T)
    (hd : ∀ t < T, s.workers t = .done → s.count = 0) {t : Nat} (ht : t < T) :
    loadable (workerStep P dec keys n itt s t).queue + N ≤
        (workerStep P dec keys n itt s t).count + total isClaimed (workerStep P dec keys n itt s t).workers T ∧
      ∀ u < T, (workerStep P dec keys n itt s t).workers u = .done → (workerStep P dec keys n itt s t).count = 0 := by
  unfold workerStep
  cases hw : s.workers t with
  | idle =>
    simp only
    by_cases hc : s.count = 0
    · rw [if_pos hc]
      have e1 := total_update isClaimed s.workers t .done T ht
      rw [hw] at e1
      simp only [isClaimed, Nat.add_zero] at e1
      exact ⟨by simp only; omega, fun _ _ _ => hc⟩
    · rw [if_neg hc]
      have e1 := total_update isClaimed s.workers t .claimed T ht
      rw [hw] at e1
      simp only [isClaimed, Nat.add_zero] at e1
      refine ⟨by simp only; omega, fun u hu hdn => ?_⟩
      have := hd u hu (done_update (by simp) u hdn)
      omega
  | claimed =>
    simp only
    cases hq : s.queue with
    | nil =>
      rw [hq] at h
      exact ⟨by simpa [hq] using h, hd⟩
    | cons o q =>
      rw [hq] at h
      cases o with
      | none =>
        simp only
        exact ⟨by simpa [loadable] using h, hd⟩
      | some p =>
        simp only
        have hl : loadable (some p :: q) = loadable q + 1 := by simp [loadable]
        rw [hl] at h
        split
        · rename_i this _
          have e1 := total_update isClaimed s.workers t (.merging this 0) T ht
          rw [hw] at e1
          simp only [isClaimed, Nat.add_zero] at e1
          exact ⟨by simp only; omega, fun u hu hdn => hd u hu (done_update (by simp) u hdn)⟩
        · exact ⟨by simp only; omega, hd⟩
  | merging this i =>
    simp only
    split
    · have e1 := total_update isClaimed s.workers t .idle T ht
      rw [hw] at e1
      simp only [isClaimed, Nat.add_zero] at e1
      exact ⟨by simp only; omega, fun u hu hdn => hd u hu (done_update (by simp) u hdn)⟩
    · split
      · have e1 := total_update isClaimed s.workers t (.merging this (i + 1)) T ht
        rw [hw] at e1
        simp only [isClaimed, Nat.add_zero] at e1
        exact ⟨by simp only; omega, fun u hu hdn => hd u hu (done_update (by simp) u hdn)⟩
      · exact ⟨h, hd⟩
  | done =>
    exact ⟨h, hd⟩

/-- C109 fails for the code: if one part cannot be loaded, the workers never all come to an end; one of them waits for a part
that nobody sends. -/
theorem C109_lost_part_waits_forever (P : Params) (dec : List F → Nat → Nat → K → Nat → Lab) (keys : List K) (n : Nat)
    (itt : Nat → Option Nat) (arrived : List (Option (Package F))) (hl : none ∈ arrived) {T : Nat} (hT : 0 < T) (sched : List Nat)
    (hs : ∀ t ∈ sched, t < T) :
    ∃ t < T, (runWorkers P dec keys n itt sched (poolStart arrived.length arrived : Pool F Lab)).workers t ≠ .done := by
  have hlen : ∀ l : List (Option (Package F)), none ∈ l → loadable l + 1 ≤ l.length := by
    intro l
    induction l with
    | nil => simp
    | cons o l ih =>
      intro ho
      cases o with
      | none =>
        have : loadable l ≤ l.length := List.length_filterMap_le _ _
        simpa [loadable] using this
      | some p =>
        have := ih (by simpa using ho)
        simp only [loadable, List.filterMap_cons, id, List.length_cons] at this ⊢
        omega
  have run : ∀ (sched : List Nat) (s : Pool F Lab), (∀ t ∈ sched, t < T) →
      loadable s.queue + 1 ≤ s.count + total isClaimed s.workers T → (∀ t < T, s.workers t = .done → s.count = 0) →
      1 ≤ (runWorkers P dec keys n itt sched s).count + total isClaimed (runWorkers P dec keys n itt sched s).workers T ∧
        ∀ t < T, (runWorkers P dec keys n itt sched s).workers t = .done → (runWorkers P dec keys n itt sched s).count = 0 := by
    intro sched
    induction sched with
    | nil => intro s _ h1 h2; exact ⟨by simp only [runWorkers, List.foldl_nil]; omega, h2⟩
    | cons t ts ih =>
      intro s hs h1 h2
      obtain ⟨k1, k2⟩ := starve_step P dec keys n itt h1 h2 (hs t (by simp))
      exact ih _ (fun u hu => hs u (List.mem_cons_of_mem _ hu)) k1 k2
  obtain ⟨k1, k2⟩ := run sched (poolStart arrived.length arrived) hs (by
    have := hlen arrived hl
    simp only [poolStart]
    omega) (by simp [poolStart])
  by_contra hall
  push Not at hall
  have hc := k2 0 hT (hall 0 hT)
  have hcl : total isClaimed (runWorkers P dec keys n itt sched (poolStart arrived.length arrived : Pool F Lab)).workers T = 0 := by
    unfold total
    rw [List.sum_eq_zero_iff]
    intro x hx
    obtain ⟨t, ht, rfl⟩ := List.mem_map.mp hx
    rw [hall t (List.mem_range.mp ht)]
    rfl
  omega

end

/-! ## On the data of `A` and `B` -/

/-- C109 fails for the code: with two parts that hold a record of the same item, two workers may come to write the same place of
the common list at the same time.  Neither of them sees that it is already found. -/
theorem C109_double_hit_race {Lab K : Type} (dec : List ℚ → Nat → Nat → K → Nat → Lab) (keys : List K) :
    ∃ pkgs, runQuery B.P ⟨fun _ => [B.b1, B.b2], 0, 4⟩ (queryData B.P B.felt B.f [1]) (fun _ => [⟨1, none⟩, ⟨2, some (1, 1)⟩]) = .ok pkgs ∧
      ∀ t ∈ [0, 1], touches 1 ((after B.P dec keys B.f [(1, 2)] pkgs [0, 1, 0, 1]).workers t) = some 0 := by
  have S := B.setup [B.b1, B.b2] [B.c1, B.c2] (.cons B.hb1 (.cons B.hb2 .nil))
  obtain ⟨pkgs, g, h1, hlen, h3, h4, _, h6⟩ := parts_spec S dec keys
  refine ⟨pkgs, h1, ?_⟩
  have hnd : ¬ NoDouble B.P B.felt B.f (fun _ => [B.c1, B.c2]) [(1, 2)] := fun h => by
    have := h (1, 2) (by simp)
    simp only [home, List.pairwise_cons] at this
    exact this.1 B.c2 (by simp) ⟨B.hits1, B.hits2⟩
  obtain ⟨p, q, rfl⟩ : ∃ p q, pkgs = [p, q] := List.length_eq_two.mp (by simpa [B.P] using hlen)
  rw [← h6] at hnd
  simp only [List.pairwise_cons, List.mem_singleton, forall_eq, List.not_mem_nil, false_imp_iff, implies_true, List.Pairwise.nil,
    and_true] at hnd
  unfold Apart at hnd
  push Not at hnd
  obtain ⟨j, hp, hq⟩ := hnd
  obtain rfl : j = 0 := by have := h4 p j hp; simp at this; exact this
  have e : ∀ p, processPart B.P dec keys 1 (ittOf B.f [(1, 2)]) p = .ok (g p) := h3
  intro t ht
  have hw : (after B.P dec keys B.f [(1, 2)] [p, q] [0, 1, 0, 1]).workers t = if t = 0 then .merging (g p) 0 else .merging (g q) 0 := by
    simp only [List.mem_cons, List.not_mem_nil, or_false] at ht
    rcases ht with rfl | rfl <;>
      simp [after, runWorkers, workerStep, poolStart, Function.update, e]
  rw [hw]
  split
  · simp [touches, hp]
  · simp [touches, hq]

example {pkgs : List (Package ℚ)} (hq : runQuery A.P A.db (queryData A.P A.felt A.f A.es) A.order = .ok pkgs) :
    (after A.P (fun (l : List ℚ) _ _ (_ : Unit) _ => l) [] A.f A.items pkgs.reverse [0, 1, 1, 0, 2, 1, 1, 1, 0, 2]).failed = false :=
  (C109_workers_agree A.setup A.noDouble _ [] hq (List.reverse_perm _) (T := 3) (by decide) _ (by decide)).1

example {pkgs : List (Package ℚ)} (hq : runQuery A.P A.db (queryData A.P A.felt A.f A.es) A.order = .ok pkgs) (sched : List Nat)
    (hs : ∀ t ∈ sched, t < 3) :
    busySteps A.P (fun (l : List ℚ) _ _ (_ : Unit) _ => l) [] 4 (ittOf A.f A.items) sched (poolStart pkgs.length (pkgs.map some)) ≤
      pkgs.length * 7 + 3 :=
  (C109_workers_finish A.setup A.noDouble _ [] hq (List.Perm.refl _) sched hs).1

example {pkgs : List (Package ℚ)} (hq : runQuery A.P A.db (queryData A.P A.felt A.f A.es) A.order = .ok pkgs)
    (h : touches 4 ((after A.P (fun (l : List ℚ) _ _ (_ : Unit) _ => l) [] A.f A.items pkgs [0, 0, 0, 0, 0, 1, 1]).workers 0) = some 3) :
    touches 4 ((after A.P (fun (l : List ℚ) _ _ (_ : Unit) _ => l) [] A.f A.items pkgs ([0, 0, 0, 0, 0, 1, 1] ++ 0 :: [1, 1, 1])).workers 1) ≠ some 3 :=
  C109_no_race (T := 2) A.setup A.noDouble _ [] hq (List.Perm.refl _) [0, 0, 0, 0, 0, 1, 1] [1, 1, 1] 0 1 (by decide) 3 h

/-- The step of the example before is made: worker 0 is about to write the record of item 3. -/
example : (match runQuery A.P A.db (queryData A.P A.felt A.f A.es) A.order with
    | .ok pkgs => touches 4 ((after A.P (fun (l : List ℚ) _ _ (_ : Unit) _ => l) [] A.f A.items pkgs [0, 0, 0, 0, 0, 1, 1]).workers 0)
    | _ => none) = some 3 := by decide +kernel

/-- One worker, one part that cannot be loaded. -/
example (sched : List Nat) (hs : ∀ t ∈ sched, t < 1) (p : Package ℚ) :
    ∃ t < 1, (runWorkers A.P (fun (l : List ℚ) _ _ (_ : Unit) _ => l) [] 4 (ittOf A.f A.items) sched
      (poolStart 2 [some p, none])).workers t ≠ .done :=
  C109_lost_part_waits_forever _ _ _ _ _ [some p, none] (by simp) (by decide) sched hs

end Psi.ApsiCore
