import Mathlib.Logic.Function.Basic

/-!
# Threads that write to disjoint parts of a shared array

A thread has a local state; a step reads only this state (and data that nobody changes), replaces it and
writes to the shared array.  A schedule is the list of the threads in the order of their steps.
-/

namespace Psi.Threads

variable {σ V E : Type}

/-- The writes of a step, in order. -/
def write (a : Nat → V) (ws : List (Nat × V)) : Nat → V := ws.foldl (fun a w => Function.update a w.1 w.2) a

/-- One step of thread `i`. -/
def exec (step : Nat → σ → Except E (σ × List (Nat × V))) (s : (Nat → σ) × (Nat → V)) (i : Nat) :
    Except E ((Nat → σ) × (Nat → V)) :=
  match step i (s.1 i) with
  | .ok (l, ws) => .ok (Function.update s.1 i l, write s.2 ws)
  | .error e => .error e

/-- The steps of a schedule. -/
def run (step : Nat → σ → Except E (σ × List (Nat × V))) (sched : List Nat) (s : (Nat → σ) × (Nat → V)) :
    Except E ((Nat → σ) × (Nat → V)) :=
  sched.foldlM (exec step) s

theorem write_of_not_mem {a : Nat → V} {ws : List (Nat × V)} {k : Nat} (h : ∀ w ∈ ws, w.1 ≠ k) : write a ws k = a k := by
  unfold write
  induction ws generalizing a with
  | nil => rfl
  | cons w ws ih =>
    rw [List.foldl_cons, ih (fun w' hw => h w' (List.mem_cons_of_mem _ hw)),
      Function.update_of_ne (fun e => h w List.mem_cons_self e.symm)]

/-- An invariant that talks about the local state of one thread and the cells it owns holds at the end of
every schedule. -/
theorem run_inv {step : Nat → σ → Except E (σ × List (Nat × V))} (T : Nat) (Inv : Nat → σ → (Nat → V) → Prop)
    (own : Nat → Nat → Prop)
    (hown : ∀ i j k, i < T → j < T → own i k → own j k → i = j)
    (hlocal : ∀ i l a a', (∀ k, own i k → a k = a' k) → Inv i l a → Inv i l a')
    (hstep : ∀ i l a l' ws, i < T → Inv i l a → step i l = .ok (l', ws) → Inv i l' (write a ws) ∧ ∀ w ∈ ws, own i w.1)
    {sched : List Nat} (hs : ∀ i ∈ sched, i < T) {s s' : (Nat → σ) × (Nat → V)} (h0 : ∀ i < T, Inv i (s.1 i) s.2)
    (hr : run step sched s = .ok s') : ∀ i < T, Inv i (s'.1 i) s'.2 := by
  unfold run at hr
  induction sched generalizing s with
  | nil => cases hr; exact h0
  | cons j sched ih =>
    rw [List.foldlM_cons] at hr
    cases he : exec step s j with
    | error e => rw [he] at hr; cases hr
    | ok t =>
      rw [he] at hr
      refine ih (fun i hi => hs i (List.mem_cons_of_mem _ hi)) ?_ hr
      unfold exec at he
      have hj := hs j List.mem_cons_self
      split at he
      · rename_i l ws hst
        cases he
        obtain ⟨h1, h2⟩ := hstep j _ s.2 l ws hj (h0 j hj) hst
        intro i hi
        dsimp only
        by_cases hij : i = j
        · subst hij
          rw [Function.update_self]
          exact h1
        · rw [Function.update_of_ne hij]
          refine hlocal i _ s.2 _ ?_ (h0 i hi)
          intro k hk
          rw [write_of_not_mem]
          rintro w hw rfl
          exact hij (hown i j _ hi hj hk (h2 w hw))
      · cases he

/-- Writes whose values are given by a function of the place. -/
theorem write_of_fun {a : Nat → V} {ws : List (Nat × V)} {F : Nat → V} (h : ∀ w ∈ ws, w.2 = F w.1) (k : Nat) :
    (k ∈ ws.map Prod.fst → write a ws k = F k) ∧ (k ∉ ws.map Prod.fst → write a ws k = a k) := by
  constructor
  · unfold write
    induction ws generalizing a with
    | nil => intro hk; cases hk
    | cons w ws ih =>
      intro hk
      rw [List.foldl_cons]
      by_cases h2 : k ∈ ws.map Prod.fst
      · exact ih (fun w' hw => h w' (List.mem_cons_of_mem _ hw)) h2
      · rw [List.map_cons, List.mem_cons] at hk
        rcases hk with rfl | hk
        · have := write_of_not_mem (a := Function.update a w.1 w.2) (ws := ws) (k := w.1)
            (fun w' hw e => h2 (e ▸ List.mem_map_of_mem hw))
          unfold write at this
          rw [this, Function.update_self, h w List.mem_cons_self]
        · exact absurd hk h2
  · intro hk
    exact write_of_not_mem (fun w hw e => hk (e ▸ List.mem_map_of_mem hw))

/-- If no step fails, no schedule fails. -/
theorem run_ok {step : Nat → σ → Except E (σ × List (Nat × V))} (h : ∀ i l, ∃ r, step i l = .ok r) (sched : List Nat)
    (s : (Nat → σ) × (Nat → V)) : ∃ s', run step sched s = .ok s' := by
  unfold run
  induction sched generalizing s with
  | nil => exact ⟨s, rfl⟩
  | cons i sched ih =>
    obtain ⟨r, hr⟩ := h i (s.1 i)
    rw [List.foldlM_cons]
    have : exec step s i = .ok (Function.update s.1 i r.1, write s.2 r.2) := by
      unfold exec
      rw [hr]
    rw [this]
    exact ih _

/-- If every step of thread `i` takes one off a measure, then so many steps have been taken off at the end. -/
theorem run_measure {step : Nat → σ → Except E (σ × List (Nat × V))} {i : Nat} (μ : σ → Nat)
    (h : ∀ l l' ws, step i l = .ok (l', ws) → μ l' ≤ μ l - 1) {sched : List Nat} {s s' : (Nat → σ) × (Nat → V)}
    (hr : run step sched s = .ok s') : μ (s'.1 i) ≤ μ (s.1 i) - sched.count i := by
  unfold run at hr
  induction sched generalizing s with
  | nil =>
    cases hr
    simp
  | cons j sched ih =>
    simp only [List.foldlM_cons, bind, Except.bind] at hr
    split at hr
    · cases hr
    · rename_i s1 h1
      apply Nat.le_trans (ih hr)
      unfold exec at h1
      split at h1
      · rename_i l ws hl
        cases h1
        simp only
        by_cases hij : j = i
        · subst hij
          have := h _ _ _ hl
          rw [Function.update_self, List.count_cons_self]
          omega
        · rw [Function.update_of_ne (fun e => hij e.symm), List.count_cons_of_ne hij]
          exact Nat.le_refl _
      · cases h1

/-- An error that no step reports is not reported by a run. -/
theorem run_ne_error {step : Nat → σ → Except E (σ × List (Nat × V))} {e : E} (h : ∀ i l, step i l ≠ .error e) (sched : List Nat)
    (s : (Nat → σ) × (Nat → V)) : run step sched s ≠ .error e := by
  unfold run
  induction sched generalizing s with
  | nil => intro h; cases h
  | cons i sched ih =>
    intro hr
    simp only [List.foldlM_cons, bind, Except.bind] at hr
    split at hr
    · rename_i e' he'
      cases hr
      unfold exec at he'
      split at he'
      · cases he'
      · rename_i e2 he2
        cases he'
        exact h _ _ he2
    · exact ih _ hr

end Psi.Threads
