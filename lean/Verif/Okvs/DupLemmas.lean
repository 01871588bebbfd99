import Verif.Okvs.TriLemmas

/-! # Rows are used once; what a reported duplicate means -/

namespace Psi.Okvs

/-- Rows used so far. -/
def used (t : Tri) : List Nat := t.main.map Prod.fst ++ t.gap.map Prod.fst

structure Once (rows : List Row) (t : Tri) : Prop where
  setIff : ∀ r, t.set r = true ↔ r ∈ used t
  nodup : (used t).Nodup
  lt : ∀ r ∈ used t, r < rows.length

/-- Two different keys with the same dense word. -/
def SameDense (rows : List Row) : Prop :=
  ∃ i j, i ≠ j ∧ i < rows.length ∧ j < rows.length ∧ dns rows i = dns rows j

theorem once_init (rows : List Row) : Once rows (Tri.init rows) where
  setIff := by intro r; simp [Tri.init, used]
  nodup := by simp [Tri.init, used]
  lt := by intro r hr; simp [Tri.init, used] at hr

theorem visit_once {rows : List Row} {c : Nat} {s : Tri × Bool} {r : Nat} (hr : r < rows.length) (h : Once rows s.1)
    (hm : s.2 = false → s.1.main ≠ []) :
    (∃ s', visit rows c s r = .ok s' ∧ Once rows s'.1 ∧ (s'.2 = false → s'.1.main ≠ [])) ∨
      (visit rows c s r = .error .duplicate ∧ SameDense rows) := by
  unfold visit
  by_cases hs : s.1.set r = true
  · rw [if_pos hs]
    exact Or.inl ⟨s, rfl, h, hm⟩
  · rw [if_neg hs]
    have hnot : r ∉ used s.1 := fun hin => hs ((h.setIff r).mpr hin)
    have hset : ∀ x, Function.update s.1.set r true x = true ↔ x = r ∨ x ∈ used s.1 := by
      intro x
      by_cases hx : x = r
      · subst hx; simp
      · rw [Function.update_of_ne hx, h.setIff]; simp [hx]
    simp only
    by_cases hf : s.2 = true
    · rw [if_pos hf]
      left
      refine ⟨_, rfl, ?_, by simp⟩
      have hu : used { s.1 with wt := decs (cols rows r) s.1.wt, set := Function.update s.1.set r true, main := s.1.main ++ [(r, c)] } =
          s.1.main.map Prod.fst ++ r :: s.1.gap.map Prod.fst := by simp [used]
      have hp : (s.1.main.map Prod.fst ++ r :: s.1.gap.map Prod.fst).Perm (r :: used s.1) := List.perm_middle
      constructor
      · intro x
        rw [hu, hp.mem_iff, List.mem_cons]
        exact hset x
      · rw [hu, hp.nodup_iff]
        exact List.nodup_cons.mpr ⟨hnot, h.nodup⟩
      · intro x hx
        rw [hu, hp.mem_iff, List.mem_cons] at hx
        rcases hx with rfl | hx
        · exact hr
        · exact h.lt x hx
    · rw [if_neg hf]
      have hne := hm (by simpa using hf)
      split
      · rename_i hd
        right
        refine ⟨rfl, (s.1.main.getLastD (0, 0)).1, r, ?_, ?_, hr, hd⟩
        · intro he
          apply hnot
          rw [← he]
          unfold used
          apply List.mem_append_left
          apply List.mem_map_of_mem
          rw [List.getLastD_eq_getLast?, List.getLast?_eq_getLast_of_ne_nil hne]
          exact List.getLast_mem hne
        · apply h.lt
          unfold used
          apply List.mem_append_left
          apply List.mem_map_of_mem
          rw [List.getLastD_eq_getLast?, List.getLast?_eq_getLast_of_ne_nil hne]
          exact List.getLast_mem hne
      · left
        refine ⟨_, rfl, ?_, fun _ => hne⟩
        have hu : ∀ b, used { s.1 with wt := decs (cols rows r) s.1.wt, set := Function.update s.1.set r true, gap := s.1.gap ++ [(r, b)] } =
            used s.1 ++ [r] := by intro b; simp [used]
        constructor
        · intro x
          rw [hu, List.mem_append, List.mem_singleton]
          rw [Or.comm]
          exact hset x
        · rw [hu, List.nodup_append]
          refine ⟨h.nodup, List.nodup_singleton r, ?_⟩
          intro a ha b hb hab
          rw [List.mem_singleton] at hb
          rw [hab, hb] at ha
          exact hnot ha
        · intro x hx
          rw [hu, List.mem_append, List.mem_singleton] at hx
          rcases hx with hx | rfl
          · exact h.lt x hx
          · exact hr

theorem visits_once {rows : List Row} {c : Nat} (l : List Nat) (hl : ∀ r ∈ l, r < rows.length) {s : Tri × Bool}
    (h : Once rows s.1) (hm : s.2 = false → s.1.main ≠ []) :
    (∃ s', l.foldlM (visit rows c) s = .ok s' ∧ Once rows s'.1) ∨
      (l.foldlM (visit rows c) s = .error .duplicate ∧ SameDense rows) := by
  induction l generalizing s with
  | nil => exact Or.inl ⟨s, rfl, h⟩
  | cons r l ih =>
    rw [List.foldlM_cons]
    rcases visit_once (c := c) (hl r List.mem_cons_self) h hm with ⟨s', h1, h2, h3⟩ | ⟨h1, h2⟩
    · rw [h1]
      exact ih (fun x hx => hl x (List.mem_cons_of_mem _ hx)) h2 h3
    · rw [h1]
      exact Or.inr ⟨rfl, h2⟩

theorem colRows_lt {rows : List Row} {c r : Nat} (h : r ∈ colRows rows c) : r < rows.length := by
  unfold colRows at h
  obtain ⟨i, hi, h⟩ := List.mem_flatMap.mp h
  obtain ⟨_, _, rfl⟩ := List.mem_map.mp h
  exact List.mem_range.mp hi

theorem colStep_once {rows : List Row} {t : Tri} (h : Once rows t) (c : Nat) :
    (∀ t', colStep rows t c = .ok t' → Once rows t') ∧
      (colStep rows t c = .error .duplicate → SameDense rows) := by
  unfold colStep
  have h' : Once rows { t with wt := Function.update t.wt c 0 } := ⟨h.setIff, h.nodup, h.lt⟩
  rcases visits_once (c := c) (colRows rows c) (fun r hr => colRows_lt hr) (s := ({ t with wt := Function.update t.wt c 0 }, true))
    h' (by simp) with ⟨s', h1, h2⟩ | ⟨h1, h2⟩
  · rw [h1]
    constructor
    · intro t' ht
      change (if s'.2 = true then Except.error Err.noRow else Except.ok s'.1) = _ at ht
      split at ht
      · cases ht
      · cases ht; exact h2
    · intro ht
      change (if s'.2 = true then Except.error Err.noRow else Except.ok s'.1) = _ at ht
      split at ht <;> cases ht
  · rw [h1]
    exact ⟨fun t' ht => (by cases ht), fun _ => h2⟩

theorem triangulate_once {rows : List Row} {S : Nat} {pick : Tri → Nat} (fuel : Nat) {t : Tri} (h : Once rows t) :
    (∀ t', triangulate rows S pick fuel t = .ok t' → Once rows t') ∧
      (triangulate rows S pick fuel t = .error .duplicate → SameDense rows) := by
  induction fuel generalizing t with
  | zero =>
    constructor
    · intro t' ht; cases ht; exact h
    · intro ht; cases ht
  | succ fuel ih =>
    unfold triangulate
    split
    · constructor
      · intro t' ht; cases ht; exact h
      · intro ht; cases ht
    · obtain ⟨h1, h2⟩ := colStep_once h (pick t)
      cases hc : colStep rows t (pick t) with
      | error e =>
        constructor
        · intro t' ht; cases ht
        · intro ht
          apply h2
          rw [hc]
          exact ht
      | ok t'' => exact ih (h1 t'' hc)

end Psi.Okvs
