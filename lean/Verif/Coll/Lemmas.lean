import Verif.Coll.Model

/-!
# Every schedule follows the reference execution

A reference execution is a list of calls with what everybody brings to them.  `Does s t l p v` says that
party `t`, given the answers of the reference, makes exactly the calls of `l` it is a member of, in that
order, and ends with `v`.  `follows`: if all parties do, every schedule ends with these results.
-/

namespace Psi.Coll

set_option linter.unusedSectionVars false

variable {T K M R S : Type} [DecidableEq T] [DecidableEq K] [Inhabited M]

/-- A call of the reference execution. -/
structure Event (T K M : Type) where
  key : K
  pay : T → M

/-- Party `t` follows the reference. -/
def Does (s : Sys T K M) (t : T) : List (Event T K M) → Prog K M R → R → Prop
  | [], p, v => p = .ret v
  | e :: l, p, v =>
    (t ∈ s.members e.key ∧ ∃ f, p = .call e.key (e.pay t) f ∧
      Does s t l (f (s.answer e.key (s.masked e.key e.pay) t)) v) ∨
    (t ∉ s.members e.key ∧ Does s t l p v)

theorem Does.nil (s : Sys T K M) (t : T) (v : R) : Does s t [] (.ret v) v := rfl

theorem Does.skip {s : Sys T K M} {t : T} {e : Event T K M} {l : List (Event T K M)} {p : Prog K M R} {v : R}
    (h : t ∉ s.members e.key) (h' : Does s t l p v) : Does s t (e :: l) p v := Or.inr ⟨h, h'⟩

theorem Does.skips {s : Sys T K M} {t : T} {l₀ l : List (Event T K M)} {p : Prog K M R} {v : R}
    (h : ∀ e ∈ l₀, t ∉ s.members e.key) (h' : Does s t l p v) : Does s t (l₀ ++ l) p v := by
  induction l₀ with
  | nil => exact h'
  | cons e l₀ ih => exact .skip (h e (by simp)) (ih fun e' he' => h e' (by simp [he']))

theorem Does.call {s : Sys T K M} {t : T} {e : Event T K M} {l : List (Event T K M)} {m : M} {f : M → Prog K M R} {v : R}
    (h : t ∈ s.members e.key) (hm : m = e.pay t)
    (h' : Does s t l (f (s.answer e.key (s.masked e.key e.pay) t)) v) : Does s t (e :: l) (.call e.key m f) v :=
  Or.inl ⟨h, f, by rw [hm], h'⟩

theorem Does.bind {s : Sys T K M} {t : T} {l₁ l₂ : List (Event T K M)} {p : Prog K M R} {f : R → Prog K M S}
    {v : R} {w : S} (h₁ : Does s t l₁ p v) (h₂ : Does s t l₂ (f v) w) : Does s t (l₁ ++ l₂) (p.bind f) w := by
  induction l₁ generalizing p with
  | nil => rw [show p = .ret v from h₁]; exact h₂
  | cons e l₁ ih =>
    rcases h₁ with ⟨hm, g, rfl, h⟩ | ⟨hm, h⟩
    · exact Or.inl ⟨hm, _, rfl, ih h⟩
    · exact Or.inr ⟨hm, ih h⟩

theorem does_of_append {s : Sys T K M} {t : T} {a b : List (Event T K M)} {p : Prog K M R} {v : R}
    (h : ∀ e ∈ a, t ∉ s.members e.key) (hd : Does s t (a ++ b) p v) : Does s t b p v := by
  induction a with
  | nil => exact hd
  | cons e a ih =>
    rcases hd with ⟨hm, -⟩ | ⟨-, h'⟩
    · exact absurd hm (h e (by simp))
    · exact ih (fun e' he' => h e' (by simp [he'])) h'

theorem does_append_congr {s : Sys T K M} {t : T} {a : List (Event T K M)} {b b' : List (Event T K M)}
    {p : Prog K M R} {v : R}
    (hb : ∀ q : Prog K M R, Does s t b q v → Does s t b' q v) (hd : Does s t (a ++ b) p v) : Does s t (a ++ b') p v := by
  induction a generalizing p with
  | nil => exact hb p hd
  | cons e a ih =>
    rcases hd with ⟨hm, g, rfl, h⟩ | ⟨hm, h⟩
    · exact Or.inl ⟨hm, _, rfl, ih h⟩
    · exact Or.inr ⟨hm, ih h⟩

theorem masked_congr (s : Sys T K M) (k : K) (f g : T → M) (h : ∀ t ∈ s.members k, f t = g t) :
    s.masked k f = s.masked k g := by
  funext t
  unfold Sys.masked
  split
  · exact h t ‹_›
  · rfl

/-- The first event of the list that concerns somebody in `ms`. -/
theorem first_event (s : Sys T K M) (ms : List T) : ∀ l : List (Event T K M),
    (∀ e ∈ l, ∀ t ∈ ms, t ∉ s.members e.key) ∨
    ∃ a e b, l = a ++ e :: b ∧ (∀ e' ∈ a, ∀ t ∈ ms, t ∉ s.members e'.key) ∧ ∃ t ∈ ms, t ∈ s.members e.key
  | [] => Or.inl (by simp)
  | e :: l => by
    by_cases h : ∃ t ∈ ms, t ∈ s.members e.key
    · exact Or.inr ⟨[], e, l, rfl, by simp, h⟩
    · have h' : ∀ t ∈ ms, t ∉ s.members e.key := fun t ht hm => h ⟨t, ht, hm⟩
      rcases first_event s ms l with h'' | ⟨a, e', b, rfl, ha, hx⟩
      · left
        intro e₁ he₁
        rcases List.mem_cons.mp he₁ with rfl | h₁
        · exact h'
        · exact h'' e₁ h₁
      · right
        refine ⟨e :: a, e', b, rfl, ?_, hx⟩
        intro e₁ he₁
        rcases List.mem_cons.mp he₁ with rfl | h₁
        · exact h'
        · exact ha e₁ h₁

theorem does_step (s : Sys T K M) (v : T → R) (k : K) (c c' : T → Prog K M R) (l : List (Event T K M))
    (hd : ∀ t, Does s t l (c t) (v t)) (hs : s.step k c = some c') :
    ∃ l' : List (Event T K M), (l'.length + 1 = l.length ∧ ∀ e ∈ l', e ∈ l) ∧ ∀ t, Does s t l' (c' t) (v t) := by
  unfold Sys.step at hs
  split at hs
  · rename_i hc
    obtain ⟨hne, hall⟩ := hc
    injection hs with hs
    rcases first_event s (s.members k) l with hno | ⟨a, e, b, rfl, ha, t₀, ht₀, hte⟩
    · -- no event concerns a member, but the members are waiting
      exfalso
      obtain ⟨t, ht⟩ := List.exists_mem_of_ne_nil _ hne
      have h1 := hall t ht
      have h2 : Does s t ([] : List (Event T K M)) (c t) (v t) := by
        apply does_of_append (a := l) (fun e he => hno e he t ht)
        simpa using hd t
      rw [show c t = .ret (v t) from h2] at h1
      simp [Prog.atCall] at h1
    · have hk : e.key = k := by
        have h1 := hall t₀ ht₀
        rcases does_of_append (fun e' he' => ha e' he' t₀ ht₀) (hd t₀) with ⟨-, f, hf, -⟩ | ⟨hm, -⟩
        · rw [hf] at h1
          simpa [Prog.atCall] using h1
        · exact absurd hte hm
      have hmem : ∀ t ∈ s.members k, ∃ f, c t = .call k (e.pay t) f ∧
          Does s t b (f (s.answer k (s.masked k e.pay) t)) (v t) := by
        intro t ht
        rcases does_of_append (fun e' he' => ha e' he' t ht) (hd t) with ⟨-, f, hf, h⟩ | ⟨hm, -⟩
        · rw [hk] at hf h
          exact ⟨f, hf, h⟩
        · rw [hk] at hm
          exact absurd ht hm
      have hmask : s.masked k (fun t => (c t).payload) = s.masked k e.pay := by
        apply masked_congr
        intro t ht
        obtain ⟨f, hf, -⟩ := hmem t ht
        rw [hf]
        rfl
      refine ⟨a ++ b, ⟨by simp; omega, by simp; grind⟩, fun t => ?_⟩
      rw [← hs]
      by_cases ht : t ∈ s.members k
      · simp only [ht, if_true]
        obtain ⟨f, hf, h⟩ := hmem t ht
        apply Does.skips (fun e' he' => ha e' he' t ht)
        rw [hf, hmask]
        exact h
      · simp only [ht, if_false]
        refine does_append_congr ?_ (hd t)
        intro q hq
        rcases hq with ⟨hm, -⟩ | ⟨-, h⟩
        · rw [hk] at hm
          exact absurd hm ht
        · exact h
  · simp at hs

theorem does_stuck (s : Sys T K M) (v : T → R) (c : T → Prog K M R) (l : List (Event T K M))
    (hne : ∀ e ∈ l, s.members e.key ≠ []) (hd : ∀ t, Does s t l (c t) (v t)) (hs : s.Stuck c) : ∀ t, c t = .ret (v t) := by
  cases l with
  | nil => exact hd
  | cons e l =>
    exfalso
    have h := hs e.key
    unfold Sys.step at h
    rw [if_pos] at h
    · simp at h
    · refine ⟨hne e (by simp), fun t ht => ?_⟩
      rcases hd t with ⟨-, f, hf, -⟩ | ⟨hm, -⟩
      · rw [hf]
        simp [Prog.atCall]
      · exact absurd ht hm

/-- A program that keeps to the reference has not failed. -/
theorem does_not_fail {s : Sys T K M} {t : T} {l : List (Event T K M)} {v : R} : ¬ Does s t l (.fail : Prog K M R) v := by
  induction l with
  | nil => intro h; cases h
  | cons e l ih =>
    rintro (⟨-, f, hf, -⟩ | ⟨-, h⟩)
    · cases hf
    · exact ih h

theorem exec_does (s : Sys T K M) (v : T → R) : ∀ (sched : List K) (c : T → Prog K M R) (l : List (Event T K M)),
    (∀ e ∈ l, s.members e.key ≠ []) → (∀ t, Does s t l (c t) (v t)) →
    (∀ t, (s.exec sched c).1 t ≠ .fail) ∧ (s.exec sched c).2 ≤ l.length ∧
      (s.Stuck (s.exec sched c).1 → ∀ t, (s.exec sched c).1 t = .ret (v t)) := by
  intro sched
  induction sched with
  | nil =>
    intro c l hne hd
    refine ⟨fun t h => ?_, Nat.zero_le _, does_stuck s v c l hne hd⟩
    have := hd t
    rw [show c t = .fail from h] at this
    exact does_not_fail this
  | cons k ks ih =>
    intro c l hne hd
    unfold Sys.exec
    cases hs : s.step k c with
    | none => exact ih c l hne hd
    | some c' =>
      simp only
      obtain ⟨l', ⟨hl, hsub⟩, hd'⟩ := does_step s v k c c' l hd hs
      obtain ⟨h1, h2, h3⟩ := ih c' l' (fun e he => hne e (hsub e he)) hd'
      exact ⟨h1, by omega, h3⟩

theorem exec_append (s : Sys T K M) : ∀ (a b : List K) (c : T → Prog K M R),
    s.exec (a ++ b) c = ((s.exec b (s.exec a c).1).1, (s.exec b (s.exec a c).1).2 + (s.exec a c).2) := by
  intro a
  induction a with
  | nil => intro b c; simp [Sys.exec]
  | cons k a ih =>
    intro b c
    simp only [List.cons_append, Sys.exec]
    cases s.step k c with
    | none => exact ih b c
    | some c' => simp only [ih b c', Nat.add_assoc]

/-- If the number of calls is bounded, some schedule gets stuck. -/
theorem exists_stuck (s : Sys T K M) (c : T → Prog K M R) (bound : Nat)
    (hb : ∀ sched, (s.exec sched c).2 ≤ bound) : ∃ sched, s.Stuck (s.exec sched c).1 := by
  have key : ∀ n, n ≤ bound + 1 → (∃ sched, s.Stuck (s.exec sched c).1) ∨ ∃ sched, (s.exec sched c).2 ≥ n := by
    intro n
    induction n with
    | zero => intro _; exact Or.inr ⟨[], Nat.zero_le _⟩
    | succ n ih =>
      intro hn
      rcases ih (by omega) with h | ⟨sched, h⟩
      · exact Or.inl h
      · by_cases hst : s.Stuck (s.exec sched c).1
        · exact Or.inl ⟨sched, hst⟩
        · right
          have : ∃ k, s.step k (s.exec sched c).1 ≠ none := by
            refine Classical.byContradiction fun hno => hst fun k => ?_
            exact Classical.byContradiction fun hk => hno ⟨k, hk⟩
          obtain ⟨k, hk⟩ := this
          refine ⟨sched ++ [k], ?_⟩
          rw [exec_append]
          cases hs : s.step k (s.exec sched c).1 with
          | none => exact absurd hs hk
          | some c' => simp [Sys.exec, hs]; omega
  rcases key (bound + 1) (Nat.le_refl _) with h | ⟨sched, h⟩
  · exact h
  · have := hb sched
    omega

end Psi.Coll
