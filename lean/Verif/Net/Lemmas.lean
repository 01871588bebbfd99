import Verif.Net.Model
import Mathlib.Algebra.BigOperators.Group.Finset.Basic
import Mathlib.Data.Fintype.Basic

/-!
# One plan decides every schedule

`Plan`: the complete traffic `h c` of every queue, and a time for sending and for receiving each
message, such that every task, run alone on these messages, does its sends and receives in the order of
time and returns.  Then under every schedule the tasks exchange exactly this traffic: no task fails,
none is blocked forever, and every task returns what the plan says.
-/

namespace Psi.Net

set_option linter.unusedSectionVars false

variable {T C M S : Type} [DecidableEq T] [DecidableEq C]

/-- The traffic and the times. -/
structure Plan (T C M S : Type) where
  h : C → List M
  ts : C → Nat → Nat
  tr : C → Nat → Nat
  final : T → S

/-- Task `t` with remaining code `p`, all its past events before time `τ`, and with `R c` / `W c`
messages already read / written on its queues, will follow the plan; `n` bounds the steps. -/
inductive Solo (N : Sys T C M S) (P : Plan T C M S) (t : T) :
    Nat → Nat → (C → Nat) → (C → Nat) → Prog C M S → Prop
  | halt {n τ R W} (hr : ∀ c, N.reader c = t → R c = (P.h c).length)
      (hw : ∀ c, N.writer c = t → W c = (P.h c).length) : Solo N P t n τ R W (.halt (P.final t))
  | next {n τ R W x} (h : Solo N P t n τ R W (N.body t x)) : Solo N P t (n + 1) τ R W (.next x)
  | send {n τ R W c m k} (hc : N.writer c = t) (hm : (P.h c)[W c]? = some m) (hτ : τ ≤ P.ts c (W c))
      (h : Solo N P t n (P.ts c (W c) + 1) R (Function.update W c (W c + 1)) k) :
      Solo N P t (n + 1) τ R W (.send c m k)
  | recv {n τ R W c m k} (hc : N.reader c = t) (hm : (P.h c)[R c]? = some m) (hτ : τ ≤ P.tr c (R c))
      (h : Solo N P t n (P.tr c (R c) + 1) (Function.update R c (R c + 1)) W (k m)) :
      Solo N P t (n + 1) τ R W (.recv c k)

/-- `Solo` in some number of steps. -/
def Will (N : Sys T C M S) (P : Plan T C M S) (t : T) (τ : Nat) (R W : C → Nat) (p : Prog C M S) : Prop :=
  ∃ n, Solo N P t n τ R W p

/-- The times fit the queues: sent before received, and (when the queue is throttled) received before
the next is sent. -/
structure Plan.Fits (P : Plan T C M S) (N : Sys T C M S) (bound : T → Nat) : Prop where
  order : ∀ c i, i < (P.h c).length → P.ts c i < P.tr c i
  lock : ∀ c i, (N.window c).isSome → i + 1 < (P.h c).length → P.tr c i < P.ts c (i + 1)
  window : ∀ c w, N.window c = some w → 0 < w
  solo : ∀ t, Solo N P t (bound t) 0 (fun _ => 0) (fun _ => 0) (.next (N.start t))

theorem Solo.congr {N : Sys T C M S} {P : Plan T C M S} {t : T} {n τ : Nat} {R W : C → Nat} {p : Prog C M S}
    (h : Solo N P t n τ R W p) : ∀ {R' W' : C → Nat}, (∀ c, N.reader c = t → R' c = R c) →
      (∀ c, N.writer c = t → W' c = W c) → Solo N P t n τ R' W' p := by
  induction h with
  | halt hr hw =>
    intro R' W' h1 h2
    exact .halt (fun c hc => (h1 c hc).trans (hr c hc)) (fun c hc => (h2 c hc).trans (hw c hc))
  | next _ ih => intro R' W' h1 h2; exact .next (ih h1 h2)
  | @send n τ R W c m k hc hm hτ _ ih =>
    intro R' W' h1 h2
    have e := h2 c hc
    refine .send hc (by rw [e]; exact hm) (by rw [e]; exact hτ) ?_
    rw [e]
    refine ih h1 (fun c' hc' => ?_)
    by_cases hcc : c' = c
    · subst hcc; simp
    · simp [Function.update_of_ne hcc, h2 c' hc']
  | @recv n τ R W c m k hc hm hτ _ ih =>
    intro R' W' h1 h2
    have e := h1 c hc
    refine .recv hc (by rw [e]; exact hm) (by rw [e]; exact hτ) ?_
    rw [e]
    refine ih (fun c' hc' => ?_) h2
    by_cases hcc : c' = c
    · subst hcc; simp
    · simp [Function.update_of_ne hcc, h1 c' hc']

theorem Solo.mono {N : Sys T C M S} {P : Plan T C M S} {t : T} {n τ : Nat} {R W : C → Nat} {p : Prog C M S}
    (h : Solo N P t n τ R W p) : ∀ {n' τ' : Nat}, n ≤ n' → τ' ≤ τ → Solo N P t n' τ' R W p := by
  induction h with
  | halt hr hw => intro n' τ' _ _; exact .halt hr hw
  | next _ ih =>
    intro n' τ' h1 h2
    obtain ⟨k, rfl⟩ : ∃ k, n' = k + 1 := ⟨n' - 1, by omega⟩
    exact .next (ih (by omega) h2)
  | send hc hm hτ _ ih =>
    intro n' τ' h1 h2
    obtain ⟨k, rfl⟩ : ∃ k, n' = k + 1 := ⟨n' - 1, by omega⟩
    exact .send hc hm (by omega) (ih (by omega) (Nat.le_refl _))
  | recv hc hm hτ _ ih =>
    intro n' τ' h1 h2
    obtain ⟨k, rfl⟩ : ∃ k, n' = k + 1 := ⟨n' - 1, by omega⟩
    exact .recv hc hm (by omega) (ih (by omega) (Nat.le_refl _))

/-- What holds throughout every run: queue `c` holds messages `R c … W c - 1` of the traffic, and every
task still follows the plan, in `n t` more steps. -/
structure Inv (N : Sys T C M S) (P : Plan T C M S) (s : Conf T C M S) (n : T → Nat) (τ : T → Nat)
    (R W : C → Nat) : Prop where
  le : ∀ c, R c ≤ W c
  len : ∀ c, W c ≤ (P.h c).length
  queue : ∀ c, s.queue c = ((P.h c).take (W c)).drop (R c)
  log : ∀ c, s.log c = (P.h c).take (W c)
  solo : ∀ t, Solo N P t (n t) (τ t) R W (s.task t)

theorem inv_init (N : Sys T C M S) (P : Plan T C M S) (bound : T → Nat) (h : P.Fits N bound) :
    Inv N P N.init bound (fun _ => 0) (fun _ => 0) (fun _ => 0) where
  le _ := Nat.le_refl _
  len _ := Nat.zero_le _
  queue c := by simp [Sys.init]
  log c := by simp [Sys.init]
  solo t := h.solo t

theorem lt_of_get {l : List M} {i : Nat} {m : M} (h : l[i]? = some m) : i < l.length :=
  (List.getElem?_eq_some_iff.mp h).1

theorem Inv.step {N : Sys T C M S} {P : Plan T C M S} {s s' : Conf T C M S} {n τ : T → Nat} {R W : C → Nat}
    (I : Inv N P s n τ R W) (t : T) (h : N.step t s = some s') :
    ∃ n' τ' R' W', Inv N P s' n' τ' R' W' ∧ (∀ u, u ≠ t → n' u = n u) ∧ n' t + 1 = n t := by
  have key : ∀ (a b : Nat) (R' W' : C → Nat) (p : Prog C M S), Solo N P t a b R' W' p →
      (∀ c, N.reader c ≠ t → R' c = R c) → (∀ c, N.writer c ≠ t → W' c = W c) →
      ∀ u, Solo N P u (Function.update n t a u) (Function.update τ t b u) R' W' (Function.update s.task t p u) := by
    intro a b R' W' p hs h1 h2 u
    by_cases hu : u = t
    · subst hu; simpa using hs
    · simp only [Function.update_of_ne hu]
      refine (I.solo u).congr (fun c hc => h1 c ?_) (fun c hc => h2 c ?_)
      · rintro rfl; exact hu hc.symm
      · rintro rfl; exact hu hc.symm
  have own : ∀ (a : Nat), (∀ u, u ≠ t → Function.update n t a u = n u) := fun a u hu => Function.update_of_ne hu _ _
  have S0 := I.solo t
  generalize hp : s.task t = p at S0
  unfold Sys.step at h
  rw [hp] at h
  generalize hnt : n t = nt at S0
  generalize hτt : τ t = τt at S0
  cases S0 with
  | halt hr hw => simp at h
  | @next k _ _ _ x hs =>
    simp only [Option.some.injEq] at h
    subst h
    refine ⟨_, _, R, W, ⟨I.le, I.len, I.queue, I.log, key k τt R W _ hs (fun _ _ => rfl) (fun _ _ => rfl)⟩, own k, by simp⟩
  | @send k _ _ _ c m p' hc hm hτ hs =>
    simp only [hc, ne_eq, not_true_eq_false, if_false] at h
    split at h
    · simp at h
    · simp only [Option.some.injEq] at h
      subst h
      have hlt := lt_of_get hm
      refine ⟨_, _, R, Function.update W c (W c + 1), ⟨?_, ?_, ?_, ?_, key k _ R _ _ hs (fun _ _ => rfl) ?_⟩, own k, by simp⟩
      · intro c'
        by_cases hcc : c' = c
        · subst hcc; simp; exact Nat.le_succ_of_le (I.le c')
        · simp [Function.update_of_ne hcc, I.le c']
      · intro c'
        by_cases hcc : c' = c
        · subst hcc; simp; omega
        · simp [Function.update_of_ne hcc, I.len c']
      · intro c'
        by_cases hcc : c' = c
        · subst hcc
          simp only [Function.update_self, I.queue c']
          rw [List.take_add_one, hm, List.drop_append_of_le_length (by
            rw [List.length_take]; have := I.le c'; omega)]
          rfl
        · simp [Function.update_of_ne hcc, I.queue c']
      · intro c'
        by_cases hcc : c' = c
        · subst hcc
          simp only [Function.update_self, I.log c']
          rw [List.take_add_one, hm]
          rfl
        · simp [Function.update_of_ne hcc, I.log c']
      · intro c' hc'
        have : c' ≠ c := by rintro rfl; exact hc' hc
        simp [Function.update_of_ne this]
  | @recv k _ _ _ c m p' hc hm hτ hs =>
    simp only [hc, ne_eq, not_true_eq_false, if_false] at h
    have hq := I.queue c
    have hle := I.le c
    by_cases hRW : R c = W c
    · have e : s.queue c = [] := by
        rw [hq, List.drop_eq_nil_iff, List.length_take]; omega
      rw [e] at h
      simp at h
    · have hlt : R c < ((P.h c).take (W c)).length := by
        rw [List.length_take]; have := I.len c; omega
      have e : s.queue c = m :: ((P.h c).take (W c)).drop (R c + 1) := by
        rw [hq, List.drop_eq_getElem_cons hlt]
        congr 1
        rw [List.getElem_take]
        exact (List.getElem?_eq_some_iff.mp hm).2
      rw [e] at h
      simp only [Option.some.injEq] at h
      subst h
      refine ⟨_, _, Function.update R c (R c + 1), W, ⟨?_, I.len, ?_, I.log, key k _ _ W _ hs ?_ (fun _ _ => rfl)⟩, own k, by simp⟩
      · intro c'
        by_cases hcc : c' = c
        · subst hcc; simp; omega
        · simp [Function.update_of_ne hcc, I.le c']
      · intro c'
        by_cases hcc : c' = c
        · subst hcc; simp
        · simp [Function.update_of_ne hcc, I.queue c']
      · intro c' hc'
        have : c' ≠ c := by rintro rfl; exact hc' hc
        simp [Function.update_of_ne this]

/-- The time of the next event of a task that has not returned. -/
def Pending (N : Sys T C M S) (P : Plan T C M S) (s : Conf T C M S) (R W : C → Nat) (t : T) (x : Nat) : Prop :=
  (∃ c m k, s.task t = .send c m k ∧ N.writer c = t ∧ W c < (P.h c).length ∧ x = P.ts c (W c)) ∨
  (∃ c k, s.task t = .recv c k ∧ N.reader c = t ∧ R c < (P.h c).length ∧ x = P.tr c (R c))

/-- A task that still has to write (read) message `i` of a queue has its next event no later than that. -/
theorem Solo.le_send {N : Sys T C M S} {P : Plan T C M S} {t : T} {n τ : Nat} {R W : C → Nat} {p : Prog C M S}
    (h : Solo N P t n τ R W p) (c : C) (hc : N.writer c = t) (i : Nat) (h1 : W c ≤ i)
    (h2 : i < (P.h c).length) : τ ≤ P.ts c i := by
  induction h with
  | halt hr hw => have := hw c hc; omega
  | next _ ih => exact ih h1
  | @send n τ R W c' m k hc' hm hτ _ ih =>
    by_cases hcc : c = c'
    · subst hcc
      by_cases hi : i = W c
      · subst hi; exact hτ
      · have := ih (by simp; omega); omega
    · have := ih (by rw [Function.update_of_ne hcc]; exact h1); omega
  | recv _ _ hτ _ ih => have := ih h1; omega

theorem Solo.le_recv {N : Sys T C M S} {P : Plan T C M S} {t : T} {n τ : Nat} {R W : C → Nat} {p : Prog C M S}
    (h : Solo N P t n τ R W p) (c : C) (hc : N.reader c = t) (i : Nat) (h1 : R c ≤ i)
    (h2 : i < (P.h c).length) : τ ≤ P.tr c i := by
  induction h with
  | halt hr hw => have := hr c hc; omega
  | next _ ih => exact ih h1
  | send _ _ hτ _ ih => have := ih h1; omega
  | @recv n τ R W c' m k hc' hm hτ _ ih =>
    by_cases hcc : c = c'
    · subst hcc
      by_cases hi : i = R c
      · subst hi; exact hτ
      · have := ih (by simp; omega); omega
    · have := ih (by rw [Function.update_of_ne hcc]; exact h1); omega

/-- In a stuck state a task has returned, or waits for an event. -/
theorem pending_of_stuck {N : Sys T C M S} {P : Plan T C M S} {s : Conf T C M S} {n τ : T → Nat} {R W : C → Nat}
    (I : Inv N P s n τ R W) (hs : N.Stuck s) (t : T) :
    s.task t = .halt (P.final t) ∨ ∃ x, Pending N P s R W t x := by
  have S0 := I.solo t
  have h := hs t
  generalize hp : s.task t = p at S0
  unfold Sys.step at h
  rw [hp] at h
  generalize n t = nt at S0
  cases S0 with
  | halt hr hw => exact Or.inl rfl
  | next hs => simp at h
  | send hc hm hτ hs => exact Or.inr ⟨_, Or.inl ⟨_, _, _, hp, hc, lt_of_get hm, rfl⟩⟩
  | recv hc hm hτ hs => exact Or.inr ⟨_, Or.inr ⟨_, _, hp, hc, lt_of_get hm, rfl⟩⟩

/-- A waiting task comes before its pending event only; a task with something left to do on a queue is
pending no later than that. -/
theorem pending_le {N : Sys T C M S} {P : Plan T C M S} {s : Conf T C M S} {n τ : T → Nat} {R W : C → Nat}
    (I : Inv N P s n τ R W) (hs : N.Stuck s) (t : T) (c : C) :
    (N.writer c = t → ∀ i, W c ≤ i → i < (P.h c).length →
      ∃ x, Pending N P s R W t x ∧ (x < P.ts c i ∨ (i = W c ∧ ∃ m k, s.task t = .send c m k))) ∧
    (N.reader c = t → ∀ i, R c ≤ i → i < (P.h c).length →
      ∃ x, Pending N P s R W t x ∧ (x < P.tr c i ∨ (i = R c ∧ ∃ k, s.task t = .recv c k))) := by
  have S0 := I.solo t
  have h := hs t
  generalize hp : s.task t = p at S0
  unfold Sys.step at h
  rw [hp] at h
  generalize n t = nt at S0
  cases S0 with
  | halt hr hw =>
    refine ⟨fun hc i h1 h2 => ?_, fun hc i h1 h2 => ?_⟩
    · have := hw c hc; omega
    · have := hr c hc; omega
  | next hs => simp at h
  | @send k _ _ _ c' m p' hc' hm hτ hs' =>
    have hpd : Pending N P s R W t (P.ts c' (W c')) := Or.inl ⟨_, _, _, hp, hc', lt_of_get hm, rfl⟩
    refine ⟨fun hc i h1 h2 => ⟨_, hpd, ?_⟩, fun hc i h1 h2 => ⟨_, hpd, ?_⟩⟩
    · by_cases hcc : c = c'
      · subst hcc
        by_cases hi : i = W c
        · exact Or.inr ⟨hi, m, p', rfl⟩
        · left
          have := hs'.le_send c hc i (by simp; omega) h2
          omega
      · left
        have := hs'.le_send c hc i (by rw [Function.update_of_ne hcc]; exact h1) h2
        omega
    · left
      have := hs'.le_recv c hc i h1 h2
      omega
  | @recv k _ _ _ c' m p' hc' hm hτ hs' =>
    have hpd : Pending N P s R W t (P.tr c' (R c')) := Or.inr ⟨_, _, hp, hc', lt_of_get hm, rfl⟩
    refine ⟨fun hc i h1 h2 => ⟨_, hpd, ?_⟩, fun hc i h1 h2 => ⟨_, hpd, ?_⟩⟩
    · left
      have := hs'.le_send c hc i h1 h2
      omega
    · by_cases hcc : c = c'
      · subst hcc
        by_cases hi : i = R c
        · exact Or.inr ⟨hi, p', rfl⟩
        · left
          have := hs'.le_recv c hc i (by simp; omega) h2
          omega
      · left
        have := hs'.le_recv c hc i (by rw [Function.update_of_ne hcc]; exact h1) h2
        omega

/-- No task waits in a stuck state. -/
theorem no_pending {N : Sys T C M S} {P : Plan T C M S} {bound : T → Nat} (F : P.Fits N bound)
    {s : Conf T C M S} {n τ : T → Nat} {R W : C → Nat} (I : Inv N P s n τ R W) (hs : N.Stuck s) :
    ∀ x t, ¬ Pending N P s R W t x := by
  intro x
  induction x using Nat.strong_induction_on with
  | _ x ih =>
    intro t hp
    rcases hp with ⟨c, m, k, hk, hc, hlt, rfl⟩ | ⟨c, k, hk, hc, hlt, rfl⟩
    · -- blocked on a full queue: the reader must act first
      have h := hs t
      unfold Sys.step at h
      rw [hk] at h
      simp only [hc, ne_eq, not_true_eq_false, if_false] at h
      split at h
      · rename_i hfull
        obtain ⟨w, hw, hle⟩ : ∃ w, N.window c = some w ∧ w ≤ (s.queue c).length := by
          cases hw : N.window c with
          | none => simp [hw] at hfull
          | some w => exact ⟨w, rfl, by simpa [hw] using hfull⟩
        have hpos := F.window c w hw
        have hq := I.queue c
        have hRW : R c < W c := by
          have : (s.queue c).length = W c - R c := by
            rw [hq, List.length_drop, List.length_take]; have := I.len c; omega
          omega
        obtain ⟨y, hy, hle'⟩ := (pending_le I hs (N.reader c) c).2 rfl (R c) (Nat.le_refl _) (by
          have := I.len c; omega)
        -- reading message `R c ≤ W c - 1` comes before sending message `W c`
        have hord : ∀ j d, j + d + 1 = W c → P.tr c j < P.ts c (W c) := by
          intro j d
          induction d generalizing j with
          | zero =>
            intro hj
            have := F.lock c j (by simp [hw]) (by omega)
            have e : j + 1 = W c := by omega
            rwa [e] at this
          | succ d ihd =>
            intro hj
            have h1 := F.lock c j (by simp [hw]) (by omega)
            have h2 := F.order c (j + 1) (by omega)
            have h3 := ihd (j + 1) (by omega)
            omega
        have h1 := hord (R c) (W c - R c - 1) (by omega)
        rcases hle' with hle' | ⟨_, k', hk'⟩
        · exact ih y (by omega) _ hy
        · refine ih _ h1 (N.reader c) (Or.inr ⟨c, k', hk', rfl, ?_, rfl⟩)
          have := I.len c; omega
      · simp at h
    · -- blocked on an empty queue: the writer must act first
      have h := hs t
      unfold Sys.step at h
      rw [hk] at h
      simp only [hc, ne_eq, not_true_eq_false, if_false] at h
      have hRW : R c = W c := by
        by_contra hne
        have hlt' : R c < ((P.h c).take (W c)).length := by
          rw [List.length_take]; have := I.len c; have := I.le c; omega
        rw [I.queue c, List.drop_eq_getElem_cons hlt'] at h
        simp at h
      obtain ⟨y, hy, hle'⟩ := (pending_le I hs (N.writer c) c).1 rfl (W c) (Nat.le_refl _) (by omega)
      have hord := F.order c (R c) hlt
      rcases hle' with hle' | ⟨_, m', k', hk'⟩
      · refine ih y ?_ _ hy
        rw [← hRW] at hle'; omega
      · refine ih _ (by rw [← hRW]; exact hord) (N.writer c) (Or.inl ⟨c, m', k', hk', rfl, by omega, rfl⟩)

theorem Inv.not_fail {N : Sys T C M S} {P : Plan T C M S} {s : Conf T C M S} {n τ : T → Nat} {R W : C → Nat}
    (I : Inv N P s n τ R W) (t : T) : s.task t ≠ .fail := by
  intro h
  have := I.solo t
  rw [h] at this
  generalize n t = nt at this
  cases this

theorem Inv.done {N : Sys T C M S} {P : Plan T C M S} {bound : T → Nat} (F : P.Fits N bound)
    {s : Conf T C M S} {n τ : T → Nat} {R W : C → Nat} (I : Inv N P s n τ R W) (hs : N.Stuck s) :
    (∀ t, s.task t = .halt (P.final t)) ∧ (∀ c, s.queue c = []) ∧ ∀ c, s.log c = P.h c := by
  have hall : ∀ t, s.task t = .halt (P.final t) := by
    intro t
    rcases pending_of_stuck I hs t with h | ⟨x, hx⟩
    · exact h
    · exact (no_pending F I hs x t hx).elim
  refine ⟨hall, fun c => ?_, fun c => ?_⟩
  · have := I.solo (N.reader c)
    rw [hall] at this
    generalize n (N.reader c) = nt at this
    cases this with
    | halt hr hw =>
      have h1 := hr c rfl
      rw [I.queue c, List.drop_eq_nil_iff, List.length_take]
      omega
  · have := I.solo (N.writer c)
    rw [hall] at this
    generalize n (N.writer c) = nt at this
    cases this with
    | halt hr hw =>
      have h1 := hw c rfl
      rw [I.log c, h1, List.take_length]

theorem Will.halt {N : Sys T C M S} {P : Plan T C M S} {t : T} {τ : Nat} {R W : C → Nat} {x : S} (hx : x = P.final t)
    (hr : ∀ c, N.reader c = t → R c = (P.h c).length) (hw : ∀ c, N.writer c = t → W c = (P.h c).length) :
    Will N P t τ R W (.halt x) := hx ▸ ⟨0, .halt hr hw⟩

theorem Will.next {N : Sys T C M S} {P : Plan T C M S} {t : T} {τ : Nat} {R W : C → Nat} {x : S}
    (h : Will N P t τ R W (N.body t x)) : Will N P t τ R W (.next x) := by
  obtain ⟨n, h⟩ := h; exact ⟨n + 1, .next h⟩

theorem Will.send {N : Sys T C M S} {P : Plan T C M S} {t : T} {τ : Nat} {R W : C → Nat} {c : C} {m : M}
    {k : Prog C M S} (hc : N.writer c = t) (hm : (P.h c)[W c]? = some m) (hτ : τ ≤ P.ts c (W c))
    (h : Will N P t (P.ts c (W c) + 1) R (Function.update W c (W c + 1)) k) :
    Will N P t τ R W (.send c m k) := by
  obtain ⟨n, h⟩ := h; exact ⟨n + 1, .send hc hm hτ h⟩

theorem Will.recv {N : Sys T C M S} {P : Plan T C M S} {t : T} {τ : Nat} {R W : C → Nat} {c : C} {m : M}
    {k : M → Prog C M S} (hc : N.reader c = t) (hm : (P.h c)[R c]? = some m) (hτ : τ ≤ P.tr c (R c))
    (h : Will N P t (P.tr c (R c) + 1) (Function.update R c (R c + 1)) W (k m)) :
    Will N P t τ R W (.recv c k) := by
  obtain ⟨n, h⟩ := h; exact ⟨n + 1, .recv hc hm hτ h⟩

theorem exec_append (N : Sys T C M S) (l m : List T) (s : Conf T C M S) :
    N.exec (l ++ m) s = ((N.exec m (N.exec l s).1).1, (N.exec l s).2 + (N.exec m (N.exec l s).1).2) := by
  induction l generalizing s with
  | nil => simp [Sys.exec]
  | cons t l ih =>
    simp only [List.cons_append, Sys.exec]
    cases h : N.step t s with
    | none => exact ih s
    | some s' =>
      simp only [ih s']
      rw [Nat.add_right_comm]

/-- If the number of steps is bounded, some schedule runs to the end. -/
theorem exists_stuck (N : Sys T C M S) (s : Conf T C M S) (bound : Nat) (hb : ∀ sched, (N.exec sched s).2 ≤ bound) :
    ∃ sched, N.Stuck (N.exec sched s).1 := by
  by_contra h
  have h' : ∀ sched, ∃ t s', N.step t (N.exec sched s).1 = some s' := by
    intro sched
    by_contra hn
    refine h ⟨sched, fun t => ?_⟩
    cases ht : N.step t (N.exec sched s).1 with
    | none => rfl
    | some s' => exact (hn ⟨t, s', ht⟩).elim
  have key : ∀ n, ∃ sched, (N.exec sched s).2 = n := by
    intro n
    induction n with
    | zero => exact ⟨[], rfl⟩
    | succ n ih =>
      obtain ⟨l, hl⟩ := ih
      obtain ⟨t, s', ht⟩ := h' l
      refine ⟨l ++ [t], ?_⟩
      rw [exec_append]
      simp [Sys.exec, ht, hl]
  obtain ⟨l, hl⟩ := key (bound + 1)
  have := hb l
  omega

variable [Fintype T]

theorem Inv.exec {N : Sys T C M S} {P : Plan T C M S} (sched : List T) :
    ∀ {s : Conf T C M S} {n τ : T → Nat} {R W : C → Nat}, Inv N P s n τ R W →
      ∃ n' τ' R' W', Inv N P (N.exec sched s).1 n' τ' R' W' ∧
        (N.exec sched s).2 + ∑ t, n' t = ∑ t, n t := by
  induction sched with
  | nil => intro s n τ R W I; exact ⟨n, τ, R, W, I, by simp [Sys.exec]⟩
  | cons t ts ih =>
    intro s n τ R W I
    unfold Sys.exec
    cases hst : N.step t s with
    | none => exact ih I
    | some s' =>
      obtain ⟨n1, τ1, R1, W1, I1, ho, ht⟩ := I.step t hst
      obtain ⟨n2, τ2, R2, W2, I2, hsum⟩ := ih I1
      refine ⟨n2, τ2, R2, W2, I2, ?_⟩
      have e1 : ∑ u, n u = n t + ∑ u ∈ Finset.univ.erase t, n u :=
        (Finset.add_sum_erase _ _ (Finset.mem_univ t)).symm
      have e2 : ∑ u, n1 u = n1 t + ∑ u ∈ Finset.univ.erase t, n1 u :=
        (Finset.add_sum_erase _ _ (Finset.mem_univ t)).symm
      have e3 : ∑ u ∈ Finset.univ.erase t, n1 u = ∑ u ∈ Finset.univ.erase t, n u :=
        Finset.sum_congr rfl (fun u hu => ho u (Finset.ne_of_mem_erase hu))
      simp only
      omega

/-- **One plan decides every schedule.** -/
theorem planned (N : Sys T C M S) (P : Plan T C M S) (bound : T → Nat) (F : P.Fits N bound) (sched : List T) :
    (∀ t, (N.exec sched N.init).1.task t ≠ .fail) ∧
    (N.exec sched N.init).2 ≤ ∑ t, bound t ∧
    (N.Stuck (N.exec sched N.init).1 →
      (∀ t, (N.exec sched N.init).1.task t = .halt (P.final t)) ∧ (∀ c, (N.exec sched N.init).1.queue c = []) ∧
        ∀ c, (N.exec sched N.init).1.log c = P.h c) := by
  obtain ⟨n, τ, R, W, I, hsum⟩ := Inv.exec sched (inv_init N P bound F)
  exact ⟨I.not_fail, by omega, fun hs => I.done F hs⟩

/-- `planned` without the numbers: some bound holds for every schedule. -/
theorem planned' (N : Sys T C M S) (P : Plan T C M S)
    (order : ∀ c i, i < (P.h c).length → P.ts c i < P.tr c i)
    (lock : ∀ c i, (N.window c).isSome → i + 1 < (P.h c).length → P.tr c i < P.ts c (i + 1))
    (window : ∀ c w, N.window c = some w → 0 < w)
    (solo : ∀ t, Will N P t 0 (fun _ => 0) (fun _ => 0) (.next (N.start t))) :
    ∃ bound, ∀ sched : List T,
      (∀ t, (N.exec sched N.init).1.task t ≠ .fail) ∧ (N.exec sched N.init).2 ≤ bound ∧
      (N.Stuck (N.exec sched N.init).1 →
        (∀ t, (N.exec sched N.init).1.task t = .halt (P.final t)) ∧ (∀ c, (N.exec sched N.init).1.queue c = []) ∧
          ∀ c, (N.exec sched N.init).1.log c = P.h c) := by
  choose bound hb using solo
  exact ⟨∑ t, bound t, fun sched => planned N P bound ⟨order, lock, window, hb⟩ sched⟩

end Psi.Net
