import Verif.Recovery.Model

/-! # Recovery checkpoint: invariants -/

namespace Psi.Recovery
variable {Cfg Dig Key : Type} [DecidableEq Cfg] [DecidableEq Dig]

theorem run_append (empty : Checkpoint Cfg Dig) (a b : List (Event Cfg Dig Key))
    (s : State Cfg Dig Key) : run empty (a ++ b) s = (run empty a s).bind (run empty b) := by
  induction a generalizing s with
  | nil => rfl
  | cons e a ih =>
    simp only [List.cons_append, run]
    cases h : e.step empty s with
    | none => rfl
    | some t => simp [ih]

/-- An invariant of single events holds along histories. -/
theorem run_invariant (empty : Checkpoint Cfg Dig) (I : State Cfg Dig Key → Prop)
    (E : Event Cfg Dig Key → Prop)
    (hstep : ∀ s e s', E e → I s → e.step empty s = some s' → I s') :
    ∀ (es : List (Event Cfg Dig Key)) s s', (∀ e ∈ es, E e) → I s → run empty es s = some s' → I s' := by
  intro es
  induction es with
  | nil => intro s s' _ h hr; simp only [run, Option.some.injEq] at hr; rwa [← hr]
  | cons e es ih =>
    intro s s' hE h hr
    simp only [run, Option.bind_eq_some_iff] at hr
    obtain ⟨t, ht, hr⟩ := hr
    exact ih t s' (fun e' he => hE e' (by simp [he])) (hstep s e t (hE e (by simp)) h ht) hr

/-- What an event does: nothing but a part of the effects of one call, or loading the checkpoint. -/
theorem step_cases (empty : Checkpoint Cfg Dig) (s s' : State Cfg Dig Key) (e : Event Cfg Dig Key)
    (h : e.step empty s = some s') :
    (e = .start ∧ ∃ c, s.disk.load empty = some c ∧ s' = { s with proc := some ⟨c, none⟩ }) ∨
    (∃ o p r, e = .call o ∧ s.proc = some p ∧ o.run s.disk p = some r ∧
      s' = { disk := r.2.foldl Disk.apply s.disk, proc := some r.1 }) ∨
    (∃ o p r k, e = .crashIn o k ∧ s.proc = some p ∧ o.run s.disk p = some r ∧
      s' = { disk := (r.2.take k).foldl Disk.apply s.disk, proc := none }) ∨
    (e = .crash ∧ s' = { s with proc := none }) := by
  cases e with
  | start =>
    simp only [Event.step] at h
    split at h
    · exact absurd h (by simp)
    · obtain ⟨c, hc, rfl⟩ := Option.map_eq_some_iff.mp h
      exact Or.inl ⟨rfl, c, hc, rfl⟩
  | call o =>
    simp only [Event.step, Option.bind_eq_some_iff, Option.map_eq_some_iff] at h
    obtain ⟨p, hp, r, hr, rfl⟩ := h
    exact Or.inr (Or.inl ⟨o, p, r, rfl, hp, hr, rfl⟩)
  | crashIn o k =>
    simp only [Event.step, Option.bind_eq_some_iff, Option.map_eq_some_iff] at h
    obtain ⟨p, hp, r, hr, rfl⟩ := h
    exact Or.inr (Or.inr (Or.inl ⟨o, p, r, k, rfl, hp, hr, rfl⟩))
  | crash =>
    simp only [Event.step, Option.map_eq_some_iff] at h
    obtain ⟨p, hp, rfl⟩ := h
    exact Or.inr (Or.inr (Or.inr ⟨rfl, rfl⟩))

/-- Effects of a call: perhaps a new key, then perhaps a save of the new checkpoint. -/
theorem run_shape (d : Disk Cfg Dig Key) (p : Proc Cfg Dig Key) (o : Op Cfg Dig Key)
    (r : Proc Cfg Dig Key × List (Action Cfg Dig Key)) (h : o.run d p = some r) :
    (r.1.cp = p.cp ∧ r.2 = []) ∨ r.2 = save r.1.cp ∨
    (∃ k, p.cp.stage < preProcessEnd ∧ r.1.cp.stage = preProcessEnd ∧ r.1.key = some k ∧
      r.2 = [.truncKey, .writeKey k] ++ save r.1.cp) := by
  cases o with
  | init c g =>
    simp only [Op.run] at h
    split at h
    · split at h
      · simp only [Option.some.injEq] at h; subst h; exact Or.inl ⟨rfl, rfl⟩
      · exact absurd h (by simp)
    · simp only [Option.some.injEq] at h; subst h; exact Or.inr (Or.inl rfl)
  | pre fresh =>
    simp only [Op.run] at h
    split at h
    · rename_i hlt
      simp only [Option.some.injEq] at h; subst h
      exact Or.inr (Or.inr ⟨fresh, hlt, rfl, rfl, rfl⟩)
    · split at h
      · simp only [Option.some.injEq] at h; subst h; exact Or.inl ⟨rfl, rfl⟩
      · exact absurd h (by simp)
  | online =>
    simp only [Op.run, raise, Option.some.injEq] at h
    split at h <;> subst h
    · exact Or.inr (Or.inl rfl)
    · exact Or.inl ⟨rfl, rfl⟩
  | self n => simp only [Op.run, Option.some.injEq] at h; subst h; exact Or.inr (Or.inl rfl)
  | peer n => simp only [Op.run, Option.some.injEq] at h; subst h; exact Or.inr (Or.inl rfl)
  | bucket n => simp only [Op.run, Option.some.injEq] at h; subst h; exact Or.inr (Or.inl rfl)
  | endOnline =>
    simp only [Op.run, raise, Option.some.injEq] at h
    split at h <;> subst h
    · exact Or.inr (Or.inl rfl)
    · exact Or.inl ⟨rfl, rfl⟩
  | post =>
    simp only [Op.run, raise, Option.some.injEq] at h
    split at h <;> subst h
    · exact Or.inr (Or.inl rfl)
    · exact Or.inl ⟨rfl, rfl⟩

/-- Any property of checkpoints that calls preserve holds of everything stored and loaded later. -/
def Holds (Q : Checkpoint Cfg Dig → Prop) (s : State Cfg Dig Key) : Prop :=
  s.disk.cp ≠ .absent ∧ (∀ c, s.disk.cp = .ok c → Q c) ∧ ∀ p, s.proc = some p → Q p.cp

theorem foldl_cp (Q : Checkpoint Cfg Dig → Prop) (d : Disk Cfg Dig Key)
    (p : Proc Cfg Dig Key) (o : Op Cfg Dig Key) (r : Proc Cfg Dig Key × List (Action Cfg Dig Key))
    (h : o.run d p = some r) (k : Nat) (hd : d.cp ≠ .absent) (hq : ∀ c, d.cp = .ok c → Q c)
    (hr : Q r.1.cp) :
    ((r.2.take k).foldl Disk.apply d).cp ≠ .absent ∧
      ∀ c, ((r.2.take k).foldl Disk.apply d).cp = .ok c → Q c := by
  rcases run_shape d p o r h with ⟨-, he⟩ | he | ⟨key, -, -, -, he⟩ <;> rw [he]
  · simpa using ⟨hd, hq⟩
  · match k with
    | 0 => simpa using ⟨hd, hq⟩
    | 1 => simp [save, Disk.apply]
    | k + 2 => simpa [save, Disk.apply] using hr
  · match k with
    | 0 => simpa using ⟨hd, hq⟩
    | 1 => simpa [save, Disk.apply] using ⟨hd, hq⟩
    | 2 => simpa [save, Disk.apply] using ⟨hd, hq⟩
    | 3 => simp [save, Disk.apply]
    | k + 4 => simpa [save, Disk.apply] using hr

theorem holds_step (empty : Checkpoint Cfg Dig) (Q : Checkpoint Cfg Dig → Prop)
    (E : Event Cfg Dig Key → Prop)
    (hQ : ∀ d (p : Proc Cfg Dig Key) o r k, E (.call o) ∨ E (.crashIn o k) → Q p.cp →
      Op.run d p o = some r → Q r.1.cp)
    (s : State Cfg Dig Key) (e : Event Cfg Dig Key) (s' : State Cfg Dig Key) (hE : E e)
    (h : Holds Q s) (hs : e.step empty s = some s') : Holds Q s' := by
  obtain ⟨h1, h2, h3⟩ := h
  rcases step_cases empty s s' e hs with ⟨rfl, c, hc, rfl⟩ | ⟨o, p, r, rfl, hp, hr, rfl⟩ |
    ⟨o, p, r, k, rfl, hp, hr, rfl⟩ | ⟨rfl, rfl⟩
  · refine ⟨h1, h2, ?_⟩
    intro p hp
    simp only [Option.some.injEq] at hp
    subst hp
    unfold Disk.load at hc
    split at hc
    · rename_i ha; exact absurd ha h1
    · exact absurd hc (by simp)
    · rename_i c' hc'
      simp only [Option.some.injEq] at hc
      subst hc
      exact h2 _ hc'
  · have hq := hQ s.disk p o r 0 (Or.inl hE) (h3 p hp) hr
    obtain ⟨a, b⟩ := foldl_cp Q s.disk p o r hr r.2.length h1 h2 hq
    rw [List.take_length] at a b
    refine ⟨a, b, ?_⟩
    intro p' hp'
    simp only [Option.some.injEq] at hp'
    subst hp'
    exact hq
  · have hq := hQ s.disk p o r k (Or.inr hE) (h3 p hp) hr
    obtain ⟨a, b⟩ := foldl_cp Q s.disk p o r hr k h1 h2 hq
    exact ⟨a, b, by simp⟩
  · exact ⟨h1, h2, by simp⟩

/-- A live process has in memory what is in the folder. -/
def Sync (empty : Checkpoint Cfg Dig) (s : State Cfg Dig Key) : Prop :=
  ∀ p, s.proc = some p → s.disk.cp = .ok p.cp ∨ (s.disk.cp = .absent ∧ p.cp = empty)

theorem sync_step (empty : Checkpoint Cfg Dig) (s : State Cfg Dig Key) (e : Event Cfg Dig Key)
    (s' : State Cfg Dig Key) (h : Sync empty s) (hs : e.step empty s = some s') : Sync empty s' := by
  rcases step_cases empty s s' e hs with ⟨rfl, c, hc, rfl⟩ | ⟨o, p, r, rfl, hp, hr, rfl⟩ |
    ⟨o, p, r, k, rfl, hp, hr, rfl⟩ | ⟨rfl, rfl⟩
  · intro p hp
    simp only [Option.some.injEq] at hp
    subst hp
    unfold Disk.load at hc
    split at hc
    · rename_i ha
      simp only [Option.some.injEq] at hc
      exact Or.inr ⟨ha, hc.symm⟩
    · exact absurd hc (by simp)
    · rename_i c' hc'
      simp only [Option.some.injEq] at hc
      subst hc
      exact Or.inl hc'
  · intro p' hp'
    simp only [Option.some.injEq] at hp'
    subst hp'
    rcases run_shape s.disk p o r hr with ⟨hcp, he⟩ | he | ⟨key, -, -, -, he⟩ <;> rw [he]
    · rw [hcp]; exact h p hp
    · exact Or.inl rfl
    · exact Or.inl rfl
  · intro p' hp'; simp at hp'
  · intro p' hp'; simp at hp'

theorem sync_run (empty : Checkpoint Cfg Dig) (es : List (Event Cfg Dig Key))
    (s : State Cfg Dig Key) (h : run empty es State.new = some s) : Sync empty s :=
  run_invariant empty (Sync empty) (fun _ => True) (fun s e s' _ => sync_step empty s e s') es
    State.new s (fun _ _ => trivial) (fun p hp => by simp [State.new] at hp) h

/-- Configuration and digest of a checkpoint that is in use are never changed. -/
theorem run_config (c : Cfg) (g : Dig) (d : Disk Cfg Dig Key) (p : Proc Cfg Dig Key)
    (o : Op Cfg Dig Key) (r : Proc Cfg Dig Key × List (Action Cfg Dig Key))
    (h : p.cp.stage ≠ 0 ∧ p.cp.config = c ∧ p.cp.digest = g) (hr : Op.run d p o = some r) :
    r.1.cp.stage ≠ 0 ∧ r.1.cp.config = c ∧ r.1.cp.digest = g := by
  obtain ⟨h1, h2, h3⟩ := h
  cases o <;> simp only [Op.run, raise] at hr <;>
    (repeat' split at hr) <;> simp_all [unspecified, onlineStart, preProcessEnd, onlineEnd, postProcessEnd] <;>
    (try subst hr) <;> simp_all

/-- The stage after a call. -/
theorem run_stage (d : Disk Cfg Dig Key) (p : Proc Cfg Dig Key)
    (o : Op Cfg Dig Key) (r : Proc Cfg Dig Key × List (Action Cfg Dig Key))
    (hr : Op.run d p o = some r) :
    p.cp.stage ≤ r.1.cp.stage ∨
      (r.1.cp.stage = onlineStart ∧ ∃ n, o = .self n ∨ o = .peer n ∨ o = .bucket n) := by
  cases o <;> simp only [Op.run, raise] at hr <;>
    (repeat' split at hr) <;>
    simp_all [unspecified, initEnd, onlineStart, preProcessEnd, onlineEnd, postProcessEnd] <;>
    (try subst hr) <;> (try simp_all) <;> omega

end Psi.Recovery
