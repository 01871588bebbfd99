import Verif.Recovery.Lemmas

/-!
# Recovery checkpoint: property theorems (C15, C16, C37, C38)
-/

namespace Psi.Recovery
variable {Cfg Dig Key : Type} [DecidableEq Cfg] [DecidableEq Dig]

/-- Events of the examples: configurations, digests and keys are numbers. -/
abbrev Ev := Event Nat Nat Nat

def noCp : Checkpoint Nat Nat := ⟨0, 0, 0, 0, 0, 0⟩

/-- After `MarkInitEnd` returned once. -/
theorem holds_after_init (empty : Checkpoint Cfg Dig) (h1 : List (Event Cfg Dig Key)) (c : Cfg)
    (g : Dig) (s : State Cfg Dig Key) (he : empty.stage = 0)
    (h : run empty (h1 ++ [.call (.init c g)]) State.new = some s) :
    Holds (fun cp => cp.stage ≠ 0 ∧ cp.config = c ∧ cp.digest = g) s := by
  rw [run_append, Option.bind_eq_some_iff] at h
  obtain ⟨t, ht, h⟩ := h
  have hsync := sync_run empty h1 t ht
  simp only [run, Event.step, Option.bind_eq_some_iff, Option.map_eq_some_iff] at h
  obtain ⟨_, ⟨p, hp, r, hr, rfl⟩, h⟩ := h
  simp only [Option.some.injEq] at h
  subst h
  simp only [Op.run] at hr
  split at hr
  · rename_i hne
    split at hr
    · rename_i heq
      simp only [Option.some.injEq] at hr
      subst hr
      rcases hsync p hp with hd | ⟨_, hcp⟩
      · have hq : p.cp.stage ≠ 0 ∧ p.cp.config = c ∧ p.cp.digest = g := ⟨hne, heq.1.symm, heq.2.symm⟩
        refine ⟨by simp [hd], ?_, ?_⟩
        · intro cp hcp
          simp only [List.foldl_nil, hd, File.ok.injEq] at hcp
          subst hcp; exact hq
        · intro p' hp'
          simp only [Option.some.injEq] at hp'
          subst hp'; exact hq
      · exact absurd (by rw [hcp, he]; rfl) hne
    · exact absurd hr (by simp)
  · simp only [Option.some.injEq] at hr
    subst hr
    simp [Holds, save, Disk.apply, initEnd]

/-- **C15** Once `MarkInitEnd` has accepted a configuration and an input digest, then after any further
history of calls, crashes at any point and restarts, it accepts no other configuration or digest. -/
theorem C15_mismatch_refused (empty : Checkpoint Cfg Dig) (he : empty.stage = 0)
    (h1 h2 : List (Event Cfg Dig Key)) (c c' : Cfg) (g g' : Dig) (s : State Cfg Dig Key)
    (h : run empty (h1 ++ [.call (.init c g)] ++ h2 ++ [.call (.init c' g')]) State.new = some s) :
    c' = c ∧ g' = g := by
  rw [run_append, Option.bind_eq_some_iff] at h
  obtain ⟨t2, ht2, h⟩ := h
  rw [run_append, Option.bind_eq_some_iff] at ht2
  obtain ⟨t1, ht1, ht2⟩ := ht2
  have H1 := holds_after_init empty h1 c g t1 he ht1
  have H2 := run_invariant empty _ (fun _ => True)
    (fun s e s' hE => holds_step empty _ (fun _ => True)
      (fun d p o r _ _ hq hr => run_config c g d p o r hq hr) s e s' hE) h2 t1 t2
    (fun _ _ => trivial) H1 ht2
  simp only [run, Event.step, Option.bind_eq_some_iff, Option.map_eq_some_iff] at h
  obtain ⟨_, ⟨p, hp, r, hr, rfl⟩, h⟩ := h
  obtain ⟨a, b, d⟩ := H2.2.2 p hp
  simp only [Op.run, ne_eq, unspecified, a, not_false_eq_true, if_true] at hr
  split at hr
  · rename_i heq
    exact ⟨heq.1.trans b, heq.2.trans d⟩
  · exact absurd hr (by simp)

/-- **C15** (same task) After such a history a live process with the same configuration and digest is
accepted, and nothing is changed. -/
theorem C15_same_accepted (empty : Checkpoint Cfg Dig) (he : empty.stage = 0)
    (h1 h2 : List (Event Cfg Dig Key)) (c : Cfg) (g : Dig) (s : State Cfg Dig Key)
    (h : run empty (h1 ++ [.call (.init c g)] ++ h2) State.new = some s) (p : Proc Cfg Dig Key)
    (hp : s.proc = some p) : run empty [.call (.init c g)] s = some s := by
  rw [run_append, Option.bind_eq_some_iff] at h
  obtain ⟨t1, ht1, ht2⟩ := h
  have H1 := holds_after_init empty h1 c g t1 he ht1
  have H2 := run_invariant empty _ (fun _ => True)
    (fun s e s' hE => holds_step empty _ (fun _ => True)
      (fun d p o r _ _ hq hr => run_config c g d p o r hq hr) s e s' hE) h2 t1 s
    (fun _ _ => trivial) H1 ht2
  obtain ⟨a, b, d⟩ := H2.2.2 p hp
  obtain ⟨disk, proc⟩ := s
  simp only at hp
  subst hp
  simp [run, Event.step, Op.run, unspecified, a, b, d]

/-- A history with a crash inside `MarkPreProcessEnd` and a later crash between calls. -/
def exHist : List Ev :=
  [.crashIn (.pre 11) 2, .start, .call (.init 7 8), .call (.pre 12), .call .online, .call (.self 3),
   .crash, .start]

example : ∃ s, run noCp ([.start] ++ [.call (.init 7 8)] ++ exHist ++ [.call (.init 7 8)]) State.new
    = some s := ⟨_, rfl⟩

example : run noCp ([.start] ++ [.call (.init 7 8)] ++ exHist ++ [.call (.init 7 9)]) State.new
    = none := rfl

example := C15_mismatch_refused noCp rfl [.start] exHist 7 7 8 8 _ rfl

example := C15_same_accepted noCp rfl [.start] exHist 7 8 _ rfl _ rfl

/-- **C16** does not hold: the stage stored in the folder goes from `ONLINE_END` back to
`ONLINE_START`.  The history: this party completes the online phase, is restarted because the peer did
not, runs the online phase again and stores a batch. -/
theorem C16_stage_goes_back : ∃ h1 h2 : List Ev, ∃ s1 s2 c1 c2,
    run noCp h1 State.new = some s1 ∧ run noCp h2 s1 = some s2 ∧
    s1.disk.cp = .ok c1 ∧ s2.disk.cp = .ok c2 ∧ c1.stage = onlineEnd ∧ c2.stage = onlineStart :=
  ⟨[.start, .call (.init 7 8), .call (.pre 12), .call .online, .call (.self 1), .call .endOnline],
   [.crash, .start, .call (.init 7 8), .call (.pre 13), .call .online, .call (.self 1)],
   _, _, _, _, rfl, rfl, rfl, rfl, rfl, rfl⟩

/-- The event is not (a crash during) one of the three progress updates. -/
def NoUpdate (e : Event Cfg Dig Key) : Prop :=
  ∀ n k, e ≠ .call (.self n) ∧ e ≠ .call (.peer n) ∧ e ≠ .call (.bucket n) ∧
    e ≠ .crashIn (.self n) k ∧ e ≠ .crashIn (.peer n) k ∧ e ≠ .crashIn (.bucket n) k

/-- **C16**, what holds: the stage never falls below `ONLINE_START` once it has reached it, and never
falls at all in a history without the three progress updates.  Missing: the progress updates reset a
higher stage to `ONLINE_START` (`C16_stage_goes_back`). -/
theorem C16_stage_partial (empty : Checkpoint Cfg Dig)
    (h1 h2 : List (Event Cfg Dig Key)) (s1 s2 : State Cfg Dig Key) (c1 c2 : Checkpoint Cfg Dig)
    (hr1 : run empty h1 State.new = some s1) (hr2 : run empty h2 s1 = some s2)
    (hc1 : s1.disk.cp = .ok c1) (hc2 : s2.disk.cp = .ok c2) :
    min c1.stage onlineStart ≤ c2.stage ∧
    ((∀ e ∈ h2, NoUpdate e) → c1.stage ≤ c2.stage) := by
  have hsync := sync_run empty h1 s1 hr1
  have start : ∀ m, m ≤ c1.stage → Holds (fun cp => m ≤ cp.stage) s1 := by
    intro m hm
    refine ⟨by simp [hc1], ?_, ?_⟩
    · intro c hc; rw [hc1, File.ok.injEq] at hc; subst hc; exact hm
    · intro p hp
      rcases hsync p hp with h | ⟨h, _⟩
      · rw [hc1, File.ok.injEq] at h; subst h; exact hm
      · rw [hc1] at h; exact absurd h (by simp)
  constructor
  · have := run_invariant empty _ (fun _ => True)
      (fun s e s' hE => holds_step empty (fun cp => min c1.stage onlineStart ≤ cp.stage)
        (fun _ => True) (by
          intro d p o r _ _ hq hr
          rcases run_stage d p o r hr with h | ⟨h, _⟩
          · exact Nat.le_trans hq h
          · simp only [h]; exact Nat.min_le_right _ _) s e s' hE) h2 s1 s2
      (fun _ _ => trivial) (start _ (Nat.min_le_left _ _)) hr2
    exact this.2.1 c2 hc2
  · intro hno
    have := run_invariant empty _ NoUpdate
      (fun s e s' hE => holds_step empty (fun cp => c1.stage ≤ cp.stage) NoUpdate (by
          intro d p o r k hE hq hr
          rcases run_stage d p o r hr with h | ⟨h, n, h'⟩
          · exact Nat.le_trans hq h
          · exfalso
            rcases hE with hE | hE <;> have hE := hE n k <;> rcases h' with h' | h' | h' <;>
              simp [h'] at hE) s e s' hE) h2 s1 s2 hno (start _ (Nat.le_refl _)) hr2
    exact this.2.1 c2 hc2

example := C16_stage_partial noCp [.start, .call (.init 7 8), .call (.pre 12)]
  [.call .online, .crash, .start, .call (.init 7 8), .call .endOnline, .call (.peer 4)] _ _ _ _ rfl rfl rfl rfl

example := (C16_stage_partial noCp [.start, .call (.init 7 8), .call (.pre 12)]
  [.call .online, .crash, .start, .call (.init 7 8), .call .endOnline] _ _ _ _ rfl rfl rfl rfl).2
  (by simp [NoUpdate])

/-- **C37** Once `MarkPreProcessEnd` has returned in some process with key `u` in use, then after any
further history every later process either has not yet called it or uses the same key `u`. -/
theorem C37_key_never_changes (empty : Checkpoint Cfg Dig) (he : empty.stage = 0)
    (h1 h2 : List (Event Cfg Dig Key)) (k : Key) (s1 s2 : State Cfg Dig Key)
    (p1 p2 : Proc Cfg Dig Key) (u : Key)
    (hr1 : run empty (h1 ++ [.call (.pre k)]) State.new = some s1) (hp1 : s1.proc = some p1)
    (hu : p1.key = some u)
    (hr2 : run empty h2 s1 = some s2) (hp2 : s2.proc = some p2) :
    p2.key = none ∨ p2.key = some u := by
  have inv : ∀ s e s', True →
      (Holds (fun cp => preProcessEnd ≤ cp.stage) s ∧ s.disk.key = .ok u ∧
        ∀ p, s.proc = some p → p.key = none ∨ p.key = some u) →
      Event.step (Key := Key) empty s e = some s' →
      (Holds (fun cp => preProcessEnd ≤ cp.stage) s' ∧ s'.disk.key = .ok u ∧
        ∀ p, s'.proc = some p → p.key = none ∨ p.key = some u) := by
    rintro s e s' - ⟨hh, hk, hq⟩ hs
    refine ⟨holds_step empty (fun cp => preProcessEnd ≤ cp.stage) (fun _ => True) (by
        intro d p o r _ _ hq hr
        rcases run_stage d p o r hr with h | ⟨h, _⟩
        · exact Nat.le_trans hq h
        · simp only [h]; decide) s e s' trivial hh hs, ?_⟩
    have key : ∀ (o : Op Cfg Dig Key) p r, s.proc = some p → Op.run s.disk p o = some r →
        (r.2 = [] ∨ r.2 = save r.1.cp) ∧ (r.1.key = none ∨ r.1.key = some u) := by
      intro o p r hp hr
      have h3 := hh.2.2 p hp
      have h4 := hq p hp
      constructor
      · rcases run_shape s.disk p o r hr with ⟨-, h⟩ | h | ⟨_, h, -⟩
        · exact Or.inl h
        · exact Or.inr h
        · exact absurd h3 (by simp only [preProcessEnd] at h ⊢; omega)
      · cases o <;> simp only [Op.run, raise] at hr <;> (repeat' split at hr) <;>
          simp_all [preProcessEnd] <;> (try subst hr) <;> simp_all <;> omega
    rcases step_cases empty s s' e hs with ⟨rfl, c, hc, rfl⟩ | ⟨o, p, r, rfl, hp, hr, rfl⟩ |
      ⟨o, p, r, m, rfl, hp, hr, rfl⟩ | ⟨rfl, rfl⟩
    · refine ⟨hk, ?_⟩
      intro p hp
      simp only [Option.some.injEq] at hp
      subst hp; exact Or.inl rfl
    · obtain ⟨h5, h6⟩ := key o p r hp hr
      refine ⟨?_, ?_⟩
      · rcases h5 with h5 | h5 <;> rw [h5] <;> simp [save, Disk.apply, hk]
      · intro p' hp'
        simp only [Option.some.injEq] at hp'
        subst hp'; exact h6
    · obtain ⟨h5, h6⟩ := key o p r hp hr
      refine ⟨?_, by simp⟩
      rcases h5 with h5 | h5 <;> rw [h5]
      · simpa using hk
      · match m with
        | 0 => simpa using hk
        | 1 => simp [save, Disk.apply, hk]
        | m + 2 => simp [save, Disk.apply, hk]
    · exact ⟨hk, by simp⟩
  have base : Holds (fun cp => preProcessEnd ≤ cp.stage) s1 ∧ s1.disk.key = .ok u ∧
        ∀ p, s1.proc = some p → p.key = none ∨ p.key = some u := by
    rw [run_append, Option.bind_eq_some_iff] at hr1
    obtain ⟨t, ht, h⟩ := hr1
    have hsync := sync_run empty h1 t ht
    simp only [run, Event.step, Option.bind_eq_some_iff, Option.map_eq_some_iff] at h
    obtain ⟨_, ⟨p, hp, r, hr, rfl⟩, h⟩ := h
    simp only [Option.some.injEq] at h
    subst h
    simp only [Option.some.injEq] at hp1
    subst hp1
    simp only [Op.run] at hr
    split at hr
    · simp only [Option.some.injEq] at hr
      subst hr
      simp only [Option.some.injEq] at hu
      subst hu
      simp [Holds, save, Disk.apply]
    · rename_i hst
      split at hr
      · rename_i k' hk'
        simp only [Option.some.injEq] at hr
        subst hr
        simp only [Option.some.injEq] at hu
        subst hu
        rcases hsync p hp with hd | ⟨_, hcp⟩
        · simp only [Holds, List.foldl_nil, hd, hk', Option.some.injEq]
          simp only [preProcessEnd] at hst
          refine ⟨⟨by simp, ?_, ?_⟩, trivial, ?_⟩
          · intro c hc; rw [File.ok.injEq] at hc; subst hc; simp only [preProcessEnd]; omega
          · rintro _ rfl; simp only [preProcessEnd]; omega
          · rintro _ rfl; exact Or.inr rfl
        · rw [hcp, he] at hst
          exact absurd (by decide) hst
      · exact absurd hr (by simp)
  exact (run_invariant empty _ (fun _ => True) inv h2 s1 s2 (fun _ _ => trivial) base hr2).2.2 p2 hp2

/-- In the example the process restarted after the second crash asks for key 13 and gets key 12. -/
example : ∃ s1 s2 p2, run noCp ([.start, .call (.init 7 8), .crashIn (.pre 11) 2, .start,
      .call (.init 7 8)] ++ [.call (.pre 12)]) State.new = some s1 ∧
    run noCp [.call .online, .call (.self 3), .crash, .start, .call (.init 7 8), .call (.pre 13)] s1
      = some s2 ∧ s2.proc = some p2 ∧ p2.key = some 12 := ⟨_, _, _, rfl, rfl, rfl, rfl⟩

example := C37_key_never_changes noCp rfl [.start, .call (.init 7 8), .crashIn (.pre 11) 2, .start,
      .call (.init 7 8)] [.call .online, .call (.self 3), .crash, .start, .call (.init 7 8),
      .call (.pre 13)] 12 _ _ _ _ 12 rfl rfl rfl rfl rfl

/-- **C38** does not hold: after a crash inside a save, no process can ever use the folder again. -/
theorem C38_torn_checkpoint : ∃ h : List Ev, ∃ s, run noCp h State.new = some s ∧
    ∀ es s', run noCp es s = some s' → es = [] := by
  refine ⟨[.start, .call (.init 7 8), .call (.pre 12), .call .online, .crashIn (.self 1) 1], _, rfl, ?_⟩
  intro es s' h
  cases es with
  | nil => rfl
  | cons e es =>
    cases e <;> simp [run, Event.step, Disk.load, save, Disk.apply] at h

/-- **C38**, what holds: a crash between calls loses nothing; the next process starts from the
checkpoint the dead one had in memory.  Missing: crashes inside a save (`C38_torn_checkpoint`). -/
theorem C38_crash_between_calls_partial (empty : Checkpoint Cfg Dig)
    (h1 : List (Event Cfg Dig Key)) (s : State Cfg Dig Key) (p : Proc Cfg Dig Key)
    (h : run empty h1 State.new = some s) (hp : s.proc = some p) :
    ∃ s' p', run empty [.crash, .start] s = some s' ∧ s'.proc = some p' ∧ p'.cp = p.cp ∧
      s'.disk = s.disk := by
  have hload : s.disk.load empty = some p.cp := by
    rcases sync_run empty h1 s h p hp with h | ⟨h, h'⟩
    · simp [Disk.load, h]
    · simp [Disk.load, h, h']
  refine ⟨{ s with proc := some ⟨p.cp, none⟩ }, ⟨p.cp, none⟩, ?_, rfl, rfl, rfl⟩
  simp [run, Event.step, hp, hload]

example := C38_crash_between_calls_partial noCp
  [.start, .call (.init 7 8), .call (.pre 12), .call .online, .call (.self 3)] _ _ rfl rfl

end Psi.Recovery
