import Verif.Run.Lemmas

/-! The stages of a run, one after the other, from the last to the first. -/

namespace Psi.Run

open Psi.Digest (Key digest shortcut)

/-- The number of rows a party fills up for its peer. -/
def fill (c : PsiConfig) (peerRows : Nat) (s : Nat × Nat) : Nat :=
  if c.protocol.broadcast then (peerRows + 2 ^ 64 - s.2) % 2 ^ 64 else 0

/-- The writing at the end of a trace. -/
def Writes (c : PsiConfig) (l : Local) (peerRows : Nat) (t : List Event) : Prop :=
  t = [] ∨ (entitled c = true ∧ ∃ s, l.join = .ok s ∧ t = [.write (fill c peerRows s)])

def FinSteps (c : PsiConfig) (l : Local) (peerRows : Nat) : Prop :=
  good l.close ∧ good l.sort ∧ (entitled c = true → ∃ s, l.join = .ok s ∧ good (l.generate (fill c peerRows s)))

theorem good_ok {α : Type} (a : α) : good (.ok a : Except Err α) := ⟨a, rfl⟩

theorem not_good_error {α : Type} (e : Err) : ¬ good (.error e : Except Err α) := by
  rintro ⟨a, h⟩; cases h

/-- A stage of both parties: how it ends and what is seen of it. -/
structure Ends (o : Outcome Bool) (fine : Prop) (c : PsiConfig) : Prop where
  iff : succeeded o ↔ fine
  value : ∀ b, o.result = .ok b → b = entitled c

theorem Ends.error {o : Outcome Bool} {fine : Prop} {c : PsiConfig} {e : Err} (h : o.result = .error e)
    (hf : ¬ fine) : Ends o fine c := by
  refine ⟨⟨?_, fun h' => absurd h' hf⟩, ?_⟩
  · rintro ⟨a, ha⟩
    rw [h] at ha; cases ha
  · intro b hb
    rw [h] at hb; cases hb

theorem entitled_iff (c : PsiConfig) :
    (c.protocol.role = .receiver ∨ c.protocol.broadcast = true) ↔ entitled c = true := by
  unfold entitled
  simp

theorem finalize_eq (rank0 : Bool) (c : PsiConfig) (l : Local) :
    finalize rank0 c l = (do
      step l.close
      step l.sort
      finBody rank0 c l
      let _ ← gather .allGather (.flag true)
      pure (decide (c.protocol.role = .receiver ∨ c.protocol.broadcast))) := by
  unfold finalize syncWait
  simp only [bind_assoc', pure_eq, ret_bind]

/-- Alone, the last stage fails. -/
theorem alone_finBody (rank0 : Bool) (c : PsiConfig) (l : Local) (n : Nat) (f : Unit → Prog Bool)
    (hf : ∀ a, alone (f a) = ⟨[], .error .timeout⟩) :
    (∃ e, (alone (finBody rank0 c l >>= f)).result = .error e) ∧
      Writes c l n (alone (finBody rank0 c l >>= f)).trace := by
  unfold finBody
  by_cases h : c.protocol.role = .receiver ∨ c.protocol.broadcast = true
  · rw [if_pos h]
    have he := (entitled_iff c).mp h
    cases hj : l.join with
    | error e => exact ⟨⟨e, rfl⟩, .inl rfl⟩
    | ok s =>
      simp only [step_ok, ret_bind]
      cases hb : c.protocol.broadcast with
      | true => exact ⟨⟨.timeout, rfl⟩, .inl rfl⟩
      | false =>
        have hw : Writes c l n [.write 0] := .inr ⟨he, s, hj, by simp [fill, hb]⟩
        cases hg : l.generate 0 with
        | error e =>
          simp only [Bool.false_eq_true, if_false, note_bind, step_error, throw_bind, noteC_bind, alone_note,
            add_trace, add_result, alone_throw]
          exact ⟨⟨e, rfl⟩, hw⟩
        | ok u =>
          simp only [Bool.false_eq_true, if_false, note_bind, step_ok, ret_bind, noteC_bind, alone_note,
            add_trace, add_result, hf]
          exact ⟨⟨_, rfl⟩, hw⟩
  · rw [if_neg h]
    simp only [pure_eq, ret_bind, hf]
    exact ⟨⟨_, rfl⟩, .inl rfl⟩

theorem alone_finalize (rank0 : Bool) (c : PsiConfig) (l : Local) (n : Nat) :
    (∃ e, (alone (finalize rank0 c l)).result = .error e) ∧ Writes c l n (alone (finalize rank0 c l)).trace := by
  rw [finalize_eq]
  cases hc : l.close with
  | error e => exact ⟨⟨e, rfl⟩, .inl rfl⟩
  | ok u =>
    cases hs : l.sort with
    | error e => exact ⟨⟨e, rfl⟩, .inl rfl⟩
    | ok u =>
      simp only [step_ok, ret_bind]
      exact alone_finBody rank0 c l n _ (fun _ => rfl)

theorem alone_sort (rank0 : Bool) (c : PsiConfig) (l : Local) (n : Nat) :
    (∃ e, (alone (step l.sort >>= fun _ => finBody rank0 c l >>= fun _ => gather .allGather (.flag true) >>= fun _ =>
      (pure (decide (c.protocol.role = .receiver ∨ c.protocol.broadcast)) : Prog Bool))).result = .error e) ∧
    Writes c l n (alone (step l.sort >>= fun _ => finBody rank0 c l >>= fun _ =>
      gather .allGather (.flag true) >>= fun _ =>
      (pure (decide (c.protocol.role = .receiver ∨ c.protocol.broadcast)) : Prog Bool))).trace := by
  cases hs : l.sort with
  | error e => exact ⟨⟨e, rfl⟩, .inl rfl⟩
  | ok u =>
    simp only [step_ok, ret_bind]
    exact alone_finBody rank0 c l n _ (fun _ => rfl)

/-- `Finalize` of both parties. -/
structure FinStage (c0 c1 : PsiConfig) (l0 l1 : Local) (o : Outcome Bool × Outcome Bool) : Prop where
  ends0 : Ends o.1 (FinSteps c0 l0 (rowsOf l1) ∧ FinSteps c1 l1 (rowsOf l0)) c0
  ends1 : Ends o.2 (FinSteps c0 l0 (rowsOf l1) ∧ FinSteps c1 l1 (rowsOf l0)) c1
  writes0 : Writes c0 l0 (rowsOf l1) o.1.trace
  writes1 : Writes c1 l1 (rowsOf l0) o.2.trace
  wrote0 : succeeded o.1 → entitled c0 = true → o.1.trace ≠ []
  wrote1 : succeeded o.2 → entitled c1 = true → o.2.trace ≠ []

theorem FinStage.fail {c0 c1 : PsiConfig} {l0 l1 : Local} {o : Outcome Bool × Outcome Bool}
    (h0 : ∃ e, o.1.result = .error e) (h1 : ∃ e, o.2.result = .error e)
    (hn : ¬ (FinSteps c0 l0 (rowsOf l1) ∧ FinSteps c1 l1 (rowsOf l0)))
    (w0 : Writes c0 l0 (rowsOf l1) o.1.trace) (w1 : Writes c1 l1 (rowsOf l0) o.2.trace) :
    FinStage c0 c1 l0 l1 o := by
  obtain ⟨e0, h0⟩ := h0
  obtain ⟨e1, h1⟩ := h1
  refine ⟨Ends.error h0 hn, Ends.error h1 hn, w0, w1, ?_, ?_⟩
  · rintro ⟨a, ha⟩; rw [h0] at ha; cases ha
  · rintro ⟨a, ha⟩; rw [h1] at ha; cases ha

/-- How the joining part of the last stage ends. -/
theorem fin_body {c0 c1 : PsiConfig} {l0 l1 : Local} (hb : c0.protocol.broadcast = c1.protocol.broadcast)
    (hr : Complementary c0 c1) (hc0 : good l0.close) (hc1 : good l1.close) (hs0 : good l0.sort)
    (hs1 : good l1.sort) :
    FinStage c0 c1 l0 l1 (run2
      (finBody true c0 l0 >>= fun _ => gather .allGather (.flag true) >>= fun _ =>
        (pure (decide (c0.protocol.role = .receiver ∨ c0.protocol.broadcast)) : Prog Bool))
      (finBody false c1 l1 >>= fun _ => gather .allGather (.flag true) >>= fun _ =>
        (pure (decide (c1.protocol.role = .receiver ∨ c1.protocol.broadcast)) : Prog Bool))) := by
  have e0 := entitled_iff c0
  have e1 := entitled_iff c1
  have hwr0 : Writes c0 l0 (rowsOf l1) [] := .inl rfl
  have hwr1 : Writes c1 l1 (rowsOf l0) [] := .inl rfl
  cases hbc : c0.protocol.broadcast with
  | true =>
    have hbc1 : c1.protocol.broadcast = true := hb ▸ hbc
    have en0 : entitled c0 = true := e0.mp (.inr hbc)
    have en1 : entitled c1 = true := e1.mp (.inr hbc1)
    unfold finBody
    rw [if_pos (.inr hbc), if_pos (.inr hbc1)]
    simp only [hbc, hbc1, if_true, or_true, decide_true]
    cases hj0 : l0.join with
    | error e =>
      have hn : ¬ (FinSteps c0 l0 (rowsOf l1) ∧ FinSteps c1 l1 (rowsOf l0)) := by
        rintro ⟨⟨_, _, h⟩, _⟩
        obtain ⟨s, hs, _⟩ := h en0
        rw [hj0] at hs; cases hs
      cases hj1 : l1.join with
      | error e' =>
        simp only [step_error, throw_bind, run2_throw, alone_throw]
        exact .fail ⟨_, rfl⟩ ⟨_, rfl⟩ hn hwr0 hwr1
      | ok s1 =>
        simp only [step_error, throw_bind, run2_throw, step_ok, ret_bind, gather_bind, gatherC_bind, alone_gather]
        exact .fail ⟨_, rfl⟩ ⟨_, rfl⟩ hn hwr0 hwr1
    | ok s0 =>
      cases hj1 : l1.join with
      | error e' =>
        have hn : ¬ (FinSteps c0 l0 (rowsOf l1) ∧ FinSteps c1 l1 (rowsOf l0)) := by
          rintro ⟨_, ⟨_, _, h⟩⟩
          obtain ⟨s, hs, _⟩ := h en1
          rw [hj1] at hs; cases hs
        simp only [step_error, throw_bind, run2_throw_right, step_ok, ret_bind, gather_bind, gatherC_bind,
          alone_gather]
        exact .fail ⟨_, rfl⟩ ⟨_, rfl⟩ hn hwr0 hwr1
      | ok s1 =>
        have hrow0 : rowsOf l0 = s0.1 := by simp [rowsOf, hj0]
        have hrow1 : rowsOf l1 = s1.1 := by simp [rowsOf, hj1]
        have w0 : Writes c0 l0 (rowsOf l1) [.write ((s1.1 + 2 ^ 64 - s0.2) % 2 ^ 64)] :=
          .inr ⟨en0, s0, hj0, by simp [fill, hbc, hrow1]⟩
        have w1 : Writes c1 l1 (rowsOf l0) [.write ((s0.1 + 2 ^ 64 - s1.2) % 2 ^ 64)] :=
          .inr ⟨en1, s1, hj1, by simp [fill, hbc1, hrow0]⟩
        have f0 : fill c0 (rowsOf l1) s0 = (s1.1 + 2 ^ 64 - s0.2) % 2 ^ 64 := by simp [fill, hbc, hrow1]
        have f1 : fill c1 (rowsOf l0) s1 = (s0.1 + 2 ^ 64 - s1.2) % 2 ^ 64 := by simp [fill, hbc1, hrow0]
        simp only [step_ok, ret_bind, gather_bind, gatherC_bind, run2_gather, writeSized, if_true, Bool.false_eq_true, if_false,
          note_bind, noteC_bind, run2_note, run2_note_right]
        cases hg0 : l0.generate ((s1.1 + 2 ^ 64 - s0.2) % 2 ^ 64) with
        | error e =>
          have hn : ¬ (FinSteps c0 l0 (rowsOf l1) ∧ FinSteps c1 l1 (rowsOf l0)) := by
            rintro ⟨⟨_, _, h⟩, _⟩
            obtain ⟨s, hs, hg⟩ := h en0
            rw [hj0] at hs; cases hs
            rw [f0, hg0] at hg
            exact not_good_error _ hg
          cases hg1 : l1.generate ((s0.1 + 2 ^ 64 - s1.2) % 2 ^ 64) with
          | error e' =>
            simp only [step_error, throw_bind, run2_throw, alone_throw]
            exact .fail ⟨_, rfl⟩ ⟨_, rfl⟩ hn w0 w1
          | ok u =>
            simp only [step_error, throw_bind, run2_throw, step_ok, ret_bind, alone_gather]
            exact .fail ⟨_, rfl⟩ ⟨_, rfl⟩ hn w0 w1
        | ok u =>
          cases hg1 : l1.generate ((s0.1 + 2 ^ 64 - s1.2) % 2 ^ 64) with
          | error e' =>
            have hn : ¬ (FinSteps c0 l0 (rowsOf l1) ∧ FinSteps c1 l1 (rowsOf l0)) := by
              rintro ⟨_, ⟨_, _, h⟩⟩
              obtain ⟨s, hs, hg⟩ := h en1
              rw [hj1] at hs; cases hs
              rw [f1, hg1] at hg
              exact not_good_error _ hg
            simp only [step_error, throw_bind, run2_throw_right, step_ok, ret_bind, alone_gather]
            exact .fail ⟨_, rfl⟩ ⟨_, rfl⟩ hn w0 w1
          | ok u' =>
            have hy : FinSteps c0 l0 (rowsOf l1) ∧ FinSteps c1 l1 (rowsOf l0) :=
              ⟨⟨hc0, hs0, fun _ => ⟨s0, hj0, by rw [f0, hg0]; exact good_ok _⟩⟩,
                ⟨hc1, hs1, fun _ => ⟨s1, hj1, by rw [f1, hg1]; exact good_ok _⟩⟩⟩
            simp only [step_ok, ret_bind, pure_eq, run2_gather, run2_ret, alone_ret]
            refine ⟨⟨⟨fun _ => hy, fun _ => ⟨_, rfl⟩⟩, ?_⟩, ⟨⟨fun _ => hy, fun _ => ⟨_, rfl⟩⟩, ?_⟩, w0, w1, ?_, ?_⟩
            · intro b hb'
              simp only [add_result, Except.ok.injEq] at hb'
              rw [← hb', en0]
            · intro b hb'
              simp only [add_result, Except.ok.injEq] at hb'
              rw [← hb', en1]
            · intro _ _ h; cases h
            · intro _ _ h; cases h
  | false =>
    have hbc1 : c1.protocol.broadcast = false := hb ▸ hbc
    have f0 : ∀ n s, fill c0 n s = 0 := by intro n s; simp [fill, hbc]
    have f1 : ∀ n s, fill c1 n s = 0 := by intro n s; simp [fill, hbc1]
    rcases hr with ⟨hr0, hr1⟩ | ⟨hr0, hr1⟩
    · have en0 : entitled c0 = true := e0.mp (.inl hr0)
      have en1 : entitled c1 = false := by simp [entitled, hr1, hbc1]
      have hy1 : FinSteps c1 l1 (rowsOf l0) := ⟨hc1, hs1, fun h => by rw [en1] at h; cases h⟩
      unfold finBody
      simp only [hr0, hr1, hbc, hbc1]
      simp only [true_or, if_true, reduceCtorEq, Bool.false_eq_true, or_self, if_false]
      cases hj0 : l0.join with
      | error e =>
        have hn : ¬ (FinSteps c0 l0 (rowsOf l1) ∧ FinSteps c1 l1 (rowsOf l0)) := by
          rintro ⟨⟨_, _, h⟩, _⟩
          obtain ⟨s, hs, _⟩ := h en0
          rw [hj0] at hs; cases hs
        simp only [step_error, throw_bind, run2_throw, pure_eq, ret_bind, gather_bind, alone_gather]
        exact .fail ⟨_, rfl⟩ ⟨_, rfl⟩ hn hwr0 hwr1
      | ok s0 =>
        have w0 : Writes c0 l0 (rowsOf l1) [.write 0] := .inr ⟨en0, s0, hj0, by rw [f0]⟩
        simp only [step_ok, ret_bind, note_bind, noteC_bind, run2_note]
        cases hg0 : l0.generate 0 with
        | error e =>
          have hn : ¬ (FinSteps c0 l0 (rowsOf l1) ∧ FinSteps c1 l1 (rowsOf l0)) := by
            rintro ⟨⟨_, _, h⟩, _⟩
            obtain ⟨s, hs, hg⟩ := h en0
            rw [f0, hg0] at hg
            exact not_good_error _ hg
          simp only [step_error, throw_bind, run2_throw, pure_eq, ret_bind, gather_bind, alone_gather]
          exact .fail ⟨_, rfl⟩ ⟨_, rfl⟩ hn w0 hwr1
        | ok u =>
          have hy : FinSteps c0 l0 (rowsOf l1) ∧ FinSteps c1 l1 (rowsOf l0) :=
            ⟨⟨hc0, hs0, fun _ => ⟨s0, hj0, by rw [f0, hg0]; exact good_ok _⟩⟩, hy1⟩
          simp only [step_ok, ret_bind, pure_eq, gather_bind, run2_gather, run2_ret, alone_ret]
          refine ⟨⟨⟨fun _ => hy, fun _ => ⟨_, rfl⟩⟩, ?_⟩, ⟨⟨fun _ => hy, fun _ => ⟨_, rfl⟩⟩, ?_⟩, w0, hwr1, ?_, ?_⟩
          · intro b hb'
            simp only [add_result, Except.ok.injEq] at hb'
            rw [← hb', en0]; simp
          · intro b hb'
            simp only [Except.ok.injEq] at hb'
            rw [← hb', en1]; simp
          · intro _ _ h; cases h
          · intro _ h; rw [en1] at h; cases h
    · have en1 : entitled c1 = true := e1.mp (.inl hr1)
      have en0 : entitled c0 = false := by simp [entitled, hr0, hbc]
      have hy0 : FinSteps c0 l0 (rowsOf l1) := ⟨hc0, hs0, fun h => by rw [en0] at h; cases h⟩
      unfold finBody
      simp only [hr0, hr1, hbc, hbc1]
      simp only [true_or, if_true, reduceCtorEq, Bool.false_eq_true, or_self, if_false]
      cases hj1 : l1.join with
      | error e =>
        have hn : ¬ (FinSteps c0 l0 (rowsOf l1) ∧ FinSteps c1 l1 (rowsOf l0)) := by
          rintro ⟨_, ⟨_, _, h⟩⟩
          obtain ⟨s, hs, _⟩ := h en1
          rw [hj1] at hs; cases hs
        simp only [step_error, throw_bind, run2_throw_right, pure_eq, ret_bind, gather_bind, alone_gather]
        exact .fail ⟨_, rfl⟩ ⟨_, rfl⟩ hn hwr0 hwr1
      | ok s1 =>
        have w1 : Writes c1 l1 (rowsOf l0) [.write 0] := .inr ⟨en1, s1, hj1, by rw [f1]⟩
        simp only [step_ok, ret_bind, note_bind, noteC_bind, run2_note_right]
        cases hg1 : l1.generate 0 with
        | error e =>
          have hn : ¬ (FinSteps c0 l0 (rowsOf l1) ∧ FinSteps c1 l1 (rowsOf l0)) := by
            rintro ⟨_, ⟨_, _, h⟩⟩
            obtain ⟨s, hs, hg⟩ := h en1
            rw [f1, hg1] at hg
            exact not_good_error _ hg
          simp only [step_error, throw_bind, run2_throw_right, pure_eq, ret_bind, gather_bind, alone_gather]
          exact .fail ⟨_, rfl⟩ ⟨_, rfl⟩ hn hwr0 w1
        | ok u =>
          have hy : FinSteps c0 l0 (rowsOf l1) ∧ FinSteps c1 l1 (rowsOf l0) :=
            ⟨hy0, ⟨hc1, hs1, fun _ => ⟨s1, hj1, by rw [f1, hg1]; exact good_ok _⟩⟩⟩
          simp only [step_ok, ret_bind, pure_eq, gather_bind, run2_gather, run2_ret, alone_ret]
          refine ⟨⟨⟨fun _ => hy, fun _ => ⟨_, rfl⟩⟩, ?_⟩, ⟨⟨fun _ => hy, fun _ => ⟨_, rfl⟩⟩, ?_⟩, hwr0, w1, ?_, ?_⟩
          · intro b hb'
            simp only [Except.ok.injEq] at hb'
            rw [← hb', en0]; simp
          · intro b hb'
            simp only [add_result, Except.ok.injEq] at hb'
            rw [← hb', en1]; simp
          · intro _ h; rw [en0] at h; cases h
          · intro _ _ h; cases h

theorem fin_stage {c0 c1 : PsiConfig} {l0 l1 : Local} (hb : c0.protocol.broadcast = c1.protocol.broadcast)
    (hr : Complementary c0 c1) :
    FinStage c0 c1 l0 l1 (run2 (finalize true c0 l0) (finalize false c1 l1)) := by
  have hwr0 : Writes c0 l0 (rowsOf l1) [] := .inl rfl
  have hwr1 : Writes c1 l1 (rowsOf l0) [] := .inl rfl
  rw [finalize_eq, finalize_eq]
  cases hc0 : l0.close with
  | error e =>
    have hn : ¬ (FinSteps c0 l0 (rowsOf l1) ∧ FinSteps c1 l1 (rowsOf l0)) := by
      rintro ⟨⟨h, _⟩, _⟩
      rw [hc0] at h; exact not_good_error _ h
    have ha := alone_finalize false c1 l1 (rowsOf l0)
    rw [finalize_eq] at ha
    simp only [step_error, throw_bind, run2_throw]
    exact .fail ⟨_, rfl⟩ ha.1 hn hwr0 ha.2
  | ok u =>
    cases hc1 : l1.close with
    | error e =>
      have hn : ¬ (FinSteps c0 l0 (rowsOf l1) ∧ FinSteps c1 l1 (rowsOf l0)) := by
        rintro ⟨_, ⟨h, _⟩⟩
        rw [hc1] at h; exact not_good_error _ h
      simp only [step_error, throw_bind, run2_throw_right, step_ok, ret_bind]
      have ha := alone_sort true c0 l0 (rowsOf l1)
      exact .fail ha.1 ⟨_, rfl⟩ hn ha.2 hwr1
    | ok u' =>
      simp only [step_ok, ret_bind]
      cases hs0 : l0.sort with
      | error e =>
        have hn : ¬ (FinSteps c0 l0 (rowsOf l1) ∧ FinSteps c1 l1 (rowsOf l0)) := by
          rintro ⟨⟨_, h, _⟩, _⟩
          rw [hs0] at h; exact not_good_error _ h
        have ha := alone_sort false c1 l1 (rowsOf l0)
        simp only [step_error, throw_bind, run2_throw]
        exact .fail ⟨_, rfl⟩ ha.1 hn hwr0 ha.2
      | ok u =>
        cases hs1 : l1.sort with
        | error e =>
          have hn : ¬ (FinSteps c0 l0 (rowsOf l1) ∧ FinSteps c1 l1 (rowsOf l0)) := by
            rintro ⟨_, ⟨_, h, _⟩⟩
            rw [hs1] at h; exact not_good_error _ h
          simp only [step_error, throw_bind, run2_throw_right, step_ok, ret_bind]
          have ha := alone_finBody true c0 l0 (rowsOf l1) (fun _ => gather .allGather (.flag true) >>= fun _ =>
            (pure (decide (c0.protocol.role = .receiver ∨ c0.protocol.broadcast)) : Prog Bool)) (fun _ => rfl)
          exact .fail ha.1 ⟨_, rfl⟩ hn ha.2 hwr1
        | ok u' =>
          simp only [step_ok, ret_bind]
          exact fin_body hb hr ⟨_, hc0⟩ ⟨_, hc1⟩ ⟨_, hs0⟩ ⟨_, hs1⟩

end Psi.Run
