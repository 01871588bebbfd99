import Verif.Run.StageLemmas

/-! A run as a whole, built up from its last stage to its first. -/

namespace Psi.Run

open Psi.Digest (Key digest shortcut)

/-- The trace of a party that goes through the phases `full` and then may write. -/
structure Seen (c : PsiConfig) (l : Local) (n : Nat) (full : List Event) (o : Outcome Bool) : Prop where
  split : ∃ d t, o.trace = d ++ t ∧ d <+: full ∧ (t ≠ [] → d = full) ∧ Writes c l n t
  done : succeeded o → ∃ t, o.trace = full ++ t ∧ (entitled c = true → t ≠ [])

theorem Seen.cons {c : PsiConfig} {l : Local} {n : Nat} {full : List Event} {o : Outcome Bool} (e : Event)
    (h : Seen c l n full o) : Seen c l n (e :: full) (o.add e) := by
  obtain ⟨⟨d, t, h1, h2, h3, h4⟩, h5⟩ := h
  refine ⟨⟨e :: d, t, by simp [h1], by simpa using h2, fun ht => by rw [h3 ht], h4⟩, ?_⟩
  rintro ⟨a, ha⟩
  obtain ⟨t', h6, h7⟩ := h5 ⟨a, ha⟩
  exact ⟨t', by simp [h6], h7⟩

theorem Seen.stop {c : PsiConfig} {l : Local} {n : Nat} {full : List Event} (e : Err) :
    Seen c l n full ⟨[], .error e⟩ := by
  refine ⟨⟨[], [], rfl, List.nil_prefix, fun h => absurd rfl h, .inl rfl⟩, ?_⟩
  rintro ⟨a, ha⟩; cases ha

/-- Two programs that end well exactly under the condition `F`, whose traces go through `full`, and whose events
only happen under the conditions `Ev`. -/
structure Duo (c0 c1 : PsiConfig) (l0 l1 : Local) (Ev : Event → Prop) (F : Prop) (full : List Event)
    (p q : Prog Bool) : Prop where
  ends0 : Ends (run2 p q).1 F c0
  ends1 : Ends (run2 p q).2 F c1
  seen0 : Seen c0 l0 (rowsOf l1) full (run2 p q).1
  seen1 : Seen c1 l1 (rowsOf l0) full (run2 p q).2
  ev0 : ∀ e ∈ (run2 p q).1.trace, Ev e
  ev1 : ∀ e ∈ (run2 p q).2.trace, Ev e
  fail0 : ∃ e, (alone p).result = .error e
  fail1 : ∃ e, (alone q).result = .error e
  alone0 : Seen c0 l0 (rowsOf l1) full (alone p)
  alone1 : Seen c1 l1 (rowsOf l0) full (alone q)
  aloneEv0 : ∀ e ∈ (alone p).trace, Ev e
  aloneEv1 : ∀ e ∈ (alone q).trace, Ev e

section
variable {c0 c1 : PsiConfig} {l0 l1 : Local} {Ev : Event → Prop} {F : Prop} {full : List Event}

theorem Ends.congr {o : Outcome Bool} {F' : Prop} {c : PsiConfig} (h : Ends o F c) (hF : F ↔ F') : Ends o F' c :=
  ⟨h.iff.trans hF, h.value⟩

theorem Duo.congr {F' : Prop} {p q : Prog Bool} (h : Duo c0 c1 l0 l1 Ev F full p q) (hF : F ↔ F') :
    Duo c0 c1 l0 l1 Ev F' full p q :=
  { h with ends0 := h.ends0.congr hF, ends1 := h.ends1.congr hF }

theorem ends_error {F : Prop} {c : PsiConfig} {t : List Event} (e : Err) (hF : ¬ F) :
    Ends ⟨t, .error e⟩ F c := Ends.error rfl hF

theorem ends_fail {o : Outcome Bool} {F : Prop} {c : PsiConfig} (h : ∃ e, o.result = .error e) (hF : ¬ F) :
    Ends o F c := by
  obtain ⟨e, he⟩ := h
  exact Ends.error he hF

theorem not_mem_nil {P : Event → Prop} : ∀ e ∈ ([] : List Event), P e := by
  intro e h; cases h

/-- Both stop. -/
theorem Duo.throwBoth (e e' : Err) (hF : ¬ F) :
    Duo c0 c1 l0 l1 Ev F full (.throw e) (.throw e') := by
  refine ⟨?_, ?_, ?_, ?_, ?_, ?_, ⟨e, rfl⟩, ⟨e', rfl⟩, .stop e, .stop e', not_mem_nil, not_mem_nil⟩ <;>
    simp only [run2_throw, alone_throw]
  · exact ends_error e hF
  · exact ends_error e' hF
  · exact .stop e
  · exact .stop e'
  · exact not_mem_nil
  · exact not_mem_nil

theorem Duo.throwLeft (e : Err) {q : Prog Bool} (hF : ¬ F) (h1 : ∃ e, (alone q).result = .error e)
    (h2 : Seen c1 l1 (rowsOf l0) full (alone q)) (h3 : ∀ e ∈ (alone q).trace, Ev e) :
    Duo c0 c1 l0 l1 Ev F full (.throw e) q := by
  refine ⟨?_, ?_, ?_, ?_, ?_, ?_, ⟨e, rfl⟩, h1, .stop e, h2, not_mem_nil, h3⟩ <;>
    simp only [run2_throw]
  · exact ends_error e hF
  · exact ends_fail h1 hF
  · exact .stop e
  · exact h2
  · exact not_mem_nil
  · exact h3

theorem Duo.throwRight (e : Err) {p : Prog Bool} (hF : ¬ F) (h1 : ∃ e, (alone p).result = .error e)
    (h2 : Seen c0 l0 (rowsOf l1) full (alone p)) (h3 : ∀ e ∈ (alone p).trace, Ev e) :
    Duo c0 c1 l0 l1 Ev F full p (.throw e) := by
  refine ⟨?_, ?_, ?_, ?_, ?_, ?_, h1, ⟨e, rfl⟩, h2, .stop e, h3, not_mem_nil⟩ <;>
    simp only [run2_throw_right]
  · exact ends_fail h1 hF
  · exact ends_error e hF
  · exact h2
  · exact .stop e
  · exact h3
  · exact not_mem_nil

theorem ends_add {o : Outcome Bool} {F : Prop} {c : PsiConfig} (e : Event) (h : Ends o F c) :
    Ends (o.add e) F c := ⟨h.iff, h.value⟩

/-- A phase both parties enter. -/
theorem Duo.note {p q : Prog Bool} (e : Event) (he : Ev e) (h : Duo c0 c1 l0 l1 Ev F full p q) :
    Duo c0 c1 l0 l1 Ev F (e :: full) (.note e p) (.note e q) := by
  have hcons : ∀ t : List Event, (∀ e ∈ t, Ev e) → ∀ x ∈ e :: t, Ev x := by
    intro t ht x hx
    rcases List.mem_cons.mp hx with rfl | hx
    · exact he
    · exact ht x hx
  refine ⟨?_, ?_, ?_, ?_, ?_, ?_, h.fail0, h.fail1, h.alone0.cons e, h.alone1.cons e,
    hcons _ h.aloneEv0, hcons _ h.aloneEv1⟩ <;> simp only [run2_note, run2_note_right]
  · exact ends_add e h.ends0
  · exact ends_add e h.ends1
  · exact h.seen0.cons e
  · exact h.seen1.cons e
  · exact hcons _ h.ev0
  · exact hcons _ h.ev1

/-- A collective operation of both parties. -/
theorem Duo.gather {f g : Msg → Msg → Prog Bool} (k : Kind) (m m' : Msg)
    (h : Duo c0 c1 l0 l1 Ev F full (f m m') (g m m')) :
    Duo c0 c1 l0 l1 Ev F full (.gather k m f) (.gather k m' g) := by
  refine ⟨?_, ?_, ?_, ?_, ?_, ?_, ⟨.timeout, rfl⟩, ⟨.timeout, rfl⟩, .stop _, .stop _, not_mem_nil, not_mem_nil⟩ <;>
    simp only [run2_gather]
  · exact h.ends0
  · exact h.ends1
  · exact h.seen0
  · exact h.seen1
  · exact h.ev0
  · exact h.ev1

/-- What a program does on its own. -/
structure Solo (c : PsiConfig) (l : Local) (n : Nat) (Ev : Event → Prop) (full : List Event) (p : Prog Bool) :
    Prop where
  fail : ∃ e, (alone p).result = .error e
  seen : Seen c l n full (alone p)
  ev : ∀ e ∈ (alone p).trace, Ev e

theorem Solo.throw {c : PsiConfig} {l : Local} {n : Nat} (e : Err) : Solo c l n Ev full (.throw e) :=
  ⟨⟨e, rfl⟩, .stop e, not_mem_nil⟩

theorem Solo.gather {c : PsiConfig} {l : Local} {n : Nat} (k : Kind) (m : Msg) (f : Msg → Msg → Prog Bool) :
    Solo c l n Ev full (.gather k m f) :=
  ⟨⟨.timeout, rfl⟩, .stop _, not_mem_nil⟩

/-- A local step of both parties. -/
theorem Duo.step {α β : Type} (x : Except Err α) (y : Except Err β) {f : α → Prog Bool} {g : β → Prog Bool}
    {F : α → β → Prop}
    (h : ∀ a b, x = .ok a → y = .ok b → Duo c0 c1 l0 l1 Ev (F a b) full (f a) (g b))
    (h0 : ∀ a, x = .ok a → Solo c0 l0 (rowsOf l1) Ev full (f a))
    (h1 : ∀ b, y = .ok b → Solo c1 l1 (rowsOf l0) Ev full (g b)) :
    Duo c0 c1 l0 l1 Ev (∃ a b, x = .ok a ∧ y = .ok b ∧ F a b) full (step x >>= f) (step y >>= g) := by
  cases x with
  | error e =>
    have hF : ¬ ∃ a b, (.error e : Except Err α) = .ok a ∧ y = .ok b ∧ F a b := by
      rintro ⟨a, b, h, _⟩; cases h
    cases y with
    | error e' => exact .throwBoth e e' hF
    | ok b =>
      obtain ⟨s1, s2, s3⟩ := h1 b rfl
      exact .throwLeft e hF s1 s2 s3
  | ok a =>
    cases y with
    | error e' =>
      have hF : ¬ ∃ a' b, (.ok a : Except Err α) = .ok a' ∧ (.error e' : Except Err β) = .ok b ∧ F a' b := by
        rintro ⟨a', b, _, h, _⟩; cases h
      obtain ⟨s1, s2, s3⟩ := h0 a rfl
      exact .throwRight e' hF s1 s2 s3
    | ok b =>
      refine (h a b rfl rfl).congr ⟨fun hf => ⟨a, b, rfl, rfl, hf⟩, ?_⟩
      rintro ⟨a', b', h1, h2, h3⟩
      cases h1; cases h2
      exact h3

theorem Duo.solo0 {p q : Prog Bool} (h : Duo c0 c1 l0 l1 Ev F full p q) : Solo c0 l0 (rowsOf l1) Ev full p :=
  ⟨h.fail0, h.alone0, h.aloneEv0⟩

theorem Duo.solo1 {p q : Prog Bool} (h : Duo c0 c1 l0 l1 Ev F full p q) : Solo c1 l1 (rowsOf l0) Ev full q :=
  ⟨h.fail1, h.alone1, h.aloneEv1⟩

/-- A local step without result. -/
theorem Duo.act {p q : Prog Bool} (x y : Except Err Unit) (h : Duo c0 c1 l0 l1 Ev F full p q) :
    Duo c0 c1 l0 l1 Ev (good x ∧ good y ∧ F) full (Psi.Run.step x >>= fun _ => p)
      (Psi.Run.step y >>= fun _ => q) := by
  refine (Duo.step x y (F := fun _ _ => F) (fun _ _ _ _ => h) (fun _ _ => h.solo0) (fun _ _ => h.solo1)).congr ?_
  constructor
  · rintro ⟨a, b, hx, hy, hF⟩
    exact ⟨⟨a, hx⟩, ⟨b, hy⟩, hF⟩
  · rintro ⟨⟨a, hx⟩, ⟨b, hy⟩, hF⟩
    exact ⟨a, b, hx, hy, hF⟩

/-- `Finalize`. -/
theorem fin_duo (hb : c0.protocol.broadcast = c1.protocol.broadcast)
    (hr : Complementary c0 c1) (hw : ∀ n, Ev (.write n)) :
    Duo c0 c1 l0 l1 Ev (FinSteps c0 l0 (rowsOf l1) ∧ FinSteps c1 l1 (rowsOf l0)) []
      (finalize true c0 l0) (finalize false c1 l1) := by
  have h := fin_stage (l0 := l0) (l1 := l1) hb hr
  have a0 := alone_finalize true c0 l0 (rowsOf l1)
  have a1 := alone_finalize false c1 l1 (rowsOf l0)
  have hev : ∀ (c : PsiConfig) (l : Local) (n : Nat) (t : List Event), Writes c l n t → ∀ e ∈ t, Ev e := by
    intro c l n t ht e he
    rcases ht with rfl | ⟨_, s, _, rfl⟩
    · cases he
    · rw [List.mem_singleton] at he
      rw [he]; exact hw _
  have hseen : ∀ (c : PsiConfig) (l : Local) (n : Nat) (o : Outcome Bool), Writes c l n o.trace →
      (succeeded o → entitled c = true → o.trace ≠ []) → Seen c l n [] o := by
    intro c l n o ho hs
    exact ⟨⟨[], o.trace, rfl, List.nil_prefix, fun _ => rfl, ho⟩, fun h => ⟨o.trace, rfl, hs h⟩⟩
  refine ⟨h.ends0, h.ends1, hseen _ _ _ _ h.writes0 h.wrote0, hseen _ _ _ _ h.writes1 h.wrote1,
    hev _ _ _ _ h.writes0, hev _ _ _ _ h.writes1, a0.1, a1.1, hseen _ _ _ _ a0.2 ?_, hseen _ _ _ _ a1.2 ?_,
    hev _ _ _ _ a0.2, hev _ _ _ _ a1.2⟩
  · rintro ⟨a, ha⟩
    obtain ⟨e, he⟩ := a0.1
    rw [he] at ha; cases ha
  · rintro ⟨a, ha⟩
    obtain ⟨e, he⟩ := a1.1
    rw [he] at ha; cases ha

end

/-! ### After initialisation -/

/-- The steps of the phases. -/
def PhaseSteps (skip : Bool) (l0 l1 : Local) : Prop :=
  skip = false → good l0.preProcess ∧ good l1.preProcess ∧ good l0.online ∧ good l1.online ∧
    good l0.postProcess ∧ good l1.postProcess

/-- What must hold when an event happens after initialisation. -/
def Cond (K : Prop) (skip : Bool) (l0 l1 : Local) : Event → Prop
  | .init => True
  | .preProcess => K ∧ skip = false
  | .online => K ∧ skip = false ∧ good l0.preProcess ∧ good l1.preProcess
  | .postProcess => K ∧ skip = false ∧ good l0.preProcess ∧ good l1.preProcess
  | .finalize => K
  | .write _ => K
  | .genCache => False
  | .transferCache => False

theorem tail_eq (skip : Bool) :
    phases skip = .init :: (if skip then [.finalize] else [.preProcess, .online, .postProcess, .finalize]) := by
  cases skip <;> rfl

theorem afterInit_duo {c0 c1 : PsiConfig} {l0 l1 : Local} {K : Prop} (hK : K) (skip : Bool)
    (hb : c0.protocol.broadcast = c1.protocol.broadcast) (hr : Complementary c0 c1) :
    Duo c0 c1 l0 l1 (Cond K skip l0 l1)
      (PhaseSteps skip l0 l1 ∧ FinSteps c0 l0 (rowsOf l1) ∧ FinSteps c1 l1 (rowsOf l0))
      (if skip then [.finalize] else [.preProcess, .online, .postProcess, .finalize])
      (afterInit true l0 ⟨c0, skip⟩) (afterInit false l1 ⟨c1, skip⟩) := by
  have hfin : Duo c0 c1 l0 l1 (Cond K skip l0 l1) (FinSteps c0 l0 (rowsOf l1) ∧ FinSteps c1 l1 (rowsOf l0))
      [.finalize] (.note .finalize (finalize true c0 l0)) (.note .finalize (finalize false c1 l1)) :=
    Duo.note _ (show Cond K skip l0 l1 .finalize from hK) (fin_duo hb hr (fun _ => hK))
  cases skip with
  | true =>
    refine hfin.congr ⟨fun h => ⟨fun h' => (by cases h'), h⟩, fun h => h.2⟩
  | false =>
    unfold afterInit protocolPhases
    simp only [if_true, Bool.false_eq_true, if_false, bind_assoc', note_bind, gather_bind, gatherC_bind, noteC_bind]
    by_cases hp : good l0.preProcess ∧ good l1.preProcess
    · have h3 := Duo.note .postProcess
        (show Cond K false l0 l1 .postProcess from ⟨hK, rfl, hp⟩) (Duo.act l0.postProcess l1.postProcess hfin)
      have h2 := Duo.note .online
        (show Cond K false l0 l1 .online from ⟨hK, rfl, hp⟩) (Duo.act l0.online l1.online h3)
      have h1 := Duo.gather .barrier .empty .empty (f := fun _ _ => Prog.note .online (step l0.online >>= fun _ =>
          Prog.note .postProcess (step l0.postProcess >>= fun _ => Prog.note .finalize (finalize true c0 l0))))
        (g := fun _ _ => Prog.note .online (step l1.online >>= fun _ =>
          Prog.note .postProcess (step l1.postProcess >>= fun _ => Prog.note .finalize (finalize false c1 l1)))) h2
      have h0 := Duo.note .preProcess
        (show Cond K false l0 l1 .preProcess from ⟨hK, rfl⟩) (Duo.act l0.preProcess l1.preProcess h1)
      refine h0.congr ?_
      unfold PhaseSteps
      tauto
    · have h1 : Duo c0 c1 l0 l1 (Cond K false l0 l1)
          (∃ a b, l0.preProcess = .ok a ∧ l1.preProcess = .ok b ∧ False)
          [.online, .postProcess, .finalize]
          (step l0.preProcess >>= fun _ => Prog.gather .barrier .empty (fun _ _ => Prog.note .online
            (step l0.online >>= fun _ => Prog.note .postProcess (step l0.postProcess >>= fun _ =>
              Prog.note .finalize (finalize true c0 l0)))))
          (step l1.preProcess >>= fun _ => Prog.gather .barrier .empty (fun _ _ => Prog.note .online
            (step l1.online >>= fun _ => Prog.note .postProcess (step l1.postProcess >>= fun _ =>
              Prog.note .finalize (finalize false c1 l1))))) :=
        Duo.step _ _ (F := fun _ _ => False)
          (fun a b ha hb' => absurd ⟨⟨a, ha⟩, ⟨b, hb'⟩⟩ hp) (fun _ _ => .gather _ _ _) (fun _ _ => .gather _ _ _)
      have h0 := Duo.note .preProcess (show Cond K false l0 l1 .preProcess from ⟨hK, rfl⟩) h1
      refine h0.congr ?_
      unfold PhaseSteps
      constructor
      · rintro ⟨_, _, _, _, h⟩; exact h.elim
      · rintro ⟨h, _⟩
        exact absurd ⟨(h rfl).1, (h rfl).2.1⟩ hp

end Psi.Run
