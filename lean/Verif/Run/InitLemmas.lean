import Verif.Run.DuoLemmas

/-! Initialisation and the whole run. -/

namespace Psi.Run

open Psi.Digest (Key digest shortcut)

/-! ### Only role and broadcast of the configuration matter afterwards -/

/-- The same to the end of the run. -/
structure Alike (c c' : PsiConfig) : Prop where
  role : c.protocol.role = c'.protocol.role
  broadcast : c.protocol.broadcast = c'.protocol.broadcast

theorem Alike.entitled {c c' : PsiConfig} (h : Alike c c') : entitled c = entitled c' := by
  unfold Psi.Run.entitled
  rw [h.role, h.broadcast]

theorem Alike.fill {c c' : PsiConfig} (h : Alike c c') (n : Nat) (s : Nat × Nat) : fill c n s = fill c' n s := by
  unfold Psi.Run.fill
  rw [h.broadcast]

theorem Alike.writes {c c' : PsiConfig} (h : Alike c c') {l : Local} {n : Nat} {t : List Event}
    (hw : Writes c l n t) : Writes c' l n t := by
  rcases hw with rfl | ⟨h1, s, h2, h3⟩
  · exact .inl rfl
  · exact .inr ⟨h.entitled ▸ h1, s, h2, by rw [h3, h.fill]⟩

theorem Alike.seen {c c' : PsiConfig} (h : Alike c c') {l : Local} {n : Nat} {full : List Event} {o : Outcome Bool}
    (hs : Seen c l n full o) : Seen c' l n full o := by
  obtain ⟨⟨d, t, h1, h2, h3, h4⟩, h5⟩ := hs
  exact ⟨⟨d, t, h1, h2, h3, h.writes h4⟩, fun ho => (h5 ho).imp fun t ht => ⟨ht.1, fun he => ht.2 (h.entitled ▸ he)⟩⟩

theorem Alike.ends {c c' : PsiConfig} (h : Alike c c') {o : Outcome Bool} {F : Prop} (he : Ends o F c) :
    Ends o F c' := ⟨he.iff, fun b hb => by rw [he.value b hb, h.entitled]⟩

theorem Alike.finSteps {c c' : PsiConfig} (h : Alike c c') (l : Local) (n : Nat) :
    FinSteps c l n ↔ FinSteps c' l n := by
  unfold FinSteps
  rw [h.entitled]
  simp only [h.fill]

theorem Duo.alike {c0 c1 c0' c1' : PsiConfig} {l0 l1 : Local} {Ev : Event → Prop} {F : Prop} {full : List Event}
    {p q : Prog Bool} (h : Duo c0 c1 l0 l1 Ev F full p q) (h0 : Alike c0 c0') (h1 : Alike c1 c1') :
    Duo c0' c1' l0 l1 Ev F full p q :=
  ⟨h0.ends h.ends0, h1.ends h.ends1, h0.seen h.seen0, h1.seen h.seen1, h.ev0, h.ev1, h.fail0, h.fail1,
    h0.seen h.alone0, h1.seen h.alone1, h.aloneEv0, h.aloneEv1⟩

theorem setDefaults_protocol (c : PsiConfig) :
    (setDefaults c).protocol.protocol = c.protocol.protocol ∧ (setDefaults c).protocol.role = c.protocol.role ∧
      (setDefaults c).protocol.broadcast = c.protocol.broadcast ∧ (setDefaults c).protocol.ecdh = c.protocol.ecdh ∧
      (setDefaults c).recoveryOn = c.recoveryOn := by
  unfold setDefaults
  split
  · exact ⟨rfl, rfl, rfl, rfl, rfl⟩
  · split
    · exact ⟨rfl, rfl, rfl, rfl, rfl⟩
    · exact ⟨rfl, rfl, rfl, rfl, rfl⟩

theorem alike_final (c : PsiConfig) : Alike (setDefaults (afterSelf c)) c :=
  ⟨(setDefaults_protocol _).2.1, (setDefaults_protocol _).2.2.1⟩

/-! ### The parts of initialisation after the check of the configurations -/

/-- Writer and recovery, then the phases. -/
def tailW (rank0 : Bool) (c : PsiConfig) (l : Local) (eq : Bool) : Prog Bool :=
  step l.writer >>= fun _ =>
    (if (setDefaults c).recoveryOn then step l.recovery else pure ()) >>= fun _ =>
      afterInit rank0 l ⟨setDefaults c, eq⟩

/-- The comparison of the inputs and what follows. -/
def tailD (H : List Char → Bytes) (rank0 : Bool) (c : PsiConfig) (l : Local) (keys : List (Key × Nat)) : Prog Bool :=
  digestCheck H c.checkDigest keys >>= tailW rank0 c l

/-- From the join processor on. -/
def tailJ (H : List Char → Bytes) (rank0 : Bool) (c : PsiConfig) (l : Local) : Prog Bool :=
  step (joinMake c) >>= fun _ => step l.keys >>= fun k => Prog.gather .allGather (.flag true) (fun _ _ =>
    tailD H rank0 c l k)

/-- From the comparison of the configurations on. -/
def tailP (w : Wire) (H : List Char → Bytes) (rank0 : Bool) (c : PsiConfig) (l : Local) : Msg × Msg → Prog Bool
  | (.config m0, .config m1) => step (checkPeer w m0 m1) >>= fun _ => tailJ H rank0 c l
  | _ => .throw .malformed

theorem init_tail (H : List Char → Bytes) (rank0 : Bool) (c : PsiConfig) (l : Local) :
    ((do
      step (joinMake c)
      let keys ← syncWait (step l.keys)
      let eq ← digestCheck H c.checkDigest keys
      step l.writer
      let c := setDefaults c
      (if c.recoveryOn then step l.recovery else pure ())
      pure (⟨c, eq⟩ : Ready)) >>= afterInit rank0 l) = tailJ H rank0 c l := by
  unfold tailJ tailD tailW syncWait
  simp only [bind_assoc', pure_eq, ret_bind, gather_bind, gatherC_bind]

theorem run_form (w : Wire) (H : List Char → Bytes) (rank0 : Bool) (c : PsiConfig) (l : Local) :
    run w H rank0 c l = (step (createParty c) >>= fun cls => Prog.note .init (step (checkSelf cls.role c) >>= fun c' =>
      Prog.gather .connect .empty (fun _ _ => Prog.gather .allGather (.config (w.ser (normalize c')))
        (fun x y => tailP w H rank0 c' l (x, y))))) := by
  unfold run init initConfig
  simp only [bind_assoc', note_bind, noteC_bind, gather_bind, gatherC_bind]
  congr 1
  funext cls
  congr 1
  congr 1
  funext c'
  congr 1
  funext _ _
  congr 1
  funext x y
  have ht := init_tail H rank0 c' l
  simp only [bind_assoc'] at ht
  cases x <;> cases y <;> first
    | rfl
    | (show _ = step (checkPeer w _ _) >>= fun _ => tailJ H rank0 c' l
       rw [← ht]
       simp only [bind_assoc', pure_eq, ret_bind])

section
variable {c0 c1 : PsiConfig} {l0 l1 : Local} {K : Prop} {skip : Bool}

theorem step_ite (b : Bool) (x : Except Err Unit) :
    (if b then step x else pure ()) = step (if b then x else .ok ()) := by
  cases b <;> rfl

theorem good_ite (b : Bool) (x : Except Err Unit) : good (if b then x else .ok ()) ↔ (b = true → good x) := by
  cases b
  · exact ⟨fun _ h => absurd h (by decide), fun _ => good_ok _⟩
  · exact ⟨fun h _ => h, fun h => h rfl⟩

theorem tailW_duo (hK : K) (hb : c0.protocol.broadcast = c1.protocol.broadcast)
    (hr : Complementary c0 c1) :
    Duo c0 c1 l0 l1 (Cond K skip l0 l1)
      (good l0.writer ∧ good l1.writer ∧ (c0.recoveryOn = true → good l0.recovery) ∧
        (c1.recoveryOn = true → good l1.recovery) ∧
        PhaseSteps skip l0 l1 ∧ FinSteps c0 l0 (rowsOf l1) ∧ FinSteps c1 l1 (rowsOf l0))
      (if skip then [.finalize] else [.preProcess, .online, .postProcess, .finalize])
      (tailW true (afterSelf c0) l0 skip) (tailW false (afterSelf c1) l1 skip) := by
  have hr' : Complementary (setDefaults (afterSelf c0)) (setDefaults (afterSelf c1)) := by
    unfold Complementary
    rw [(alike_final c0).role, (alike_final c1).role]
    exact hr
  have hb' : (setDefaults (afterSelf c0)).protocol.broadcast = (setDefaults (afterSelf c1)).protocol.broadcast := by
    rw [(alike_final c0).broadcast, (alike_final c1).broadcast]
    exact hb
  have h := (afterInit_duo (l0 := l0) (l1 := l1) hK skip hb' hr').alike (alike_final c0) (alike_final c1)
  unfold tailW
  rw [step_ite, step_ite, (setDefaults_protocol (afterSelf c0)).2.2.2.2, (setDefaults_protocol (afterSelf c1)).2.2.2.2]
  refine (Duo.act _ _ (Duo.act _ _ h)).congr ?_
  rw [good_ite, good_ite, (alike_final c0).finSteps, (alike_final c1).finSteps]
  rfl

theorem tailD_duo (H : List Char → Bytes) (hK : K) (ha : Agree c0 c1) (hr : Complementary c0 c1)
    (k0 k1 : List (Key × Nat)) (hs : skip = shortcut H (checks c0) k0 k1) :
    Duo c0 c1 l0 l1 (Cond K skip l0 l1)
      (good l0.writer ∧ good l1.writer ∧ (c0.recoveryOn = true → good l0.recovery) ∧
        (c1.recoveryOn = true → good l1.recovery) ∧
        PhaseSteps skip l0 l1 ∧ FinSteps c0 l0 (rowsOf l1) ∧ FinSteps c1 l1 (rowsOf l0))
      (if skip then [.finalize] else [.preProcess, .online, .postProcess, .finalize])
      (tailD H true (afterSelf c0) l0 k0) (tailD H false (afterSelf c1) l1 k1) := by
  have hw := tailW_duo (l0 := l0) (l1 := l1) (skip := skip) hK ha.broadcast hr
  have hc : (afterSelf c1).checkDigest = checks c0 := ha.digest.symm
  have hc0 : (afterSelf c0).checkDigest = checks c0 := rfl
  unfold tailD digestCheck
  rw [hc, hc0]
  unfold shortcut at hs
  cases hch : checks c0 with
  | false =>
    rw [hch] at hs
    simp only [Bool.false_and] at hs
    subst hs
    exact hw
  | true =>
    rw [hch] at hs
    simp only [if_true, gather_bind, gatherC_bind]
    refine Duo.gather _ _ _ ?_
    simp only [List.all_cons, List.all_nil, Bool.and_true, Bool.true_and] at hs
    cases hall : (k0.all fun x => x.2 == 0) && k1.all fun x => x.2 == 0 with
    | false =>
      rw [hall] at hs
      simp only [Bool.false_and] at hs
      subst hs
      simp only [hall, Bool.false_eq_true, if_false]
      exact hw
    | true =>
      rw [hall] at hs
      simp only [Bool.true_and] at hs
      simp only [hall, if_true, gatherC_bind]
      refine Duo.gather _ _ _ ?_
      rw [hs] at hw
      rw [hs]
      exact hw

theorem tailD_solo (H : List Char → Bytes) (rank0 : Bool) (c c' : PsiConfig) (l : Local) (n : Nat)
    (Ev : Event → Prop) (full : List Event) (k : List (Key × Nat)) :
    Solo c l n Ev full (Prog.gather .allGather (.flag true) (fun _ _ => tailD H rank0 c' l k)) := .gather _ _ _

theorem tailJ_duo (H : List Char → Bytes) (hK : K) (ha : Agree c0 c1) (hr : Complementary c0 c1)
    (hs : ∀ k0 k1, l0.keys = .ok k0 → l1.keys = .ok k1 → skip = shortcut H (checks c0) k0 k1)
    (j0 : joinMake (afterSelf c0) = .ok ()) (j1 : joinMake (afterSelf c1) = .ok ()) :
    Duo c0 c1 l0 l1 (Cond K skip l0 l1)
      ((good l0.keys ∧ good l1.keys) ∧ good l0.writer ∧ good l1.writer ∧
        (c0.recoveryOn = true → good l0.recovery) ∧ (c1.recoveryOn = true → good l1.recovery) ∧
        PhaseSteps skip l0 l1 ∧ FinSteps c0 l0 (rowsOf l1) ∧ FinSteps c1 l1 (rowsOf l0))
      (if skip then [.finalize] else [.preProcess, .online, .postProcess, .finalize])
      (tailJ H true (afterSelf c0) l0) (tailJ H false (afterSelf c1) l1) := by
  unfold tailJ
  rw [j0, j1]
  simp only [step_ok, ret_bind]
  refine (Duo.step l0.keys l1.keys
    (fun a b h0 h1 => Duo.gather _ _ _ (tailD_duo H hK ha hr a b (hs a b h0 h1)))
    (fun a _ => tailD_solo H true c0 (afterSelf c0) l0 _ _ _ a)
    (fun b _ => tailD_solo H false c1 (afterSelf c1) l1 _ _ _ b)).congr ?_
  constructor
  · rintro ⟨a, b, h0, h1, h⟩
    exact ⟨⟨⟨a, h0⟩, ⟨b, h1⟩⟩, h⟩
  · rintro ⟨⟨⟨a, h0⟩, ⟨b, h1⟩⟩, h⟩
    exact ⟨a, b, h0, h1, h⟩

end

theorem fail_duo {c0 c1 : PsiConfig} {l0 l1 : Local} {K F : Prop} {skip : Bool} {full : List Event} (hF : ¬ F)
    {p q : Prog Bool} (h0 : ∃ e, p = .throw e) (h1 : ∃ e, q = .throw e) :
    Duo c0 c1 l0 l1 (Cond K skip l0 l1) F full p q := by
  obtain ⟨e, rfl⟩ := h0
  obtain ⟨e', rfl⟩ := h1
  exact .throwBoth e e' hF

/-- From the exchange of the configurations on. -/
theorem tailP_duo {w : Wire} (hw : w.Lawful) (H : List Char → Bytes) {c0 c1 : PsiConfig} {l0 l1 : Local}
    {skip : Bool}
    (h0 : SelfOk c0.protocol.role c0) (h1 : SelfOk c1.protocol.role c1)
    (p0 : c0.protocol.protocol ≠ .unspecified) (p1 : c1.protocol.protocol ≠ .unspecified)
    (r0 : c0.protocol.role = .receiver ∨ c0.protocol.role = .sender)
    (r1 : c1.protocol.role = .receiver ∨ c1.protocol.role = .sender)
    (hs : ∀ k0 k1, l0.keys = .ok k0 → l1.keys = .ok k1 → skip = shortcut H (checks c0) k0 k1) :
    Duo c0 c1 l0 l1 (Cond (Fit c0 c1) skip l0 l1)
      (Fit c0 c1 ∧ (good l0.keys ∧ good l1.keys) ∧ good l0.writer ∧ good l1.writer ∧
        (c0.recoveryOn = true → good l0.recovery) ∧ (c1.recoveryOn = true → good l1.recovery) ∧
        PhaseSteps skip l0 l1 ∧ FinSteps c0 l0 (rowsOf l1) ∧ FinSteps c1 l1 (rowsOf l0))
      (if skip then [.finalize] else [.preProcess, .online, .postProcess, .finalize])
      (tailP w H true (afterSelf c0) l0 (.config (w.ser (normalize (afterSelf c0))),
        .config (w.ser (normalize (afterSelf c1)))))
      (tailP w H false (afterSelf c1) l1 (.config (w.ser (normalize (afterSelf c0))),
        .config (w.ser (normalize (afterSelf c1))))) := by
  unfold tailP
  rcases checkPeer_iff hw c0 c1 with ⟨hp, hne, ha⟩ | ⟨⟨e, hp⟩, hn⟩
  · have hr : Complementary c0 c1 := by
      unfold Complementary
      rcases r0 with r0 | r0 <;> rcases r1 with r1 | r1
      · exact absurd (r0.trans r1.symm) hne
      · exact .inl ⟨r0, r1⟩
      · exact .inr ⟨r0, r1⟩
      · exact absurd (r0.trans r1.symm) hne
    simp only [hp, step_ok, ret_bind]
    rcases joinMake_iff h0 r0 with ⟨j0, v0⟩ | ⟨⟨e0, j0⟩, v0⟩
    · rcases joinMake_iff h1 r1 with ⟨j1, v1⟩ | ⟨_, v1⟩
      · have hfit : Fit c0 c1 := ⟨(valid_iff c0).mpr ⟨⟨p0, r0⟩, h0, v0⟩, (valid_iff c1).mpr ⟨⟨p1, r1⟩, h1, v1⟩, ha, hr⟩
        refine (tailJ_duo H hfit ha hr hs j0 j1).congr ?_
        exact ⟨fun h => ⟨hfit, h⟩, fun h => h.2⟩
      · exfalso
        apply v1
        rw [← ha.joinType, ← ha.leftSide]
        exact v0
    · rcases joinMake_iff h1 r1 with ⟨_, v1⟩ | ⟨⟨e1, j1⟩, _⟩
      · exfalso
        apply v0
        rw [ha.joinType, ha.leftSide]
        exact v1
      · refine fail_duo ?_ ⟨e0, by unfold tailJ; rw [j0]; rfl⟩ ⟨e1, by unfold tailJ; rw [j1]; rfl⟩
        rintro ⟨hf, _⟩
        exact v0 hf.left.left
  · simp only [hp, step_error, throw_bind]
    refine fail_duo ?_ ⟨_, rfl⟩ ⟨_, rfl⟩
    rintro ⟨hf, _⟩
    refine hn ⟨?_, hf.agree⟩
    rcases hf.roles with ⟨a, b⟩ | ⟨a, b⟩ <;> rw [a, b] <;> decide

/-- The whole run. -/
theorem run_duo {w : Wire} (hw : w.Lawful) (H : List Char → Bytes) {c0 c1 : PsiConfig} {l0 l1 : Local}
    {skip : Bool}
    (hs : ∀ k0 k1, l0.keys = .ok k0 → l1.keys = .ok k1 → skip = shortcut H (checks c0) k0 k1) :
    Duo c0 c1 l0 l1 (Cond (Fit c0 c1) skip l0 l1)
      (Fit c0 c1 ∧ (good l0.keys ∧ good l1.keys) ∧ good l0.writer ∧ good l1.writer ∧
        (c0.recoveryOn = true → good l0.recovery) ∧ (c1.recoveryOn = true → good l1.recovery) ∧
        PhaseSteps skip l0 l1 ∧ FinSteps c0 l0 (rowsOf l1) ∧ FinSteps c1 l1 (rowsOf l0))
      (phases skip) (run w H true c0 l0) (run w H false c1 l1) := by
  rw [run_form, run_form, tail_eq]
  have hsolo : ∀ (rank0 : Bool) (c : PsiConfig) (l : Local) (n : Nat) (a : Class),
      Solo c l n (Cond (Fit c0 c1) skip l0 l1)
        (.init :: (if skip then [.finalize] else [.preProcess, .online, .postProcess, .finalize]))
        (Prog.note .init (step (checkSelf a.role c) >>= fun c' =>
          Prog.gather .connect .empty (fun _ _ => Prog.gather .allGather (.config (w.ser (normalize c')))
            (fun x y => tailP w H rank0 c' l (x, y))))) := by
    intro rank0 c l n a
    cases hc : checkSelf a.role c with
    | error e =>
      refine ⟨⟨e, rfl⟩, (Seen.stop e).cons .init, ?_⟩
      intro x hx
      have : x = Event.init := by simpa using hx
      rw [this]; trivial
    | ok c' =>
      refine ⟨⟨.timeout, rfl⟩, (Seen.stop .timeout).cons .init, ?_⟩
      intro x hx
      have : x = Event.init := by simpa using hx
      rw [this]; trivial
  by_cases v0 : c0.protocol.protocol ≠ .unspecified ∧ (c0.protocol.role = .receiver ∨ c0.protocol.role = .sender)
  swap
  · obtain ⟨e, he⟩ := createParty_error v0
    rw [he]
    refine (Duo.step (.error e) (createParty c1) (F := fun _ _ => False) ?_ ?_ ?_).congr ?_
    · intro a b h; cases h
    · intro a h; cases h
    · intro b _; exact hsolo false c1 l1 _ b
    · constructor
      · rintro ⟨_, _, _, _, h⟩; exact h.elim
      · rintro ⟨hf, _⟩
        exact absurd ⟨hf.left.protocol, hf.left.role⟩ v0
  by_cases v1 : c1.protocol.protocol ≠ .unspecified ∧ (c1.protocol.role = .receiver ∨ c1.protocol.role = .sender)
  swap
  · obtain ⟨e, he⟩ := createParty_error v1
    rw [he]
    refine (Duo.step (createParty c0) (.error e) (F := fun _ _ => False) ?_ ?_ ?_).congr ?_
    · intro a b _ h; cases h
    · intro a _; exact hsolo true c0 l0 _ a
    · intro b h; cases h
    · constructor
      · rintro ⟨_, _, _, _, h⟩; exact h.elim
      · rintro ⟨hf, _⟩
        exact absurd ⟨hf.right.protocol, hf.right.role⟩ v1
  rw [createParty_ok v0.1 v0.2, createParty_ok v1.1 v1.2]
  simp only [step_ok, ret_bind]
  refine Duo.note _ trivial ?_
  by_cases s0 : SelfOk c0.protocol.role c0
  swap
  · obtain ⟨e, he⟩ := checkSelf_error s0
    rw [he]
    refine (Duo.step (.error e) (checkSelf c1.protocol.role c1) (F := fun _ _ => False) ?_ ?_ ?_).congr ?_
    · intro a b h; cases h
    · intro a h; cases h
    · intro b _; exact .gather _ _ _
    · constructor
      · rintro ⟨_, _, _, _, h⟩; exact h.elim
      · rintro ⟨hf, _⟩
        exact absurd ((valid_iff c0).mp hf.left).2.1 s0
  by_cases s1 : SelfOk c1.protocol.role c1
  swap
  · obtain ⟨e, he⟩ := checkSelf_error s1
    rw [he]
    refine (Duo.step (checkSelf c0.protocol.role c0) (.error e) (F := fun _ _ => False) ?_ ?_ ?_).congr ?_
    · intro a b _ h; cases h
    · intro a _; exact .gather _ _ _
    · intro b h; cases h
    · constructor
      · rintro ⟨_, _, _, _, h⟩; exact h.elim
      · rintro ⟨hf, _⟩
        exact absurd ((valid_iff c1).mp hf.right).2.1 s1
  rw [checkSelf_ok s0, checkSelf_ok s1]
  simp only [step_ok, ret_bind]
  exact Duo.gather _ _ _ (Duo.gather _ _ _ (tailP_duo hw H s0 s1 v0.1 v1.1 v0.2 v1.2 hs))

end Psi.Run
