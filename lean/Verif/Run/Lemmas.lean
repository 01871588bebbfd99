import Verif.Run.Spec

/-! Helper lemmas about programs, checks and stages of a run. -/

namespace Psi.Run

open Psi.Digest (Key digest shortcut)

variable {α β γ δ : Type}

/-! ### Programs -/

@[simp] theorem ret_bind (a : α) (f : α → Prog β) : (Prog.ret a >>= f) = f a := rfl
@[simp] theorem pure_bind' (a : α) (f : α → Prog β) : ((pure a : Prog α) >>= f) = f a := rfl
@[simp] theorem pure_eq (a : α) : (pure a : Prog α) = .ret a := rfl
@[simp] theorem throw_bind (e : Err) (f : α → Prog β) : (Prog.throw e >>= f) = .throw e := rfl
@[simp] theorem note_bind (e : Event) (f : Unit → Prog β) : (note e >>= f) = .note e (f ()) := rfl
@[simp] theorem noteC_bind (e : Event) (k : Prog α) (f : α → Prog β) :
    (Prog.note e k >>= f) = .note e (k >>= f) := rfl
@[simp] theorem gather_bind (k : Kind) (m : Msg) (f : Msg × Msg → Prog β) :
    (gather k m >>= f) = .gather k m (fun x y => f (x, y)) := rfl
@[simp] theorem gatherC_bind (k : Kind) (m : Msg) (g : Msg → Msg → Prog α) (f : α → Prog β) :
    (Prog.gather k m g >>= f) = .gather k m (fun x y => g x y >>= f) := rfl
@[simp] theorem step_ok (a : α) : step (.ok a) = .ret a := rfl
@[simp] theorem step_error (e : Err) : step (.error e : Except Err α) = .throw e := rfl

theorem bind_assoc' (p : Prog α) (f : α → Prog β) (g : β → Prog γ) :
    (p >>= f) >>= g = p >>= fun a => f a >>= g := by
  induction p with
  | ret a => rfl
  | throw e => rfl
  | note e k ih => simp only [noteC_bind, ih]
  | gather k m h ih => simp only [gatherC_bind, ih]

@[simp] theorem alone_ret (a : α) : alone (.ret a) = ⟨[], .ok a⟩ := rfl
@[simp] theorem alone_throw (e : Err) : alone (.throw e : Prog α) = ⟨[], .error e⟩ := rfl
@[simp] theorem alone_note (e : Event) (k : Prog α) : alone (.note e k) = (alone k).add e := rfl
@[simp] theorem alone_gather (k : Kind) (m : Msg) (f : Msg → Msg → Prog α) :
    alone (.gather k m f) = ⟨[], .error .timeout⟩ := rfl
@[simp] theorem add_trace (e : Event) (o : Outcome α) : (o.add e).trace = e :: o.trace := rfl
@[simp] theorem add_result (e : Event) (o : Outcome α) : (o.add e).result = o.result := rfl

@[simp] theorem run2_note (e : Event) (k : Prog α) (q : Prog β) :
    run2 (.note e k) q = ((run2 k q).1.add e, (run2 k q).2) := by rw [run2]
@[simp] theorem run2_ret (a : α) (q : Prog β) : run2 (.ret a) q = (⟨[], .ok a⟩, alone q) := by rw [run2]; rfl
@[simp] theorem run2_throw (e : Err) (q : Prog β) :
    run2 (.throw e : Prog α) q = (⟨[], .error e⟩, alone q) := by rw [run2]; rfl

@[simp] theorem run2_note_right (p : Prog α) (e : Event) (k : Prog β) :
    run2 p (.note e k) = ((run2 p k).1, (run2 p k).2.add e) := by
  induction p with
  | ret a => simp
  | throw e => simp
  | note e' k' ih => simp [ih]
  | gather kind m f ih => rw [run2, run2]; rfl

@[simp] theorem run2_throw_right (p : Prog α) (e : Err) :
    run2 p (.throw e : Prog β) = (alone p, ⟨[], .error e⟩) := by
  induction p with
  | ret a => simp
  | throw e => simp
  | note e' k' ih => simp [ih]
  | gather kind m f ih => rw [run2]; rfl

@[simp] theorem run2_ret_right (p : Prog α) (b : β) :
    run2 p (.ret b : Prog β) = (alone p, ⟨[], .ok b⟩) := by
  induction p with
  | ret a => simp
  | throw e => simp
  | note e' k' ih => simp [ih]
  | gather kind m f ih => rw [run2]; rfl

@[simp] theorem run2_gather (k : Kind) (m m' : Msg) (f : Msg → Msg → Prog α) (g : Msg → Msg → Prog β) :
    run2 (.gather k m f) (.gather k m' g) = run2 (f m m') (g m m') := by
  rw [run2]
  simp [run2.against]

/-! ### Checks -/

theorem dedup_length_iff {l : List String} : l.dedup.length = l.length ↔ l.Nodup := by
  constructor
  · intro h
    have : l.dedup = l := List.Sublist.eq_of_length (List.dedup_sublist l) h
    rw [← this]
    exact List.nodup_dedup l
  · intro h
    rw [List.Nodup.dedup h]

/-- The conditions of `CheckSelfConfig`. -/
def SelfOk (role : Role) (c : PsiConfig) : Prop :=
  ¬ (c.protocol.protocol = .ecdh ∧ (c.protocol.ecdh.getD {}).curve = .invalid) ∧ c.protocol.role = role ∧
    (c.inputConfig.getD {}).type = .csv ∧ (c.outputConfig.getD {}).type = .csv ∧ c.keys ≠ [] ∧ c.keys.Nodup

/-- The configuration after `CheckSelfConfig`. -/
def afterSelf (c : PsiConfig) : PsiConfig := { c with checkDigest := checks c }

theorem checkSelf_ok {role : Role} {c : PsiConfig} (h : SelfOk role c) : checkSelf role c = .ok (afterSelf c) := by
  obtain ⟨h1, h2, h3, h4, h5, h6⟩ := h
  unfold checkSelf
  rw [if_neg h1, if_neg (not_not.mpr h2), if_neg (not_not.mpr h3), if_neg (not_not.mpr h4), if_neg h5,
    if_neg (not_not.mpr (dedup_length_iff.mpr h6))]
  unfold afterSelf checks
  cases hc : c.checkDigest <;> cases hr : c.recoveryOn <;> simp <;> cases c <;> simp_all

theorem checkSelf_error {role : Role} {c : PsiConfig} (h : ¬ SelfOk role c) :
    ∃ e, checkSelf role c = .error e := by
  unfold checkSelf
  by_cases h1 : c.protocol.protocol = .ecdh ∧ (c.protocol.ecdh.getD {}).curve = .invalid
  · exact ⟨_, if_pos h1⟩
  rw [if_neg h1]
  by_cases h2 : c.protocol.role = role
  swap
  · exact ⟨_, if_pos h2⟩
  rw [if_neg (not_not.mpr h2)]
  by_cases h3 : (c.inputConfig.getD {}).type = .csv
  swap
  · exact ⟨_, if_pos h3⟩
  rw [if_neg (not_not.mpr h3)]
  by_cases h4 : (c.outputConfig.getD {}).type = .csv
  swap
  · exact ⟨_, if_pos h4⟩
  rw [if_neg (not_not.mpr h4)]
  by_cases h5 : c.keys = []
  · exact ⟨_, if_pos h5⟩
  rw [if_neg h5]
  by_cases h6 : c.keys.Nodup
  · exact absurd ⟨h1, h2, h3, h4, h5, h6⟩ h
  · exact ⟨_, if_pos (fun h7 => h6 (dedup_length_iff.mp h7))⟩

theorem createParty_ok {c : PsiConfig} (hp : c.protocol.protocol ≠ .unspecified)
    (hr : c.protocol.role = .receiver ∨ c.protocol.role = .sender) :
    createParty c = .ok ⟨c.protocol.protocol,
      decide (c.protocol.protocol = .ecdh ∧ c.threshold ≠ 0), c.protocol.role⟩ := by
  unfold createParty
  rcases hr with hr | hr <;> rw [hr] <;> cases hp' : c.protocol.protocol <;> simp_all <;>
    by_cases ht : c.threshold = 0 <;> simp [ht]

theorem createParty_error {c : PsiConfig} (h : ¬ (c.protocol.protocol ≠ .unspecified ∧
    (c.protocol.role = .receiver ∨ c.protocol.role = .sender))) : ∃ e, createParty c = .error e := by
  unfold createParty
  cases hp' : c.protocol.protocol <;> cases hr : c.protocol.role <;> simp_all

theorem joinMake_iff {c : PsiConfig} (h : SelfOk c.protocol.role c)
    (hr : c.protocol.role = .receiver ∨ c.protocol.role = .sender) :
    (joinMake (afterSelf c) = .ok () ∧
      (c.joinType = .unspecified ∨ c.joinType = .inner ∨ c.leftSide ≠ .unspecified)) ∨
    ((∃ e, joinMake (afterSelf c) = .error e) ∧
      ¬ (c.joinType = .unspecified ∨ c.joinType = .inner ∨ c.leftSide ≠ .unspecified)) := by
  obtain ⟨_, _, h3, h4, _, _⟩ := h
  unfold joinMake
  rw [if_neg (show ¬ ((afterSelf c).inputConfig.getD {}).type ≠ .csv from not_not.mpr h3),
    if_neg (show ¬ ((afterSelf c).outputConfig.getD {}).type ≠ .csv from not_not.mpr h4),
    if_neg (show ¬ ¬ ((afterSelf c).protocol.role = .sender ∨ (afterSelf c).protocol.role = .receiver) from
      not_not.mpr hr.symm)]
  by_cases hj : c.joinType ≠ .unspecified ∧ c.joinType ≠ .inner ∧ c.leftSide = .unspecified
  · right
    refine ⟨⟨_, if_pos hj⟩, ?_⟩
    rintro (h | h | h)
    · exact hj.1 h
    · exact hj.2.1 h
    · exact h hj.2.2
  · left
    refine ⟨if_neg hj, ?_⟩
    by_cases h1 : c.joinType = .unspecified
    · exact .inl h1
    by_cases h2 : c.joinType = .inner
    · exact .inr (.inl h2)
    exact .inr (.inr fun h3 => hj ⟨h1, h2, h3⟩)

/-- Validity is what the three checks of one party ask for. -/
theorem valid_iff (c : PsiConfig) : Valid c ↔ (c.protocol.protocol ≠ .unspecified ∧
    (c.protocol.role = .receiver ∨ c.protocol.role = .sender)) ∧ SelfOk c.protocol.role c ∧
    (c.joinType = .unspecified ∨ c.joinType = .inner ∨ c.leftSide ≠ .unspecified) := by
  constructor
  · intro h
    refine ⟨⟨h.protocol, h.role⟩, ⟨?_, rfl, ?_, ?_, h.keys.1, h.keys.2⟩, h.left⟩
    · rintro ⟨h1, h2⟩
      obtain ⟨e, he, hc⟩ := h.curve h1
      rw [he] at h2
      exact hc h2
    · obtain ⟨i, hi, ht⟩ := h.input
      rw [hi]; exact ht
    · obtain ⟨i, hi, ht⟩ := h.output
      rw [hi]; exact ht
  · rintro ⟨⟨h1, h2⟩, ⟨h3, -, h4, h5, h6, h7⟩, h8⟩
    refine ⟨h1, h2, ?_, ?_, ?_, ⟨h6, h7⟩, h8⟩
    · intro hp
      cases he : c.protocol.ecdh with
      | none => rw [he] at h3; exact absurd ⟨hp, rfl⟩ h3
      | some e => exact ⟨e, rfl, fun h => h3 ⟨hp, by rw [he]; exact h⟩⟩
    · cases he : c.inputConfig with
      | none => rw [he] at h4; cases h4
      | some e => rw [he] at h4; exact ⟨e, rfl, h4⟩
    · cases he : c.outputConfig with
      | none => rw [he] at h5; cases h5
      | some e => rw [he] at h5; exact ⟨e, rfl, h5⟩

theorem protocol_afterSelf (c : PsiConfig) : (afterSelf c).protocol = c.protocol := rfl

theorem clear_eq_iff (a b : PsiConfig) :
    clearRole (normalize (afterSelf a)) = clearRole (normalize (afterSelf b)) ↔ Agree a b := by
  constructor
  · intro h
    simp only [clearRole, normalize, afterSelf, PsiConfig.mk.injEq, Option.some.injEq, ProtocolConfig.mk.injEq,
      PsiConfig.protocol, RecoveryConfig.mk.injEq] at h
    refine ⟨?_, ?_, ?_, ?_, ?_, ?_, ?_, ?_, ?_, ?_, ?_⟩ <;>
      (try simp only [PsiConfig.protocol, PsiConfig.recoveryOn]) <;> tauto
  · rintro ⟨h1, h2, h3, h4, h5, h6, h7, h8, h9, h10, h11⟩
    simp only [PsiConfig.protocol, PsiConfig.recoveryOn] at h1 h2 h3 h4 h5 h6
    simp only [clearRole, normalize, afterSelf, PsiConfig.mk.injEq, Option.some.injEq, ProtocolConfig.mk.injEq,
      PsiConfig.protocol, RecoveryConfig.mk.injEq]
    tauto

theorem checkPeer_iff {w : Wire} (hw : w.Lawful) (a b : PsiConfig) :
    (checkPeer w (w.ser (normalize (afterSelf a))) (w.ser (normalize (afterSelf b))) = .ok () ∧
      a.protocol.role ≠ b.protocol.role ∧ Agree a b) ∨
    ((∃ e, checkPeer w (w.ser (normalize (afterSelf a))) (w.ser (normalize (afterSelf b))) = .error e) ∧
      ¬ (a.protocol.role ≠ b.protocol.role ∧ Agree a b)) := by
  unfold checkPeer
  rw [hw, hw]
  simp only
  by_cases hr : a.protocol.role = b.protocol.role
  · right
    exact ⟨⟨_, if_pos hr⟩, fun h => h.1 hr⟩
  · rw [if_neg (show ¬ (normalize (afterSelf a)).protocol.role = (normalize (afterSelf b)).protocol.role from hr)]
    by_cases h : Agree a b
    · left
      exact ⟨if_pos ((clear_eq_iff a b).mpr h), hr, h⟩
    · right
      exact ⟨⟨_, if_neg (fun h' => h ((clear_eq_iff a b).mp h'))⟩, fun h' => h h'.2⟩

end Psi.Run
