import Verif.Run.InitLemmas
import Verif.Run.Example
import Verif.UbPsi.Props

/-!
# C34, C35, C48: configuration checks, phases, synchronisation

All theorems are about `session`, the two programs of `psi/interface.cc` run against each other with any
configurations and any outcomes of what happens outside that file.
-/

namespace Psi.Run

open Psi.Digest (Key digest shortcut)

/-- Only the start of the initialisation was seen. -/
def OnlyInit (o : Outcome Bool) : Prop := ∀ e ∈ o.trace, e = .init

/-- The trace goes through the phases in order and ends with at most one writing of the output, after all of them. -/
def InOrder (skip : Bool) (o : Outcome Bool) : Prop :=
  ∃ d t, o.trace = d ++ t ∧ d <+: phases skip ∧ (∀ e ∈ t, isPhase e = false) ∧ t.length ≤ 1 ∧
    (t ≠ [] → d = phases skip) ∧ (succeeded o → d = phases skip)

/-! ### C34 -/

/-- Whether the phases are skipped. -/
theorem exists_skip (H : List Char → Bytes) (c0 : PsiConfig) (l0 l1 : Local) : ∃ skip : Bool, ∀ k0 k1,
    l0.keys = .ok k0 → l1.keys = .ok k1 → skip = shortcut H (checks c0) k0 k1 := by
  cases h0 : l0.keys with
  | error e => exact ⟨false, fun k0 k1 h => by cases h⟩
  | ok k0 =>
    cases h1 : l1.keys with
    | error e => exact ⟨false, fun _ k1 _ h => by cases h⟩
    | ok k1 =>
      refine ⟨shortcut H (checks c0) k0 k1, fun a b ha hb => ?_⟩
      cases ha; cases hb; rfl

/-- Something happens after initialisation only with configurations that fit. -/
theorem fit_of_event {w : Wire} (hw : w.Lawful) (H : List Char → Bytes) {c0 c1 : PsiConfig} {l0 l1 : Local}
    {e : Event} (he : e ≠ .init)
    (h : e ∈ (session w H c0 c1 l0 l1).1.trace ∨ e ∈ (session w H c0 c1 l0 l1).2.trace) : Fit c0 c1 := by
  obtain ⟨skip, hs⟩ := exists_skip H c0 l0 l1
  have hd := run_duo (l0 := l0) (l1 := l1) (c0 := c0) (c1 := c1) hw H hs
  have hc : Cond (Fit c0 c1) skip l0 l1 e := h.elim (hd.ev0 e) (hd.ev1 e)
  cases e with
  | init => exact absurd rfl he
  | preProcess => exact hc.1
  | online => exact hc.1
  | postProcess => exact hc.1
  | finalize => exact hc
  | write n => exact hc
  | genCache => exact hc.elim
  | transferCache => exact hc.elim

/-- **C34** If the configurations of the parties do not fit together, both parties end with an error, and neither
gets past initialisation: no phase is started and nothing is written. -/
theorem C34_misfits_stop {w : Wire} (hw : w.Lawful) (H : List Char → Bytes) (c0 c1 : PsiConfig) (l0 l1 : Local)
    (h : ¬ Fit c0 c1) :
    (∃ e, (session w H c0 c1 l0 l1).1.result = .error e) ∧ (∃ e, (session w H c0 c1 l0 l1).2.result = .error e) ∧
      OnlyInit (session w H c0 c1 l0 l1).1 ∧ OnlyInit (session w H c0 c1 l0 l1).2 := by
  obtain ⟨skip, hs⟩ := exists_skip H c0 l0 l1
  have hd := run_duo (l0 := l0) (l1 := l1) (c0 := c0) (c1 := c1) hw H hs
  have hfail : ∀ o : Outcome Bool, ¬ succeeded o → ∃ e, o.result = .error e := by
    intro o ho
    cases hr : o.result with
    | error e => exact ⟨e, rfl⟩
    | ok a => exact absurd ⟨a, hr⟩ ho
  refine ⟨hfail _ fun hs' => h (hd.ends0.iff.mp hs').1, hfail _ fun hs' => h (hd.ends1.iff.mp hs').1, ?_, ?_⟩
  · intro e he
    by_contra hne
    exact h (fit_of_event hw H hne (.inl he))
  · intro e he
    by_contra hne
    exact h (fit_of_event hw H hne (.inr he))

/-- The steps of both parties, in one statement. -/
theorem steps_iff {c0 c1 : PsiConfig} {l0 l1 : Local} {skip : Bool} :
    ((good l0.keys ∧ good l1.keys) ∧ good l0.writer ∧ good l1.writer ∧
      (c0.recoveryOn = true → good l0.recovery) ∧ (c1.recoveryOn = true → good l1.recovery) ∧
      PhaseSteps skip l0 l1 ∧ FinSteps c0 l0 (rowsOf l1) ∧ FinSteps c1 l1 (rowsOf l0)) ↔
    StepsGood skip c0 l0 (rowsOf l1) ∧ StepsGood skip c1 l1 (rowsOf l0) := by
  constructor
  · rintro ⟨⟨a, b⟩, c, d, e, f, g, ⟨h1, h2, h3⟩, ⟨i1, i2, i3⟩⟩
    exact ⟨⟨a, c, e, fun h => (g h).1, fun h => (g h).2.2.1, fun h => (g h).2.2.2.2.1, h1, h2, h3⟩,
      ⟨b, d, f, fun h => (g h).2.1, fun h => (g h).2.2.2.1, fun h => (g h).2.2.2.2.2, i1, i2, i3⟩⟩
  · rintro ⟨a, b⟩
    exact ⟨⟨a.keys, b.keys⟩, a.writer, b.writer, a.recovery, b.recovery,
      fun h => ⟨a.preProcess h, b.preProcess h, a.online h, b.online h, a.postProcess h, b.postProcess h⟩,
      ⟨a.close, a.sort, a.result⟩, ⟨b.close, b.sort, b.result⟩⟩

/-- **C34** With parties whose own steps all go well, a run succeeds exactly if the configurations fit together. -/
theorem C34_fits_exactly {w : Wire} (hw : w.Lawful) (H : List Char → Bytes) (c0 c1 : PsiConfig) (l0 l1 : Local)
    (h0 : ∀ skip, StepsGood skip c0 l0 (rowsOf l1)) (h1 : ∀ skip, StepsGood skip c1 l1 (rowsOf l0)) :
    (succeeded (session w H c0 c1 l0 l1).1 ↔ Fit c0 c1) ∧ (succeeded (session w H c0 c1 l0 l1).2 ↔ Fit c0 c1) := by
  obtain ⟨k0, hk0⟩ := (h0 false).keys
  obtain ⟨k1, hk1⟩ := (h1 false).keys
  have hd := run_duo (l0 := l0) (l1 := l1) (c0 := c0) (c1 := c1) hw H
    (skip := shortcut H (checks c0) k0 k1) (by
      intro a b ha hb
      rw [hk0] at ha; rw [hk1] at hb
      cases ha; cases hb; rfl)
  rw [steps_iff] at hd
  exact ⟨hd.ends0.iff.trans ⟨fun h => h.1, fun h => ⟨h, h0 _, h1 _⟩⟩,
    hd.ends1.iff.trans ⟨fun h => h.1, fun h => ⟨h, h0 _, h1 _⟩⟩⟩

/-- **C34** As soon as a party gets past initialisation, the two parties run the same implementation in
complementary roles, and all parameters the protocols read afterwards are equal, defaults included; a bucket size
that is used is not zero. -/
theorem C34_same_parameters {w : Wire} (hw : w.Lawful) (H : List Char → Bytes) (c0 c1 : PsiConfig) (l0 l1 : Local)
    (e : Event) (he : e ≠ .init)
    (h : e ∈ (session w H c0 c1 l0 l1).1.trace ∨ e ∈ (session w H c0 c1 l0 l1).2.trace) :
    ∃ k0 k1 d0 d1, createParty c0 = .ok k0 ∧ createParty c1 = .ok k1 ∧ checkSelf k0.role c0 = .ok d0 ∧
      checkSelf k1.role c1 = .ok d1 ∧ k0.protocol = k1.protocol ∧ k0.threshold = k1.threshold ∧
      ((k0.role = .receiver ∧ k1.role = .sender) ∨ (k0.role = .sender ∧ k1.role = .receiver)) ∧
      params (setDefaults d0) = params (setDefaults d1) ∧
      (k0.protocol = .kkrt → (params (setDefaults d0)).kkrtBucket ≠ 0) ∧
      (k0.protocol = .rr22 → (params (setDefaults d0)).rr22Bucket ≠ 0) ∧
      (k0.protocol = .ecdh → (params (setDefaults d0)).curve ≠ .invalid) := by
  have hf := fit_of_event hw H he h
  have v0 := (valid_iff c0).mp hf.left
  have v1 := (valid_iff c1).mp hf.right
  have ha := hf.agree
  refine ⟨_, _, _, _, createParty_ok v0.1.1 v0.1.2, createParty_ok v1.1.1 v1.1.2, checkSelf_ok v0.2.1,
    checkSelf_ok v1.2.1, ha.protocol, ?_, hf.roles, ?_, ?_, ?_, ?_⟩
  · rw [ha.protocol, ha.threshold]
  · have hp0 : (afterSelf c0).protocol = c0.protocol := rfl
    have hp1 : (afterSelf c1).protocol = c1.protocol := rfl
    have key : ∀ a b : PsiConfig, Agree a b → params (setDefaults (afterSelf a)) = params (setDefaults (afterSelf b)) := by
      intro a b hab
      have h1 : ∀ c : PsiConfig, params (setDefaults (afterSelf c)) =
          { protocol := c.protocol.protocol
            curve := (c.protocol.ecdh.getD {}).curve
            batch := (c.protocol.ecdh.getD {}).batchSize
            kkrtBucket := if c.protocol.protocol = .kkrt ∧ (c.protocol.kkrt.getD {}).bucketSize = 0 then
              defaultBucketSize else (c.protocol.kkrt.getD {}).bucketSize
            rr22Bucket := if c.protocol.protocol = .rr22 ∧ (c.protocol.rr22.getD {}).bucketSize = 0 then
              defaultBucketSize else (c.protocol.rr22.getD {}).bucketSize
            lowComm := (c.protocol.rr22.getD {}).lowComm
            broadcast := c.protocol.broadcast
            join := c.joinType
            left := c.leftSide
            threshold := c.threshold
            recovery := c.recoveryOn } := by
        intro c
        have hp : (afterSelf c).protocol = c.protocol := rfl
        unfold setDefaults
        rw [hp]
        by_cases hk : c.protocol.protocol = .kkrt ∧ (c.protocol.kkrt.getD {}).bucketSize = 0
        · have hn : ¬ (c.protocol.protocol = .rr22 ∧ (c.protocol.rr22.getD {}).bucketSize = 0) := by
            rw [hk.1]; rintro ⟨h, _⟩; cases h
          rw [if_pos hk, if_pos hk, if_neg hn]
          rfl
        · rw [if_neg hk, if_neg hk]
          by_cases hr : c.protocol.protocol = .rr22 ∧ (c.protocol.rr22.getD {}).bucketSize = 0
          · rw [if_pos hr, if_pos hr]
            rfl
          · rw [if_neg hr, if_neg hr]
            rfl
      rw [h1, h1, hab.protocol, hab.ecdh, hab.kkrt, hab.rr22, hab.broadcast, hab.joinType, hab.leftSide,
        hab.threshold, hab.recovery]
    exact key c0 c1 ha
  · intro hk
    have hk' : (afterSelf c0).protocol.protocol = .kkrt := hk
    unfold setDefaults
    by_cases hb : ((afterSelf c0).protocol.kkrt.getD {}).bucketSize = 0
    · rw [if_pos ⟨hk', hb⟩]
      show defaultBucketSize ≠ 0
      decide
    · rw [if_neg (fun h => hb h.2), if_neg (fun h => by rw [hk'] at h; cases h.1)]
      exact hb
  · intro hk
    have hk' : (afterSelf c0).protocol.protocol = .rr22 := hk
    unfold setDefaults
    rw [if_neg (fun h => by rw [hk'] at h; cases h.1)]
    by_cases hb : ((afterSelf c0).protocol.rr22.getD {}).bucketSize = 0
    · rw [if_pos ⟨hk', hb⟩]
      show defaultBucketSize ≠ 0
      decide
    · rw [if_neg (fun h => hb h.2)]
      exact hb
  · intro hk
    obtain ⟨x, hx, hc⟩ := hf.left.curve hk
    show ((setDefaults (afterSelf c0)).protocol.ecdh.getD {}).curve ≠ .invalid
    rw [(setDefaults_protocol (afterSelf c0)).2.2.2.1, protocol_afterSelf, hx]
    exact hc

/-! ### C35 -/

/-- **C35** Initialisation comes first and finalisation last; the phases come in order, each at most once; they are
skipped exactly if the inputs were found equal; the output is written at most once, after all phases; and a party
that succeeds has gone through all of them. -/
theorem C35_phases_in_order {w : Wire} (hw : w.Lawful) (H : List Char → Bytes) (c0 c1 : PsiConfig) (l0 l1 : Local)
    (skip : Bool)
    (hs : ∀ k0 k1, l0.keys = .ok k0 → l1.keys = .ok k1 → skip = shortcut H (checks c0) k0 k1) :
    InOrder skip (session w H c0 c1 l0 l1).1 ∧ InOrder skip (session w H c0 c1 l0 l1).2 := by
  have hd := run_duo (l0 := l0) (l1 := l1) (c0 := c0) (c1 := c1) hw H hs
  have hwp : ∀ (c : PsiConfig) (l : Local) (n : Nat) (t : List Event), Writes c l n t →
      (∀ e ∈ t, isPhase e = false) ∧ t.length ≤ 1 := by
    intro c l n t ht
    rcases ht with rfl | ⟨_, s, _, rfl⟩
    · exact ⟨fun e h => (List.not_mem_nil h).elim, Nat.zero_le 1⟩
    · refine ⟨fun e h => ?_, by simp⟩
      rw [List.mem_singleton] at h
      rw [h]; rfl
  have key : ∀ (c : PsiConfig) (l : Local) (n : Nat) (o : Outcome Bool), Seen c l n (phases skip) o →
      InOrder skip o := by
    intro c l n o ho
    obtain ⟨⟨d, t, h1, h2, h3, h4⟩, h5⟩ := ho
    refine ⟨d, t, h1, h2, (hwp _ _ _ _ h4).1, (hwp _ _ _ _ h4).2, h3, ?_⟩
    intro hso
    obtain ⟨t', h6, _⟩ := h5 hso
    rw [h1] at h6
    by_cases ht : t = []
    · subst ht
      rw [List.append_nil] at h6
      exact List.IsPrefix.eq_of_length h2 (by
        have := h2.length_le
        have := congrArg List.length h6
        simp only [List.length_append] at this
        omega)
    · exact h3 ht
  exact ⟨key _ _ _ _ hd.seen0, key _ _ _ _ hd.seen1⟩

/-- **C35** A run ends well for one party exactly if it ends well for the other, namely if the configurations fit and
every step of both parties that is needed goes well.  The reported value says whether the party is entitled to the
result. -/
theorem C35_both_or_neither {w : Wire} (hw : w.Lawful) (H : List Char → Bytes) (c0 c1 : PsiConfig) (l0 l1 : Local)
    (skip : Bool)
    (hs : ∀ k0 k1, l0.keys = .ok k0 → l1.keys = .ok k1 → skip = shortcut H (checks c0) k0 k1) :
    let o := session w H c0 c1 l0 l1
    let fine := Fit c0 c1 ∧ StepsGood skip c0 l0 (rowsOf l1) ∧ StepsGood skip c1 l1 (rowsOf l0)
    (succeeded o.1 ↔ fine) ∧ (succeeded o.2 ↔ fine) ∧
      (∀ b, o.1.result = .ok b → b = entitled c0) ∧ (∀ b, o.2.result = .ok b → b = entitled c1) := by
  have hd := run_duo (l0 := l0) (l1 := l1) (c0 := c0) (c1 := c1) hw H hs
  rw [steps_iff] at hd
  exact ⟨hd.ends0.iff, hd.ends1.iff, hd.ends0.value, hd.ends1.value⟩

/-- **C35** No party starts the online phase unless both have finished their preparation without error. -/
theorem C35_online_after_preparation {w : Wire} (hw : w.Lawful) (H : List Char → Bytes) (c0 c1 : PsiConfig)
    (l0 l1 : Local)
    (h : .online ∈ (session w H c0 c1 l0 l1).1.trace ∨ .online ∈ (session w H c0 c1 l0 l1).2.trace) :
    good l0.preProcess ∧ good l1.preProcess := by
  obtain ⟨skip, hs⟩ := exists_skip H c0 l0 l1
  have hd := run_duo (l0 := l0) (l1 := l1) (c0 := c0) (c1 := c1) hw H hs
  have hc : Cond (Fit c0 c1) skip l0 l1 .online := h.elim (hd.ev0 _) (hd.ev1 _)
  exact ⟨hc.2.2.1, hc.2.2.2⟩

/-- **C35** A party writes an output only if it is entitled to the result; the number of rows it fills up for the
peer is 0 without broadcast, and otherwise the number of rows of the peer's table less those in the intersection.  A
party that is entitled and succeeds has written one. -/
theorem C35_output {w : Wire} (hw : w.Lawful) (H : List Char → Bytes) (c0 c1 : PsiConfig) (l0 l1 : Local) :
    let o := session w H c0 c1 l0 l1
    (∀ n, .write n ∈ o.1.trace → entitled c0 = true ∧ ∃ own inter, l0.join = .ok (own, inter) ∧
      (c0.protocol.broadcast = false → n = 0) ∧
      (c0.protocol.broadcast = true → inter ≤ rowsOf l1 → rowsOf l1 < 2 ^ 64 → n = rowsOf l1 - inter)) ∧
    (∀ n, .write n ∈ o.2.trace → entitled c1 = true ∧ ∃ own inter, l1.join = .ok (own, inter) ∧
      (c1.protocol.broadcast = false → n = 0) ∧
      (c1.protocol.broadcast = true → inter ≤ rowsOf l0 → rowsOf l0 < 2 ^ 64 → n = rowsOf l0 - inter)) ∧
    (succeeded o.1 → entitled c0 = true → ∃ n, .write n ∈ o.1.trace) ∧
    (succeeded o.2 → entitled c1 = true → ∃ n, .write n ∈ o.2.trace) := by
  obtain ⟨skip, hs⟩ := exists_skip H c0 l0 l1
  have hd := run_duo (l0 := l0) (l1 := l1) (c0 := c0) (c1 := c1) hw H hs
  have hall : ∀ n, Event.write n ∉ phases skip := by
    intro n
    cases skip <;> simp [phases]
  have key : ∀ (c : PsiConfig) (l : Local) (k : Nat) (o : Outcome Bool), Seen c l k (phases skip) o → ∀ n,
      .write n ∈ o.trace → entitled c = true ∧ ∃ own inter, l.join = .ok (own, inter) ∧
      (c.protocol.broadcast = false → n = 0) ∧
      (c.protocol.broadcast = true → inter ≤ k → k < 2 ^ 64 → n = k - inter) := by
    intro c l k o ho n hn
    obtain ⟨⟨d, t, h1, h2, h3, h4⟩, _⟩ := ho
    rw [h1, List.mem_append] at hn
    rcases hn with hn | hn
    · exact absurd (h2.subset hn) (hall n)
    · rcases h4 with rfl | ⟨he, s, hj, rfl⟩
      · cases hn
      · rw [List.mem_singleton] at hn
        have hn' : n = fill c k s := by injection hn
        refine ⟨he, s.1, s.2, hj, ?_, ?_⟩
        · intro hb; rw [hn']; simp [fill, hb]
        · intro hb hle hlt
          rw [hn']
          unfold fill
          rw [if_pos hb]
          omega
  have wrote : ∀ (c : PsiConfig) (l : Local) (k : Nat) (o : Outcome Bool), Seen c l k (phases skip) o →
      succeeded o → entitled c = true → ∃ n, .write n ∈ o.trace := by
    intro c l k o ho hso he
    obtain ⟨⟨d, t, h1, h2, h3, h4⟩, h5⟩ := ho
    obtain ⟨t', h6, h7⟩ := h5 hso
    have ht : t ≠ [] := by
      intro ht
      subst ht
      rw [List.append_nil] at h1
      have h8 := congrArg List.length (h1.symm.trans h6)
      simp only [List.length_append] at h8
      have h9 := h2.length_le
      have : 0 < t'.length := List.length_pos_of_ne_nil (h7 he)
      omega
    rcases h4 with h | ⟨_, s, _, h⟩
    · exact absurd h ht
    · exact ⟨_, by rw [h1, h]; exact List.mem_append_right _ (List.mem_singleton.mpr rfl)⟩
  exact ⟨key _ _ _ _ hd.seen0, key _ _ _ _ hd.seen1, wrote _ _ _ _ hd.seen0, wrote _ _ _ _ hd.seen1⟩

/-! ### Unbalanced PSI -/

/-- Whatever the peer answers, the program goes through `full`. -/
def Follows {α : Type} : Prog α → List Event → Prop
  | .ret _, full => full = []
  | .throw _, _ => True
  | .note e k, full => ∃ rest, full = e :: rest ∧ Follows k rest
  | .gather _ _ k, full => ∀ x y, Follows (k x y) full

theorem follows_alone {α : Type} (p : Prog α) : ∀ full, Follows p full →
    (alone p).trace <+: full ∧ (succeeded (alone p) → (alone p).trace = full) := by
  induction p with
  | ret a => intro full h; rw [h]; exact ⟨List.nil_prefix, fun _ => rfl⟩
  | throw e => intro full _; exact ⟨List.nil_prefix, fun ⟨a, h⟩ => by cases h⟩
  | note e k ih =>
    rintro full ⟨rest, rfl, h⟩
    obtain ⟨h1, h2⟩ := ih rest h
    exact ⟨by simpa using h1, fun hs => by rw [alone_note, add_trace, h2 hs]⟩
  | gather k m f ih => intro full _; exact ⟨List.nil_prefix, fun ⟨a, h⟩ => by cases h⟩

/-- The traces of two programs that follow their lists whatever the other one does. -/
theorem follows_run2 {α β : Type} (p : Prog α) : ∀ (q : Prog β) (full full' : List Event), Follows p full →
    Follows q full' →
    ((run2 p q).1.trace <+: full ∧ (succeeded (run2 p q).1 → (run2 p q).1.trace = full)) ∧
    ((run2 p q).2.trace <+: full' ∧ (succeeded (run2 p q).2 → (run2 p q).2.trace = full')) := by
  induction p with
  | ret a =>
    intro q full full' h h'
    rw [run2_ret]
    exact ⟨follows_alone (.ret a) full h, follows_alone q full' h'⟩
  | throw e =>
    intro q full full' h h'
    rw [run2_throw]
    exact ⟨follows_alone (.throw e : Prog α) full h, follows_alone q full' h'⟩
  | note e k ih =>
    rintro q full full' ⟨rest, rfl, h⟩ h'
    obtain ⟨⟨h1, h2⟩, h3⟩ := ih q rest full' h h'
    rw [run2_note]
    exact ⟨⟨by simpa using h1, fun hs => by rw [add_trace, h2 hs]⟩, h3⟩
  | gather kind m f ih =>
    intro q
    induction q with
    | ret b =>
      intro full full' h h'
      rw [run2_ret_right]
      exact ⟨⟨List.nil_prefix, fun ⟨a, h⟩ => by cases h⟩, follows_alone (.ret b) full' h'⟩
    | throw e =>
      intro full full' h h'
      rw [run2_throw_right]
      exact ⟨⟨List.nil_prefix, fun ⟨a, h⟩ => by cases h⟩, follows_alone (.throw e : Prog β) full' h'⟩
    | note e k ih' =>
      rintro full full' h ⟨rest, rfl, h'⟩
      obtain ⟨h3, ⟨h1, h2⟩⟩ := ih' full rest h h'
      rw [run2_note_right]
      exact ⟨h3, ⟨by simpa using h1, fun hs => by rw [add_trace, h2 hs]⟩⟩
    | gather kind' m' g ih' =>
      intro full full' h h'
      by_cases hk : kind = kind'
      · subst hk
        rw [run2_gather]
        exact ih m m' (g m m') full full' (h m m') (h' m m')
      · have : run2 (.gather kind m f) (.gather kind' m' g) =
            ((⟨[], .error .timeout⟩ : Outcome α), (⟨[], .error .timeout⟩ : Outcome β)) := by
          rw [run2]
          simp [run2.against, hk]
        rw [this]
        exact ⟨⟨List.nil_prefix, fun ⟨a, h⟩ => by cases h⟩, ⟨List.nil_prefix, fun ⟨a, h⟩ => by cases h⟩⟩

theorem follows_bind {α β : Type} (p : Prog α) (f : α → Prog β) : ∀ (full rest : List Event), Follows p full →
    (∀ a, Follows (f a) rest) → Follows (p >>= f) (full ++ rest) := by
  induction p with
  | ret a => intro full rest h hf; rw [h]; exact hf a
  | throw e => intro full rest _ _; exact trivial
  | note e k ih =>
    rintro full rest ⟨r, rfl, h⟩ hf
    exact ⟨r ++ rest, rfl, ih r rest h hf⟩
  | gather k m g ih =>
    intro full rest h hf x y
    exact ih x y full rest (h x y) hf

theorem follows_step (x : Except Err Unit) : Follows (step x) [] := by
  cases x <;> trivial

/-- The program of unbalanced PSI follows the phases of its mode. -/
theorem ub_follows (server link : Bool) (m : Mode) (l : UbLocal) :
    Follows (ubRun server link m l) (.init :: ubPhases server m) := by
  have hinit : Follows (ubInit server link m l) [] := by
    unfold ubInit
    by_cases hc : m = .unspecified ∨ (server = false ∧ m = .genCache)
    · simp only [hc, if_true]
      exact trivial
    · simp only [hc, if_false]
      cases link with
      | false => exact follows_step _
      | true => exact fun _ _ => follows_step _
  have htr : Follows (ubTransfer l) [.transferCache] :=
    ⟨[], rfl, follows_bind (step l.transferCache) _ [] [] (follows_step _) (fun _ _ _ => rfl)⟩
  have hon : Follows (ubOnline l) [.online] := by
    unfold ubOnline syncWait
    exact ⟨[], rfl, follows_bind (step l.online) _ [] [] (follows_step _) (fun _ _ _ => rfl)⟩
  have hgen : Follows (ubGenCache true l) [.genCache] := ⟨[], rfl, follows_step _⟩
  have hoff : Follows (ubOffline server l) (if server then [.genCache, .transferCache] else [.transferCache]) := by
    unfold ubOffline syncWait
    cases server with
    | true =>
      have := follows_bind _ (fun a => gather .allGather (.flag true) >>= fun _ => pure a) _ []
        (follows_bind _ (fun _ => ubTransfer l) _ _ hgen (fun _ => htr)) (fun _ _ _ => rfl)
      exact this
    | false =>
      have := follows_bind _ (fun a => gather .allGather (.flag true) >>= fun _ => pure a) _ [] htr (fun _ _ _ => rfl)
      exact this
  unfold ubRun
  refine ⟨ubPhases server m, rfl, ?_⟩
  refine follows_bind (ubInit server link m l) _ [] _ hinit (fun _ => ?_)
  cases m with
  | unspecified => exact trivial
  | genCache =>
    cases server with
    | true => exact hgen
    | false => exact trivial
  | transferCache => exact htr
  | offline => cases server <;> exact hoff
  | online => exact hon
  | full =>
    have := follows_bind _ (fun _ => ubOnline l) _ _ hoff (fun _ => hon)
    cases server <;> exact this

/-- **C35** Unbalanced PSI: whatever mode and program the peer runs, a party goes through the phases its own mode
names, in their order; if it ends well it has gone through all of them. -/
theorem C35_unbalanced_modes (server link server' link' : Bool) (m m' : Mode) (l l' : UbLocal) :
    let o := run2 (ubRun server link m l) (ubRun server' link' m' l')
    (o.1.trace <+: .init :: ubPhases server m ∧ (succeeded o.1 → o.1.trace = .init :: ubPhases server m)) ∧
    (o.2.trace <+: .init :: ubPhases server' m' ∧ (succeeded o.2 → o.2.trace = .init :: ubPhases server' m')) :=
  follows_run2 _ _ _ _ (ub_follows server link m l) (ub_follows server' link' m' l')

/-- **C35** A mode that is not set, and the generation of the cache by a client, are refused right after the
start. -/
theorem C35_unbalanced_refused (server link : Bool) (m : Mode) (l : UbLocal) {α : Type} (q : Prog α)
    (h : m = .unspecified ∨ (server = false ∧ m = .genCache)) :
    (run2 (ubRun server link m l) q).1.trace = [.init] ∧
      ∃ e, (run2 (ubRun server link m l) q).1.result = .error e := by
  have : ubRun server link m l = .note .init (.throw (.config "mode")) := by
    unfold ubRun ubInit
    simp only [h, if_true]
    rfl
  rw [this, run2_note, run2_throw]
  exact ⟨rfl, _, rfl⟩

/-- **C35** Server and client in the same mode end well exactly if all phases of the mode end well on both sides. -/
theorem C35_unbalanced_ends (m : Mode) (l l' : UbLocal)
    (hm : m = .transferCache ∨ m = .offline ∨ m = .online ∨ m = .full) :
    let o := run2 (ubRun true true m l) (ubRun false true m l')
    let fine := good l.make ∧ good l'.make ∧ (m = .offline ∨ m = .full → good l.genCache) ∧
      (m ≠ .online → good l.transferCache ∧ good l'.transferCache) ∧
      (m = .online ∨ m = .full → good l.online ∧ good l'.online)
    (succeeded o.1 ↔ fine) ∧ (succeeded o.2 ↔ fine) := by
  obtain ⟨mk, gc, tc, on⟩ := l
  obtain ⟨mk', gc', tc', on'⟩ := l'
  rcases hm with rfl | rfl | rfl | rfl <;>
    rcases mk with e1 | u1 <;> rcases mk' with e2 | u2 <;> rcases gc with e3 | u3 <;> rcases tc with e4 | u4 <;>
    rcases tc' with e5 | u5 <;> rcases on with e6 | u6 <;> rcases on' with e7 | u7 <;>
    simp [ubRun, ubInit, ubTransfer, ubOffline, ubOnline, ubGenCache, syncWait, succeeded, good]

/-! ### C48 -/

/-- **C48** `SyncWait`: with any two functions and however long they take, both parties leave after the same number
of rounds, the first in which both are finished, and both with their own result; if one of the functions throws,
neither party leaves normally. -/
theorem C48_sync_wait {α β : Type} (a : Job α) (b : Job β) (fuel : Nat) (hf : max a.rounds b.rounds < fuel) :
    (∀ x y, a.result = .ok x → b.result = .ok y →
      syncRounds fuel a b = (.ok x, .ok y, max a.rounds b.rounds + 1)) ∧
    ((∃ e, a.result = .error e) ∨ (∃ e, b.result = .error e) →
      (∃ e, (syncRounds fuel a b).1 = .error e) ∧ (∃ e, (syncRounds fuel a b).2.1 = .error e)) := by
  induction fuel generalizing a b with
  | zero => omega
  | succ fuel ih =>
    obtain ⟨ra, xa⟩ := a
    obtain ⟨rb, xb⟩ := b
    cases ra with
    | zero =>
      cases xa with
      | error e =>
        refine ⟨fun x y h => by (cases h), fun _ => ?_⟩
        cases rb with
        | zero => cases xb <;> exact ⟨⟨_, rfl⟩, ⟨_, rfl⟩⟩
        | succ rb => cases xb <;> exact ⟨⟨_, rfl⟩, ⟨_, rfl⟩⟩
      | ok x =>
        cases rb with
        | zero =>
          cases xb with
          | error e' =>
            refine ⟨fun x y _ h => by (cases h), fun _ => ⟨⟨_, rfl⟩, ⟨_, rfl⟩⟩⟩
          | ok y =>
            refine ⟨?_, ?_⟩
            · intro x' y' h1 h2
              cases h1; cases h2; rfl
            · rintro (⟨e, h⟩ | ⟨e, h⟩) <;> cases h
        | succ rb =>
          have hr : syncRounds (fuel + 1) (⟨0, .ok x⟩ : Job α) (⟨rb + 1, xb⟩ : Job β) =
              ((syncRounds fuel (⟨0, .ok x⟩ : Job α) (⟨rb, xb⟩ : Job β)).1,
               (syncRounds fuel (⟨0, .ok x⟩ : Job α) (⟨rb, xb⟩ : Job β)).2.1,
               (syncRounds fuel (⟨0, .ok x⟩ : Job α) (⟨rb, xb⟩ : Job β)).2.2 + 1) := by
            cases xb <;> simp [syncRounds]
          obtain ⟨h1, h2⟩ := ih (⟨0, .ok x⟩ : Job α) (⟨rb, xb⟩ : Job β) (by simp only at hf ⊢; omega)
          rw [hr]
          refine ⟨?_, h2⟩
          intro x' y' hx hy
          rw [h1 x' y' hx hy]
          simp only
          congr 2
    | succ ra =>
      cases rb with
      | zero =>
        cases xb with
        | error e' =>
          refine ⟨fun x y _ h => by (cases h), fun _ => ?_⟩
          cases xa <;> exact ⟨⟨_, rfl⟩, ⟨_, rfl⟩⟩
        | ok y =>
          have hr : syncRounds (fuel + 1) (⟨ra + 1, xa⟩ : Job α) (⟨0, .ok y⟩ : Job β) =
              ((syncRounds fuel (⟨ra, xa⟩ : Job α) (⟨0, .ok y⟩ : Job β)).1,
               (syncRounds fuel (⟨ra, xa⟩ : Job α) (⟨0, .ok y⟩ : Job β)).2.1,
               (syncRounds fuel (⟨ra, xa⟩ : Job α) (⟨0, .ok y⟩ : Job β)).2.2 + 1) := by
            cases xa <;> simp [syncRounds]
          obtain ⟨h1, h2⟩ := ih (⟨ra, xa⟩ : Job α) (⟨0, .ok y⟩ : Job β) (by simp only at hf ⊢; omega)
          rw [hr]
          refine ⟨?_, h2⟩
          intro x' y' hx hy
          rw [h1 x' y' hx hy]
          simp only
          congr 2
          simp
      | succ rb =>
        have hr : syncRounds (fuel + 1) (⟨ra + 1, xa⟩ : Job α) (⟨rb + 1, xb⟩ : Job β) =
            ((syncRounds fuel (⟨ra, xa⟩ : Job α) (⟨rb, xb⟩ : Job β)).1,
             (syncRounds fuel (⟨ra, xa⟩ : Job α) (⟨rb, xb⟩ : Job β)).2.1,
             (syncRounds fuel (⟨ra, xa⟩ : Job α) (⟨rb, xb⟩ : Job β)).2.2 + 1) := by
          cases xa <;> cases xb <;> simp [syncRounds]
        obtain ⟨h1, h2⟩ := ih (⟨ra, xa⟩ : Job α) (⟨rb, xb⟩ : Job β) (by simp only at hf ⊢; omega)
        rw [hr]
        refine ⟨?_, h2⟩
        intro x' y' hx hy
        rw [h1 x' y' hx hy]
        simp only
        congr 2
        omega

/-- **C48** The rounds end the same way as the single exchange that the other theorems use for `SyncWait`. -/
theorem C48_rounds_as_one {α β : Type} (a : Job α) (b : Job β) (fuel : Nat) (hf : max a.rounds b.rounds < fuel) :
    let o := run2 (syncWait (step a.result)) (syncWait (step b.result))
    let r := syncRounds fuel a b
    (∀ x, o.1.result = .ok x ↔ r.1 = .ok x) ∧ (∀ y, o.2.result = .ok y ↔ r.2.1 = .ok y) := by
  obtain ⟨h1, h2⟩ := C48_sync_wait a b fuel hf
  cases ha : a.result with
  | error e =>
    obtain ⟨⟨e1, hr1⟩, ⟨e2, hr2⟩⟩ := h2 (.inl ⟨e, ha⟩)
    cases hb : b.result <;> simp [syncWait, hr1, hr2]
  | ok x =>
    cases hb : b.result with
    | error e =>
      obtain ⟨⟨e1, hr1⟩, ⟨e2, hr2⟩⟩ := h2 (.inr ⟨e, hb⟩)
      simp [syncWait, hr1, hr2]
    | ok y => simp [syncWait, h1 x y ha hb]

/-! ### Instances -/

namespace Ex

/-- Alice's input and what her join finds. -/
def la : Local := { keys := .ok [("1".toList, 0), ("2".toList, 0)], join := .ok (2, 1) }

def lb : Local := { keys := .ok [("2".toList, 0), ("3".toList, 0), ("4".toList, 0)], join := .ok (3, 1) }

theorem stepsA (n : Nat) : ∀ skip, StepsGood skip alice la n :=
  fun _ => ⟨⟨_, rfl⟩, ⟨_, rfl⟩, fun _ => ⟨_, rfl⟩, fun _ => ⟨_, rfl⟩, fun _ => ⟨_, rfl⟩, fun _ => ⟨_, rfl⟩,
    ⟨_, rfl⟩, ⟨_, rfl⟩, fun _ => ⟨_, rfl, _, rfl⟩⟩

theorem stepsB (n : Nat) : ∀ skip, StepsGood skip bob lb n :=
  fun _ => ⟨⟨_, rfl⟩, ⟨_, rfl⟩, fun _ => ⟨_, rfl⟩, fun _ => ⟨_, rfl⟩, fun _ => ⟨_, rfl⟩, fun _ => ⟨_, rfl⟩,
    ⟨_, rfl⟩, ⟨_, rfl⟩, fun _ => ⟨_, rfl, _, rfl⟩⟩

/-- Bob with another join type. -/
def bobInner : PsiConfig := { bob with joinType := .inner }

theorem misfit : ¬ Fit alice bobInner := fun h => by have := h.agree.joinType; revert this; decide

theorem success : succeeded (session wire digest32 alice bob la lb).1 ∧ succeeded (session wire digest32 alice bob la lb).2 :=
  have h := C34_fits_exactly wire_lawful digest32 alice bob la lb (stepsA _) (stepsB _)
  ⟨h.1.mpr fit, h.2.mpr fit⟩

theorem keysSkip : ∀ k0 k1, la.keys = .ok k0 → lb.keys = .ok k1 → false = shortcut digest32 (checks alice) k0 k1 := by
  intro k0 k1 h0 h1
  cases h0; cases h1
  decide +kernel

theorem keysEqual : ∀ k0 k1, la.keys = .ok k0 → la.keys = .ok k1 → true = shortcut digest32 (checks alice) k0 k1 := by
  intro k0 k1 h0 h1
  cases h0; cases h1
  decide +kernel

/-- The whole trace of alice. -/
theorem trace : (session wire digest32 alice bob la lb).1.trace =
    [.init, .preProcess, .online, .postProcess, .finalize, .write 0] := by decide +kernel

theorem traceEqual : (session wire digest32 alice bob la la).1.trace = [.init, .finalize, .write 0] := by decide +kernel

end Ex

example := C34_misfits_stop Ex.wire_lawful Ex.digest32 Ex.alice Ex.bobInner Ex.la Ex.lb Ex.misfit

example := C34_fits_exactly Ex.wire_lawful Ex.digest32 Ex.alice Ex.bob Ex.la Ex.lb (Ex.stepsA _) (Ex.stepsB _)

example := C34_same_parameters Ex.wire_lawful Ex.digest32 Ex.alice Ex.bob Ex.la Ex.lb .online (by decide)
  (.inl (by rw [Ex.trace]; decide))

example := C35_phases_in_order Ex.wire_lawful Ex.digest32 Ex.alice Ex.bob Ex.la Ex.lb false Ex.keysSkip

example := C35_phases_in_order Ex.wire_lawful Ex.digest32 Ex.alice Ex.bob Ex.la Ex.la true Ex.keysEqual

example := C35_both_or_neither Ex.wire_lawful Ex.digest32 Ex.alice Ex.bob Ex.la Ex.lb false Ex.keysSkip

example := C35_online_after_preparation Ex.wire_lawful Ex.digest32 Ex.alice Ex.bob Ex.la Ex.lb
  (.inl (by rw [Ex.trace]; decide))

example := (C35_output Ex.wire_lawful Ex.digest32 Ex.alice Ex.bob Ex.la Ex.lb).2.2.1 Ex.success.1 (by decide)

example := (C35_unbalanced_modes true true false true .full .full {} {}).1.1

example : (run2 (ubRun true true .full {}) (ubRun false true .full {})).1.trace =
    [.init, .genCache, .transferCache, .online] ∧
    succeeded (run2 (ubRun true true .full {}) (ubRun false true .full {})).1 :=
  ⟨by decide +kernel, ⟨_, rfl⟩⟩

example := C35_unbalanced_refused false true .genCache {} (ubRun true true .genCache {}) (.inr ⟨rfl, rfl⟩)

example := C35_unbalanced_ends .full {} { online := .error .timeout } (.inr (.inr (.inr rfl)))

example := C48_sync_wait (⟨3, .ok 7⟩ : Job Nat) (⟨5, .ok "x"⟩ : Job String) 6 (by decide)

example := C48_rounds_as_one (⟨3, .ok 7⟩ : Job Nat) (⟨5, .error .timeout⟩ : Job String) 6 (by decide)

/-! ### Limits -/

namespace Ex

/-- Alice with the (default) KKRT parameters not mentioned instead of written down. -/
def aliceUnset : PsiConfig :=
  { alice with protocolConfig := some { protocol := .kkrt, role := .receiver, kkrt := none } }

/-- Alice and bob with a role of unbalanced PSI as left side. -/
def leftServer (c : PsiConfig) : PsiConfig := { c with leftSide := .server }

end Ex

/-- **C34** Limit: parties that would use the same parameters are stopped if one wrote a default down and the other did
not mention it. -/
theorem C34_default_spelled_out :
    params (setDefaults Ex.aliceUnset) = params (setDefaults Ex.bob) ∧ Valid Ex.aliceUnset ∧
      (∃ e, (session Ex.wire Ex.digest32 Ex.aliceUnset Ex.bob Ex.la Ex.lb).1.result = .error e) ∧
      ∃ e, (session Ex.wire Ex.digest32 Ex.aliceUnset Ex.bob Ex.la Ex.lb).2.result = .error e := by
  have hv : Valid Ex.aliceUnset :=
    ⟨by decide, by decide, by decide, ⟨_, rfl, rfl⟩, ⟨_, rfl, rfl⟩, by decide, by decide⟩
  have hn : ¬ Fit Ex.aliceUnset Ex.bob := fun h => by have := h.agree.kkrt; revert this; decide
  have h := C34_misfits_stop Ex.wire_lawful Ex.digest32 Ex.aliceUnset Ex.bob Ex.la Ex.lb hn
  exact ⟨by decide, hv, h.1, h.2.1⟩

/-- **C34** Limit: a left side that neither party is goes through, and neither party is the left side then. -/
theorem C34_left_side_unchecked :
    Fit (Ex.leftServer Ex.alice) (Ex.leftServer Ex.bob) ∧
      succeeded (session Ex.wire Ex.digest32 (Ex.leftServer Ex.alice) (Ex.leftServer Ex.bob) Ex.la Ex.lb).1 ∧
      (Ex.leftServer Ex.alice).leftSide ≠ Ex.alice.protocol.role ∧
      (Ex.leftServer Ex.bob).leftSide ≠ Ex.bob.protocol.role := by
  have hf : Fit (Ex.leftServer Ex.alice) (Ex.leftServer Ex.bob) :=
    ⟨⟨by decide, by decide, by decide, ⟨_, rfl, rfl⟩, ⟨_, rfl, rfl⟩, by decide, by decide⟩,
      ⟨by decide, by decide, by decide, ⟨_, rfl, rfl⟩, ⟨_, rfl, rfl⟩, by decide, by decide⟩,
      ⟨rfl, rfl, rfl, rfl, rfl, rfl, rfl, rfl, rfl, rfl, rfl⟩, .inl ⟨rfl, rfl⟩⟩
  refine ⟨hf, ?_, by decide, by decide⟩
  refine (C34_fits_exactly Ex.wire_lawful Ex.digest32 _ _ Ex.la Ex.lb ?_ ?_).1.mpr hf
  · exact fun _ => ⟨⟨_, rfl⟩, ⟨_, rfl⟩, fun _ => ⟨_, rfl⟩, fun _ => ⟨_, rfl⟩, fun _ => ⟨_, rfl⟩, fun _ => ⟨_, rfl⟩,
      ⟨_, rfl⟩, ⟨_, rfl⟩, fun _ => ⟨_, rfl, _, rfl⟩⟩
  · exact fun _ => ⟨⟨_, rfl⟩, ⟨_, rfl⟩, fun _ => ⟨_, rfl⟩, fun _ => ⟨_, rfl⟩, fun _ => ⟨_, rfl⟩, fun _ => ⟨_, rfl⟩,
      ⟨_, rfl⟩, ⟨_, rfl⟩, fun _ => ⟨_, rfl, _, rfl⟩⟩

/-- The index lines of a client in unbalanced PSI whose server goes by its own flag `client_get_result`
(`psi/algorithm/ecdh/ub_psi/server.cc:172-178`) and not by the client's. -/
def clientLines {α G : Type} [AddCommGroup G] (c : UbPsi.Curve α G) (o : UbPsi.Online α) (flag : Bool)
    (key : Bytes) (store : UbPsi.ClientStore) : Except UbPsi.Err (List (Nat × Nat)) :=
  match UbPsi.exchange c { o with clientGets := flag } key with
  | .error e => .error e
  | .ok (self, _) => (UbPsi.computeIndices self store o.batch o.threads).map (List.map (fun x => (x.1, x.2.2)))

/-- **C34** Limit: unbalanced PSI compares no configurations.  With a server that was told that the client gets no
result and a client that was told it does, the client's run ends well with the wrong lines: the reply is shuffled, and
the client, which has the keys 1, 3, 7, reports lines 0 and 1 as common with 3, 7, 9 where it should report 1 and 2. -/
theorem C34_unbalanced_flags_unchecked :
    ∃ cache ms disk store, UbPsi.Ex.cache 2 = .ok cache ∧ UbPsi.transferMsgs cache 1 = .ok ms ∧
      UbPsi.clientTransfer (fun _ => []) 12 ms UbPsi.Ex.fresh = (disk, true) ∧
      UbPsi.openStore disk 12 = .ok store ∧
      clientLines UbPsi.Ex.curve (UbPsi.Ex.session true false) true [5] store = .ok [(2, 0), (1, 2)] ∧
      clientLines UbPsi.Ex.curve (UbPsi.Ex.session true false) false [5] store = .ok [(0, 0), (1, 2)] := by
  have h : UbPsi.Ex.chain (fun cache ms =>
      let d := UbPsi.clientTransfer (fun _ => []) 12 ms UbPsi.Ex.fresh
      d.2 = true ∧ (match UbPsi.openStore d.1 12 with
        | .error _ => false
        | .ok store =>
          decide (clientLines UbPsi.Ex.curve (UbPsi.Ex.session true false) true [5] store = .ok [(2, 0), (1, 2)]) &&
          decide (clientLines UbPsi.Ex.curve (UbPsi.Ex.session true false) false [5] store = .ok [(0, 0), (1, 2)])) =
        true) = true := by decide +kernel
  obtain ⟨cache, ms, h1, h2, h3, h4⟩ := UbPsi.Ex.of_chain h
  split at h4
  · cases h4
  · rename_i store hs
    rw [Bool.and_eq_true, decide_eq_true_eq, decide_eq_true_eq] at h4
    exact ⟨cache, ms, _, store, h1, h2, Prod.ext rfl h3, hs, h4.1, h4.2⟩

/-- **C35** Limit: the output file of a run that failed may be there; here the peer's last step fails after alice has
written hers. -/
theorem C35_output_of_failed_run :
    ∃ l0 l1, .write 0 ∈ (session Ex.wire Ex.digest32 Ex.alice Ex.bob l0 l1).1.trace ∧
      ∃ e, (session Ex.wire Ex.digest32 Ex.alice Ex.bob l0 l1).1.result = .error e := by
  refine ⟨Ex.la, { Ex.lb with sort := .error .timeout }, by decide +kernel, ?_⟩
  have h := (C35_both_or_neither Ex.wire_lawful Ex.digest32 Ex.alice Ex.bob Ex.la
    { Ex.lb with sort := .error .timeout } false Ex.keysSkip).1
  cases hr : (session Ex.wire Ex.digest32 Ex.alice Ex.bob Ex.la { Ex.lb with sort := .error .timeout }).1.result with
  | error e => exact ⟨e, rfl⟩
  | ok b =>
    obtain ⟨_, _, hb⟩ := h.mp ⟨b, hr⟩
    obtain ⟨_, h⟩ := hb.sort
    cases h

end Psi.Run
