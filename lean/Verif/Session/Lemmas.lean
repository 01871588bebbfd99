import Verif.Session.Model
import Mathlib.Tactic.Linarith
import Mathlib.Tactic.SplitIfs
import Mathlib.Tactic.Cases

/-! Messages that are understood, and runs of two parties with one queue in each direction. -/

namespace Psi.Session

variable {P Q R Db Key I H T M A : Type}

/-- Numbers that fit into their fields of 32 bits. -/
def Op.fits : Op Q → Prop
  | .parms => True
  | .oprf _ b => b < 2 ^ 32
  | .query _ b => b < 2 ^ 32

/-- Numbers that fit into their fields of 32 bits. -/
def Resp.fits : Resp P → Prop
  | .query n => n < 2 ^ 32
  | _ => True

/-- What is asked of the serialization of the library: what was saved is loaded. -/
structure Codec.Ok (C : Codec P Q R) : Prop where
  header : ∀ k t, C.loadHeader (C.saveHeader k ++ t) = .ok (C.version, k) t
  op : ∀ op : Op Q, op.fits → C.loadOp op.kind (C.saveOp op) = .ok op []
  resp : ∀ r : Resp P, r.fits → C.loadResp r.kind (C.saveResp r) = .ok r []
  part : ∀ r, C.loadPart (C.savePart r) = .ok r []

theorem Op.kind_ne (op : Op Q) : op.kind ≠ .unknown := by cases op <;> simp [Op.kind]

theorem Resp.kind_ne (r : Resp P) : r.kind ≠ .unknown := by cases r <;> simp [Resp.kind]

theorem receiveOp_enc {C : Codec P Q R} (hC : C.Ok) {op : Op Q} (h : op.fits) :
    receiveOp C true .unknown (encOp C op) = ((encOp C op).length, .some op) := by
  simp [receiveOp, receiveHeader, encOp, hC.header, hC.op op h, Op.kind_ne]

theorem receiveResp_enc {C : Codec P Q R} (hC : C.Ok) {r : Resp P} (h : r.fits) :
    receiveResp C .unknown (encMsg C (.resp r)) = ((encMsg C (.resp r)).length, .some r) := by
  simp [receiveResp, receiveHeader, encMsg, hC.header, hC.resp r h, Resp.kind_ne]

theorem receivePart_enc {C : Codec P Q R} (hC : C.Ok) (r : R) :
    receivePart C (encMsg C (.part r)) = ((encMsg C (.part r)).length, .some r) := by
  simp [receivePart, encMsg, hC.part r]

theorem feed_enc {C : Codec P Q R} (hC : C.Ok) (S : Srv P Q R Db Key) (store : Store Db Key) (streaming : Bool)
    (st : St Db Key) {op : Op Q} (h : op.fits) :
    feed C S store streaming st (encOp C op) =
      (if (serve S store streaming st op).2.2 then .stopped else .running (serve S store streaming st op).1,
        (serve S store streaming st op).2.1.map (encMsg C), (encOp C op).length) := by
  simp only [feed, receiveOp_enc hC h]

/-! ### A receiver and the answers it will get -/

variable (C : Codec P Q R) (S : Srv P Q R Db Key) (store : Store Db Key) (streaming : Bool)

/-- The receiver alone, every request being answered at once: where it ends (it is done, failed or waits), how the sender ends,
the number of steps.  `none`: it is done or failed and leaves messages, or gets one it did not wait for. -/
def expect : Prog P Q R A → Snd Db Key → List Bytes → Option (Prog P Q R A × Snd Db Key × Nat)
  | .done a, s, w => if w = [] then some (.done a, s, 0) else none
  | .fail, s, w => if w = [] then some (.fail, s, 0) else none
  | .send op k, s, w =>
    match s with
    | .running st =>
      match feed C S store streaming st (encOp C op) with
      | (s', out, n) =>
        if n = (encOp C op).length then (expect k s' (w ++ out)).map fun x => (x.1, x.2.1, x.2.2 + 2) else none
    | _ => none
  | .recv k f, s, w =>
    match w with
    | [] => some (.recv k f, s, 0)
    | b :: w' =>
      match receiveResp C .unknown b with
      | (n, .some r) =>
        if r.kind = k ∧ n = b.length then (expect (f r) s w').map fun x => (x.1, x.2.1, x.2.2 + 1) else none
      | _ => none
  | .part again f, s, w =>
    match w with
    | [] => some (.part again f, s, 0)
    | b :: w' =>
      match receivePart C b with
      | (n, .some r) => if n = b.length then (expect (f (some r)) s w').map fun x => (x.1, x.2.1, x.2.2 + 1) else none
      | _ => none

/-- The requests under way, answered. -/
def feedAll : Snd Db Key → List Bytes → Option (Snd Db Key × List Bytes)
  | s, [] => some (s, [])
  | .running st, b :: w =>
    match feed C S store streaming st b with
    | (s, out, n) => if n = b.length then (feedAll s w).map fun x => (x.1, out ++ x.2) else none
  | _, _ :: _ => none

theorem feedAll_snoc (b : Bytes) : ∀ (w : List Bytes) (s : Snd Db Key) (st : St Db Key) (o out : List Bytes) (s' : Snd Db Key),
    feedAll C S store streaming s w = some (.running st, o) → feed C S store streaming st b = (s', out, b.length) →
    feedAll C S store streaming s (w ++ [b]) = some (s', o ++ out) := by
  intro w
  induction w with
  | nil =>
    intro s st o out s' h hf
    simp only [feedAll, Option.some.injEq, Prod.mk.injEq] at h
    obtain ⟨rfl, rfl⟩ := h
    simp [feedAll, hf]
  | cons c w ih =>
    intro s st o out s' h hf
    cases s with
    | stopped => simp [feedAll] at h
    | crashed => simp [feedAll] at h
    | running st0 =>
      simp only [List.cons_append, feedAll] at h ⊢
      generalize feed C S store streaming st0 c = z at h ⊢
      obtain ⟨s1, o1, n1⟩ := z
      dsimp only at h ⊢
      by_cases hn : n1 = c.length
      · simp only [hn, if_true, Option.map_eq_some_iff] at h ⊢
        obtain ⟨⟨s2, o2⟩, h2, h3⟩ := h
        simp only [Prod.mk.injEq] at h3
        obtain ⟨rfl, rfl⟩ := h3
        exact ⟨_, ih _ _ _ _ _ h2 hf, by simp⟩
      · simp [hn] at h

/-- What stays true in a run as expected: `a`, `e` at the end, `k` steps to go. -/
def Inv (a : Prog P Q R A) (e : Snd Db Key) (k : Nat) (c : Config P Q R Db Key A) : Prop :=
  ∃ s o m, feedAll C S store streaming c.snd c.toSnd = some (s, o) ∧
    expect C S store streaming c.prog s (c.toRcv ++ o) = some (a, e, m) ∧ m + c.toSnd.length = k ∧
    c.rSent = c.sGot + (c.toSnd.map List.length).sum ∧ c.sSent = c.rGot + (c.toRcv.map List.length).sum

theorem Inv.stepS {a : Prog P Q R A} {e : Snd Db Key} {k : Nat} {c c' : Config P Q R Db Key A}
    (h : Inv C S store streaming a e k c) (hs : stepS C S store streaming c = some c') :
    ∃ k', k = k' + 1 ∧ Inv C S store streaming a e k' c' := by
  obtain ⟨s, o, m, h1, h2, h3, h4, h5⟩ := h
  unfold Psi.Session.stepS at hs
  split at hs
  · rename_i st b w hst hw
    rw [hst, hw] at h1
    rw [hw] at h3 h4
    generalize hz : feed C S store streaming st b = z at hs
    obtain ⟨s1, o1, n1⟩ := z
    simp only [Option.some.injEq] at hs
    subst hs
    simp only [feedAll, hz] at h1
    by_cases hn : n1 = b.length
    · simp only [hn, if_true, Option.map_eq_some_iff] at h1
      obtain ⟨⟨s2, o2⟩, h6, h7⟩ := h1
      simp only [Prod.mk.injEq] at h7
      obtain ⟨rfl, rfl⟩ := h7
      refine ⟨m + w.length, by simp at h3; omega, s2, o2, m, h6, by simpa [List.append_assoc] using h2, rfl, ?_, ?_⟩
      · simp only [List.map_cons, List.sum_cons] at h4
        dsimp only
        omega
      · simp only [List.map_append, List.sum_append]
        omega
    · simp [hn] at h1
  · simp at hs

theorem Inv.stepR {a : Prog P Q R A} {e : Snd Db Key} {k : Nat} {c c' : Config P Q R Db Key A}
    (h : Inv C S store streaming a e k c) (hs : stepR C c = some c') :
    ∃ k', k = k' + 1 ∧ Inv C S store streaming a e k' c' := by
  obtain ⟨s, o, m, h1, h2, h3, h4, h5⟩ := h
  unfold Psi.Session.stepR at hs
  split at hs
  · simp at hs
  · simp at hs
  · rename_i op p hp
    simp only [Option.some.injEq] at hs
    subst hs
    rw [hp] at h2
    cases s with
    | stopped => simp [expect] at h2
    | crashed => simp [expect] at h2
    | running st =>
      simp only [expect] at h2
      generalize hz : feed C S store streaming st (encOp C op) = z at h2
      obtain ⟨s1, o1, n1⟩ := z
      dsimp only at h2
      by_cases hn : n1 = (encOp C op).length
      · rw [if_pos hn, Option.map_eq_some_iff] at h2
        obtain ⟨⟨a2, e2, m2⟩, h6, h7⟩ := h2
        simp only [Prod.mk.injEq] at h7
        obtain ⟨rfl, rfl, rfl⟩ := h7
        rw [hn] at hz
        refine ⟨m2 + 1 + c.toSnd.length, by omega, s1, o ++ o1, m2, feedAll_snoc C S store streaming _ _ _ _ _ _ _ h1 hz,
          by simpa [List.append_assoc] using h6, by simp; omega, ?_, h5⟩
        simp
        omega
      · simp [hn] at h2
  · rename_i kd f hp
    rw [hp] at h2
    split at hs
    · simp at hs
    · rename_i b w hw
      rw [hw] at h2 h5
      simp only [expect, List.cons_append] at h2
      generalize hz : receiveResp C .unknown b = z at h2 hs
      obtain ⟨n1, g⟩ := z
      cases g with
      | null => simp at h2
      | escapes => simp at h2
      | some r =>
        dsimp only at h2 hs
        by_cases hn : r.kind = kd ∧ n1 = b.length
        · rw [if_pos hn, Option.map_eq_some_iff] at h2
          rw [if_pos hn.1] at hs
          simp only [Option.some.injEq] at hs
          subst hs
          obtain ⟨⟨a2, e2, m2⟩, h6, h7⟩ := h2
          simp only [Prod.mk.injEq] at h7
          obtain ⟨rfl, rfl, rfl⟩ := h7
          refine ⟨m2 + c.toSnd.length, by omega, s, o, m2, h1, h6, rfl, h4, ?_⟩
          simp only [List.map_cons, List.sum_cons] at h5
          have := hn.2
          dsimp only
          omega
        · simp [hn] at h2
  · rename_i ag f hp
    rw [hp] at h2
    split at hs
    · simp at hs
    · rename_i b w hw
      rw [hw] at h2 h5
      simp only [expect, List.cons_append] at h2
      generalize hz : receivePart C b = z at h2 hs
      obtain ⟨n1, g⟩ := z
      cases g with
      | null => simp at h2
      | escapes => simp at h2
      | some r =>
        dsimp only at h2 hs
        by_cases hn : n1 = b.length
        · rw [if_pos hn, Option.map_eq_some_iff] at h2
          simp only [Option.some.injEq] at hs
          subst hs
          obtain ⟨⟨a2, e2, m2⟩, h6, h7⟩ := h2
          simp only [Prod.mk.injEq] at h7
          obtain ⟨rfl, rfl, rfl⟩ := h7
          refine ⟨m2 + c.toSnd.length, by omega, s, o, m2, h1, h6, rfl, h4, ?_⟩
          simp only [List.map_cons, List.sum_cons] at h5
          dsimp only
          omega
        · simp [hn] at h2

/-- As long as there are steps to go one of the parties can make one. -/
theorem Inv.progress {a : Prog P Q R A} {e : Snd Db Key} {k : Nat} {c : Config P Q R Db Key A}
    (h : Inv C S store streaming a e (k + 1) c) : ∃ c', Step C S store streaming c c' := by
  obtain ⟨s, o, m, h1, h2, h3, h4, h5⟩ := h
  have hS : ∀ b w, c.toSnd = b :: w → ∃ c', Step C S store streaming c c' := by
    intro b w hw
    rw [hw] at h1
    cases hst : c.snd with
    | stopped => simp [hst, feedAll] at h1
    | crashed => simp [hst, feedAll] at h1
    | running st => exact ⟨_, Or.inr (by simp only [Psi.Session.stepS, hst, hw]; rfl)⟩
  cases hw : c.toSnd with
  | cons b w => exact hS b w hw
  | nil =>
    rw [hw] at h1 h3
    simp only [feedAll, Option.some.injEq, Prod.mk.injEq] at h1
    obtain ⟨rfl, rfl⟩ := h1
    simp only [List.append_nil, List.length_nil, Nat.add_zero] at h2 h3
    subst h3
    cases hp : c.prog with
    | done x =>
      rw [hp, expect] at h2
      split at h2 <;> simp at h2
    | fail =>
      rw [hp, expect] at h2
      split at h2 <;> simp at h2
    | send op p => exact ⟨_, Or.inl (by simp only [Psi.Session.stepR, hp]; rfl)⟩
    | recv kd f =>
      rw [hp] at h2
      cases hr : c.toRcv with
      | nil => simp [hr, expect] at h2
      | cons b w =>
        rw [hr] at h2
        simp only [expect] at h2
        generalize hz : receiveResp C .unknown b = z at h2
        obtain ⟨n1, g⟩ := z
        refine (?_ : ∃ c', Psi.Session.stepR C c = some c').imp fun _ => Or.inl
        simp only [Psi.Session.stepR, hp, hr, hz]
        cases g with
        | null => exact ⟨_, rfl⟩
        | escapes => exact ⟨_, rfl⟩
        | some r =>
          dsimp only
          split <;> exact ⟨_, rfl⟩
    | part ag f =>
      rw [hp] at h2
      cases hr : c.toRcv with
      | nil => simp [hr, expect] at h2
      | cons b w =>
        refine (?_ : ∃ c', Psi.Session.stepR C c = some c').imp fun _ => Or.inl
        simp only [Psi.Session.stepR, hp, hr]
        generalize hz : receivePart C b = z
        obtain ⟨n1, g⟩ := z
        cases g <;> exact ⟨_, rfl⟩

/-- No steps to go: the end. -/
theorem Inv.final {a : Prog P Q R A} {e : Snd Db Key} {c : Config P Q R Db Key A} (h : Inv C S store streaming a e 0 c) :
    c.prog = a ∧ c.snd = e ∧ c.toSnd = [] ∧ c.toRcv = [] ∧ c.rSent = c.sGot ∧ c.sSent = c.rGot := by
  obtain ⟨s, o, m, h1, h2, h3, h4, h5⟩ := h
  have hw : c.toSnd = [] := List.eq_nil_of_length_eq_zero (by omega)
  have hm : m = 0 := by omega
  subst hm
  rw [hw] at h1 h4
  simp only [feedAll, Option.some.injEq, Prod.mk.injEq] at h1
  obtain ⟨rfl, rfl⟩ := h1
  simp only [List.append_nil] at h2
  cases hp : c.prog with
  | done x =>
    rw [hp, expect] at h2
    by_cases hr : c.toRcv = []
    · simp only [hr, if_true, Option.some.injEq, Prod.mk.injEq] at h2
      obtain ⟨rfl, rfl, -⟩ := h2
      rw [hr] at h5
      exact ⟨rfl, rfl, hw, hr, by simpa using h4, by simpa using h5⟩
    · simp [hr] at h2
  | fail =>
    rw [hp, expect] at h2
    by_cases hr : c.toRcv = []
    · simp only [hr, if_true, Option.some.injEq, Prod.mk.injEq] at h2
      obtain ⟨rfl, rfl, -⟩ := h2
      rw [hr] at h5
      exact ⟨rfl, rfl, hw, hr, by simpa using h4, by simpa using h5⟩
    · simp [hr] at h2
  | send op p =>
    rw [hp] at h2
    cases hst : c.snd with
    | stopped => simp [hst, expect] at h2
    | crashed => simp [hst, expect] at h2
    | running st =>
      rw [hst] at h2
      simp only [expect] at h2
      split at h2
      · rw [Option.map_eq_some_iff] at h2
        obtain ⟨x, -, hx⟩ := h2
        simp at hx
      · simp at h2
  | recv kd f =>
    rw [hp] at h2
    cases hr : c.toRcv with
    | nil =>
      rw [hr] at h2 h5
      simp only [expect, Option.some.injEq, Prod.mk.injEq] at h2
      obtain ⟨rfl, rfl, -⟩ := h2
      exact ⟨rfl, rfl, hw, rfl, by simpa using h4, by simpa using h5⟩
    | cons b w =>
      rw [hr] at h2
      simp only [expect] at h2
      split at h2
      · split at h2
        · rw [Option.map_eq_some_iff] at h2
          obtain ⟨x, -, hx⟩ := h2
          simp at hx
        · simp at h2
      · simp at h2
  | part ag f =>
    rw [hp] at h2
    cases hr : c.toRcv with
    | nil =>
      rw [hr] at h2 h5
      simp only [expect, Option.some.injEq, Prod.mk.injEq] at h2
      obtain ⟨rfl, rfl, -⟩ := h2
      exact ⟨rfl, rfl, hw, rfl, by simpa using h4, by simpa using h5⟩
    | cons b w =>
      rw [hr] at h2
      simp only [expect] at h2
      split at h2
      · split at h2
        · rw [Option.map_eq_some_iff] at h2
          obtain ⟨x, -, hx⟩ := h2
          simp at hx
        · simp at h2
      · simp at h2

theorem Inv.steps {a : Prog P Q R A} {e : Snd Db Key} {N : Nat} {c0 : Config P Q R Db Key A} (h : Inv C S store streaming a e N c0)
    {n : Nat} {c : Config P Q R Db Key A} (hs : Steps C S store streaming n c0 c) :
    ∃ k, N = n + k ∧ Inv C S store streaming a e k c := by
  induction hs with
  | refl => exact ⟨N, by omega, h⟩
  | step _ h1 ih =>
    obtain ⟨k, hk, hi⟩ := ih h
    obtain ⟨k', hk', hi'⟩ : ∃ k', k = k' + 1 ∧ Inv C S store streaming a e k' _ := by
      rcases h1 with h1 | h1
      · exact hi.stepR C S store streaming h1
      · exact hi.stepS C S store streaming h1
    exact ⟨k', by omega, hi'⟩

/-- Every run of a receiver ends where it ends alone, after one and the same number of steps. -/
theorem runs_end {p : Prog P Q R A} {st : St Db Key} {a : Prog P Q R A} {e : Snd Db Key} {N : Nat}
    (h : expect C S store streaming p (.running st) [] = some (a, e, N)) {n : Nat} {c : Config P Q R Db Key A}
    (hs : Steps C S store streaming n (start p st) c) :
    n ≤ N ∧ (n < N → ∃ c', Step C S store streaming c c') ∧
      (n = N → c.prog = a ∧ c.snd = e ∧ c.toSnd = [] ∧ c.toRcv = [] ∧ c.rSent = c.sGot ∧ c.sSent = c.rGot) := by
  have h0 : Inv C S store streaming a e N (start p st) :=
    ⟨.running st, [], N, rfl, by simpa [start] using h, by simp [start], by simp [start], by simp [start]⟩
  obtain ⟨k, hk, hi⟩ := h0.steps C S store streaming hs
  refine ⟨by omega, fun hlt => ?_, fun heq => ?_⟩
  · obtain ⟨k', rfl⟩ : ∃ k', k = k' + 1 := ⟨k - 1, by omega⟩
    exact hi.progress C S store streaming
  · have : k = 0 := by omega
    subst this
    exact hi.final C S store streaming

end Psi.Session
