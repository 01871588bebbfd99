import Verif.Pipeline.Model

/-! # Pipeline: invariant, progress, measure -/

namespace Psi.Pipeline

/-- 1 if the thread has taken a bucket. -/
def Phase.taken : Phase → Nat
  | .idle => 0
  | _ => 1

/-- 1 if the thread has finished the stage of the bucket it has taken. -/
def Phase.done : Phase → Nat
  | .ready _ => 1
  | _ => 0

/-- Number of steps inside the loop body. -/
def Phase.steps : Phase → Nat
  | .idle => 0
  | .busy _ => 1
  | .ready _ => 2

/-- The bucket a thread holds. -/
def Phase.holds (k : Nat) : Phase → Prop
  | .idle => True
  | .busy b => b = k
  | .ready b => b = k

structure Inv (start n : Nat) (s : Party) : Prop where
  pb : s.p.holds s.pi
  rb : s.r.holds s.ri
  ib : s.i.holds s.ii
  inr : s.i.done = 0
  le1 : start ≤ s.ii
  le2 : s.ii + s.i.taken ≤ s.ri
  le3 : s.ri + s.r.taken ≤ s.pi
  le4 : s.pi ≤ s.ri + s.r.taken + 1
  le5 : s.pi + s.p.taken ≤ max start n
  q1 : s.q1 = List.range' (s.ri + s.r.taken) (s.pi - (s.ri + s.r.taken))
  q2 : s.q2 = List.range' (s.ii + s.i.taken) (s.ri - (s.ii + s.i.taken))
  ps : s.pStart = List.range' start (s.pi + s.p.taken - start)
  pd : s.pDone = List.range' start (s.pi + s.p.done - start)
  rs : s.rStart = List.range' start (s.ri + s.r.taken - start)
  rd : s.rDone = List.range' start (s.ri + s.r.done - start)
  is : s.iStart = List.range' start (s.ii + s.i.taken - start)
  id : s.iDone = List.range' start (s.ii - start)

theorem inv_init (start n : Nat) : Inv start n (Party.init start) := by
  constructor <;> simp [Party.init, Phase.holds, Phase.taken, Phase.done] <;> omega

theorem range'_concat {a k m : Nat} (h : a ≤ m) (hk : k = m - a) :
    List.range' a k ++ [m] = List.range' a (m + 1 - a) := by
  rw [show m + 1 - a = k + 1 by omega, List.range'_1_concat]
  congr 2
  omega

theorem inv_step {start n : Nat} {peer s s' : Party} {x : Step} (h : Inv start n s)
    (hs : s.step n peer x = some s') : Inv start n s' := by
  obtain ⟨pb, rb, ib, inr, le1, le2, le3, le4, le5, hq1, hq2, ps, pd, rs, rd, is, id⟩ := h
  cases x with
  | pStart =>
    simp only [Party.step] at hs
    cases hp : s.p with
    | idle =>
      rw [hp] at hs
      simp only at hs
      split at hs
      · rename_i hlt
        simp only [Option.some.injEq] at hs
        subst hs
        rw [hp] at ps pd pb le5
        simp only [Phase.taken, Phase.done] at ps pd le5
        refine ⟨rfl, rb, ib, inr, le1, le2, le3, le4, ?_, hq1, hq2, ?_, ?_, rs, rd, is, id⟩
        · simp only [Phase.taken]; omega
        · simp only [Phase.taken]; rw [ps, range'_concat (by omega) (by omega)]
        · simpa only [Phase.done] using pd
      · exact absurd hs (by simp)
    | busy b => rw [hp] at hs; exact absurd hs (by simp)
    | ready b => rw [hp] at hs; exact absurd hs (by simp)
  | pFinish =>
    simp only [Party.step] at hs
    cases hp : s.p with
    | idle => rw [hp] at hs; exact absurd hs (by simp)
    | ready b => rw [hp] at hs; exact absurd hs (by simp)
    | busy b =>
      rw [hp] at hs
      simp only at hs
      split at hs
      · simp only [Option.some.injEq] at hs
        subst hs
        rw [hp] at ps pd pb le5
        simp only [Phase.taken, Phase.done, Phase.holds] at ps pd pb le5
        subst pb
        refine ⟨rfl, rb, ib, inr, le1, le2, le3, le4, le5, hq1, hq2, ps, ?_, rs, rd, is, id⟩
        simp only [Phase.done]; rw [pd, range'_concat (by omega) (by omega)]
      · exact absurd hs (by simp)
  | pPush =>
    simp only [Party.step] at hs
    cases hp : s.p with
    | idle => rw [hp] at hs; exact absurd hs (by simp)
    | busy b => rw [hp] at hs; exact absurd hs (by simp)
    | ready b =>
      rw [hp] at hs
      simp only at hs
      split at hs
      · rename_i hlen
        simp only [Option.some.injEq] at hs
        subst hs
        rw [hp] at ps pd pb le5
        simp only [Phase.taken, Phase.done, Phase.holds] at ps pd pb le5
        subst pb
        rw [hq1, List.length_range'] at hlen
        refine ⟨trivial, rb, ib, inr, le1, le2, ?_, ?_, ?_, ?_, hq2, ?_, ?_, rs, rd, is, id⟩
        · show s.ri + s.r.taken ≤ s.pi + 1; omega
        · show s.pi + 1 ≤ s.ri + s.r.taken + 1; omega
        · simp only [Phase.taken]; omega
        · show s.q1 ++ [s.pi] = _
          rw [hq1, range'_concat (by omega) (by omega)]
        · simp only [Phase.taken]; simpa using ps
        · simp only [Phase.done]; simpa using pd
      · exact absurd hs (by simp)
  | rPop =>
    simp only [Party.step] at hs
    cases hr : s.r with
    | busy b => rw [hr] at hs; exact absurd hs (by simp)
    | ready b => rw [hr] at hs; exact absurd hs (by simp)
    | idle =>
      rw [hr] at hs
      cases hq : s.q1 with
      | nil => rw [hq] at hs; exact absurd hs (by simp)
      | cons b q =>
        rw [hq] at hs
        simp only at hs
        split at hs
        · simp only [Option.some.injEq] at hs
          subst hs
          rw [hr] at rs rd rb le3 le4 hq1
          simp only [Phase.taken, Phase.done, Nat.add_zero] at rs rd le3 le4 hq1
          rw [hq1] at hq
          obtain ⟨m, hm⟩ : ∃ m, s.pi - s.ri = m + 1 := by
            cases hm : s.pi - s.ri with
            | zero => rw [hm] at hq; exact absurd hq (by simp)
            | succ m => exact ⟨m, rfl⟩
          rw [hm, List.range'_succ, List.cons.injEq] at hq
          obtain ⟨rfl, rfl⟩ := hq
          refine ⟨pb, rfl, ib, inr, le1, le2, ?_, ?_, le5, ?_, hq2, ps, pd, ?_, ?_, is, id⟩
          · simp only [Phase.taken]; omega
          · simp only [Phase.taken]; omega
          · simp only [Phase.taken]; congr 1; omega
          · simp only [Phase.taken]; rw [rs, range'_concat (by omega) (by omega)]
          · simpa only [Phase.done, Nat.add_zero] using rd
        · exact absurd hs (by simp)
  | rFinish =>
    simp only [Party.step] at hs
    cases hr : s.r with
    | idle => rw [hr] at hs; exact absurd hs (by simp)
    | ready b => rw [hr] at hs; exact absurd hs (by simp)
    | busy b =>
      rw [hr] at hs
      simp only at hs
      split at hs
      · simp only [Option.some.injEq] at hs
        subst hs
        rw [hr] at rs rd rb le3 le4 hq1
        simp only [Phase.taken, Phase.done, Phase.holds] at rs rd rb le3 le4 hq1
        subst rb
        refine ⟨pb, rfl, ib, inr, le1, le2, le3, le4, le5, hq1, hq2, ps, pd, rs, ?_, is, id⟩
        simp only [Phase.done]; rw [rd, range'_concat (by omega) (by omega)]
      · exact absurd hs (by simp)
  | rPush =>
    simp only [Party.step] at hs
    cases hr : s.r with
    | idle => rw [hr] at hs; exact absurd hs (by simp)
    | busy b => rw [hr] at hs; exact absurd hs (by simp)
    | ready b =>
      rw [hr] at hs
      simp only [Option.some.injEq] at hs
      subst hs
      rw [hr] at rs rd rb le3 le4 hq1
      simp only [Phase.taken, Phase.done, Phase.holds] at rs rd rb le3 le4 hq1
      subst rb
      refine ⟨pb, trivial, ib, inr, le1, ?_, ?_, ?_, le5, ?_, ?_, ps, pd, ?_, ?_, is, id⟩
      · show s.ii + s.i.taken ≤ s.ri + 1; omega
      · simp only [Phase.taken]; omega
      · simp only [Phase.taken]; omega
      · simpa only [Phase.taken] using hq1
      · show s.q2 ++ [s.ri] = _
        rw [hq2, range'_concat (by omega) (by omega)]
      · simpa only [Phase.taken] using rs
      · simpa only [Phase.done] using rd
  | iPop =>
    simp only [Party.step] at hs
    cases hi : s.i with
    | busy b => rw [hi] at hs; exact absurd hs (by simp)
    | ready b => rw [hi] at hs; exact absurd hs (by simp)
    | idle =>
      rw [hi] at hs
      cases hq : s.q2 with
      | nil => rw [hq] at hs; exact absurd hs (by simp)
      | cons b q =>
        rw [hq] at hs
        simp only at hs
        split at hs
        · simp only [Option.some.injEq] at hs
          subst hs
          rw [hi] at is ib le2 hq2
          simp only [Phase.taken, Nat.add_zero] at is le2 hq2
          rw [hq2] at hq
          obtain ⟨m, hm⟩ : ∃ m, s.ri - s.ii = m + 1 := by
            cases hm : s.ri - s.ii with
            | zero => rw [hm] at hq; exact absurd hq (by simp)
            | succ m => exact ⟨m, rfl⟩
          rw [hm, List.range'_succ, List.cons.injEq] at hq
          obtain ⟨rfl, rfl⟩ := hq
          refine ⟨pb, rb, rfl, rfl, le1, ?_, le3, le4, le5, hq1, ?_, ps, pd, rs, rd, ?_, id⟩
          · simp only [Phase.taken]; omega
          · simp only [Phase.taken]; congr 1; omega
          · simp only [Phase.taken]; rw [is, range'_concat (by omega) (by omega)]
        · exact absurd hs (by simp)
  | iFinish =>
    simp only [Party.step] at hs
    cases hi : s.i with
    | idle => rw [hi] at hs; exact absurd hs (by simp)
    | ready b => rw [hi] at hs; exact absurd hs (by simp)
    | busy b =>
      rw [hi] at hs
      simp only at hs
      split at hs
      · simp only [Option.some.injEq] at hs
        subst hs
        rw [hi] at is ib le2 hq2
        simp only [Phase.taken, Phase.holds] at is ib le2 hq2
        subst ib
        refine ⟨pb, rb, trivial, rfl, ?_, ?_, le3, le4, le5, hq1, ?_, ps, pd, rs, rd, ?_, ?_⟩
        · show start ≤ s.ii + 1; omega
        · simp only [Phase.taken]; omega
        · simpa only [Phase.taken] using hq2
        · simpa only [Phase.taken] using is
        · show s.iDone ++ [s.ii] = _
          rw [id, range'_concat (by omega) (by omega)]
      · exact absurd hs (by simp)

/-- Steps taken so far. -/
def Party.progress (start : Nat) (s : Party) : Nat :=
  3 * (s.pi - start) + s.p.steps + 3 * (s.ri - start) + s.r.steps + 2 * (s.ii - start) + s.i.steps

theorem progress_step {start n : Nat} {peer s s' : Party} {x : Step} (h : Inv start n s)
    (hs : s.step n peer x = some s') : s'.progress start = s.progress start + 1 := by
  have h1 := h.le1
  have h2 := h.le2
  have h3 := h.le3
  unfold Party.progress
  cases x <;> simp only [Party.step] at hs <;> split at hs <;>
    first
    | (cases hs; done)
    | (split at hs
       · simp only [Option.some.injEq] at hs; subst hs; simp_all only [Phase.steps, Phase.taken] <;> omega
       · cases hs)
    | (cases hs; simp_all only [Phase.steps, Phase.taken] <;> omega)

theorem progress_bound {start n : Nat} {s : Party} (h : Inv start n s) :
    s.progress start ≤ 8 * (n - start) := by
  obtain ⟨_, _, _, inr, le1, le2, le3, le4, le5, _⟩ := h
  unfold Party.progress
  cases hp : s.p <;> cases hr : s.r <;> cases hi : s.i <;>
    simp only [hp, hr, hi, Phase.taken, Phase.steps, Phase.done] at * <;> omega

theorem inv_exec {start n : Nat} {s s' : State} {sched : List (Bool × Step)}
    (ha : Inv start n s.a) (hb : Inv start n s.b) (h : exec n s sched = some s') :
    Inv start n s'.a ∧ Inv start n s'.b ∧
      s'.a.progress start + s'.b.progress start =
        s.a.progress start + s.b.progress start + sched.length := by
  induction sched generalizing s with
  | nil => simp only [exec, Option.some.injEq] at h; subst h; exact ⟨ha, hb, by simp⟩
  | cons x xs ih =>
    simp only [exec, Option.bind_eq_some_iff] at h
    obtain ⟨u, hu, h⟩ := h
    obtain ⟨p, x⟩ := x
    cases p
    · simp only [step, Option.map_eq_some_iff] at hu
      obtain ⟨a, hs, rfl⟩ := hu
      obtain ⟨h1, h2, h3⟩ := ih (s := ⟨a, s.b⟩) (inv_step ha hs) hb h
      have := progress_step ha hs
      refine ⟨h1, h2, ?_⟩
      rw [h3, List.length_cons]
      simp only
      omega
    · simp only [step, Option.map_eq_some_iff] at hu
      obtain ⟨b, hs, rfl⟩ := hu
      obtain ⟨h1, h2, h3⟩ := ih (s := ⟨s.a, b⟩) ha (inv_step hb hs) h
      have := progress_step hb hs
      refine ⟨h1, h2, ?_⟩
      rw [h3, List.length_cons]
      simp only
      omega

/-- What it means, in numbers, that no thread of a party can move. -/
theorem blocked_facts {start n : Nat} {s peer : Party} (h : Inv start n s) (hp : Inv start n peer)
    (hb : ∀ x, s.step n peer x = none) :
    (s.p.taken = 0 → n ≤ s.pi) ∧
    (s.p.taken = 1 → s.p.done = 0 → peer.pi + peer.p.taken < s.pi + s.p.taken) ∧
    (s.p.done = 1 → s.ri + s.r.taken < s.pi) ∧
    (s.r.taken = 0 → s.pi ≤ s.ri ∨ n ≤ s.ri) ∧
    (s.r.taken = 1 → s.r.done = 0 ∧ peer.ri + peer.r.taken < s.ri + s.r.taken) ∧
    (s.i.taken = 0 → s.ri ≤ s.ii ∨ n ≤ s.ii) ∧
    (s.i.taken = 1 → peer.ii + peer.i.taken < s.ii + s.i.taken) := by
  obtain ⟨pb, rb, ib, inr, le1, le2, le3, le4, le5, hq1, hq2, ps, pd, rs, rd, is, id⟩ := h
  have e1 : ∀ k, s.p = .busy k → peer.pStart.length < s.pStart.length := by
    intro k hk
    have := hb .pFinish
    simp only [Party.step, hk] at this
    split at this
    · cases this
    · omega
  have e2 : ∀ k, s.p = .ready k → 1 ≤ s.q1.length := by
    intro k hk
    have := hb .pPush
    simp only [Party.step, hk] at this
    split at this
    · cases this
    · omega
  have e3 : s.p = .idle → n ≤ s.pi := by
    intro hk
    have := hb .pStart
    simp only [Party.step, hk] at this
    split at this
    · cases this
    · omega
  have e4 : s.r = .idle → s.q1.length = 0 ∨ n ≤ s.ri := by
    intro hk
    have := hb .rPop
    simp only [Party.step, hk] at this
    split at this
    · split at this
      · cases this
      · omega
    · rename_i hne
      cases hq : s.q1 with
      | nil => exact Or.inl rfl
      | cons b q => exact absurd hq (hne b q rfl)
  have e5 : ∀ k, s.r = .busy k → peer.rStart.length < s.rStart.length := by
    intro k hk
    have := hb .rFinish
    simp only [Party.step, hk] at this
    split at this
    · cases this
    · omega
  have e6 : ∀ k, s.r ≠ .ready k := by
    intro k hk
    have := hb .rPush
    simp only [Party.step, hk] at this
    cases this
  have e7 : s.i = .idle → s.q2.length = 0 ∨ n ≤ s.ii := by
    intro hk
    have := hb .iPop
    simp only [Party.step, hk] at this
    split at this
    · split at this
      · cases this
      · omega
    · rename_i hne
      cases hq : s.q2 with
      | nil => exact Or.inl rfl
      | cons b q => exact absurd hq (hne b q rfl)
  have e8 : ∀ k, s.i = .busy k → peer.iStart.length < s.iStart.length := by
    intro k hk
    have := hb .iFinish
    simp only [Party.step, hk] at this
    split at this
    · cases this
    · omega
  have l1 := hp.le1
  have l2 := hp.le2
  have l3 := hp.le3
  rw [ps, hp.ps, List.length_range', List.length_range'] at e1
  rw [hq1, List.length_range'] at e2 e4
  rw [rs, hp.rs, List.length_range', List.length_range'] at e5
  rw [hq2, List.length_range'] at e7
  rw [is, hp.is, List.length_range', List.length_range'] at e8
  refine ⟨?_, ?_, ?_, ?_, ?_, ?_, ?_⟩
  · intro h
    cases hk : s.p with
    | idle => exact e3 hk
    | busy k => rw [hk] at h; cases h
    | ready k => rw [hk] at h; cases h
  · intro h h'
    cases hk : s.p with
    | idle => rw [hk] at h; cases h
    | busy k => have := e1 k hk; rw [hk] at this; omega
    | ready k => rw [hk] at h'; cases h'
  · intro h
    cases hk : s.p with
    | idle => rw [hk] at h; cases h
    | busy k => rw [hk] at h; cases h
    | ready k => have := e2 k hk; omega
  · intro h
    cases hk : s.r with
    | idle => have := e4 hk; rw [hk] at this; simp only [Phase.taken] at this; omega
    | busy k => rw [hk] at h; cases h
    | ready k => rw [hk] at h; cases h
  · intro h
    cases hk : s.r with
    | idle => rw [hk] at h; cases h
    | busy k => have := e5 k hk; rw [hk] at this; exact ⟨rfl, by omega⟩
    | ready k => exact absurd hk (e6 k)
  · intro h
    cases hk : s.i with
    | idle => have := e7 hk; rw [hk] at this; simp only [Phase.taken] at this; omega
    | busy k => rw [hk] at h; cases h
    | ready k => rw [hk] at h; cases h
  · intro h
    cases hk : s.i with
    | idle => rw [hk] at h; cases h
    | busy k => have := e8 k hk; rw [hk] at this; omega
    | ready k => rw [hk] at inr; cases inr

theorem taken_done (p : Phase) : p.done ≤ p.taken ∧ p.taken ≤ 1 := by cases p <;> simp [Phase.done, Phase.taken]

/-- The numbers of one party: order between the counters, and what a blocked party satisfies against the
counters `ps`, `rs`, `is` of stages the peer has started. -/
structure Blocked (start n pi pt pd ri rt ii it ps rs is : Nat) : Prop where
  l1 : start ≤ ii
  l2 : ii + it ≤ ri
  l3 : ri + rt ≤ pi
  l5 : pi + pt ≤ max start n
  t1 : pd ≤ pt ∧ pt ≤ 1
  t2 : rt ≤ 1
  t3 : it ≤ 1
  b1 : pt = 0 → n ≤ pi
  b2 : pt = 1 → pd = 0 → ps < pi + pt
  b3 : pd = 1 → ri + rt < pi
  b4 : rt = 0 → pi ≤ ri ∨ n ≤ ri
  b5 : rt = 1 → rs < ri + rt
  b6 : it = 0 → ri ≤ ii ∨ n ≤ ii
  b7 : it = 1 → is < ii + it

section
variable {start n : Nat} {api apt apd ari art aii ait bpi bpt bpd bri brt bii bit : Nat}

theorem blocked_i
    (A : Blocked start n api apt apd ari art aii ait (bpi + bpt) (bri + brt) (bii + bit))
    (B : Blocked start n bpi bpt bpd bri brt bii bit (api + apt) (ari + art) (aii + ait)) : ait = 0 := by
  have A3 := A.t3
  have A2 := A.l2
  have A1 := A.l3
  have A5 := A.l5
  have B1 := B.l1
  rcases Nat.eq_zero_or_pos ait with h | h
  · exact h
  exfalso
  have h0 : ait = 1 := by omega
  have h1 := A.b7 h0
  have h2 : bit = 0 := by
    have := B.b7
    have := B.t3
    omega
  have h3 : bri ≤ bii := by
    have := B.b6 h2
    omega
  have h4 : brt = 0 := by
    have := B.b5
    have := B.t2
    omega
  have h5 : bpi ≤ bri := by
    have := B.b4 h4
    omega
  have h6 : bpt = 0 := by
    have := B.b2
    have := B.b3
    have := B.t1
    omega
  have := B.b1 h6
  omega

theorem blocked_r
    (A : Blocked start n api apt apd ari art aii ait (bpi + bpt) (bri + brt) (bii + bit))
    (B : Blocked start n bpi bpt bpd bri brt bii bit (api + apt) (ari + art) (aii + ait)) : art = 0 := by
  have A3 := A.t2
  have A1 := A.l3
  have A5 := A.l5
  have B1 := B.l1
  have B2 := B.l2
  rcases Nat.eq_zero_or_pos art with h | h
  · exact h
  exfalso
  have h0 : art = 1 := by omega
  have h1 := A.b5 h0
  have h4 : brt = 0 := by
    have := B.b5
    have := B.t2
    omega
  have h5 : bpi ≤ bri := by
    have := B.b4 h4
    omega
  have h6 : bpt = 0 := by
    have := B.b2
    have := B.b3
    have := B.t1
    omega
  have := B.b1 h6
  omega

theorem blocked_p
    (A : Blocked start n api apt apd ari art aii ait (bpi + bpt) (bri + brt) (bii + bit))
    (B : Blocked start n bpi bpt bpd bri brt bii bit (api + apt) (ari + art) (aii + ait)) : apt = 0 := by
  have hb := blocked_r B A
  have ha := blocked_r A B
  have A1 := A.l3
  have A5 := A.l5
  have B5 := B.l5
  have B1 := B.l1
  have B2 := B.l2
  have B3 := B.l3
  have A6 := A.t1
  rcases Nat.eq_zero_or_pos apt with h | h
  · exact h
  exfalso
  have h0 : apt = 1 := by omega
  have h2 := A.b4 ha
  have h3 := A.b3
  have hl1 := A.l1
  have hl2 := A.l2
  have h4 : apd = 0 := by omega
  have h1 := A.b2 h0 h4
  have h5 := B.b4 hb
  have h6 : bpt = 0 := by
    have := B.b2
    have := B.b3
    have := B.t1
    omega
  have := B.b1 h6
  omega

theorem blocked_end
    (A : Blocked start n api apt apd ari art aii ait (bpi + bpt) (bri + brt) (bii + bit))
    (B : Blocked start n bpi bpt bpd bri brt bii bit (api + apt) (ari + art) (aii + ait)) : n ≤ aii := by
  have h1 := A.b1 (blocked_p A B)
  have h2 := A.b4 (blocked_r A B)
  have h3 := A.b6 (blocked_i A B)
  have := A.l2
  omega

end

theorem taken_idle {p : Phase} (h : p.taken = 0) : p = .idle := by
  cases p with
  | idle => rfl
  | busy b => cases h
  | ready b => cases h

end Psi.Pipeline
