import Verif.Pipeline.Lemmas

/-!
# RR22 pipeline: properties (C23)
-/

namespace Psi.Pipeline

/-- **C23** (order) Under every schedule, at every moment, each stage has been finished for an initial
segment of the buckets from the start index on, each bucket once and in increasing order; a bucket is
evaluated only after it was prepared and intersected only after it was evaluated; and at most one prepared
bucket waits. -/
theorem C23_in_order (start n : Nat) (sched : List (Bool × Step)) (s : State)
    (h : exec n (init start) sched = some s) (p : Party) (hp : p = s.a ∨ p = s.b) :
    p.pDone <+: List.range' start (n - start) ∧
      p.rDone <+: p.pDone ∧ p.iDone <+: p.rDone ∧ p.q1.length ≤ 1 := by
  obtain ⟨h1, h2, _⟩ := inv_exec (inv_init start n) (inv_init start n) h
  have hi : Inv start n p := by rcases hp with rfl | rfl <;> assumption
  obtain ⟨pb, rb, ib, inr, le1, le2, le3, le4, le5, hq1, hq2, ps, pd, rs, rd, is, id⟩ := hi
  have hpre : ∀ a b : Nat, a ≤ b → List.range' start a <+: List.range' start b := by
    intro a b hab
    refine ⟨List.range' (start + a) (b - a), ?_⟩
    rw [List.range'_append_1]
    congr 1
    omega
  have t1 := taken_done p.p
  have t2 := taken_done p.r
  have t3 := taken_done p.i
  rw [pd, rd, id, hq1, List.length_range']
  refine ⟨hpre _ _ (by omega), hpre _ _ (by omega), hpre _ _ (by omega), by omega⟩

/-- **C23** (no deadlock) Under every schedule, unless all threads of both parties have ended, some thread
can move. -/
theorem C23_never_stuck (start n : Nat) (sched : List (Bool × Step)) (s : State)
    (h : exec n (init start) sched = some s) :
    (s.a.finished n ∧ s.b.finished n) ∨ ∃ x, step n s x ≠ none := by
  by_cases hx : ∃ x, step n s x ≠ none
  · exact Or.inr hx
  · left
    have hall : ∀ x, step n s x = none := by
      intro x
      exact Classical.byContradiction (fun hne => hx ⟨x, hne⟩)
    have ha : ∀ x, s.a.step n s.b x = none := fun x => by
      have := hall (false, x)
      simpa [step] using this
    have hb : ∀ x, s.b.step n s.a x = none := fun x => by
      have := hall (true, x)
      simpa [step] using this
    obtain ⟨h1, h2, _⟩ := inv_exec (inv_init start n) (inv_init start n) h
    have toB : ∀ {x y : Party}, Inv start n x → Inv start n y → (∀ z, x.step n y z = none) →
        Blocked start n x.pi x.p.taken x.p.done x.ri x.r.taken x.ii x.i.taken
          (y.pi + y.p.taken) (y.ri + y.r.taken) (y.ii + y.i.taken) := by
      intro x y hx hy hz
      obtain ⟨a1, a2, a3, a4, a5, a6, a7⟩ := blocked_facts hx hy hz
      exact ⟨hx.le1, hx.le2, hx.le3, hx.le5, taken_done _, (taken_done _).2, (taken_done _).2, a1, a2, a3,
        a4, fun h => (a5 h).2, a6, a7⟩
    have A := toB h1 h2 ha
    have B := toB h2 h1 hb
    have k1 := blocked_p A B
    have k2 := blocked_r A B
    have k3 := blocked_i A B
    have k4 := blocked_p B A
    have k5 := blocked_r B A
    have k6 := blocked_i B A
    have k7 := blocked_end A B
    have k8 := blocked_end B A
    have := A.l2
    have := A.l3
    have := B.l2
    have := B.l3
    exact ⟨⟨taken_idle k1, by omega, taken_idle k2, by omega, taken_idle k3, k7⟩,
      ⟨taken_idle k4, by omega, taken_idle k5, by omega, taken_idle k6, k8⟩⟩

/-- **C23** (termination) No schedule has more than 16 steps per bucket. -/
theorem C23_terminates (start n : Nat) (sched : List (Bool × Step)) (s : State)
    (h : exec n (init start) sched = some s) : sched.length ≤ 16 * (n - start) := by
  obtain ⟨h1, h2, h3⟩ := inv_exec (inv_init start n) (inv_init start n) h
  have p1 := progress_bound h1
  have p2 := progress_bound h2
  have : (init start).a.progress start + (init start).b.progress start = 0 := by
    simp [init, Party.init, Party.progress, Phase.steps]
  omega

/-- **C23** (result) When the threads have ended, both parties have handed every bucket from the start
index on to the caller, each once, in the order of the sequential loop, and no bucket is left in a queue. -/
theorem C23_same_as_sequential (start n : Nat) (sched : List (Bool × Step)) (s : State)
    (h : exec n (init start) sched = some s) (hf : s.a.finished n ∧ s.b.finished n) (p : Party)
    (hp : p = s.a ∨ p = s.b) :
    p.iDone = sequential start n ∧ p.q1 = [] ∧ p.q2 = [] := by
  obtain ⟨h1, h2, _⟩ := inv_exec (inv_init start n) (inv_init start n) h
  have hi : Inv start n p := by rcases hp with rfl | rfl <;> assumption
  have hf' : p.finished n := by rcases hp with rfl | rfl <;> simp [hf]
  obtain ⟨f1, f2, f3, f4, f5, f6⟩ := hf'
  obtain ⟨pb, rb, ib, inr, le1, le2, le3, le4, le5, hq1, hq2, ps, pd, rs, rd, is, id⟩ := hi
  rw [f1, f3, f5] at *
  simp only [Phase.taken] at *
  refine ⟨?_, ?_, ?_⟩
  · rw [id, sequential]
    congr 1
    omega
  · rw [hq1, show p.pi - (p.ri + 0) = 0 by omega]; rfl
  · rw [hq2, show p.ri - (p.ii + 0) = 0 by omega]; rfl

/-! ## Example: buckets 1 and 2 of 3, an uneven schedule -/

def exSched : List (Bool × Step) :=
  let a (l : List Step) := l.map (fun x => (false, x))
  let b (l : List Step) := l.map (fun x => (true, x))
  a [.pStart] ++ b [.pStart, .pFinish, .pPush, .rPop, .pStart] ++
    a [.pFinish, .pPush, .rPop, .rFinish, .pStart, .pFinish, .pPush, .rPush, .rPop, .iPop] ++
    b [.rFinish, .rPush, .pFinish, .pPush, .iPop, .iFinish, .rPop, .rFinish, .rPush, .iPop] ++
    a [.iFinish, .rFinish, .rPush, .iPop, .iFinish] ++ b [.iFinish]

example : ((exec 3 (init 1) exSched).map (fun s => (s.a.iDone, s.b.iDone))) = some ([1, 2], [1, 2]) := by
  decide

example : ∃ s, exec 3 (init 1) (exSched.take 9) = some s ∧
    ((s.a.finished 3 ∧ s.b.finished 3) ∨ ∃ x, step 3 s x ≠ none) := by
  refine ⟨(exec 3 (init 1) (exSched.take 9)).get (by decide), by simp, ?_⟩
  exact C23_never_stuck 1 3 (exSched.take 9) _ (by simp)

example := C23_in_order 1 3 (exSched.take 9) _ (Option.some_get (x := exec 3 (init 1) (exSched.take 9)) (by decide)).symm _ (.inl rfl)

example := C23_terminates 1 3 exSched _ (Option.some_get (x := exec 3 (init 1) exSched) (by decide)).symm

example := C23_same_as_sequential 1 3 exSched _ (Option.some_get (x := exec 3 (init 1) exSched) (by decide)).symm
  (by unfold Party.finished; decide) _ (.inr rfl)

end Psi.Pipeline
