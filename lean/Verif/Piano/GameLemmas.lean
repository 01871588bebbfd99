import Mathlib.Data.Fintype.Card
import Mathlib.Data.Fintype.Pi
import Mathlib.Data.Fintype.Prod
import Mathlib.Data.ZMod.Defs
import Mathlib.Data.List.FinRange

/-!
# Piano PIR: the game behind the messages

The rows of the sets, the backup rows with their replacements and the masks are uniform.  One query takes them to the rows and
replacements that are left and to the message, and this map is one to one.
-/

namespace Psi.Piano.Game

variable {S K M m : Nat}

/-- A row: an offset for each chunk. -/
abbrev Row (S K : Nat) := Fin S → Fin K

/-- The rows of the sets, and for each chunk the backup rows and replacements. -/
abbrev State (S K M m : Nat) := (Fin M → Row S K) × (Fin S → Fin m → Row S K × Fin K)

/-- The first set that has offset `o` in chunk `c`. -/
def hitIdx (T : Fin M → Row S K) (c : Fin S) (o : Fin K) : Option (Fin M) := (List.finRange M).find? fun i => T i c = o

theorem hitIdx_some {T : Fin M → Row S K} {c : Fin S} {o : Fin K} {h : Fin M} (hh : hitIdx T c o = some h) : T h c = o := by
  have := List.find?_some hh
  simpa using this

theorem hitIdx_congr {T T' : Fin M → Row S K} {c : Fin S} {o : Fin K} (h : ∀ i, T i c = T' i c) :
    hitIdx T c o = hitIdx T' c o := by
  unfold hitIdx
  simp only [h]

variable [NeZero m]

/-- One query: a mask if no set has the index, otherwise the row of the set with the replacement; the backup row takes the place
of the row, and the next of the chunk's backup rows moves up.  The used place keeps the mask. -/
def step (c : Fin S) (o : Fin K) (w : State S K M m × Row S K) : State S K M m × Row S K :=
  match hitIdx w.1.1 c o with
  | none => w
  | some h =>
    ((Function.update w.1.1 h (Function.update (w.1.2 c 0).1 c o),
      Function.update w.1.2 c fun j => Function.update (w.1.2 c) 0 (Function.update w.2 c ((w.1.2 c 0).1 c), w.2 c) (j + 1)),
     Function.update (w.1.1 h) c (w.1.2 c 0).2)

/-- The way back. -/
def back (c : Fin S) (o : Fin K) (w : State S K M m × Row S K) : State S K M m × Row S K :=
  match hitIdx w.1.1 c o with
  | none => w
  | some h =>
    let col : Fin m → Row S K × Fin K := fun j => w.1.2 c (j - 1)
    ((Function.update w.1.1 h (Function.update w.2 c o),
      Function.update w.1.2 c (Function.update col 0 (Function.update (w.1.1 h) c ((col 0).1 c), w.2 c))),
     Function.update (col 0).1 c (col 0).2)

theorem back_step (c : Fin S) (o : Fin K) (w : State S K M m × Row S K) : back c o (step c o w) = w := by
  obtain ⟨⟨T, P⟩, μ⟩ := w
  rcases hh : hitIdx T c o with _ | h
  · have : step c o ((T, P), μ) = ((T, P), μ) := by
      unfold step
      dsimp only
      rw [hh]
    rw [this]
    unfold back
    dsimp only
    rw [hh]
  · have hT := hitIdx_some hh
    have hstep : step c o ((T, P), μ) = ((Function.update T h (Function.update (P c 0).1 c o),
      Function.update P c fun j => Function.update (P c) 0 (Function.update μ c ((P c 0).1 c), μ c) (j + 1)),
      Function.update (T h) c (P c 0).2) := by
      unfold step
      dsimp only
      rw [hh]
    have hh' : hitIdx (Function.update T h (Function.update (P c 0).1 c o)) c o = some h := by
      rw [← hh]
      apply hitIdx_congr
      intro i
      by_cases hi : i = h
      · rw [hi, Function.update_self, Function.update_self, hT]
      · rw [Function.update_of_ne hi]
    rw [hstep]
    unfold back
    dsimp only
    rw [hh']
    dsimp only
    simp only [Function.update_self, sub_add_cancel, Function.update_idem]
    have e1 : Function.update (T h) c o = T h := by rw [← hT, Function.update_eq_self]
    have e2 : Function.update (P c 0).1 c ((P c 0).1 c) = (P c 0).1 := Function.update_eq_self _ _
    have e3 : Function.update μ c (μ c) = μ := Function.update_eq_self _ _
    simp only [e1, e2, e3, Function.update_eq_self, Prod.mk.eta]

theorem step_bijective (c : Fin S) (o : Fin K) : Function.Bijective (step (M := M) (m := m) c o) :=
  Finite.injective_iff_bijective.mp (Function.LeftInverse.injective (back_step c o))

/-- Queries one after the other: what is left and the messages. -/
def play : List (Fin S × Fin K) → State S K M m → List (Row S K) → State S K M m × List (Row S K)
  | [], s, _ => (s, [])
  | q :: qs, s, ms =>
    let w := step q.1 q.2 (s, ms.headD fun _ => q.2)
    let r := play qs w.1 ms.tail
    (r.1, w.2 :: r.2)

theorem play_length : ∀ (qs : List (Fin S × Fin K)) (s : State S K M m) (ms : List (Row S K)), (play qs s ms).2.length = qs.length
  | [], _, _ => rfl
  | q :: qs, s, ms => by
    rw [play]
    simp [play_length qs]

theorem play_inj : ∀ (qs : List (Fin S × Fin K)) {s s' : State S K M m} {ms ms' : List (Row S K)}, ms.length = qs.length →
    ms'.length = qs.length → play qs s ms = play qs s' ms' → s = s' ∧ ms = ms'
  | [], s, s', ms, ms', h, h', he => by
    rw [List.length_nil, List.length_eq_zero_iff] at h h'
    simp only [play, Prod.mk.injEq] at he
    exact ⟨he.1, by rw [h, h']⟩
  | q :: qs, s, s', m :: ms, m' :: ms', h, h', he => by
    simp only [play, List.headD_cons, List.tail_cons, Prod.mk.injEq, List.cons.injEq] at he
    obtain ⟨h1, h2, h3⟩ := he
    obtain ⟨e1, e2⟩ := play_inj qs (by simpa using h) (by simpa using h') (Prod.ext h1 h3)
    have := (step_bijective q.1 q.2).1 (Prod.ext e1 h2)
    simp only [Prod.mk.injEq] at this
    exact ⟨this.1, by rw [this.2, e2]⟩

theorem play_surj : ∀ (qs : List (Fin S × Fin K)) (s' : State S K M m) (V : List (Row S K)), V.length = qs.length →
    ∃ s ms, ms.length = qs.length ∧ play qs s ms = (s', V)
  | [], s', V, h => by
    rw [List.length_nil, List.length_eq_zero_iff] at h
    exact ⟨s', [], rfl, by rw [h]; rfl⟩
  | q :: qs, s', v :: V, h => by
    obtain ⟨s, ms, hlen, hp⟩ := play_surj qs s' V (by simpa using h)
    obtain ⟨⟨s0, m0⟩, h0⟩ := (step_bijective q.1 q.2).2 (s, v)
    refine ⟨s0, m0 :: ms, by simpa using hlen, ?_⟩
    simp only [play, List.headD_cons, List.tail_cons]
    rw [h0]
    dsimp only
    rw [hp]

/-- Every sequence of messages is as likely as any other. -/
theorem play_count {L : Nat} (qs : List (Fin S × Fin K)) (hq : qs.length = L) (V : List (Row S K)) (hV : V.length = L) :
    (Finset.univ.filter fun w : State S K M m × (Fin L → Row S K) => (play qs w.1 (List.ofFn w.2)).2 = V).card
      = Fintype.card (State S K M m) := by
  rw [← Finset.card_univ]
  refine Finset.card_bij (fun w _ => (play qs w.1 (List.ofFn w.2)).1) (fun _ _ => Finset.mem_univ _) ?_ ?_
  · intro w hw w' hw' he
    rw [Finset.mem_filter] at hw hw'
    obtain ⟨e1, e2⟩ := play_inj qs (by simp [hq]) (by simp [hq]) (Prod.ext he (hw.2.trans hw'.2.symm))
    exact Prod.ext e1 (List.ofFn_injective e2)
  · intro s' _
    obtain ⟨s, ms, hlen, hp⟩ := play_surj qs s' V (by rw [hV, hq])
    rw [hq] at hlen
    subst hlen
    refine ⟨(s, ms.get), ?_, ?_⟩
    · rw [Finset.mem_filter, List.ofFn_get, hp]
      exact ⟨Finset.mem_univ _, rfl⟩
    · dsimp only
      rw [List.ofFn_get, hp]

end Psi.Piano.Game
