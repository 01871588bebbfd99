import Verif.Ecdh3.ExactLemmas

/-!
# Three-party ECDH-PSI: exactness under every schedule (C51), what the master can see (C52)

Assumptions: `Cfg.Lawful` (serialization has a fixed length and round-trips, sizes and windows are sane)
and `Crypto` (masks commute; different items have different comparison values).
-/

namespace Psi.Ecdh3
open Psi.Net
open Psi.Ecdh (Bytes)

variable {α P : Type}

namespace Ex

/-- A small instance: masking adds a key, only the last byte is compared, two items per batch, one
unread message allowed. -/
def cfg (mas cal part shuf : List UInt8) : Cfg UInt8 UInt8 :=
  { hash := fun x => x + 100
    mask := fun r p => p + (match r with | .master => 7 | .calculator => 9 | .partner => 11)
    ser := fun p => [1, p]
    deser := fun b => b.getD 1 0
    maskLen := 2
    dualSize := 1
    batch := 2
    window := some 1
    items := fun | .master => mas | .calculator => cal | .partner => part
    shuffled := shuf }

theorem lawful (m c p s : List UInt8) : (cfg m c p s).Lawful where
  serLen _ := rfl
  round _ := rfl
  dualLe := by simp [cfg]
  batchPos := by simp [cfg]
  batchLt := by simp [cfg]
  windowPos w h := by simp [cfg] at h; omega

theorem add_cancel {a b c : UInt8} (h : a + c = b + c) : a = b := by
  have := congrArg (· - c) h
  simpa using this

theorem crypto (m c p s : List UInt8) : Crypto (cfg m c p s) where
  comm r r' q := by
    show q + _ + _ = q + _ + _
    rw [UInt8.add_assoc, UInt8.add_assoc, UInt8.add_comm (match r' with | .master => (7 : UInt8) | .calculator => 9 | .partner => 11)]
  inj r r' x _ y _ h := by
    have h' : x + 100 + 7 + 9 + 11 = y + 100 + 7 + 9 + 11 := by
      have := congrArg (fun l : List UInt8 => l.getD 0 0) h
      exact this
    exact add_cancel (add_cancel (add_cancel (add_cancel h')))

def c1 : Cfg UInt8 UInt8 := cfg [3, 1, 2, 3] [1, 3, 5] [3, 4, 1] [4, 1, 3]

end Ex

/-- **C51** With one master rank below 3, the three parties take the three roles, and each finds the
others where it looks for them: the calculator is the master's next rank, the partner the one before. -/
theorem C51_roles (master rank : Nat) (hm : master < 3) (hr : rank < 3) :
    (role master rank = .master ↔ rank = master) ∧
    (role master rank = .calculator ↔ rank = (master + 1) % 3) ∧
    (role master rank = .partner ↔ rank = (master + 2) % 3) ∧
    (role master rank = .calculator → role master ((rank + 1) % 3) = .partner) ∧
    (role master rank = .partner → role master ((rank + 2) % 3) = .calculator) := by
  have h1 : master = 0 ∨ master = 1 ∨ master = 2 := by omega
  have h2 : rank = 0 ∨ rank = 1 ∨ rank = 2 := by omega
  rcases h1 with rfl | rfl | rfl <;> rcases h2 with rfl | rfl | rfl <;> decide

example : role 1 2 = .calculator := ((C51_roles 1 2 (by decide) (by decide)).2.1).mpr rfl

/-- **C51** Whatever the schedule of the eleven tasks: none of them fails, the number of steps is
bounded, and when no task can move any more every task has returned, no message is left, the master has
exactly its own items that both others have, in its own order, and the others have nothing. -/
theorem C51_exact [DecidableEq α] (c : Cfg α P) (hc : c.Lawful) (hx : Crypto c)
    (hs : c.shuffled.Perm (c.items .partner)) :
    ∃ bound, ∀ sched : List Task,
      (∀ t, ((net c).exec sched (net c).init).1.task t ≠ .fail) ∧
      ((net c).exec sched (net c).init).2 ≤ bound ∧
      ((net c).Stuck ((net c).exec sched (net c).init).1 →
        onRun c ((net c).exec sched (net c).init).1 .master =
          some ((c.items .master).filter (fun x => x ∈ c.items .calculator ∧ x ∈ c.items .partner)) ∧
        onRun c ((net c).exec sched (net c).init).1 .calculator = some [] ∧
        onRun c ((net c).exec sched (net c).init).1 .partner = some [] ∧
        ∀ q, ((net c).exec sched (net c).init).1.queue q = []) := by
  obtain ⟨bound, hb⟩ := run_planned c hc
  refine ⟨bound, fun sched => ⟨(hb sched).1, (hb sched).2.1, fun hst => ?_⟩⟩
  obtain ⟨hf, hq, -⟩ := (hb sched).2.2 hst
  refine ⟨?_, ?_, ?_, hq⟩
  · simp only [onRun, hf, returned, plan]
    exact finalPsi_eq c hc hx hs
  · simp only [onRun, hf, returned, plan]; rfl
  · simp only [onRun, hf, returned, plan]; rfl

example : ∃ bound, ∀ sched : List Task,
    ((net Ex.c1).exec sched (net Ex.c1).init).2 ≤ bound ∧
    ((net Ex.c1).Stuck ((net Ex.c1).exec sched (net Ex.c1).init).1 →
      onRun Ex.c1 ((net Ex.c1).exec sched (net Ex.c1).init).1 .master = some [3, 1, 3]) := by
  obtain ⟨b, h⟩ := C51_exact Ex.c1 (Ex.lawful _ _ _ _) (Ex.crypto _ _ _ _) (by decide)
  exact ⟨b, fun sched => ⟨(h sched).2.1, fun hs => ((h sched).2.2 hs).1⟩⟩

/-- **C51** Some schedule runs to the end, so the theorem above is not about nothing. -/
theorem C51_completes (c : Cfg α P) (hc : c.Lawful) :
    ∃ sched, (net c).Stuck ((net c).exec sched (net c).init).1 := by
  obtain ⟨bound, hb⟩ := run_planned c hc
  exact exists_stuck _ _ bound (fun sched => (hb sched).2.1)

example : ∃ sched, onRun Ex.c1 ((net Ex.c1).exec sched (net Ex.c1).init).1 .master = some [3, 1, 3] := by
  obtain ⟨sched, h⟩ := C51_completes Ex.c1 (Ex.lawful _ _ _ _)
  obtain ⟨b, h'⟩ := C51_exact Ex.c1 (Ex.lawful _ _ _ _) (Ex.crypto _ _ _ _) (by decide)
  exact ⟨sched, ((h' sched).2.2 h).1⟩

/-- **C52** What the master receives from the others depends on its own items and on which items the
other two have in common, and on nothing else: not on their other items, not on how many they are, not
on their order.  (Two complete runs, under any two schedules, with the same keys.) -/
theorem C52_master_view (c c' : Cfg α P) (hc : c.Lawful) (hx : Crypto c) (hx' : Crypto c')
    (hs : c.shuffled.Perm (c.items .partner)) (hs' : c'.shuffled.Perm (c'.items .partner))
    (e : c' = { c with items := c'.items, shuffled := c'.shuffled })
    (hm : c'.items .master = c.items .master)
    (hn : (c.items .calculator).Nodup) (hn' : (c'.items .calculator).Nodup)
    (hi : ∀ x, (x ∈ c.items .calculator ∧ x ∈ c.items .partner) ↔ (x ∈ c'.items .calculator ∧ x ∈ c'.items .partner))
    (sched sched' : List Task)
    (hst : (net c).Stuck ((net c).exec sched (net c).init).1)
    (hst' : (net c').Stuck ((net c').exec sched' (net c').init).1) (q : Queue)
    (hq : reader q = .masterRecv ∨ reader q = .masterPartners) :
    ((net c').exec sched' (net c').init).1.log q = ((net c).exec sched (net c).init).1.log q := by
  have hc' : c'.Lawful := by
    rw [e]; exact ⟨hc.serLen, hc.round, hc.dualLe, hc.batchPos, hc.batchLt, hc.windowPos⟩
  have hd : ∀ x, double c' x = double c x := by intro x; rw [e]; rfl
  have ht : ∀ x, triple c' x = triple c x := by intro x; rw [e]; rfl
  have hb : c'.batch = c.batch := by rw [e]
  obtain ⟨_, h1⟩ := run_planned c hc
  obtain ⟨_, h2⟩ := run_planned c' hc'
  rw [((h1 sched).2.2 hst).2.2 q, ((h2 sched').2.2 hst').2.2 q]
  have hz : zcabL c' = zcabL c := by
    rw [zcabL_eq c hc, zcabL_eq c' hc', hm]
    exact List.map_congr_left (fun x _ => ht x)
  have hin : interL c' = interL c := by
    refine Std.eq_of_perm_sorted ?_ (interL_sorted c') (interL_sorted c)
    refine (List.perm_ext_iff_of_nodup (interL_nodup c' hc' hx' hn') (interL_nodup c hc hx hn)).mpr (fun b => ?_)
    rw [mem_interL c hc hx hs, mem_interL c' hc' hx' hs']
    constructor
    · rintro ⟨x, h3, h4, rfl⟩
      exact ⟨x, ((hi x).mpr ⟨h3, h4⟩).1, ((hi x).mpr ⟨h3, h4⟩).2, hd x⟩
    · rintro ⟨x, h3, h4, rfl⟩
      exact ⟨x, ((hi x).mp ⟨h3, h4⟩).1, ((hi x).mp ⟨h3, h4⟩).2, (hd x).symm⟩
  cases q <;> simp [reader] at hq
  · show frames c'.batch (zcabL c') = frames c.batch (zcabL c)
    rw [hb, hz]
  · show frames c'.batch (interL c') = frames c.batch (interL c)
    rw [hb, hin]

example (sched sched' : List Task)
    (h : (net Ex.c1).Stuck ((net Ex.c1).exec sched (net Ex.c1).init).1)
    (h' : (net (Ex.cfg [3, 1, 2, 3] [8, 3, 7, 1, 9] [1, 3] [1, 3])).Stuck
      ((net (Ex.cfg [3, 1, 2, 3] [8, 3, 7, 1, 9] [1, 3] [1, 3])).exec sched' (net (Ex.cfg [3, 1, 2, 3] [8, 3, 7, 1, 9] [1, 3] [1, 3])).init).1) :
    ((net (Ex.cfg [3, 1, 2, 3] [8, 3, 7, 1, 9] [1, 3] [1, 3])).exec sched' (net (Ex.cfg [3, 1, 2, 3] [8, 3, 7, 1, 9] [1, 3] [1, 3])).init).1.log .inter =
      ((net Ex.c1).exec sched (net Ex.c1).init).1.log .inter :=
  C52_master_view Ex.c1 (Ex.cfg [3, 1, 2, 3] [8, 3, 7, 1, 9] [1, 3] [1, 3]) (Ex.lawful _ _ _ _) (Ex.crypto _ _ _ _) (Ex.crypto _ _ _ _) (by decide) (by decide) rfl rfl
    (by decide) (by decide) (by simp [Ex.c1, Ex.cfg]; intro x; constructor <;> (rintro ⟨h1, h2⟩; rcases h2 with rfl | rfl | rfl <;> simp_all))
    sched sched' h h' .inter (Or.inr rfl)

/-- **C52** The answer the calculator gets from the partner is the same for every order of the
calculator's items: it cannot tell which of its items a doubly masked value belongs to. -/
theorem C52_answer_unlinkable (c c' : Cfg α P) (hc : c.Lawful)
    (e : c' = { c with items := c'.items, shuffled := c'.shuffled })
    (hp : (c'.items .calculator).Perm (c.items .calculator)) (sched sched' : List Task)
    (hst : (net c).Stuck ((net c).exec sched (net c).init).1)
    (hst' : (net c').Stuck ((net c').exec sched' (net c').init).1) :
    ((net c').exec sched' (net c').init).1.log .xab = ((net c).exec sched (net c).init).1.log .xab := by
  have hc' : c'.Lawful := by
    rw [e]; exact ⟨hc.serLen, hc.round, hc.dualLe, hc.batchPos, hc.batchLt, hc.windowPos⟩
  have hb : c'.batch = c.batch := by rw [e]
  obtain ⟨_, h1⟩ := run_planned c hc
  obtain ⟨_, h2⟩ := run_planned c' hc'
  rw [((h1 sched).2.2 hst).2.2 .xab, ((h2 sched').2.2 hst').2.2 .xab]
  show frames c'.batch (xabL c') = frames c.batch (xabL c)
  rw [hb]
  congr 1
  unfold xabL shuffleAnswer xaL
  refine Std.sort_eq_of_perm ?_
  have e1 : ∀ x, c'.ser (c'.mask .calculator (c'.hash x)) = c.ser (c.mask .calculator (c.hash x)) := by
    intro x; rw [e]
  have e2 : ∀ x, tail c'.maskLen (c'.ser (c'.mask .partner (c'.deser x))) =
      tail c.maskLen (c.ser (c.mask .partner (c.deser x))) := by intro x; rw [e]
  simp only [e1, e2]
  exact (hp.map _).map _

example (sched sched' : List Task)
    (h : (net Ex.c1).Stuck ((net Ex.c1).exec sched (net Ex.c1).init).1)
    (h' : (net (Ex.cfg [8] [5, 3, 1] [6] [6])).Stuck
      ((net (Ex.cfg [8] [5, 3, 1] [6] [6])).exec sched' (net (Ex.cfg [8] [5, 3, 1] [6] [6])).init).1) :
    ((net (Ex.cfg [8] [5, 3, 1] [6] [6])).exec sched' (net (Ex.cfg [8] [5, 3, 1] [6] [6])).init).1.log .xab =
      ((net Ex.c1).exec sched (net Ex.c1).init).1.log .xab :=
  C52_answer_unlinkable Ex.c1 (Ex.cfg [8] [5, 3, 1] [6] [6]) (Ex.lawful _ _ _ _) rfl (by decide) sched sched' h h'

end Psi.Ecdh3
