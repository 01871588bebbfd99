import Verif.Threshold.ExactLemmas

/-!
# ECDH-PSI with an intersection threshold (C58)

Assumptions: `Run.Lawful` (curve laws, shuffles are permutations, counters fit 32 bits, new stores),
`Ecdh.Crypto` (the masks commute, different keys have different comparison bytes), unique keys per party.
-/

namespace Psi.Threshold
open Psi.Net
open Psi.Ecdh (Crypto)
open Psi.Spec

variable {α P : Type} [DecidableEq α]

namespace Ex

/-- A small instance over bytes; a shuffle reverses its batch. -/
def run (recv send : List (List (UInt8 × Nat))) (b : Bool) (t : Nat) : Run UInt8 UInt8 :=
  { base :=
      { hash := fun x => x + 100
        mask := fun r p => p + (if r then 7 else 9)
        ser := fun p => [4, p]
        deser := fun b => b.getD 1 0
        dualSize := 1
        target := .all
        window := some 1
        input := fun r => if r then recv else send }
    broadcast := b
    threshold := t
    perm := fun _ n => (List.range n).reverse
    bucketHash := fun s => s.length
    oldSelf := List.replicate 3 []
    oldPeer := List.replicate 3 [] }

theorem lawful (recv send : List (List (UInt8 × Nat))) (b : Bool) (t : Nat) (ht : t < 2 ^ 32)
    (hr : ∀ l ∈ recv, l ≠ [] ∧ l.length < 2 ^ 32) (hs : ∀ l ∈ send, l ≠ [] ∧ l.length < 2 ^ 32)
    (h1 : recv.flatten.length < 2 ^ 32) (h2 : send.flatten.length ≤ 2 ^ 32)
    (h3 : ∀ x ∈ send.flatten, x.2 < 2 ^ 32) : (run recv send b t).Lawful 2 where
  base :=
    { serLen := fun _ => rfl
      round := fun _ => rfl
      dualLe := by simp [run]
      window := by intro w h; simp [run] at h; omega
      nonempty := by
        intro p l hl
        cases p
        · exact (hs l hl).1
        · exact (hr l hl).1
      small := by
        intro p l hl
        cases p
        · exact (hs l hl).2
        · exact (hr l hl).2 }
  perm _ _ := List.reverse_perm _
  few := h1
  fewPeer := h2
  dup := h3
  threshold := ht
  fresh := ⟨3, by decide, rfl, rfl⟩

theorem add_cancel {a b c : UInt8} (h : a + c = b + c) : a = b := by
  have := congrArg (· - c) h
  simpa using this

theorem crypto (recv send : List (List (UInt8 × Nat))) (b : Bool) (t : Nat) : Crypto (run recv send b t).base where
  comm p := by show p + 7 + 9 = p + 9 + 7; rw [UInt8.add_assoc, UInt8.add_assoc]; rfl
  inj r r' x _ y _ h := by
    have h' : x.1 + 100 + 7 + 9 = y.1 + 100 + 7 + 9 := by
      have := congrArg (fun l : List UInt8 => l.getD 0 0) h
      exact this
    exact add_cancel (add_cancel (add_cancel h'))

/-- Three common keys in three batches, two of them to be delivered. -/
def r1 : Run UInt8 UInt8 := run [[(1, 2), (5, 2), (3, 2)], [(9, 0)], [(4, 1)]] [[(3, 4)], [(4, 0), (7, 2), (1, 1)]] true 2

theorem lawful1 : r1.Lawful 2 :=
  lawful _ _ _ _ (by decide) (by decide) (by decide) (by decide) (by decide) (by decide)

theorem nodup1 : ∀ p, ((r1.items p).map Prod.fst).Nodup := by
  intro p; cases p <;> decide

end Ex

/-- **C58, partial** There is one choice `T` of common keys, of size `min threshold (number of common keys)`,
such that whatever the schedule of the seven tasks none of them fails, the number of steps is bounded, and
when no task can move every task has returned, no message is left, and:
* the receiver has exactly the lines of an intersection in which the sender has the keys `T` only;
* the sender has lines only with `broadcast_result`, and then exactly at the positions of `T`;
* both save the true size of the intersection and the delivered size.
Missing from the full statement: the counts in the sender's lines; see the next two theorems. -/
theorem C58_limited_exact_partial (r : Run α P) {L : Nat} (hc : r.Lawful L) (hx : Crypto r.base)
    (hd : ∀ p, ((r.items p).map Prod.fst).Nodup) :
    ∃ T, Choice r.threshold (r.items true) (r.items false) T ∧ ∃ bound, ∀ sched : List Task,
      (∀ t, ((net r).exec sched (net r).init).1.task t ≠ .fail) ∧
      ((net r).exec sched (net r).init).2 ≤ bound ∧
      ((net r).Stuck ((net r).exec sched (net r).init).1 →
        (∃ w, result ((net r).exec sched (net r).init).1 true =
            some ⟨some w, (commonKeys (r.items true) (r.items false)).length, T.length⟩ ∧
          ExactIndex (r.items true) (only T (r.items false)) w) ∧
        (∃ w, result ((net r).exec sched (net r).init).1 false =
            some ⟨if r.broadcast then some w else none, (commonKeys (r.items true) (r.items false)).length, T.length⟩ ∧
          ExactPositions (r.items false) T w) ∧
        (∀ t, ∃ s, ((net r).exec sched (net r).init).1.task t = .halt s) ∧
        ∀ q, ((net r).exec sched (net r).init).1.queue q = []) := by
  obtain ⟨m, S, rfl, hs, hall, bound, hb⟩ := run_result hc hx hd
  obtain ⟨K, hK⟩ := exists_keys hs
  have hp := keys_common hc hd hs hall hK
  have hs' := hs.take r.threshold
  have hT : (K.take r.threshold).map some = (m.take r.threshold).map (keyOf r) := by
    rw [List.map_take, hK, List.map_take]
  have hlen : K.length = m.length := by simpa using congrArg List.length hK
  have hlenT : (K.take r.threshold).length = (m.take r.threshold).length := by simp [hlen]
  refine ⟨K.take r.threshold, ⟨keys_nodup hc (hd true) hs' hT, fun x hx => ?_, ?_⟩, bound, fun sched =>
    ⟨(hb sched).1, (hb sched).2.1, fun hst => ?_⟩⟩
  · exact hp.mem_iff.mp (List.mem_of_mem_take hx)
  · rw [List.length_take, hp.length_eq]
  · obtain ⟨h1, h2, h3⟩ := (hb sched).2.2 hst
    rw [← hp.length_eq, hlen, hlenT]
    exact ⟨⟨_, h1, receiver_exact hc hd hs' hT⟩, ⟨_, h2, sender_positions hc hd hs' hT _⟩, h3⟩

example : ∃ T, Choice 2 (Ex.r1.items true) (Ex.r1.items false) T ∧ T.length = 2 := by
  obtain ⟨T, h, _⟩ := C58_limited_exact_partial Ex.r1 Ex.lawful1 (Ex.crypto _ _ _ _) Ex.nodup1
  exact ⟨T, h, h.size.trans (by decide)⟩

/-- **C58** Some schedule runs to the end. -/
theorem C58_completes (r : Run α P) {L : Nat} (hc : r.Lawful L) (hx : Crypto r.base)
    (hd : ∀ p, ((r.items p).map Prod.fst).Nodup) :
    ∃ sched, (net r).Stuck ((net r).exec sched (net r).init).1 := by
  obtain ⟨m, S, _, _, _, bound, hb⟩ := run_result hc hx hd
  exact exists_stuck _ _ bound (fun sched => (hb sched).2.1)

example : ∃ sched, (net Ex.r1).Stuck ((net Ex.r1).exec sched (net Ex.r1).init).1 :=
  C58_completes Ex.r1 Ex.lawful1 (Ex.crypto _ _ _ _) Ex.nodup1

/-- **C58, partial** With `broadcast_result`, if no shuffle moves an item to the place of one with another
count (no duplicate keys at the receiver, say, or batches of one item), the sender's lines are exact too, for
the same keys. -/
theorem C58_sender_exact_partial (r : Run α P) {L : Nat} (hc : r.Lawful L) (hx : Crypto r.base)
    (hd : ∀ p, ((r.items p).map Prod.fst).Nodup) (hb : r.broadcast = true) (hf : CountsFixed r) :
    ∃ T, Choice r.threshold (r.items true) (r.items false) T ∧ ∀ sched : List Task,
      (net r).Stuck ((net r).exec sched (net r).init).1 →
        ∃ wR wS n, result ((net r).exec sched (net r).init).1 true = some ⟨some wR, n, T.length⟩ ∧
          result ((net r).exec sched (net r).init).1 false = some ⟨some wS, n, T.length⟩ ∧
          ExactIndex (r.items true) (only T (r.items false)) wR ∧
          ExactIndex (r.items false) (only T (r.items true)) wS := by
  obtain ⟨m, S, rfl, hs, hall, bound, hrun⟩ := run_result hc hx hd
  obtain ⟨K, hK⟩ := exists_keys hs
  have hp := keys_common hc hd hs hall hK
  have hs' := hs.take r.threshold
  have hT : (K.take r.threshold).map some = (m.take r.threshold).map (keyOf r) := by
    rw [List.map_take, hK, List.map_take]
  have hlen : K.length = m.length := by simpa using congrArg List.length hK
  have hlenT : (K.take r.threshold).length = (m.take r.threshold).length := by simp [hlen]
  refine ⟨K.take r.threshold, ⟨keys_nodup hc (hd true) hs' hT, fun x hx => ?_, ?_⟩, fun sched hst => ?_⟩
  · exact hp.mem_iff.mp (List.mem_of_mem_take hx)
  · rw [List.length_take, hp.length_eq]
  · obtain ⟨h1, h2, _⟩ := (hrun sched).2.2 hst
    rw [if_pos hb] at h2
    rw [hlenT]
    exact ⟨_, _, _, h1, h2, receiver_exact hc hd hs' hT,
      sender_exact hc hd hs' hT _ (fun i a x e hi ha => dupOf_fixed hc hf hb i a x e hi ha)⟩

theorem Ex.fixed1 : CountsFixed Ex.r1 := by
  intro k p q hp hq
  have hk : k < 3 := by
    by_contra hk
    have : bat Ex.r1 k = [] := by
      have hl : Ex.r1.base.input true = [[(1, 2), (5, 2), (3, 2)], [(9, 0)], [(4, 1)]] := rfl
      unfold bat
      rw [hl, List.getElem?_eq_none (by simp only [List.length_cons, List.length_nil]; omega)]; rfl
    rw [this] at hp
    simp at hp
  obtain ⟨k', hk'⟩ : ∃ k' : Fin 3, k = k' := ⟨⟨k, hk⟩, rfl⟩
  subst hk'
  have key : ∀ k : Fin 3, ∀ p : Fin 3, p.val < (bat Ex.r1 k).length → ∀ q : Fin 3,
      (Ex.r1.perm k (bat Ex.r1 k).length)[p.val]? = some q.val →
      ((bat Ex.r1 k)[q.val]?).map Prod.snd = ((bat Ex.r1 k)[p.val]?).map Prod.snd := by decide
  have hb : ∀ k : Fin 3, (bat Ex.r1 k).length ≤ 3 := by decide
  have hb := hb k'
  have hq' : q < 3 := by
    have := perm_lt Ex.lawful1 (List.mem_of_getElem? hq)
    omega
  exact key k' ⟨p, by omega⟩ hp ⟨q, hq'⟩ hq

example : ∃ T, Choice 2 (Ex.r1.items true) (Ex.r1.items false) T := by
  obtain ⟨T, h, _⟩ := C58_sender_exact_partial Ex.r1 Ex.lawful1 (Ex.crypto _ _ _ _) Ex.nodup1 rfl Ex.fixed1
  exact ⟨T, h⟩

/-- Receiver: key 1 on two rows and key 2 on one row, in one batch; sender: key 1. -/
def Ex.r2 : Run UInt8 UInt8 := run [[(1, 1), (2, 0)]] [[(1, 0)]] true 10

theorem Ex.lawful2 : Ex.r2.Lawful 2 :=
  lawful _ _ _ _ (by decide) (by decide) (by decide) (by decide) (by decide) (by decide)

/-- **C58, negation** (`threshold_ecdh_psi.cc:103-107`): the sender stores the count of original position `i`
beside shuffled position `i`.  Every complete run of this lawful instance ends with the line `(0, 0)` at the
sender; the receiver has key 1 once more, so the line should be `(0, 1)`: no choice of keys makes the
sender's lines exact. -/
theorem C58_sender_counts_limit :
    Ex.r2.Lawful 2 ∧ Crypto Ex.r2.base ∧ (∀ p, ((Ex.r2.items p).map Prod.fst).Nodup) ∧
    (∃ sched, (net Ex.r2).Stuck ((net Ex.r2).exec sched (net Ex.r2).init).1) ∧
    ∀ sched, (net Ex.r2).Stuck ((net Ex.r2).exec sched (net Ex.r2).init).1 →
      result ((net Ex.r2).exec sched (net Ex.r2).init).1 false = some ⟨some [(0, 0)], 1, 1⟩ ∧
      (1, 1) ∈ Ex.r2.items true ∧ (Ex.r2.items false)[0]? = some (1, 0) ∧
      ∀ T, ¬ ExactIndex (Ex.r2.items false) (only T (Ex.r2.items true)) [(0, 0)] := by
  have hx := Ex.crypto [[(1, 1), (2, 0)]] [[(1, 0)]] true 10
  have hd : ∀ p, ((Ex.r2.items p).map Prod.fst).Nodup := by intro p; cases p <;> decide
  refine ⟨Ex.lawful2, hx, hd, C58_completes Ex.r2 Ex.lawful2 hx hd, fun sched hst => ⟨?_, by decide, by decide, ?_⟩⟩
  · obtain ⟨m, S, hS, hs, hall, bound, hrun⟩ := run_result Ex.lawful2 hx hd
    have ho : order Ex.r2 = [1, 0] := by decide
    have hit : Ex.r2.items true = [(1, 1), (2, 0)] := by decide
    have hif : Ex.r2.items false = [(1, 0)] := by decide
    have hm1 : (1, 0, 0) ∈ m := hall 1 0 0 ⟨0, 1, 1, by rw [ho]; rfl, by rw [hit]; rfl, by rw [hif]; rfl⟩
    have hm2 : ∀ x ∈ m, x = (1, 0, 0) := by
      rintro ⟨i, j, d⟩ hxm
      obtain ⟨a, y, e, ha, hy, hj⟩ := hs.ok i j d hxm
      rw [hif] at hj
      have hj0 : j = 0 := by
        have := (List.getElem?_eq_some_iff.mp hj).1; simpa using this
      subst hj0
      simp only [List.getElem?_cons_zero, Option.some.injEq, Prod.mk.injEq] at hj
      obtain ⟨rfl, rfl⟩ := hj
      rw [hit] at hy
      have ha2 := (List.getElem?_eq_some_iff.mp hy).1
      have ha0 : a = 0 := by
        have : a = 0 ∨ a = 1 := by simp at ha2; omega
        rcases this with rfl | rfl
        · rfl
        · simp at hy
      subst ha0
      rw [ho] at ha
      have hi2 := (List.getElem?_eq_some_iff.mp ha).1
      have : i = 0 ∨ i = 1 := by simp at hi2; omega
      rcases this with rfl | rfl
      · simp at ha
      · rfl
    have hm : m = [(1, 0, 0)] := by
      have hnd : m.Nodup := List.Nodup.of_map _ hs.nodup
      refine List.perm_singleton.mp ((List.perm_ext_iff_of_nodup hnd (by simp)).mpr (fun x => ?_))
      rw [List.mem_singleton]
      exact ⟨hm2 x, fun h => h ▸ hm1⟩
    subst hm
    have hS' : S = [(1, 0, 0)] := by rw [hS]; rfl
    subst hS'
    rw [((hrun sched).2.2 hst).2.1]
    rfl
  · intro T hE
    obtain ⟨x, e, h1, h2⟩ := (hE.mem 0 0).mp (by simp)
    have h1' : x = 1 ∧ e = 0 := by
      have hif : Ex.r2.items false = [(1, 0)] := by decide
      rw [hif] at h1
      simp at h1
      exact ⟨h1.1.symm, h1.2.symm⟩
    have h3 := (List.mem_filter.mp h2).1
    rw [h1'.1] at h3
    revert h3
    decide

/-- **C58, negation** (`psi/interface.cc:98-126`): with `check_hash_digest` and the same unique keys on both
sides the threshold is not looked at.  Both parties write all their keys, more than the threshold. -/
theorem C58_digest_limit {D : Type} [DecidableEq D] (H : List Char → D) (keys : List (Digest.Key × Nat))
    (h0 : ∀ x ∈ keys, x.2 = 0) (t : Nat) (ht : t < keys.length) (protocol : List (Nat × Nat)) :
    t < (runLines H true keys keys protocol).length := by
  have : Digest.shortcut H true keys keys = true := by
    unfold Digest.shortcut
    simp only [Bool.true_and, List.all_cons, List.all_nil, Bool.and_true, Bool.and_self, decide_true,
      List.all_eq_true, beq_iff_eq]
    exact h0
  unfold runLines
  rw [if_pos this]
  simpa [Digest.shortcutIndex] using ht

example : 1 < (runLines (fun s => s) true [(['a'], 0), (['b'], 0)] [(['a'], 0), (['b'], 0)] []).length :=
  C58_digest_limit _ _ (by simp) 1 (by simp) _

end Psi.Threshold
