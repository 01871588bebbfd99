import Verif.Ecdh.StoreLemmas
import Verif.Bucket.Props
import Verif.Common.Lemmas

/-!
# Two-party ECDH-PSI: property theorems (C10 – C13)

Assumptions on the parameters are collected in `Cfg.Lawful` (a serialized point has a fixed length and
deserializes to the same point; `dual_mask_size` is at most this length; the throttle window is not 0;
the batch provider delivers non-empty batches of fewer than 2^32 items) and in `Apart` (masks commute; items of the two
parties that differ have different comparison bytes).
-/

namespace Psi.Ecdh
open Psi.Bucket (Cache computeIndices)
open Psi.Spec
variable {α P : Type}

namespace Ex

/-- A small instance: items and points are bytes, masking adds a key, serialization appends the point to
a constant byte; only the last byte is compared. -/
def cfg (t : Target) : Cfg UInt8 UInt8 :=
  { hash := fun x => x + 100
    mask := fun r p => p + (if r then 7 else 9)
    ser := fun p => [4, p]
    deser := fun b => b.getD 1 0
    dualSize := 1
    target := t
    window := some 1
    input := fun r => if r then [[(1, 0), (2, 5)], [(3, 1)]] else [[(3, 0)], [(4, 2)], [(1, 1)]] }

theorem lawful (t : Target) : (cfg t).Lawful 2 where
  serLen := fun _ => rfl
  round := fun _ => rfl
  dualLe := by simp [cfg]
  window := by intro w h; simp [cfg] at h; omega
  nonempty := by intro r; cases r <;> simp [cfg]
  small := by intro r; cases r <;> simp [cfg]

theorem crypto (t : Target) : Crypto (cfg t) where
  comm := by intro p; show p + 7 + 9 = p + 9 + 7; rw [UInt8.add_assoc, UInt8.add_assoc]; rfl
  inj := by
    have h : ∀ r r', ∀ x ∈ ((cfg .all).input r).flatten, ∀ y ∈ ((cfg .all).input r').flatten,
        cipher (cfg .all) ((cfg .all).mask false ((cfg .all).mask true ((cfg .all).hash x.1)))
          = cipher (cfg .all) ((cfg .all).mask false ((cfg .all).mask true ((cfg .all).hash y.1))) →
        x.1 = y.1 := by
      intro r r'; cases r <;> cases r' <;> decide
    exact h

/-- A complete schedule of the instance when both parties get the result. -/
def sched : List (Task × Bool) :=
  [(.maskSelf, true), (.maskSelf, false), (.maskPeer, true), (.maskPeer, false), (.recvDual, true),
   (.maskSelf, true), (.maskSelf, false), (.maskPeer, true), (.maskPeer, false), (.recvDual, true),
   (.recvDual, false), (.maskSelf, true), (.maskSelf, false), (.maskPeer, true), (.maskPeer, false),
   (.recvDual, true), (.maskSelf, false), (.maskPeer, true), (.recvDual, false), (.recvDual, false),
   (.recvDual, false)]

theorem sched_ok : ∃ s, exec (cfg .all) sched (init (cfg .all)) = some s ∧
    (s.party false).finished = true ∧ (s.party true).finished = true :=
  ⟨_, rfl, rfl, rfl⟩

end Ex

/-- **C10** Under every schedule of the six tasks, when the tasks of a party that may see the result
have returned, the bucketed intersection of its two stores succeeds and is the exact intersection of the
two inputs, with the peer's duplicate counts; the two counters are the peer's rows and the peer's rows
with a common key.  `hash` and `n` are the bucket hash and the number of buckets. -/
theorem C10_exact_intersection [DecidableEq α] (c : Cfg α P) {L : Nat} (hc : c.Lawful L)
    (hx : Apart c) (sched : List (Task × Bool)) (s : State α)
    (h : exec c sched (init c) = some s) (r : Bool) (fin : (s.party r).finished = true)
    (hres : c.target = .all ∨ c.target = .rank r) (hd : ∀ r, ((c.items r).map Prod.fst).Nodup)
    (hash : List Char → Nat) (n : Nat) (hn : 0 < n)
    (hl : ∀ r, (c.items r).length ≤ 2 ^ 64) (hdup : ∀ r, ∀ x ∈ c.items r, x.2 < 2 ^ 32) :
    ∃ w, computeIndices ((Cache.fresh n).writeAll hash (s.party r).selfStore)
        ((Cache.fresh n).writeAll hash (s.party r).peerStore) =
          some (w, peerRows (c.items (!r)), peerCommonRows (c.items r) (c.items (!r))) ∧
      ExactIndex (c.items r) (c.items (!r)) w := by
  have ht : c.target.canTouch r = true := by
    rcases hres with h | h <;> simp [h, Target.canTouch]
  obtain ⟨h1, h2⟩ := stores_final c hc sched s h r fin ht
  have f1 : Psi.Bucket.Fits (s.party r).selfStore := by
    rw [h1]
    refine ⟨by simpa using hl r, ?_⟩
    intro d hd
    obtain ⟨y, _, rfl⟩ := List.mem_map.mp hd
    exact Nat.two_pow_pos 32
  have f2 : Psi.Bucket.Fits (s.party r).peerStore := by
    rw [h2]
    refine ⟨by simpa using hl (!r), ?_⟩
    intro d hd
    obtain ⟨y, hy, rfl⟩ := List.mem_map.mp hd
    exact hdup (!r) y hy
  obtain ⟨w, hw, hnd, hmem⟩ := Psi.Bucket.C09_bucket_intersection_exact hash n hn
    (s.party r).selfStore (s.party r).peerStore f1 f2
  refine ⟨w, ?_, hnd, ?_⟩
  · rw [hw, h1, h2]
    refine congrArg some (Prod.ext rfl (Prod.ext ?_ ?_))
    · simp [peerRows, List.map_map, Function.comp_def]
    · simp only [List.map_map, Function.comp_def]
      rw [← sum_common _ _ (hd r) (hd (!r))]
      congr 1
      apply List.map_congr_left
      intro x hxm
      rw [find_dual2 c hx r x hxm _ (fun y hy => hy), Option.map_map]
      rfl
  · intro i d
    rw [hmem]
    constructor
    · rintro ⟨hi, hf⟩
      have hi' : i < (c.items r).length := by simpa [h1] using hi
      have hself : (s.party r).selfStore[i].1 = dual2 c r (c.items r)[i].1 := by simp [h1]
      rw [hself, h2, find_dual2 c hx r _ (List.getElem_mem hi') _ (fun y hy => hy),
        Option.map_map] at hf
      refine ⟨(c.items r)[i].1, (c.items r)[i].2, by simp [hi'], ?_⟩
      exact (find_unique _ (hd (!r)) _ _).mp hf
    · rintro ⟨x, e, hg, hm⟩
      obtain ⟨hi', he⟩ := List.getElem?_eq_some_iff.mp hg
      refine ⟨by simpa [h1] using hi', ?_⟩
      have hself : (s.party r).selfStore[i]'(by simpa [h1] using hi') =
        (dual2 c r (c.items r)[i].1, 0) := by simp [h1]
      rw [hself, h2, find_dual2 c hx r _ (List.getElem_mem hi') _ (fun y hy => hy), Option.map_map]
      rw [he]
      exact (find_unique _ (hd (!r)) _ _).mpr hm

example : ∃ s, exec (Ex.cfg .all) Ex.sched (init (Ex.cfg .all)) = some s ∧ ∃ w, computeIndices
    ((Cache.fresh 3).writeAll List.length (s.party true).selfStore)
    ((Cache.fresh 3).writeAll List.length (s.party true).peerStore) = some (w, 6, 3) ∧
    ExactIndex [((1 : UInt8), 0), (2, 5), (3, 1)] [(3, 0), (4, 2), (1, 1)] w := by
  obtain ⟨s, h, h1, h2⟩ := Ex.sched_ok
  exact ⟨s, h, C10_exact_intersection (Ex.cfg .all) (Ex.lawful .all) (Ex.crypto .all).apart Ex.sched s h
    true h2 (Or.inl rfl) (by intro r; cases r <;> decide) List.length 3 (by decide)
    (by intro r; cases r <;> decide) (by intro r; cases r <;> decide)⟩

/-- **C10** (in-memory form) The items returned by the in-memory entry point are the own items the
peer also has, in input order. -/
theorem C10_in_memory_result [DecidableEq α] (c : Cfg α P) {L : Nat} (hc : c.Lawful L)
    (hx : Apart c) (sched : List (Task × Bool)) (s : State α)
    (h : exec c sched (init c) = some s) (r : Bool) (fin : (s.party r).finished = true)
    (hres : c.target = .all ∨ c.target = .rank r) :
    memResult ((c.items r).map Prod.fst) (s.party r) =
      some (((c.items r).map Prod.fst).filter (fun x => x ∈ (c.items (!r)).map Prod.fst)) := by
  have ht : c.target.canTouch r = true := by
    rcases hres with h | h <;> simp [h, Target.canTouch]
  obtain ⟨h1, h2⟩ := stores_final c hc sched s h r fin ht
  unfold memResult
  rw [h1, h2]
  have hmem : ∀ x ∈ c.items r, (((c.items (!r)).map (fun x => (dual2 c (!r) x.1, x.2))).map
      Prod.fst).contains (dual2 c r x.1) = decide (x.1 ∈ (c.items (!r)).map Prod.fst) := by
    intro x hxm
    rw [Bool.eq_iff_iff]
    simp only [List.map_map, List.contains_iff_mem, List.mem_map, Function.comp_apply,
      decide_eq_true_eq]
    constructor
    · rintro ⟨y, hy, he⟩
      exact ⟨y, hy, (dual2_apart_iff c hx r y x hy hxm).mp he⟩
    · rintro ⟨y, hy, he⟩
      exact ⟨y, hy, (dual2_apart_iff c hx r y x hy hxm).mpr he⟩
  have key : ∀ (pre l : List (α × Nat)), c.items r = pre ++ l →
      (((l.map (fun x => (dual2 c r x.1, 0))).zipIdx pre.length).filter (fun x =>
        (((c.items (!r)).map (fun x => (dual2 c (!r) x.1, x.2))).map Prod.fst).contains x.1.1)).mapM
        (fun x => ((c.items r).map Prod.fst)[x.2]?) =
      some ((l.map Prod.fst).filter (fun x => x ∈ (c.items (!r)).map Prod.fst)) := by
    intro pre l
    induction l generalizing pre with
    | nil => intro _; rfl
    | cons x l ih =>
      intro he
      have hxm : x ∈ c.items r := by rw [he]; simp
      have ih' := ih (pre ++ [x]) (by simp [he])
      rw [List.length_append, List.length_singleton] at ih'
      rw [List.map_cons, List.zipIdx_cons, List.filter_cons, List.map_cons, List.filter_cons]
      dsimp only
      rw [hmem x hxm]
      by_cases hp : x.1 ∈ (c.items (!r)).map Prod.fst
      · rw [if_pos (by simpa using hp), if_pos (by simpa using hp), List.mapM_cons, ih']
        have : ((c.items r).map Prod.fst)[pre.length]? = some x.1 := by simp [he]
        rw [this]
        rfl
      · rw [if_neg (by simpa using hp), if_neg (by simpa using hp), ih']
  exact key [] (c.items r) rfl

example : ∃ s, exec (Ex.cfg .all) Ex.sched (init (Ex.cfg .all)) = some s ∧
    memResult [(1 : UInt8), 2, 3] (s.party true) = some [1, 3] := by
  obtain ⟨s, h, h1, h2⟩ := Ex.sched_ok
  exact ⟨s, h, C10_in_memory_result (Ex.cfg .all) (Ex.lawful .all) (Ex.crypto .all).apart Ex.sched s h
    true h2 (Or.inl rfl)⟩

/-- **C10** (determinism) Any two complete runs end in the same state, whatever their schedules. -/
theorem C10_schedule_irrelevant (c : Cfg α P) {L : Nat} (hc : c.Lawful L)
    (sched sched' : List (Task × Bool)) (s s' : State α)
    (h : exec c sched (init c) = some s) (h' : exec c sched' (init c) = some s')
    (fin : ∀ r, (s.party r).finished = true) (fin' : ∀ r, (s'.party r).finished = true) :
    s = s' := by
  obtain ⟨n, k, j, hi, -⟩ := good_reach c hc sched s h
  obtain ⟨n', k', j', hi', -⟩ := good_reach c hc sched' s' h'
  apply view_ext
  intro r
  have fr := fin r
  have fr2 := fin (!r)
  have fr' := fin' r
  have fr2' := fin' (!r)
  simp only [Party.finished, Bool.and_eq_true] at fr fr2 fr' fr2'
  obtain ⟨a1, a2, a3, a4⟩ := inv_final c r _ _ _ _ (hi r) fr.1.1 fr2.1.2 fr.2
  obtain ⟨b1, b2, b3, b4⟩ := inv_final c r _ _ _ _ (hi' r) fr'.1.1 fr2'.1.2 fr'.2
  have I := hi r
  have I' := hi' r
  have e1 : (view s r).recvDone = (view s' r).recvDone := by simp [view, fr.2, fr'.2]
  cases ht : c.target.canTouch r
  · obtain ⟨c1, c2, c3, -⟩ := I.no ht
    obtain ⟨d1, d2, d3, -⟩ := I'.no ht
    rcases hv : view s r with ⟨x1, x2, x3, x4, x5, x6, x7, x8, x9, x10, x11⟩
    rcases hv' : view s' r with ⟨y1, y2, y3, y4, y5, y6, y7, y8, y9, y10, y11⟩
    have := I.toSend; have := I.sent; have := I.sendDone; have := I.main; have := I.peerCount
    have := I.peerDone; have := I.peerStore
    have := I'.toSend; have := I'.sent; have := I'.sendDone; have := I'.main
    have := I'.peerCount; have := I'.peerDone; have := I'.peerStore
    simp_all
  · obtain ⟨c0, c1, c2, c3, c4⟩ := I.yes ht
    obtain ⟨d0, d1, d2, d3, d4⟩ := I'.yes ht
    rcases hv : view s r with ⟨x1, x2, x3, x4, x5, x6, x7, x8, x9, x10, x11⟩
    rcases hv' : view s' r with ⟨y1, y2, y3, y4, y5, y6, y7, y8, y9, y10, y11⟩
    have := I.toSend; have := I.sent; have := I.sendDone; have := I.main; have := I.peerCount
    have := I.peerDone; have := I.peerStore
    have := I'.toSend; have := I'.sent; have := I'.sendDone; have := I'.main
    have := I'.peerCount; have := I'.peerDone; have := I'.peerStore
    simp_all

example : ∃ s, exec (Ex.cfg .all) Ex.sched (init (Ex.cfg .all)) = some s ∧ s = s := by
  obtain ⟨s, h, h1, h2⟩ := Ex.sched_ok
  exact ⟨s, h, C10_schedule_irrelevant (Ex.cfg .all) (Ex.lawful .all) _ _ s s h h
    (by intro r; cases r <;> assumption) (by intro r; cases r <;> assumption)⟩

/-- **C11** (no failure) In no reachable state can a task fail: every batch arrives in its turn. -/
theorem C11_no_failure (c : Cfg α P) {L : Nat} (hc : c.Lawful L) (sched : List (Task × Bool))
    (s : State α) (h : exec c sched (init c) = some s) (t : Task) (r : Bool) :
    step c t r s ≠ .failed := by
  intro hf
  have := good_step c hc s _ (good_reach c hc sched s h) t r
  rw [hf] at this
  exact this

/-- **C11** (termination) No execution is longer than three moves per batch, final empty batches
included. -/
theorem C11_terminates (c : Cfg α P) {L : Nat} (hc : c.Lawful L) (sched : List (Task × Bool))
    (s : State α) (h : exec c sched (init c) = some s) :
    sched.length ≤ 3 * ((c.input false).length + 1) + 3 * ((c.input true).length + 1) := by
  obtain ⟨n, k, j, hi, hm⟩ := good_reach c hc sched s h
  have key : ∀ r, n r + k r + j r ≤ 3 * ((c.input r).length + 1) := by
    intro r
    have h1 := (hi r).nN
    have h2 := (hi r).kn
    have hlen : (allBatches c r).length = (c.input r).length + 1 := by simp [allBatches]
    cases ht : c.target.canTouch r
    · have := ((hi r).no ht).2.2.2
      have h3 : (view s r).recvDone.toNat ≤ 1 := Bool.toNat_le _
      omega
    · have := ((hi r).yes ht).1
      omega
  have := key false
  have := key true
  omega

/-- **C11** (progress) As long as some task of some party has not returned, some task can move. -/
theorem C11_never_stuck (c : Cfg α P) {L : Nat} (hc : c.Lawful L) (sched : List (Task × Bool))
    (s : State α) (h : exec c sched (init c) = some s)
    (hnf : ¬ ∀ r, (s.party r).finished = true) : ∃ t r s', step c t r s = .ok s' := by
  obtain ⟨n, k, j, hi, -⟩ := good_reach c hc sched s h
  by_contra hno
  have hself : ∀ r, n r = (allBatches c r).length ∨ k r < n r := by
    intro r
    have h1 := inv_self c hc r s _ _ _ (hi r)
    cases hs : stepSelf c r s with
    | ok s' => exact absurd ⟨.maskSelf, r, s', hs⟩ hno
    | blocked => rw [hs] at h1; exact h1
    | failed => rw [hs] at h1; exact h1.elim
  have hpeer : ∀ r, k r = (allBatches c r).length ∨ k r = n r := by
    intro r
    have h1 := inv_peer c hc r s _ _ _ (hi r)
    cases hs : stepPeer c (!r) s with
    | ok s' => exact absurd ⟨.maskPeer, !r, s', hs⟩ hno
    | blocked => rw [hs] at h1; exact h1
    | failed => rw [hs] at h1; exact h1.elim
  have hrecv : ∀ r, (view s r).recvDone = true ∨ (c.target.canTouch r = true ∧ j r = k r) := by
    intro r
    have h1 := inv_recv c hc r s _ _ _ (hi r)
    cases hs : stepRecv c r s with
    | ok s' => exact absurd ⟨.recvDual, r, s', hs⟩ hno
    | blocked => rw [hs] at h1; exact h1
    | failed => rw [hs] at h1; exact h1.elim
  have hk : ∀ r, k r = (allBatches c r).length ∧ n r = (allBatches c r).length := by
    intro r
    have := hself r; have := hpeer r; have := (hi r).kn; have := (hi r).nN
    omega
  apply hnf
  intro r
  simp only [Party.finished, Bool.and_eq_true]
  refine ⟨⟨?_, ?_⟩, ?_⟩
  · have := (hi r).sendDone
    simp only [view] at this
    rw [this]; simpa using (hk r).2
  · have := (hi (!r)).peerDone
    simp only [view, Bool.not_not] at this
    rw [this]; simpa using (hk (!r)).1
  · rcases hrecv r with h1 | ⟨ht, h1⟩
    · exact h1
    · have := ((hi r).yes ht).2.2.2.1
      simp only [view] at this
      rw [this]; simpa [h1] using (hk r).1

/-- **C11** (drained) When all tasks have returned, all four channels are empty. -/
theorem C11_drained (c : Cfg α P) {L : Nat} (hc : c.Lawful L) (sched : List (Task × Bool))
    (s : State α) (h : exec c sched (init c) = some s) (fin : ∀ r, (s.party r).finished = true)
    (r : Bool) : s.main r = [] ∧ s.dual r = [] := by
  obtain ⟨n, k, j, hi, -⟩ := good_reach c hc sched s h
  have fr := fin r
  have fr2 := fin (!r)
  simp only [Party.finished, Bool.and_eq_true] at fr fr2
  constructor
  · obtain ⟨a1, a2, -, -⟩ := inv_final c (!r) _ _ _ _ (hi (!r)) fr2.1.1
      (by simpa [view] using fr.1.2) fr2.2
    have := (hi (!r)).main
    simp only [view, Bool.not_not] at this
    rw [this, a1, a2, List.drop_eq_nil_of_le (by simp)]
  · obtain ⟨a1, a2, a3, -⟩ := inv_final c r _ _ _ _ (hi r) fr.1.1 fr2.1.2 fr.2
    cases ht : c.target.canTouch r
    · exact ((hi r).no ht).1
    · have := ((hi r).yes ht).2.1
      simp only [view] at this
      rw [this, a2, a3 ht, List.drop_eq_nil_of_le (by simp)]

example : ∃ s, exec (Ex.cfg (.rank true)) [(.maskSelf, true), (.recvDual, false)]
      (init (Ex.cfg (.rank true))) = some s ∧
    (∀ t r, step (Ex.cfg (.rank true)) t r s ≠ .failed) ∧
    ∃ t r s', step (Ex.cfg (.rank true)) t r s = .ok s' :=
  ⟨_, rfl, C11_no_failure _ (Ex.lawful _) [(.maskSelf, true), (.recvDual, false)] _ rfl, C11_never_stuck _ (Ex.lawful _)
    [(.maskSelf, true), (.recvDual, false)] _ rfl (fun h => absurd (h true) (by decide))⟩

example : ∃ s, exec (Ex.cfg .all) Ex.sched (init (Ex.cfg .all)) = some s ∧
    Ex.sched.length ≤ 21 ∧ ∀ r, s.main r = [] ∧ s.dual r = [] := by
  obtain ⟨s, h, h1, h2⟩ := Ex.sched_ok
  exact ⟨s, h, C11_terminates _ (Ex.lawful .all) _ s h, C11_drained _ (Ex.lawful .all) _ s h
    (by intro r; cases r <;> assumption)⟩

/-- **C12** If party `r` is not a target of the result, then in every reachable state: no dual-masked
message is ever on its way to `r`, both of its stores are empty, and no message on its way to `r`
carries duplicate counts. -/
theorem C12_no_result_for_others (c : Cfg α P) {L : Nat} (hc : c.Lawful L)
    (sched : List (Task × Bool)) (s : State α) (h : exec c sched (init c) = some s) (r : Bool)
    (hres : c.target = .rank (!r)) :
    s.dual r = [] ∧ (s.party r).selfStore = [] ∧ (s.party r).peerStore = [] ∧
      ∀ m ∈ s.main r, m.dup = [] := by
  have hr : c.target.canTouch r = false := by simp [hres, Target.canTouch]
  obtain ⟨n, k, j, hi, -⟩ := good_reach c hc sched s h
  obtain ⟨h1, h2, h3, -⟩ := (hi r).no hr
  refine ⟨h1, h3, ?_, ?_⟩
  · have := (hi (!r)).peerStore
    simpa [view, hr] using this
  · intro m hm
    have := (hi (!r)).main
    simp only [view, Bool.not_not] at this
    rw [this] at hm
    have hm := List.mem_of_mem_take (List.mem_of_mem_drop hm)
    simp only [selfMsgs, List.mem_map] at hm
    obtain ⟨b, _, rfl⟩ := hm
    simp [selfMsg, hr, encode]

example : ∃ s, exec (Ex.cfg (.rank true)) [(.maskSelf, true), (.maskSelf, false), (.maskPeer, false),
      (.maskSelf, true)] (init (Ex.cfg (.rank true))) = some s ∧ s.main false ≠ [] ∧
    s.dual true ≠ [] ∧ s.dual false = [] ∧ (s.party false).peerStore = [] := by
  refine ⟨_, rfl, by decide, by decide, ?_⟩
  have := C12_no_result_for_others (Ex.cfg (.rank true)) (Ex.lawful _)
    [(.maskSelf, true), (.maskSelf, false), (.maskPeer, false), (.maskSelf, true)] _ rfl false rfl
  exact ⟨this.1, this.2.2.1⟩

/-- **C13** A batch of equally long items is received as sent, with its duplicate counts (an empty
batch carries none). -/
theorem C13_batch_round_trip (items : List Bytes) (dup : List (Nat × Nat)) (idx L : Nat)
    (hn : items.length < 2 ^ 32) (hl : ∀ x ∈ items, x.length = L) :
    decode idx (encode items dup idx) = some (items, if items = [] then [] else dup) := by
  rw [decode_encode L items dup idx idx hn hl rfl]
  cases items <;> simp

example := C13_batch_round_trip [[1, 2], [0, 0], [1, 2]] [(1, 7)] 5 2 (by decide) (by decide)

/-- **C13** The duplicate count the receiver uses for item `i` is the one the sender's batch had. -/
theorem C13_counts_survive (b : List (α × Nat)) (f : α → Bytes) (idx L : Nat)
    (hn : b.length < 2 ^ 32) (hl : ∀ x, (f x).length = L) :
    ∃ items dup, decode idx (encode (b.map (fun x => f x.1)) (dupMap b) idx) = some (items, dup) ∧
      items.zipIdx.map (fun x => (x.1, dupAt dup x.2)) = b.map (fun x => (f x.1, x.2)) := by
  refine ⟨_, _, C13_batch_round_trip _ _ idx L (by simpa using hn) (by
    intro x hx; obtain ⟨y, _, rfl⟩ := List.mem_map.mp hx; exact hl _), ?_⟩
  apply List.ext_getElem
  · simp
  · intro i h1 h2
    have hi : i < b.length := by simpa using h2
    have hne : ¬ b.map (fun x => f x.1) = [] := by
      intro h; rw [List.map_eq_nil_iff] at h; simp [h] at hi
    simp only [List.getElem_map, List.getElem_zipIdx, Nat.zero_add, if_neg hne]
    rw [dupMap_lookup b i hi]

example := C13_counts_survive [((3 : UInt8), 0), (4, 2)] (fun x => [x, x]) 1 2 (by decide)
  (fun _ => rfl)

/-- **C13** A batch received out of turn is rejected (fewer than 2^32 batches). -/
theorem C13_out_of_turn_rejected (items : List Bytes) (dup : List (Nat × Nat)) (i j : Nat)
    (hi : i < 2 ^ 32) (hj : j < 2 ^ 32) (hij : i ≠ j) : decode j (encode items dup i) = none :=
  decode_wrong items dup i j (by rwa [Nat.mod_eq_of_lt hi, Nat.mod_eq_of_lt hj])

example := C13_out_of_turn_rejected [[1]] [] 3 4 (by decide) (by decide) (by decide)

end Psi.Ecdh
