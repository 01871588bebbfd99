import Verif.EndToEnd.Lemmas
import Verif.Ecdh.Props

/-!
# End to end: from two tables through ECDH-PSI to the two output files (C36)
-/

namespace Psi.EndToEnd
open Psi.Join Psi.Join.Spec Psi.Spec Psi.Ecdh
open Psi.Bucket (Cache computeIndices)

variable {RA RB K P : Type} [LinearOrder K]

/-- The index lines a party computes at the end of an ECDH-PSI run. -/
def ecdhIndex (hash : List Char → Nat) (n : Nat) (p : Party K) : Option (List (Nat × Nat)) :=
  (computeIndices ((Cache.fresh n).writeAll hash p.selfStore)
    ((Cache.fresh n).writeAll hash p.peerStore)).map Prod.fst

/-- **C36** Two tables, ECDH-PSI with the result for both parties under any schedule, any batch sizes and
any number of buckets, followed by the join: both index computations and both joins succeed, and the two
outputs are row-exact for the join type and fit line by line. -/
theorem C36_ecdh_join_end_to_end [DecidableEq RA] [DecidableEq RB]
    {eA : K} {keyA : RA → K} {A : List RA} {kbsA rbsA} (hA : Input eA keyA A kbsA rbsA)
    {eB : K} {keyB : RB → K} {B : List RB} {kbsB rbsB} (hB : Input eB keyB B kbsB rbsB)
    (hlA : A.length ≤ 2 ^ 32) (hlB : B.length ≤ 2 ^ 32)
    (c : Cfg K P) {L : Nat} (hc : c.Lawful L) (hx : Apart c) (htarget : c.target = .all)
    (inA : (c.input false).flatten = records eA kbsA)
    (inB : (c.input true).flatten = records eB kbsB)
    (sched : List (Task × Bool)) (s : State K) (hs : exec c sched (init c) = some s)
    (fin : ∀ r, (s.party r).finished = true) (hash : List Char → Nat) (n : Nat) (hn : 0 < n)
    (t : JoinType) (aIsLeft : Bool) (headerA : RA) (headerB : RB) :
    ∃ idxA idxB resA resB,
      ecdhIndex hash n (s.party false) = some idxA ∧ ecdhIndex hash n (s.party true) = some idxB ∧
      finalizeStat t aIsLeft headerA (sortTable (fun a b => decide (a ≤ b)) keyA A) rbsA idxA
        = .ok resA ∧
      finalizeStat t (!aIsLeft) headerB (sortTable (fun a b => decide (a ≤ b)) keyB B) rbsB idxB
        = .ok resB ∧
      let outA := finalizeOut true t aIsLeft resA resB.1.original
      let outB := finalizeOut true t (!aIsLeft) resB resA.1.original
      (∀ r, outA.count (.own r) = rowMultiplicity t aIsLeft keyA A keyB B r) ∧
      (∀ r, outB.count (.own r) = rowMultiplicity t (!aIsLeft) keyB B keyA A r) ∧
      List.Forall₂ (Fits keyA A keyB B) outA outB := by
  have iA : c.items false = records eA kbsA := inA
  have iB : c.items true = records eB kbsB := inB
  have hd : ∀ r, ((c.items r).map Prod.fst).Nodup := by
    intro r; cases r
    · rw [iA, records_fst]; exact hA.nodup_keys
    · rw [iB, records_fst]; exact hB.nodup_keys
  have bA := records_bounds hA hlA
  have bB := records_bounds hB hlB
  have hl : ∀ r, (c.items r).length ≤ 2 ^ 64 := by
    intro r; cases r
    · rw [iA]; exact bA.1
    · rw [iB]; exact bB.1
  have hdup : ∀ r, ∀ x ∈ c.items r, x.2 < 2 ^ 32 := by
    intro r; cases r
    · rw [iA]; exact bA.2
    · rw [iB]; exact bB.2
  obtain ⟨wA, h1, h2⟩ := C10_exact_intersection c hc hx sched s hs false (fin false)
    (Or.inl htarget) hd hash n hn hl hdup
  obtain ⟨wB, h3, h4⟩ := C10_exact_intersection c hc hx sched s hs true (fin true)
    (Or.inl htarget) hd hash n hn hl hdup
  simp only [Bool.not_false, Bool.not_true, iA, iB] at h2 h4
  obtain ⟨resA, resB, r1, r2, r3, r4, -, -, r5⟩ := C03_joins_exact_and_aligned hA hB t aIsLeft
    headerA headerB wA wB (lawful_of_exact hA hB wA h2) (lawful_of_exact hB hA wB h4)
  exact ⟨wA, wB, resA, resB, by simp [ecdhIndex, h1], by simp [ecdhIndex, h3], r1, r2, r3, r4, r5⟩

/-- **C36** (one receiver) The same with the result for one party only and an inner join: the receiver's
output has every own row as often as the peer has rows with its key. -/
theorem C36_ecdh_one_receiver [DecidableEq RA]
    {eA : K} {keyA : RA → K} {A : List RA} {kbsA rbsA} (hA : Input eA keyA A kbsA rbsA)
    {eB : K} {keyB : RB → K} {B : List RB} {kbsB rbsB} (hB : Input eB keyB B kbsB rbsB)
    (hlA : A.length ≤ 2 ^ 32) (hlB : B.length ≤ 2 ^ 32)
    (c : Cfg K P) {L : Nat} (hc : c.Lawful L) (hx : Apart c) (me : Bool)
    (htarget : c.target = .rank me)
    (inA : (c.input me).flatten = records eA kbsA)
    (inB : (c.input (!me)).flatten = records eB kbsB)
    (sched : List (Task × Bool)) (s : State K) (hs : exec c sched (init c) = some s)
    (fin : (s.party me).finished = true) (hash : List Char → Nat) (n : Nat) (hn : 0 < n)
    (isLeft : Bool) (header : RA) :
    ∃ idx res, ecdhIndex hash n (s.party me) = some idx ∧
      finalizeStat .inner isLeft header (sortTable (fun a b => decide (a ≤ b)) keyA A) rbsA idx
        = .ok res ∧
      ∀ broadcast peerOriginal,
        (∀ r, (finalizeOut broadcast .inner isLeft res peerOriginal).count (.own r)
          = A.count r * B.countP fun b => keyB b = keyA r) ∧
        .na ∉ finalizeOut broadcast .inner isLeft res peerOriginal := by
  have iA : c.items me = records eA kbsA := inA
  have iB : c.items (!me) = records eB kbsB := inB
  have cov : ∀ r, r = me ∨ r = !me := by intro r; cases r <;> cases me <;> simp
  have hd : ∀ r, ((c.items r).map Prod.fst).Nodup := by
    intro r; rcases cov r with rfl | rfl
    · rw [iA, records_fst]; exact hA.nodup_keys
    · rw [iB, records_fst]; exact hB.nodup_keys
  have bA := records_bounds hA hlA
  have bB := records_bounds hB hlB
  have hl : ∀ r, (c.items r).length ≤ 2 ^ 64 := by
    intro r; rcases cov r with rfl | rfl
    · rw [iA]; exact bA.1
    · rw [iB]; exact bB.1
  have hdup : ∀ r, ∀ x ∈ c.items r, x.2 < 2 ^ 32 := by
    intro r; rcases cov r with rfl | rfl
    · rw [iA]; exact bA.2
    · rw [iB]; exact bB.2
  obtain ⟨w, h1, h2⟩ := C10_exact_intersection c hc hx sched s hs me fin
    (Or.inr htarget) hd hash n hn hl hdup
  rw [iA, iB] at h2
  obtain ⟨res, r1, r2⟩ := C01_inner_join_exact hA isLeft header keyB B w (lawful_of_exact hA hB w h2)
  exact ⟨w, res, by simp [ecdhIndex, h1], r1, r2⟩

namespace Ex
open Psi.Join.Ex

/-- Instance: the tables of the join examples, points are natural numbers below 256 in two bytes. -/
def cfg (t : Target) : Cfg Nat UInt8 :=
  { hash := fun x => UInt8.ofNat x
    mask := fun r p => p + (if r then 7 else 9)
    ser := fun p => [4, p]
    deser := fun b => b.getD 1 0
    dualSize := 1
    target := t
    window := none
    input := fun r => if r then [[(3, 2), (7, 0)], [(9, 0)]] else [[(1, 0), (3, 1), (7, 0)]] }

theorem lawful (t : Target) : (cfg t).Lawful 2 where
  serLen := fun _ => rfl
  round := fun _ => rfl
  dualLe := by simp [cfg]
  window := by intro w h; simp [cfg] at h
  nonempty := by intro r; cases r <;> simp [cfg]
  small := by intro r; cases r <;> simp [cfg]

theorem crypto (t : Target) : Crypto (cfg t) where
  comm := by intro p; show p + 7 + 9 = p + 9 + 7; rw [UInt8.add_assoc, UInt8.add_assoc]; rfl
  inj := by
    have h : ∀ r r', ∀ x ∈ ((cfg .all).input r).flatten, ∀ y ∈ ((cfg .all).input r').flatten,
        cipher (cfg .all) ((cfg .all).mask false ((cfg .all).mask true ((cfg .all).hash x.1)))
          = cipher (cfg .all) ((cfg .all).mask false ((cfg .all).mask true ((cfg .all).hash y.1))) →
        x.1 = y.1 := by
      intro r r'; cases r <;> cases r' <;> decide
    exact h

def sched : List (Task × Bool) :=
  [(.maskSelf, true), (.maskSelf, true), (.maskSelf, false), (.maskPeer, false), (.maskPeer, true),
   (.maskSelf, true), (.maskPeer, false), (.maskPeer, false), (.recvDual, true), (.maskSelf, false),
   (.recvDual, true), (.recvDual, true), (.maskPeer, true), (.recvDual, false), (.recvDual, false)]

theorem sched_ok : ∃ s, exec (cfg .all) sched (init (cfg .all)) = some s ∧
    ∀ r, (s.party r).finished = true :=
  ⟨_, rfl, by intro r; cases r <;> rfl⟩

end Ex

example : ∃ s, exec (Ex.cfg .all) Ex.sched (init (Ex.cfg .all)) = some s ∧ True := by
  obtain ⟨s, hs, fin⟩ := Ex.sched_ok
  have := C36_ecdh_join_end_to_end Psi.Join.Ex.inputA Psi.Join.Ex.inputB (by decide) (by decide)
    (Ex.cfg .all) (Ex.lawful _) (Ex.crypto _).apart rfl (by decide) (by decide) Ex.sched s hs fin
    List.length 64 (by decide) .full true (0, 0) (0, 0)
  exact ⟨s, hs, trivial⟩

example (s) (hs : exec (Ex.cfg (.rank false)) (Ex.sched.filter (fun x => x.1 ≠ .recvDual || !x.2))
    (init (Ex.cfg (.rank false))) = some s) (fin : (s.party false).finished = true) :=
  C36_ecdh_one_receiver Psi.Join.Ex.inputA Psi.Join.Ex.inputB (by decide) (by decide)
    (Ex.cfg (.rank false)) (Ex.lawful _) (Ex.crypto _).apart false rfl (by decide) (by decide) _ s hs fin
    List.length 64 (by decide) true (0, 0)

example : ∃ s, exec (Ex.cfg (.rank false)) (Ex.sched.filter (fun x => x.1 ≠ .recvDual || !x.2))
    (init (Ex.cfg (.rank false))) = some s ∧ (s.party false).finished = true := ⟨_, rfl, rfl⟩

end Psi.EndToEnd
