import Verif.Launch.Lemmas
import Verif.Run.Props

/-!
# C49, C50: the programming interface asks for what its caller asked for; ranks from a cluster definition
-/

namespace Psi.Launch

open Psi.Run

/-- A request one party may make of the two-party protocols. -/
structure Sensible (e : Exec) : Prop where
  protocol : e.protocol = .ecdh ∨ e.protocol = .kkrt ∨ e.protocol = .rr22
  curve : e.protocol = .ecdh → e.curve ≠ .invalid
  input : e.inputType = .csv
  output : e.outputType = .csv
  keys : e.keys ≠ [] ∧ e.keys.Nodup

/-- Everything two requests have to agree on; who receives and who is left is told by rank. -/
structure Match (a b : Exec) : Prop where
  protocol : a.protocol = b.protocol
  broadcast : a.broadcast = b.broadcast
  curve : a.curve = b.curve
  batchSize : a.batchSize = b.batchSize
  bucketSize : a.bucketSize = b.bucketSize
  lowComm : a.lowComm = b.lowComm
  joinType : a.joinType = b.joinType
  nullRep : a.nullRep = b.nullRep
  checkpoint : a.checkpoint = b.checkpoint

/-- Rank 0 takes itself for the receiver exactly if rank 1 does not. -/
def OneReceiver (a b : Exec) : Prop := a.receiverRank = 0 ↔ b.receiverRank ≠ 1

/-- Both have the same opinion whether the receiver is the left side. -/
def SameLeft (a b : Exec) : Prop := a.leftRank = a.receiverRank ↔ b.leftRank = b.receiverRank

theorem toV2_some {e : Exec} {rank : Nat} (h : e.protocol = .ecdh ∨ e.protocol = .kkrt ∨ e.protocol = .rr22) :
    ∃ p c, v2Protocol e.protocol = some p ∧ toV2 e rank = some c := by
  rcases h with h | h | h <;> (unfold toV2; rw [h]; exact ⟨_, _, rfl, rfl⟩)

/-- **C49** A request is carried over as it was made: protocol, parameters, files, keys, join; the party is the
receiver exactly if its rank is the one named; it gets the result exactly if it is or the result is for both; and the
left side is the party whose rank was named. -/
theorem C49_request_carried_over (e : Exec) (rank : Nat) (c : PsiConfig) (h : toV2 e rank = some c) :
    (c.protocol.protocol = .ecdh ↔ e.protocol = .ecdh) ∧ (c.protocol.protocol = .kkrt ↔ e.protocol = .kkrt) ∧
      (c.protocol.protocol = .rr22 ↔ e.protocol = .rr22) ∧
      (c.protocol.role = .receiver ↔ e.receiverRank = rank) ∧ (c.protocol.role = .sender ↔ e.receiverRank ≠ rank) ∧
      (entitled c = true ↔ e.receiverRank = rank ∨ e.broadcast = true) ∧
      (rank < 2 → e.receiverRank < 2 → e.leftRank < 2 → (c.leftSide = c.protocol.role ↔ e.leftRank = rank)) ∧
      c.inputConfig = some ⟨e.inputType, e.inputPath⟩ ∧ c.outputConfig = some ⟨e.outputType, e.outputPath⟩ ∧
      c.keys = e.keys ∧ c.joinType = e.joinType ∧ c.outputAttr = some e.nullRep ∧ c.inputAttr = some e.keysUnique ∧
      c.recovery = some ⟨e.checkpoint, e.checkpointPath⟩ ∧ c.disableAlignment = e.disableAlignment ∧
      c.protocol.ecdh = some ⟨e.curve, e.batchSize⟩ ∧ c.protocol.kkrt = some ⟨e.bucketSize⟩ ∧
      c.protocol.rr22 = some ⟨e.bucketSize, e.lowComm⟩ ∧ c.checkDigest = true ∧ c.threshold = 0 := by
  unfold toV2 at h
  rw [Option.map_eq_some_iff] at h
  obtain ⟨p, hp, rfl⟩ := h
  have hpr : (p = .ecdh ↔ e.protocol = .ecdh) ∧ (p = .kkrt ↔ e.protocol = .kkrt) ∧ (p = .rr22 ↔ e.protocol = .rr22) := by
    cases hq : e.protocol <;> rw [hq] at hp <;> simp [v2Protocol] at hp <;> subst hp <;> simp
  refine ⟨hpr.1, hpr.2.1, hpr.2.2, ?_, ?_, ?_, ?_, rfl, rfl, rfl, rfl, rfl, rfl, rfl, rfl, rfl, rfl, rfl, rfl, rfl⟩
  · show (if e.receiverRank = rank then Role.receiver else .sender) = .receiver ↔ _
    split <;> simp_all
  · show (if e.receiverRank = rank then Role.receiver else .sender) = .sender ↔ _
    split <;> simp_all
  · show (decide ((if e.receiverRank = rank then Role.receiver else .sender) = .receiver) || e.broadcast) = true ↔ _
    split <;> simp_all
  · intro h1 h2 h3
    show (if e.leftRank = e.receiverRank then Role.receiver else .sender) =
      (if e.receiverRank = rank then Role.receiver else .sender) ↔ _
    by_cases ha : e.leftRank = e.receiverRank
    · rw [if_pos ha]
      by_cases hb : e.receiverRank = rank
      · rw [if_pos hb]; exact ⟨fun _ => ha.trans hb, fun _ => rfl⟩
      · rw [if_neg hb]
        refine ⟨fun h => (by cases h), fun h => absurd (ha.symm.trans h) hb⟩
    · rw [if_neg ha]
      by_cases hb : e.receiverRank = rank
      · rw [if_pos hb]
        refine ⟨fun h => (by cases h), fun h => absurd (h.trans hb.symm) ha⟩
      · rw [if_neg hb]
        exact ⟨fun _ => by omega, fun _ => rfl⟩

/-- **C49** The configurations made from two requests fit together exactly if both requests are sensible, agree, name
one receiver and one left side. -/
theorem C49_fit_exactly (a b : Exec) (c d : PsiConfig) (hc : toV2 a 0 = some c) (hd : toV2 b 1 = some d) :
    Fit c d ↔ Sensible a ∧ Sensible b ∧ Match a b ∧ OneReceiver a b ∧ SameLeft a b := by
  have vp : ∀ (e : Exec) (p : Protocol), v2Protocol e.protocol = some p →
      (e.protocol = .ecdh ∧ p = .ecdh) ∨ (e.protocol = .kkrt ∧ p = .kkrt) ∨ (e.protocol = .rr22 ∧ p = .rr22) := by
    intro e p hp
    cases hq : e.protocol <;> rw [hq] at hp <;> simp [v2Protocol] at hp <;> subst hp <;> simp
  unfold toV2 at hc hd
  rw [Option.map_eq_some_iff] at hc hd
  obtain ⟨p, hp, rfl⟩ := hc
  obtain ⟨q, hq, rfl⟩ := hd
  have hp' := vp a p hp
  have hq' := vp b q hq
  have hpe : p = .ecdh ↔ a.protocol = .ecdh := by rcases hp' with ⟨h, rfl⟩ | ⟨h, rfl⟩ | ⟨h, rfl⟩ <;> simp [h]
  have hqe : q = .ecdh ↔ b.protocol = .ecdh := by rcases hq' with ⟨h, rfl⟩ | ⟨h, rfl⟩ | ⟨h, rfl⟩ <;> simp [h]
  have hpq : p = q ↔ a.protocol = b.protocol := by
    rcases hp' with ⟨h, rfl⟩ | ⟨h, rfl⟩ | ⟨h, rfl⟩ <;> rcases hq' with ⟨h', rfl⟩ | ⟨h', rfl⟩ | ⟨h', rfl⟩ <;> simp [h, h']
  have side : ∀ P Q : Prop, [Decidable P] → [Decidable Q] →
      ((if P then Role.receiver else .sender) = (if Q then Role.receiver else .sender) ↔ (P ↔ Q)) := by
    intro P Q _ _
    by_cases hP : P <;> by_cases hQ : Q <;> simp [hP, hQ]
  constructor
  · rintro ⟨vl, vr, ag, ro⟩
    refine ⟨⟨?_, ?_, ?_, ?_, vl.keys⟩, ⟨?_, ?_, ?_, ?_, vr.keys⟩, ⟨hpq.mp ag.protocol, ag.broadcast, ?_, ?_, ?_, ?_,
      ag.joinType, ?_, ag.recovery⟩, ?_, ?_⟩
    · rcases hp' with ⟨h, _⟩ | ⟨h, _⟩ | ⟨h, _⟩ <;> simp [h]
    · intro h
      obtain ⟨x, hx, hx'⟩ := vl.curve (hpe.mpr h)
      cases hx; exact hx'
    · obtain ⟨i, hi, hi'⟩ := vl.input; cases hi; exact hi'
    · obtain ⟨i, hi, hi'⟩ := vl.output; cases hi; exact hi'
    · rcases hq' with ⟨h, _⟩ | ⟨h, _⟩ | ⟨h, _⟩ <;> simp [h]
    · intro h
      obtain ⟨x, hx, hx'⟩ := vr.curve (hqe.mpr h)
      cases hx; exact hx'
    · obtain ⟨i, hi, hi'⟩ := vr.input; cases hi; exact hi'
    · obtain ⟨i, hi, hi'⟩ := vr.output; cases hi; exact hi'
    · have := ag.ecdh; injection this with this; injection this
    · have := ag.ecdh; injection this with this; injection this
    · have := ag.kkrt; injection this with this; injection this
    · have := ag.rr22; injection this with this; injection this
    · have := ag.nullRep; injection this
    · rcases ro with ⟨h1, h2⟩ | ⟨h1, h2⟩
      · have h1 : (if a.receiverRank = 0 then Role.receiver else .sender) = .receiver := h1
        have h2 : (if b.receiverRank = 1 then Role.receiver else .sender) = .sender := h2
        have h3 : a.receiverRank = 0 := by by_contra h; rw [if_neg h] at h1; cases h1
        have h4 : b.receiverRank ≠ 1 := by intro h; rw [if_pos h] at h2; cases h2
        exact ⟨fun _ => h4, fun _ => h3⟩
      · have h1 : (if a.receiverRank = 0 then Role.receiver else .sender) = .sender := h1
        have h2 : (if b.receiverRank = 1 then Role.receiver else .sender) = .receiver := h2
        have h3 : a.receiverRank ≠ 0 := by intro h; rw [if_pos h] at h1; cases h1
        have h4 : b.receiverRank = 1 := by by_contra h; rw [if_neg h] at h2; cases h2
        exact ⟨fun h => absurd h h3, fun h => absurd h4 h⟩
    · exact (side _ _).mp ag.leftSide
  · rintro ⟨sl, sr, ma, one, sm⟩
    refine ⟨⟨?_, ?_, ?_, ⟨_, rfl, sl.input⟩, ⟨_, rfl, sl.output⟩, sl.keys, ?_⟩,
      ⟨?_, ?_, ?_, ⟨_, rfl, sr.input⟩, ⟨_, rfl, sr.output⟩, sr.keys, ?_⟩,
      ⟨hpq.mpr ma.protocol, ma.broadcast, ?_, ?_, ?_, ma.checkpoint, ma.joinType, (side _ _).mpr sm, ?_, ?_, rfl⟩, ?_⟩
    · show p ≠ .unspecified
      rcases hp' with ⟨_, rfl⟩ | ⟨_, rfl⟩ | ⟨_, rfl⟩ <;> decide
    · show (if a.receiverRank = 0 then Role.receiver else .sender) = .receiver ∨ _
      by_cases h : a.receiverRank = 0
      · exact .inl (if_pos h)
      · exact .inr (if_neg h)
    · intro h
      exact ⟨_, rfl, sl.curve (hpe.mp h)⟩
    · refine .inr (.inr ?_)
      show (if a.leftRank = a.receiverRank then Role.receiver else .sender) ≠ .unspecified
      split <;> decide
    · show q ≠ .unspecified
      rcases hq' with ⟨_, rfl⟩ | ⟨_, rfl⟩ | ⟨_, rfl⟩ <;> decide
    · show (if b.receiverRank = 1 then Role.receiver else .sender) = .receiver ∨ _
      by_cases h : b.receiverRank = 1
      · exact .inl (if_pos h)
      · exact .inr (if_neg h)
    · intro h
      exact ⟨_, rfl, sr.curve (hqe.mp h)⟩
    · refine .inr (.inr ?_)
      show (if b.leftRank = b.receiverRank then Role.receiver else .sender) ≠ .unspecified
      split <;> decide
    · show some (EcdhConfig.mk a.curve a.batchSize) = some (EcdhConfig.mk b.curve b.batchSize)
      rw [ma.curve, ma.batchSize]
    · show some (KkrtConfig.mk a.bucketSize) = some (KkrtConfig.mk b.bucketSize)
      rw [ma.bucketSize]
    · show some (Rr22Config.mk a.bucketSize a.lowComm) = some (Rr22Config.mk b.bucketSize b.lowComm)
      rw [ma.bucketSize, ma.lowComm]
    · rfl
    · show some a.nullRep = some b.nullRep
      rw [ma.nullRep]
    · unfold OneReceiver at one
      by_cases h : a.receiverRank = 0
      · exact .inl ⟨if_pos h, if_neg (one.mp h)⟩
      · exact .inr ⟨if_neg h, if_pos (by by_contra h'; exact h (one.mpr h'))⟩

/-- **C49** Two callers with the same idea of protocol, receiver (one of the two ranks), join and parameters, each with
its own files and keys: with steps that go well both runs end well, exactly the parties entitled report a result, and
each takes itself for the left side exactly if its rank was named.  If the requests do not go together, both calls end
with an error and nothing is written. -/
theorem C49_both_parties {w : Wire} (hw : w.Lawful) (H : List Char → Bytes) (a b : Exec) (c d : PsiConfig)
    (hc : toV2 a 0 = some c) (hd : toV2 b 1 = some d) (l0 l1 : Local)
    (h0 : ∀ skip, StepsGood skip c l0 (rowsOf l1)) (h1 : ∀ skip, StepsGood skip d l1 (rowsOf l0)) :
    (Sensible a → Sensible b → Match a b → a.receiverRank = b.receiverRank → a.receiverRank < 2 →
      a.leftRank = b.leftRank → a.leftRank < 2 →
      (session w H c d l0 l1).1.result = .ok (decide (a.receiverRank = 0) || a.broadcast) ∧
      (session w H c d l0 l1).2.result = .ok (decide (a.receiverRank = 1) || a.broadcast) ∧
      (c.leftSide = c.protocol.role ↔ a.leftRank = 0) ∧ (d.leftSide = d.protocol.role ↔ a.leftRank = 1)) ∧
    (¬ (Sensible a ∧ Sensible b ∧ Match a b ∧ OneReceiver a b ∧ SameLeft a b) →
      (∃ e, (session w H c d l0 l1).1.result = .error e) ∧ (∃ e, (session w H c d l0 l1).2.result = .error e) ∧
      OnlyInit (session w H c d l0 l1).1 ∧ OnlyInit (session w H c d l0 l1).2) := by
  have hA := C49_request_carried_over a 0 c hc
  have hB := C49_request_carried_over b 1 d hd
  constructor
  · intro sa sb m hr hr2 hl hl2
    have one : OneReceiver a b := by unfold OneReceiver; omega
    have same : SameLeft a b := by unfold SameLeft; omega
    have hf := (C49_fit_exactly a b c d hc hd).mpr ⟨sa, sb, m, one, same⟩
    obtain ⟨s0, s1⟩ := C34_fits_exactly hw H c d l0 l1 h0 h1
    obtain ⟨x, hx⟩ := s0.mpr hf
    obtain ⟨y, hy⟩ := s1.mpr hf
    obtain ⟨k0, hk0⟩ := (h0 false).keys
    obtain ⟨k1, hk1⟩ := (h1 false).keys
    obtain ⟨_, _, v0, v1⟩ := C35_both_or_neither hw H c d l0 l1 (Psi.Digest.shortcut H (checks c) k0 k1) (by
      intro u v hu hv
      rw [hk0] at hu; rw [hk1] at hv
      cases hu; cases hv; rfl)
    refine ⟨?_, ?_, hA.2.2.2.2.2.2.1 (by decide) hr2 hl2, ?_⟩
    · rw [hx, v0 x hx]
      congr 1
      rw [Bool.eq_iff_iff, hA.2.2.2.2.2.1]
      simp
    · rw [hy, v1 y hy]
      congr 1
      rw [Bool.eq_iff_iff, hB.2.2.2.2.2.1, ← hr, ← m.broadcast]
      simp
    · rw [hl]
      exact hB.2.2.2.2.2.2.1 (by decide) (hr ▸ hr2) (hl ▸ hl2)
  · intro hn
    exact C34_misfits_stop hw H c d l0 l1 (fun hf => hn ((C49_fit_exactly a b c d hc hd).mp hf))

/-- **C49** Which implementation is started: none without a protocol, the older one for three and more parties and
for DP-PSI, otherwise the two-party one; the exceptions of the maps never occur. -/
theorem C49_dispatch (e : Exec) (rank : Nat) :
    (e.protocol = .unspecified → execute e rank = .exception) ∧
    (e.protocol = .ecdh ∨ e.protocol = .kkrt ∨ e.protocol = .rr22 →
      ∃ c, toV2 e rank = some c ∧ execute e rank = .v2 c) ∧
    (e.protocol = .ecdh3pc ∨ e.protocol = .ecdhNpc ∨ e.protocol = .kkrtNpc ∨ e.protocol = .dp →
      ∃ c, execute e rank = .legacy c ∧ (c.type = .ecdh3pc ↔ e.protocol = .ecdh3pc) ∧
        (c.type = .ecdhNpc ↔ e.protocol = .ecdhNpc) ∧ (c.type = .kkrtNpc ↔ e.protocol = .kkrtNpc) ∧
        (c.type = .dp ↔ e.protocol = .dp) ∧ c.receiverRank = e.receiverRank ∧ c.broadcast = e.broadcast ∧
        c.inputPath = e.inputPath ∧ c.outputPath = e.outputPath ∧ c.fields = e.keys ∧
        (c.precheck = true ↔ e.keysUnique = false) ∧ (c.needSort = true ↔ e.disableAlignment = false) ∧
        c.curve = e.curve ∧ c.bucketSize = e.bucketSize) := by
  refine ⟨fun h => by simp [execute, h], ?_, ?_⟩
  · intro h
    rcases h with h | h | h <;> simp [execute, toV2, v2Protocol, h]
  · intro h
    rcases h with h | h | h | h <;> simp [execute, toLegacy, legacyType, h]

/-- **C49** Unbalanced PSI: server and client at different ranks, both below 2, with the same rank named as left, get
the same left side, and it is the party of that rank. -/
theorem C49_unbalanced_left (e f : UbExec) (r : Nat) (c d : UbConfig) (hr : r < 2) (he : e.role = .server)
    (hf : f.role = .client) (hc : toUb e r = some c) (hd : toUb f (1 - r) = some d) (hl : e.leftRank = f.leftRank)
    (hl2 : e.leftRank < 2) :
    c.role = .server ∧ d.role = .client ∧ c.leftSide = d.leftSide ∧ (c.leftSide = c.role ↔ e.leftRank = r) ∧
      (d.leftSide = d.role ↔ e.leftRank = 1 - r) ∧ c.mode = e.mode ∧ d.mode = f.mode ∧ c.serverGets = e.serverGets ∧
      c.clientGets = e.clientGets ∧ d.serverGets = f.serverGets ∧ d.clientGets = f.clientGets ∧
      c.joinType = e.joinType ∧ d.joinType = f.joinType := by
  unfold toUb at hc hd
  rw [he] at hc
  rw [hf] at hd
  simp only [reduceCtorEq, if_false, Option.some.injEq, if_true] at hc hd
  subst hc; subst hd
  simp only [true_and, and_true]
  by_cases h : e.leftRank = r
  · have h1 : f.leftRank ≠ 1 - r := by omega
    have h2 : e.leftRank ≠ 1 - r := by omega
    simp [h, h1]
    omega
  · have h1 : f.leftRank = 1 - r := by omega
    have h2 : e.leftRank = 1 - r := by omega
    simp [h1, h2]
    omega

/-- **C49** Limit: with a left rank that neither party has, server and client go on with different left sides, each
taking the other for it, whatever else is in the configuration.  (Nothing compares the two.) -/
theorem C49_unbalanced_left_out_of_range (e f : UbExec) (r : Nat) (he : e.role = .server) (hf : f.role = .client)
    (hr : r < 2) (h2 : 2 ≤ e.leftRank) (h2' : 2 ≤ f.leftRank) :
    ∃ c d, toUb e r = some c ∧ toUb f (1 - r) = some d ∧ c.leftSide = .client ∧ d.leftSide = .server := by
  have h : e.leftRank ≠ r := by omega
  have h' : f.leftRank ≠ 1 - r := by omega
  unfold toUb
  rw [he, hf]
  simp only [reduceCtorEq, if_false, if_true, if_neg h, if_pos h']
  exact ⟨_, _, rfl, rfl, rfl, rfl⟩

/-! ### C50 -/

/-- **C50** Ranks from a cluster definition: parties with different names, each with its own copy of the definition,
possibly in another order, all see the same names at the same ranks; every party gets a rank, no two the same; at its
rank the others see its endpoint, and it itself listens on its port. -/
theorem C50_ranks_agree (ps qs : List Party) (hperm : ps.Perm qs) (hn : (ps.map Party.name).Nodup) (i j port port' : Nat)
    (p q : Party) (hi : ps[i]? = some p) (hj : qs[j]? = some q) :
    ∃ k l r s, fromKuscia ps i port [] = some k ∧ fromKuscia qs j port' [] = some l ∧
      k.parties.map Prod.fst = l.parties.map Prod.fst ∧ k.parties.length = ps.length ∧
      rankOf k = some r ∧ rankOf l = some s ∧ r < ps.length ∧ (r = s ↔ p = q) ∧
      k.parties[r]? = some (p.name, "0.0.0.0:" ++ toString port) ∧
      (p ≠ q → l.parties[r]? = some (p.name, "http://" ++ p.endpoint)) := by
  have hn' : (qs.map Party.name).Nodup := (hperm.map _).nodup_iff.mp hn
  have hinj : ∀ a ∈ ps, ∀ b ∈ ps, a.name = b.name → a = b := by
    intro a ha b hb hab
    exact List.inj_on_of_nodup_map hn ha hb hab
  obtain ⟨o1, m1⟩ := hostMap_spec i port ps 0 [] List.Pairwise.nil hn (fun _ _ => by simp)
  obtain ⟨o2, m2⟩ := hostMap_spec j port' qs 0 [] List.Pairwise.nil hn' (fun _ _ => by simp)
  simp only [List.not_mem_nil, false_or, Nat.zero_add] at m1 m2
  have keys1 : ∀ x, x ∈ (hostMap i port 0 ps []).map Prod.fst ↔ x ∈ ps.map Party.name := by
    intro x
    rw [List.mem_map, List.mem_map]
    constructor
    · rintro ⟨y, hy, rfl⟩
      obtain ⟨t, a, ha, rfl⟩ := (m1 y).mp hy
      exact ⟨a, List.mem_of_getElem? ha, rfl⟩
    · rintro ⟨a, ha, rfl⟩
      obtain ⟨t, ht⟩ := List.getElem?_of_mem ha
      exact ⟨(a.name, hostOf i t port a), (m1 _).mpr ⟨t, a, ht, rfl⟩, rfl⟩
  have keys2 : ∀ x, x ∈ (hostMap j port' 0 qs []).map Prod.fst ↔ x ∈ qs.map Party.name := by
    intro x
    rw [List.mem_map, List.mem_map]
    constructor
    · rintro ⟨y, hy, rfl⟩
      obtain ⟨t, a, ha, rfl⟩ := (m2 y).mp hy
      exact ⟨a, List.mem_of_getElem? ha, rfl⟩
    · rintro ⟨a, ha, rfl⟩
      obtain ⟨t, ht⟩ := List.getElem?_of_mem ha
      exact ⟨(a.name, hostOf j t port' a), (m2 _).mpr ⟨t, a, ht, rfl⟩, rfl⟩
  have hkeys := o1.keys_eq o2 (fun x => by rw [keys1, keys2]; exact (hperm.map _).mem_iff)
  have hlen : (hostMap i port 0 ps []).length = ps.length := by
    have hp : ((hostMap i port 0 ps []).map Prod.fst).Perm (ps.map Party.name) :=
      (List.perm_ext_iff_of_nodup o1.nodup hn).mpr keys1
    simpa using hp.length_eq
  have hip : (p.name, "0.0.0.0:" ++ toString port) ∈ hostMap i port 0 ps [] :=
    (m1 _).mpr ⟨i, p, hi, by simp [hostOf]⟩
  have hjq : (q.name, "0.0.0.0:" ++ toString port') ∈ hostMap j port' 0 qs [] :=
    (m2 _).mpr ⟨j, q, hj, by simp [hostOf]⟩
  obtain ⟨r, hr⟩ := List.getElem?_of_mem hip
  obtain ⟨s, hs⟩ := List.getElem?_of_mem hjq
  have hrl : r < (hostMap i port 0 ps []).length := (List.getElem?_eq_some_iff.mp hr).1
  have hsl : s < (hostMap j port' 0 qs []).length := (List.getElem?_eq_some_iff.mp hs).1
  have hrk : ((hostMap i port 0 ps []).map Prod.fst)[r]? = some p.name := by rw [List.getElem?_map, hr]; rfl
  have hsk : ((hostMap i port 0 ps []).map Prod.fst)[s]? = some q.name := by
    rw [hkeys, List.getElem?_map, hs]; rfl
  have hpq : r = s ↔ p = q := by
    constructor
    · intro h
      subst h
      rw [hrk] at hsk
      exact hinj p (List.mem_of_getElem? hi) q (hperm.mem_iff.mpr (List.mem_of_getElem? hj)) (Option.some.inj hsk)
    · intro h
      subst h
      exact (List.getElem?_inj (by simpa using hrl) o1.nodup).mp (hrk.trans hsk.symm)
  refine ⟨⟨hostMap i port 0 ps [], p.name⟩, ⟨hostMap j port' 0 qs [], q.name⟩, r, s, ?_, ?_, hkeys, hlen, ?_, ?_,
    hlen ▸ hrl, hpq, hr, ?_⟩
  · simp [fromKuscia, hi]
  · simp [fromKuscia, hj]
  · have := rankLoop_eq p.name _ _ 0 r none o1.nodup hr
    rw [Nat.zero_add] at this
    exact this
  · have := rankLoop_eq q.name _ _ 0 s none o2.nodup hs
    rw [Nat.zero_add] at this
    exact this
  · intro hne
    obtain ⟨t, ht⟩ := List.getElem?_of_mem (hperm.mem_iff.mp (List.mem_of_getElem? hi))
    have htj : t ≠ j := by
      rintro rfl
      rw [ht] at hj
      exact hne (Option.some.inj hj)
    have hmem : (p.name, "http://" ++ p.endpoint) ∈ hostMap j port' 0 qs [] :=
      (m2 _).mpr ⟨t, p, ht, by simp [hostOf, htj]⟩
    obtain ⟨u, hu⟩ := List.getElem?_of_mem hmem
    have huk : ((hostMap i port 0 ps []).map Prod.fst)[u]? = some p.name := by
      rw [hkeys, List.getElem?_map, hu]; rfl
    have hur : r = u := (List.getElem?_inj (by simpa using hrl) o1.nodup).mp (hrk.trans huk.symm)
    exact hur ▸ hu

/-- **C50** Limit: two parties with one name become one; the link of a two-party task then has a single party, and
both run with rank 0. -/
theorem C50_same_name (n a b : String) (port : Nat) :
    (fromKuscia [⟨n, a⟩, ⟨n, b⟩] 0 port []).map (fun k => (k.parties.length, rankOf k)) = some (1, some 0) ∧
    (fromKuscia [⟨n, a⟩, ⟨n, b⟩] 1 port []).map (fun k => (k.parties.length, rankOf k)) = some (1, some 0) := by
  simp [fromKuscia, hostMap, mapSet, rankOf, rankLoop]

/-! ### Instances -/

namespace Ex

def alice : Exec :=
  { protocol := .rr22, receiverRank := 1, lowComm := true, inputPath := "a.csv", outputPath := "a.out", keys := ["id"]
    joinType := .left, leftRank := 0, checkpoint := true, checkpointPath := "a.dir" }

def bob : Exec :=
  { protocol := .rr22, receiverRank := 1, lowComm := true, inputPath := "b.csv", outputPath := "b.out", keys := ["uid"]
    joinType := .left, leftRank := 0, checkpoint := true, checkpointPath := "b.dir", disableAlignment := true }

/-- Bob naming themselves the left side. -/
def bobLeft : Exec := { bob with leftRank := 1 }

theorem sensible : Sensible alice ∧ Sensible bob ∧ Match alice bob ∧ OneReceiver alice bob ∧ SameLeft alice bob := by
  refine ⟨⟨.inr (.inr rfl), by decide, rfl, rfl, by decide⟩, ⟨.inr (.inr rfl), by decide, rfl, rfl, by decide⟩,
    ⟨rfl, rfl, rfl, rfl, rfl, rfl, rfl, rfl, rfl⟩, ?_, ?_⟩
  · unfold OneReceiver; decide
  · unfold SameLeft; decide

theorem clash : ¬ (Sensible alice ∧ Sensible bobLeft ∧ Match alice bobLeft ∧ OneReceiver alice bobLeft ∧
    SameLeft alice bobLeft) := by
  rintro ⟨_, _, _, _, h⟩
  unfold SameLeft at h
  revert h
  decide

/-- Steps that go well. -/
theorem plain (c : PsiConfig) (n : Nat) : ∀ skip, StepsGood skip c {} n :=
  fun _ => ⟨⟨_, rfl⟩, ⟨_, rfl⟩, fun _ => ⟨_, rfl⟩, fun _ => ⟨_, rfl⟩, fun _ => ⟨_, rfl⟩, fun _ => ⟨_, rfl⟩,
    ⟨_, rfl⟩, ⟨_, rfl⟩, fun _ => ⟨_, rfl, _, rfl⟩⟩

def server : UbExec := { mode := .full, role := .server, clientGets := true, joinType := .left, leftRank := 1 }
def client : UbExec := { mode := .full, role := .client, clientGets := true, joinType := .left, leftRank := 1 }

def cluster : List Party := [⟨"zoe", "z:80"⟩, ⟨"amy", "a:81"⟩]

end Ex

example := C49_request_carried_over Ex.alice 0 _ rfl

example := (C49_fit_exactly Ex.alice Ex.bob _ _ rfl rfl).mpr Ex.sensible

example := (C49_both_parties Run.Ex.wire_lawful Run.Ex.digest32 Ex.alice Ex.bob _ _ rfl rfl {} {}
  (Ex.plain _ _) (Ex.plain _ _)).1
  Ex.sensible.1 Ex.sensible.2.1 Ex.sensible.2.2.1 rfl (by decide) rfl (by decide)

example := (C49_both_parties Run.Ex.wire_lawful Run.Ex.digest32 Ex.alice Ex.bobLeft _ _ rfl rfl {} {}
  (Ex.plain _ _) (Ex.plain _ _)).2 Ex.clash

example := (C49_dispatch { Ex.alice with protocol := .dp } 0).2.2 (by decide)

example := C49_unbalanced_left Ex.server Ex.client 0 _ _ (by decide) rfl rfl rfl rfl rfl (by decide)

example := C49_unbalanced_left_out_of_range { Ex.server with leftRank := 2 } { Ex.client with leftRank := 2 } 0 rfl rfl
  (by decide) (by decide) (by decide)

example := C50_ranks_agree Ex.cluster Ex.cluster.reverse (List.reverse_perm _).symm (by decide) 0 0 80 81 _ _ rfl rfl

end Psi.Launch
