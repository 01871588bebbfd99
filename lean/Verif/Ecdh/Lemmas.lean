import Verif.Ecdh.Model
import Verif.Ecdh.WireLemmas

/-!
# ECDH-PSI: invariant

The two directions (items of `false` travelling to `true` and back, and vice versa) share no state; the
`View` of a direction collects its components, and the invariant says that a view is a function of three
counters.
-/

namespace Psi.Ecdh
variable {α P : Type}

/-- Laws of the parameters used by the proofs: see `Props.lean` for the reading. -/
structure Cfg.Lawful (c : Cfg α P) (L : Nat) : Prop where
  serLen : ∀ p, (c.ser p).length = L
  round : ∀ p, c.deser (c.ser p) = p
  dualLe : c.dualSize ≤ L
  window : ∀ w, c.window = some w → 0 < w
  nonempty : ∀ r, ∀ b ∈ c.input r, b ≠ []
  small : ∀ r, ∀ b ∈ c.input r, b.length < 2 ^ 32

/-- The doubly masked comparison value of an item of party `r`. -/
def dual2 (c : Cfg α P) (r : Bool) (x : α) : Bytes := cipher c (c.mask (!r) (c.mask r (c.hash x)))

structure View (α : Type) where
  toSend : List (List (α × Nat))
  sent : Nat
  sendDone : Bool
  main : List Msg
  peerCount : Nat
  peerDone : Bool
  peerStore : List (Bytes × Nat)
  dual : List Msg
  recvCount : Nat
  recvDone : Bool
  selfStore : List (Bytes × Nat)

def view (s : State α) (r : Bool) : View α :=
  { toSend := (s.party r).toSend
    sent := (s.party r).sent
    sendDone := (s.party r).sendDone
    main := s.main (!r)
    peerCount := (s.party (!r)).peerCount
    peerDone := (s.party (!r)).peerDone
    peerStore := (s.party (!r)).peerStore
    dual := s.dual r
    recvCount := (s.party r).recvCount
    recvDone := (s.party r).recvDone
    selfStore := (s.party r).selfStore }

/-- All batches party `r` sends, the terminating empty one included. -/
def allBatches (c : Cfg α P) (r : Bool) : List (List (α × Nat)) := c.input r ++ [[]]

def selfMsgs (c : Cfg α P) (r : Bool) : List Msg :=
  (allBatches c r).zipIdx.map (fun x => selfMsg c r x.1 x.2)

def dualMsgs (c : Cfg α P) (r : Bool) : List Msg :=
  (allBatches c r).zipIdx.map (fun x => encode (x.1.map (fun y => dual2 c r y.1)) [] x.2)

/-- The view of direction `r` after `n` sends, `k` second maskings and `j` moves of the receiver. -/
structure Inv (c : Cfg α P) (r : Bool) (v : View α) (n k j : Nat) : Prop where
  kn : k ≤ n
  nN : n ≤ (allBatches c r).length
  toSend : v.toSend = (c.input r).drop n
  sent : v.sent = n
  sendDone : v.sendDone = decide (n = (allBatches c r).length)
  main : v.main = ((selfMsgs c r).take n).drop k
  peerCount : v.peerCount = k
  peerDone : v.peerDone = decide (k = (allBatches c r).length)
  peerStore : v.peerStore = if c.target.canTouch (!r) then
    ((allBatches c r).take k).flatten.map (fun x => (dual2 c r x.1, x.2)) else []
  yes : c.target.canTouch r = true → j ≤ k ∧ v.dual = ((dualMsgs c r).take k).drop j ∧
    v.recvCount = j ∧ v.recvDone = decide (j = (allBatches c r).length) ∧
    v.selfStore = ((allBatches c r).take j).flatten.map (fun x => (dual2 c r x.1, 0))
  no : c.target.canTouch r = false → v.dual = [] ∧ v.recvCount = 0 ∧ v.selfStore = [] ∧
    j = v.recvDone.toNat

theorem inv_init (c : Cfg α P) (r : Bool) : Inv c r (view (init c) r) 0 0 0 := by
  constructor <;> simp [view, init, allBatches, selfMsgs, dualMsgs]

theorem allBatches_get (c : Cfg α P) (r : Bool) (n : Nat) (h : n < (allBatches c r).length) :
    (allBatches c r)[n] = ((c.input r).drop n).headD [] := by
  simp only [allBatches, List.length_append, List.length_singleton] at h
  by_cases hn : n < (c.input r).length
  · simp only [allBatches]
    rw [List.getElem_append_left hn, List.drop_eq_getElem_cons hn]
    rfl
  · simp only [allBatches]
    rw [List.getElem_append_right (by omega), List.drop_eq_nil_of_le (by omega)]
    simp

theorem allBatches_empty_iff (c : Cfg α P) {L : Nat} (hc : c.Lawful L) (r : Bool) (n : Nat)
    (h : n < (allBatches c r).length) :
    (allBatches c r)[n].isEmpty = decide (n + 1 = (allBatches c r).length) := by
  have h' := h
  simp only [allBatches, List.length_append, List.length_singleton] at h'
  by_cases hn : n < (c.input r).length
  · have h1 : (allBatches c r)[n] = (c.input r)[n] := by
      simp only [allBatches]
      rw [List.getElem_append_left hn]
    have h2 := hc.nonempty r (c.input r)[n] (List.getElem_mem hn)
    have h3 : (c.input r)[n].isEmpty = false := by simpa using h2
    have h4 : ¬ (n + 1 = (allBatches c r).length) := by simp [allBatches]; omega
    rw [h1, h3, decide_eq_false h4]
  · have h1 : (allBatches c r)[n] = [] := by
      simp only [allBatches]
      rw [List.getElem_append_right (by omega)]
      simp
    have h4 : n + 1 = (allBatches c r).length := by simp [allBatches]; omega
    rw [h1, decide_eq_true h4]
    rfl

theorem allBatches_small (c : Cfg α P) {L : Nat} (hc : c.Lawful L) (r : Bool) (n : Nat)
    (h : n < (allBatches c r).length) : (allBatches c r)[n].length < 2 ^ 32 := by
  have := List.getElem_mem h
  simp only [allBatches, List.mem_append, List.mem_singleton] at this
  rcases this with h | h
  · exact hc.small r _ h
  · simp only [allBatches]; rw [h]; simp

theorem selfMsgs_length (c : Cfg α P) (r : Bool) :
    (selfMsgs c r).length = (allBatches c r).length := by simp [selfMsgs]

theorem dualMsgs_length (c : Cfg α P) (r : Bool) :
    (dualMsgs c r).length = (allBatches c r).length := by simp [dualMsgs]

theorem take_succ_drop {β : Type} (l : List β) (n k : Nat) (hk : k ≤ n) (hn : n < l.length) :
    (l.take (n + 1)).drop k = (l.take n).drop k ++ [l[n]] := by
  rw [List.take_succ_eq_append_getElem hn, List.drop_append_of_le_length (by simp; omega)]

theorem take_drop_cons {β : Type} (l : List β) (n k : Nat) (hk : k < n) (hn : n ≤ l.length) :
    (l.take n).drop k = l[k] :: (l.take n).drop (k + 1) := by
  rw [List.drop_eq_getElem_cons (by simp; omega), List.getElem_take]

theorem take_flatten_succ {β γ : Type} (l : List (List β)) (k : Nat) (hk : k < l.length)
    (f : β → γ) :
    (l.take (k + 1)).flatten.map f = (l.take k).flatten.map f ++ l[k].map f := by
  rw [List.take_succ_eq_append_getElem hk, List.flatten_append, List.map_append]
  simp

theorem dupMap_lookup (b : List (α × Nat)) (i : Nat) (h : i < b.length) :
    dupAt (dupMap b) i = b[i].2 := by
  have key : ∀ (b : List (α × Nat)) (s i : Nat),
      ((b.zipIdx s).filterMap (fun x => if 0 < x.1.2 then some (x.2, x.1.2) else none)).lookup i =
        if h : s ≤ i ∧ i - s < b.length then
          (if 0 < (b[i - s]'h.2).2 then some (b[i - s]'h.2).2 else none) else none := by
    intro b
    induction b with
    | nil => intro s i; simp
    | cons x b ih =>
      intro s i
      rw [List.zipIdx_cons, List.filterMap_cons]
      by_cases hx : 0 < x.2
      · simp only [hx, if_true, List.lookup_cons]
        by_cases hi : i = s
        · subst hi; simp [hx]
        · have : (i == s) = false := by simpa using hi
          rw [this, ih]
          by_cases hs : s + 1 ≤ i ∧ i - (s + 1) < b.length
          · have h2 : s ≤ i ∧ i - s < (x :: b).length := by simp; omega
            rw [dif_pos hs, dif_pos h2]
            have : i - s = (i - (s + 1)) + 1 := by omega
            simp [this]
          · have h2 : ¬ (s ≤ i ∧ i - s < (x :: b).length) := by simp; omega
            rw [dif_neg hs, dif_neg h2]
      · simp only [hx, if_false]
        rw [ih]
        by_cases hi : i = s
        · subst hi
          rw [dif_neg (by omega)]
          simp [hx]
        · by_cases hs : s + 1 ≤ i ∧ i - (s + 1) < b.length
          · have h2 : s ≤ i ∧ i - s < (x :: b).length := by simp; omega
            rw [dif_pos hs, dif_pos h2]
            have : i - s = (i - (s + 1)) + 1 := by omega
            simp [this]
          · have h2 : ¬ (s ≤ i ∧ i - s < (x :: b).length) := by simp; omega
            rw [dif_neg hs, dif_neg h2]
  unfold dupAt dupMap
  rw [key b 0 i, dif_pos ⟨Nat.zero_le _, by simpa using h⟩]
  simp only [Nat.sub_zero]
  split
  · rfl
  · simp; omega

/-! ### Steps on views -/

theorem view_self_other (c : Cfg α P) (r : Bool) (s s' : State α) (h : stepSelf c r s = .ok s') :
    view s' (!r) = view s (!r) := by
  unfold stepSelf at h
  dsimp only at h
  split at h
  · cases h
  · injection h with h; subst h
    cases r <;> simp [view, upd]

theorem view_peer_other (c : Cfg α P) (r : Bool) (s s' : State α) (h : stepPeer c r s = .ok s') :
    view s' r = view s r := by
  unfold stepPeer at h
  dsimp only at h
  split at h
  · cases h
  · split at h
    · cases h
    · split at h
      · cases h
      · injection h with h; subst h
        cases r <;> simp [view, upd] <;> split <;> simp [upd]

theorem view_recv_other (c : Cfg α P) (r : Bool) (s s' : State α) (h : stepRecv c r s = .ok s') :
    view s' (!r) = view s (!r) := by
  unfold stepRecv at h
  dsimp only at h
  split at h
  · cases h
  · split at h
    · injection h with h; subst h
      cases r <;> simp [view, upd]
    · split at h
      · cases h
      · split at h
        · cases h
        · injection h with h; subst h
          cases r <;> simp [view, upd]

theorem inv_self (c : Cfg α P) {L : Nat} (hc : c.Lawful L) (r : Bool) (s : State α) (n k j : Nat)
    (h : Inv c r (view s r) n k j) :
    match stepSelf c r s with
    | .ok s' => Inv c r (view s' r) (n + 1) k j ∧ n < (allBatches c r).length
    | .blocked => n = (allBatches c r).length ∨ k < n
    | .failed => False := by
  have hs := h.sent
  have hd := h.sendDone
  have ht := h.toSend
  have hm := h.main
  simp only [view] at hs hd ht hm
  by_cases hb : ((s.party r).sendDone || c.window.any (fun w => w ≤ (s.main (!r)).length)) = true
  · simp only [stepSelf, hb, if_true]
    rw [Bool.or_eq_true] at hb
    rcases hb with hb | hb
    · left
      rw [hd] at hb
      simpa using hb
    · right
      cases hw : c.window with
      | none => simp [hw] at hb
      | some w =>
        have := hc.window w hw
        simp only [hw, Option.any_some, decide_eq_true_eq, hm, List.length_drop, List.length_take] at hb
        omega
  · simp only [stepSelf, hb]
    have hn : n < (allBatches c r).length := by
      rcases Nat.lt_or_ge n (allBatches c r).length with h1 | h1
      · exact h1
      · have : n = (allBatches c r).length := Nat.le_antisymm h.nN h1
        simp [hd, this] at hb
    refine ⟨?_, hn⟩
    have hb' : (s.party r).toSend.headD [] = (allBatches c r)[n] := by
      rw [allBatches_get c r n hn, ht]
    have hl : n < (selfMsgs c r).length := by rw [selfMsgs_length]; exact hn
    constructor
    · exact Nat.le_succ_of_le h.kn
    · exact hn
    · simp only [view, upd, if_true, ht, List.tail_drop]
    · simp [view, upd, hs]
    · simp only [view, upd, if_true, hb', allBatches_empty_iff c hc r n hn]
    · rw [take_succ_drop _ n k h.kn hl]
      simp only [view, upd, if_true, hm, hb', hs]
      simp [selfMsgs]
    · simpa [view, upd] using h.peerCount
    · simpa [view, upd] using h.peerDone
    · simpa [view, upd] using h.peerStore
    · simpa [view, upd] using h.yes
    · simpa [view, upd] using h.no

theorem encode_decode_self (c : Cfg α P) {L : Nat} (hc : c.Lawful L) (r : Bool) (k : Nat)
    (h : k < (allBatches c r).length) :
    decode k (selfMsg c r (allBatches c r)[k] k) =
      some ((allBatches c r)[k].map (fun x => c.ser (c.mask r (c.hash x.1))),
        if (allBatches c r)[k].isEmpty then [] else
          if c.target.canTouch (!r) then dupMap (allBatches c r)[k] else []) := by
  unfold selfMsg
  rw [decode_encode L _ _ k k (by simpa using allBatches_small c hc r k h) _ rfl]
  · simp
  · intro x hx
    obtain ⟨y, _, rfl⟩ := List.mem_map.mp hx
    exact hc.serLen _

theorem inv_peer (c : Cfg α P) {L : Nat} (hc : c.Lawful L) (r : Bool) (s : State α) (n k j : Nat)
    (h : Inv c r (view s r) n k j) :
    match stepPeer c (!r) s with
    | .ok s' => Inv c r (view s' r) n (k + 1) j ∧ k < n
    | .blocked => k = (allBatches c r).length ∨ k = n
    | .failed => False := by
  have hs := h.peerCount
  have hd := h.peerDone
  have hm := h.main
  have hst := h.peerStore
  simp only [view] at hs hd hst hm
  by_cases hb : (s.party (!r)).peerDone = true
  · simp only [stepPeer, hb, if_true]
    left
    rw [hd] at hb
    simpa using hb
  · have hkN : k ≠ (allBatches c r).length := by
      intro he; simp [hd, he] at hb
    rcases Nat.lt_or_ge k n with hkn | hkn
    · have hk : k < (allBatches c r).length := Nat.lt_of_lt_of_le hkn h.nN
      have hl : k < (selfMsgs c r).length := by rw [selfMsgs_length]; exact hk
      rw [take_drop_cons _ n k hkn (by rw [selfMsgs_length]; exact h.nN)] at hm
      have hget : (selfMsgs c r)[k] = selfMsg c r (allBatches c r)[k] k := by simp [selfMsgs]
      rw [hget] at hm
      simp only [stepPeer, hb, hm, hs, encode_decode_self c hc r k hk]
      refine ⟨?_, hkn⟩
      have hcip : (allBatches c r)[k].map (fun x => cipher c (c.mask (!r) (c.deser
          (c.ser (c.mask r (c.hash x.1)))))) = (allBatches c r)[k].map (fun x => dual2 c r x.1) := by
        simp only [hc.round, dual2]
      constructor
      · exact hkn
      · exact h.nN
      · simpa [view, upd] using h.toSend
      · simpa [view, upd] using h.sent
      · simpa [view, upd] using h.sendDone
      · simp only [view, upd, if_true]
      · simp [view, upd]
      · simp only [view, upd, if_true, List.isEmpty_map, allBatches_empty_iff c hc r k hk]
      · simp only [view, upd, if_true, hst]
        by_cases ht : c.target.canTouch (!r) = true
        · simp only [ht, if_true]
          rw [take_flatten_succ _ k hk, List.map_map]
          congr 1
          simp only [Function.comp_def, hc.round]
          apply List.ext_getElem
          · simp
          · intro i h1 h2
            simp only [List.getElem_map, List.getElem_zipIdx, Nat.zero_add]
            have hi : i < (allBatches c r)[k].length := by simpa using h2
            have hne : (allBatches c r)[k].isEmpty = false := by
              cases hx : (allBatches c r)[k] with
              | nil => simp [hx] at hi
              | cons => rfl
            simp [hne, dual2, dupMap_lookup _ i hi]
        · simp [ht]
      · intro ht
        obtain ⟨h1, h2, h3, h4, h5⟩ := h.yes ht
        simp only [view] at h2 h3 h4 h5
        have hl : k < (dualMsgs c r).length := by rw [dualMsgs_length]; exact hk
        refine ⟨Nat.le_succ_of_le h1, ?_, ?_, ?_, ?_⟩
        · rw [take_succ_drop _ k j h1 hl]
          simp only [view, upd, Bool.not_not, ht, if_true, h2, List.map_map, Function.comp_def, hcip]
          simp [dualMsgs]
        · simpa [view, upd] using h3
        · simpa [view, upd] using h4
        · simpa [view, upd] using h5
      · intro ht
        have := h.no ht
        simp only [view, upd] at this ⊢
        simpa [ht] using this
    · have : k = n := Nat.le_antisymm h.kn hkn
      have hm' : s.main (!r) = [] := by
        rw [hm, List.drop_eq_nil_of_le (by simp; omega)]
      simp only [stepPeer, hb, hm']
      right; exact this

theorem inv_recv (c : Cfg α P) {L : Nat} (hc : c.Lawful L) (r : Bool) (s : State α) (n k j : Nat)
    (h : Inv c r (view s r) n k j) :
    match stepRecv c r s with
    | .ok s' => Inv c r (view s' r) n k (j + 1)
    | .blocked => (view s r).recvDone = true ∨ (c.target.canTouch r = true ∧ j = k)
    | .failed => False := by
  by_cases hb : (s.party r).recvDone = true
  · simp only [stepRecv, hb, if_true]
    left; exact hb
  · by_cases ht : c.target.canTouch r = true
    · obtain ⟨h1, h2, h3, h4, h5⟩ := h.yes ht
      simp only [view] at h2 h3 h4 h5
      have hkN : j ≠ (allBatches c r).length := by
        intro he; simp [h4, he] at hb
      rcases Nat.lt_or_ge j k with hjk | hjk
      · have hj : j < (allBatches c r).length := Nat.lt_of_lt_of_le hjk (Nat.le_trans h.kn h.nN)
        rw [take_drop_cons _ k j hjk (by rw [dualMsgs_length]; exact Nat.le_trans h.kn h.nN)] at h2
        have hget : (dualMsgs c r)[j]'(by rw [dualMsgs_length]; exact hj) =
            encode ((allBatches c r)[j].map (fun y => dual2 c r y.1)) [] j := by simp [dualMsgs]
        rw [hget] at h2
        have hdec : decode j (encode ((allBatches c r)[j].map (fun y => dual2 c r y.1)) [] j) =
            some ((allBatches c r)[j].map (fun y => dual2 c r y.1), []) := by
          rw [decode_encode c.dualSize _ _ j j (by simpa using allBatches_small c hc r j hj) _ rfl]
          · simp
          · intro x hx
            obtain ⟨y, _, rfl⟩ := List.mem_map.mp hx
            have := hc.dualLe
            simp only [dual2, cipher, List.length_drop, hc.serLen]
            omega
        simp only [stepRecv, hb, ht, h2, h3, hdec]
        constructor
        · exact h.kn
        · exact h.nN
        · simpa [view, upd] using h.toSend
        · simpa [view, upd] using h.sent
        · simpa [view, upd] using h.sendDone
        · simpa [view, upd] using h.main
        · simpa [view, upd] using h.peerCount
        · simpa [view, upd] using h.peerDone
        · simpa [view, upd] using h.peerStore
        · intro _
          refine ⟨hjk, ?_, ?_, ?_, ?_⟩
          · simp [view, upd]
          · simp [view, upd]
          · simp only [view, upd, if_true, List.isEmpty_map, allBatches_empty_iff c hc r j hj]
          · simp only [view, upd, if_true, h5]
            rw [take_flatten_succ _ j hj, List.map_map]
            rfl
        · intro hf; simp [ht] at hf
      · have : j = k := Nat.le_antisymm h1 hjk
        have hm' : s.dual r = [] := by
          rw [h2, List.drop_eq_nil_of_le (by simp; omega)]
        simp only [stepRecv, hb, ht, hm']
        right; exact ⟨trivial, this⟩
    · have ht : c.target.canTouch r = false := by simpa using ht
      simp only [stepRecv, hb, ht]
      obtain ⟨h1, h2, h3, h4⟩ := h.no ht
      simp only [view] at h1 h2 h3 h4
      constructor
      · exact h.kn
      · exact h.nN
      · simpa [view, upd] using h.toSend
      · simpa [view, upd] using h.sent
      · simpa [view, upd] using h.sendDone
      · simpa [view, upd] using h.main
      · simpa [view, upd] using h.peerCount
      · simpa [view, upd] using h.peerDone
      · simpa [view, upd] using h.peerStore
      · intro hf; simp [ht] at hf
      · intro _
        simp [view, upd, h1, h2, h3, h4, hb]

/-- Invariant of the whole system. -/
def Good (c : Cfg α P) (s : State α) (m : Nat) : Prop :=
  ∃ n k j : Bool → Nat, (∀ r, Inv c r (view s r) (n r) (k r) (j r)) ∧
    m = (n false + k false + j false) + (n true + k true + j true)

theorem good_step (c : Cfg α P) {L : Nat} (hc : c.Lawful L) (s : State α) (m : Nat) (h : Good c s m)
    (t : Task) (r : Bool) :
    match step c t r s with
    | .ok s' => Good c s' (m + 1)
    | .blocked => True
    | .failed => False := by
  obtain ⟨n, k, j, hi, hm⟩ := h
  cases t with
  | maskSelf =>
    have h1 := inv_self c hc r s _ _ _ (hi r)
    simp only [step]
    cases hs : stepSelf c r s with
    | ok s' =>
      rw [hs] at h1
      have h2 := view_self_other c r s s' hs
      refine ⟨upd n r (n r + 1), k, j, ?_, ?_⟩
      · intro r'
        by_cases hr : r' = r
        · subst hr; simpa [upd] using h1.1
        · have : r' = !r := by cases r <;> cases r' <;> simp_all
          subst this
          simpa [upd, h2] using hi (!r)
      · cases r <;> simp [upd] <;> omega
    | blocked => trivial
    | failed => rw [hs] at h1; exact h1
  | maskPeer =>
    have h1 := inv_peer c hc (!r) s _ _ _ (hi (!r))
    rw [Bool.not_not] at h1
    simp only [step]
    cases hs : stepPeer c r s with
    | ok s' =>
      rw [hs] at h1
      have h2 := view_peer_other c r s s' hs
      refine ⟨n, upd k (!r) (k (!r) + 1), j, ?_, ?_⟩
      · intro r'
        by_cases hr : r' = r
        · subst hr
          have : upd k (!r') (k (!r') + 1) r' = k r' := by simp [upd]
          rw [this, h2]; exact hi r'
        · have : r' = !r := by cases r <;> cases r' <;> simp_all
          subst this
          simpa [upd] using h1.1
      · cases r <;> simp [upd] <;> omega
    | blocked => trivial
    | failed => rw [hs] at h1; exact h1
  | recvDual =>
    have h1 := inv_recv c hc r s _ _ _ (hi r)
    simp only [step]
    cases hs : stepRecv c r s with
    | ok s' =>
      rw [hs] at h1
      have h2 := view_recv_other c r s s' hs
      refine ⟨n, k, upd j r (j r + 1), ?_, ?_⟩
      · intro r'
        by_cases hr : r' = r
        · subst hr; simpa [upd] using h1
        · have : r' = !r := by cases r <;> cases r' <;> simp_all
          subst this
          simpa [upd, h2] using hi (!r)
      · cases r <;> simp [upd] <;> omega
    | blocked => trivial
    | failed => rw [hs] at h1; exact h1

theorem good_exec (c : Cfg α P) {L : Nat} (hc : c.Lawful L) (sched : List (Task × Bool)) :
    ∀ (s s' : State α) (m : Nat), Good c s m → exec c sched s = some s' →
      Good c s' (m + sched.length) := by
  induction sched with
  | nil => intro s s' m h he; simp only [exec, Option.some.injEq] at he; subst he; exact h
  | cons x sched ih =>
    intro s s' m h he
    obtain ⟨t, r⟩ := x
    have h1 := good_step c hc s m h t r
    simp only [exec] at he
    cases hs : step c t r s with
    | ok s1 =>
      rw [hs] at h1 he
      have := ih s1 s' (m + 1) h1 he
      rw [List.length_cons, show m + (sched.length + 1) = m + 1 + sched.length by omega]
      exact this
    | blocked => simp [hs] at he
    | failed => simp [hs] at he

theorem good_init (c : Cfg α P) : Good c (init c) 0 :=
  ⟨fun _ => 0, fun _ => 0, fun _ => 0, fun r => inv_init c r, rfl⟩

theorem good_reach (c : Cfg α P) {L : Nat} (hc : c.Lawful L) (sched : List (Task × Bool))
    (s : State α) (h : exec c sched (init c) = some s) : Good c s sched.length := by
  simpa using good_exec c hc sched _ _ 0 (good_init c) h

theorem view_ext (s s' : State α) (h : ∀ r, view s r = view s' r) : s = s' := by
  have hf := h false
  have ht := h true
  simp only [view, View.mk.injEq, Bool.not_false, Bool.not_true] at hf ht
  obtain ⟨p, m, d⟩ := s
  obtain ⟨p', m', d'⟩ := s'
  congr 1
  · funext r
    rcases hp : p r with ⟨a1, a2, a3, a4, a5, a6, a7, a8, a9⟩
    rcases hp' : p' r with ⟨b1, b2, b3, b4, b5, b6, b7, b8, b9⟩
    cases r <;> simp_all
  · funext r; cases r <;> simp_all
  · funext r; cases r <;> simp_all

/-- What the view of a direction is once every task has finished. -/
theorem inv_final (c : Cfg α P) (r : Bool) (v : View α) (n k j : Nat) (h : Inv c r v n k j)
    (h1 : v.sendDone = true) (h2 : v.peerDone = true) (h3 : v.recvDone = true) :
    n = (allBatches c r).length ∧ k = (allBatches c r).length ∧
      (c.target.canTouch r = true → j = (allBatches c r).length) ∧
      (c.target.canTouch r = false → j = 1) := by
  have a := h.sendDone
  have b := h.peerDone
  rw [h1] at a; rw [h2] at b
  refine ⟨by simpa using a.symm, by simpa using b.symm, ?_, ?_⟩
  · intro ht
    have := (h.yes ht).2.2.2.1
    rw [h3] at this
    simpa using this.symm
  · intro ht
    have := (h.no ht).2.2.2
    rw [h3] at this
    exact this

end Psi.Ecdh
