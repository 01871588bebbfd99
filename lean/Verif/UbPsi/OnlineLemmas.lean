import Verif.UbPsi.TransferLemmas
import Mathlib.Data.List.Perm.Basic

/-!
# Lemmas about the online phase of UB-PSI
-/

namespace Psi.UbPsi
open Psi.Ecdh (Bytes dupMap dupAt chop chop_flatten flatten_length dupMap_lookup)
open Psi.Spec (peerRows)

variable {α G : Type} [AddCommGroup G] {c : Curve α G}

/-! ### Duplicate counts -/

theorem dupMap_keys {β : Type} (b : List (β × Nat)) (d : Nat × Nat) (h : d ∈ dupMap b) : d.1 < b.length := by
  unfold dupMap at h
  obtain ⟨⟨x, j⟩, hx, hf⟩ := List.mem_filterMap.mp h
  rw [List.mem_zipIdx_iff_getElem?] at hx
  obtain ⟨hj, -⟩ := List.getElem?_eq_some_iff.mp hx
  dsimp only at hf hj
  split at hf
  · cases hf; exact hj
  · simp at hf

theorem dupMap_sum {β : Type} (b : List (β × Nat)) : ((dupMap b).map Prod.snd).sum = (b.map Prod.snd).sum := by
  have key : ∀ (b : List (β × Nat)) (s : Nat),
      (((b.zipIdx s).filterMap (fun x => if 0 < x.1.2 then some (x.2, x.1.2) else none)).map Prod.snd).sum
        = (b.map Prod.snd).sum := by
    intro b
    induction b with
    | nil => intro s; rfl
    | cons x b ih =>
      intro s
      rw [List.zipIdx_cons, List.filterMap_cons]
      by_cases hx : 0 < x.2
      · simp [hx, ih]
      · simp only [hx, if_false, ih, List.map_cons, List.sum_cons]; omega
  exact key b 0

theorem lookup_shift (m : List (Nat × Nat)) (u i : Nat) :
    (m.map (fun d => (d.1 + u, d.2))).lookup i = if u ≤ i then m.lookup (i - u) else none := by
  induction m with
  | nil => simp
  | cons d m ih =>
    rw [List.map_cons, List.lookup_cons, List.lookup_cons, ih]
    by_cases h : i = d.1 + u
    · subst h; simp
    · have h1 : (i == d.1 + u) = false := by simpa using h
      rw [h1]
      by_cases hu : u ≤ i
      · have h2 : (i - u == d.1) = false := by simp; omega
        simp [hu, h2]
      · simp [hu]

theorem dupAt_append (a b : List (Nat × Nat)) (i : Nat) :
    dupAt (a ++ b) i = match a.lookup i with
      | some v => v
      | none => dupAt b i := by
  rw [dupAt, List.lookup_append]
  cases a.lookup i <;> simp [dupAt]

/-- What the server has taken down after the items `done`. -/
structure Counts (p : PeerCnt) (done : List (α × Nat)) (sg : Bool) : Prop where
  unique : p.unique = done.length
  total : p.total = if sg then (done.map Prod.snd).sum else 0
  dup : ∀ i, dupAt p.dup i = if sg then (done[i]?.map Prod.snd).getD 0 else 0

theorem peerRows_eq (l : List (α × Nat)) : peerRows l = (l.map Prod.snd).sum + l.length := by
  induction l with
  | nil => rfl
  | cons x l ih => simp [peerRows] at ih ⊢; omega

theorem counts_add {p : PeerCnt} {done : List (α × Nat)} {sg : Bool} (h : Counts p done sg)
    (b : List (α × Nat)) (hs : peerRows (done ++ b) < 2 ^ 32) :
    Counts (p.add (if sg then dupMap b else []) b.length) (done ++ b) sg := by
  rw [peerRows_eq] at hs
  simp only [List.map_append, List.sum_append, List.length_append] at hs
  cases sg with
  | false =>
    refine ⟨?_, ?_, ?_⟩
    · simp only [PeerCnt.add, h.unique, List.length_append]; rw [Nat.mod_eq_of_lt (by omega)]
    · simp [PeerCnt.add, h.total]
    · intro i; simp [PeerCnt.add, h.dup]
  | true =>
    have hmap : (dupMap b).map (fun d => ((d.1 + p.unique) % 2 ^ 32, d.2))
        = (dupMap b).map (fun d => (d.1 + p.unique, d.2)) := by
      apply List.map_congr_left
      intro d hd
      have := dupMap_keys b d hd
      rw [h.unique, Nat.mod_eq_of_lt (by omega)]
    refine ⟨?_, ?_, ?_⟩
    · simp only [PeerCnt.add, h.unique, List.length_append]; rw [Nat.mod_eq_of_lt (by omega)]
    · simp only [PeerCnt.add, h.total, if_true, dupMap_sum, List.map_append, List.sum_append]
      rw [Nat.mod_eq_of_lt (by omega)]
    · intro i
      have hi := h.dup i
      have hb := dupAt_dupMap b (i - p.unique)
      simp only [PeerCnt.add, if_true] at hi ⊢
      rw [hmap, dupAt_append, lookup_shift, h.unique]
      rw [h.unique, dupAt] at hb
      by_cases hu : done.length ≤ i
      · rw [if_pos hu, List.getElem?_append_right hu, ← hb]
        cases hl : (dupMap b).lookup (i - done.length) with
        | some v => simp
        | none =>
          dsimp only
          rw [hi, List.getElem?_eq_none hu]; rfl
      · rw [if_neg hu, List.getElem?_append_left (by omega)]
        exact hi

/-! ### Evaluation by the server -/

/-- The evaluated blinded item. -/
def evd (c : Curve α G) (r key : Bytes) (x : α) : Bytes := c.enc (c.scalar key • (c.scalar r • c.point x))

/-- The message with a batch of blinded items. -/
def blindMsg (c : Curve α G) (r : Bytes) (sg : Bool) (b : List (α × Nat)) : Batch :=
  ⟨false, (b.map (fun x => blind c r x.1)).flatten, if sg then dupMap b else []⟩

theorem recvBlind_ok (hc : c.Lawful) (r key : Bytes) (hr : c.GoodKey r) (sg : Bool)
    (bs : List (List (α × Nat))) {p : PeerCnt} {done : List (α × Nat)} (h : Counts p done sg)
    (hs : peerRows (done ++ bs.flatten) < 2 ^ 32) :
    ∃ p', recvBlind c key (bs.map (blindMsg c r sg) ++ [Batch.last]) p
        = .ok (bs.map (fun b => b.map (fun x => evd c r key x.1)), p') ∧
      p'.unique = (done ++ bs.flatten).length ∧
      (sg = true → p'.total = peerRows (done ++ bs.flatten)) ∧
      ∀ i, dupAt p'.dup i = if sg then ((done ++ bs.flatten)[i]?.map Prod.snd).getD 0 else 0 := by
  induction bs generalizing p done with
  | nil =>
    refine ⟨{ p with total := (p.total + p.unique) % 2 ^ 32 }, by simp [recvBlind, Batch.last], ?_, ?_, ?_⟩
    · simpa using h.unique
    · intro e
      subst e
      have := peerRows_eq done
      simp only [List.flatten_nil, List.append_nil] at hs ⊢
      rw [h.total, h.unique, if_pos rfl, Nat.mod_eq_of_lt (by omega), this]
    · simpa using h.dup
  | cons b bs ih =>
    have hb : peerRows (done ++ b) < 2 ^ 32 := by
      simp only [List.flatten_cons] at hs
      rw [← List.append_assoc, rows_append] at hs
      omega
    obtain ⟨p', h1, h2, h3, h4⟩ := ih (counts_add h b hb) (by simpa using hs)
    have hcut : cut c.pointLen (b.map (fun x => blind c r x.1)).flatten = .ok (b.map (fun x => blind c r x.1)) :=
      cut_ok _ hc.lenPos _ (by
        intro y hy
        obtain ⟨x, -, rfl⟩ := List.mem_map.mp hy
        exact hc.encLen _)
    have hev : mapE (evaluate c key) (b.map (fun x => blind c r x.1))
        = .ok (b.map (fun x => evd c r key x.1)) := by
      have : ∀ l : List (α × Nat), mapE (evaluate c key) (l.map (fun x => blind c r x.1))
          = .ok (l.map (fun x => evd c r key x.1)) := by
        intro l
        induction l with
        | nil => rfl
        | cons x l ihl =>
          rw [List.map_cons, mapE, evaluate_blind hc r key hr]
          dsimp only
          rw [ihl]; rfl
      exact this b
    refine ⟨p', ?_, by simpa using h2, by simpa using h3, by simpa using h4⟩
    rw [List.map_cons, List.cons_append, recvBlind]
    simp only [blindMsg, Bool.false_eq_true, if_false]
    rw [hcut]
    dsimp only
    rw [hev]
    dsimp only
    rw [List.length_map]
    rw [h1]
    rfl

/-! ### The client's store -/

theorem recvEvaluated_ok (hc : c.Lawful) (r key : Bytes) (hr : c.GoodKey r) (hk : c.GoodKey key)
    (xs : List (List α)) (st : MemStore) :
    recvEvaluated c r (xs.map (fun b => (⟨false, (b.map (evd c r key)).flatten, []⟩ : Batch)) ++ [Batch.last]) st
      = .ok ((xs.flatten.map (c.tag key)).foldl MemStore.save st) := by
  induction xs generalizing st with
  | nil => simp [recvEvaluated, Batch.last]
  | cons b xs ih =>
    have hcut : cut c.pointLen (b.map (evd c r key)).flatten = .ok (b.map (evd c r key)) :=
      cut_ok _ hc.lenPos _ (by
        intro y hy
        obtain ⟨x, -, rfl⟩ := List.mem_map.mp hy
        exact hc.encLen _)
    have hfin : ∀ l : List α, mapE (finalize c r) (l.map (evd c r key)) = .ok (l.map (c.tag key)) := by
      intro l
      induction l with
      | nil => rfl
      | cons x l ihl =>
        rw [List.map_cons, mapE]
        unfold evd at ihl ⊢
        rw [finalize_ok hc r key hr hk]
        dsimp only
        rw [ihl]; rfl
    rw [List.map_cons, List.cons_append, recvEvaluated]
    simp only [Bool.false_eq_true, if_false]
    rw [hcut]
    dsimp only
    rw [hfin b]
    dsimp only
    rw [ih, List.flatten_cons, List.map_append, List.foldl_append]

theorem foldl_save (T done : List Bytes) (st : MemStore) (hcnt : st.cnt = done.length)
    (hfind : ∀ t i, st.find t = some i ↔ done[i]? = some t) (hn : (done ++ T).Nodup)
    (hl : (done ++ T).length < 2 ^ 32) (t : Bytes) (i : Nat) :
    (T.foldl MemStore.save st).find t = some i ↔ (done ++ T)[i]? = some t := by
  induction T generalizing done st with
  | nil => simpa using hfind t i
  | cons x T ih =>
    have hx : x ∉ done := by
      intro hx
      have := List.nodup_append.mp hn
      exact this.2.2 x hx x (by simp) rfl
    have := ih (done ++ [x]) (st.save x) ?_ ?_ (by simpa using hn) (by simpa using hl)
    · simpa using this
    · have : (done ++ [x]).length < 2 ^ 32 := by simp at hl ⊢; omega
      simp only [MemStore.save, hcnt]
      rw [Nat.mod_eq_of_lt (by simpa using this)]; simp
    · intro u j
      simp only [MemStore.find, MemStore.save, List.lookup_cons]
      by_cases hu : u = x
      · subst hu
        simp only [BEq.rfl, Option.some.injEq, hcnt]
        constructor
        · rintro rfl; simp
        · intro h
          obtain ⟨hj, e⟩ := List.getElem?_eq_some_iff.mp h
          by_cases hjd : j < done.length
          · rw [List.getElem_append_left hjd] at e
            exact absurd (e ▸ List.getElem_mem hjd) hx
          · simp at hj; omega
      · have : (u == x) = false := by simpa using hu
        rw [this]
        rw [show (st.map.lookup u = some j ↔ _) from hfind u j]
        by_cases hjd : j < done.length
        · rw [List.getElem?_append_left hjd]
        · rw [List.getElem?_eq_none (by omega), List.getElem?_append_right (by omega)]
          constructor
          · intro h; simp at h
          · intro h
            obtain ⟨hj, e⟩ := List.getElem?_eq_some_iff.mp h
            simp at e
            exact absurd e.symm hu

theorem store_find (T : List Bytes) (hn : T.Nodup) (hl : T.length < 2 ^ 32) (t : Bytes) (i : Nat) :
    (T.foldl MemStore.save ⟨[], 0⟩).find t = some i ↔ T[i]? = some t := by
  have := foldl_save T [] ⟨[], 0⟩ rfl (by intro t i; simp [MemStore.find]) (by simpa using hn) (by simpa using hl) t i
  simpa using this

/-! ### Comparison -/

theorem slices_flatten {β : Type} (l : List β) (size : Nat) (n : Nat) :
    (List.range n).flatMap (fun i => (l.drop (i * size)).take size) = l.take (n * size) := by
  induction n with
  | zero => simp
  | succ n ih =>
    rw [List.range_succ, List.flatMap_append, ih, Nat.succ_mul, List.take_add]
    simp

/-- What one record of the peer contributes. -/
def hit (self : MemStore) (x : (Bytes × Nat) × Nat) : Option (Nat × Nat × Nat) :=
  (self.find x.1.1).map (fun i => (i, x.2, x.1.2))

theorem compareSlice_all (self : MemStore) (threads processed : Nat) (ht : 0 < threads) (b : List (Bytes × Nat)) :
    (List.range threads).flatMap (fun idx => compareSlice self threads idx processed b)
      = (b.zipIdx processed).filterMap (hit self) := by
  have hsize : b.length ≤ threads * ((b.length + threads - 1) / threads) := by
    have := Nat.div_add_mod (b.length + threads - 1) threads
    have := Nat.mod_lt (b.length + threads - 1) ht
    omega
  unfold compareSlice
  dsimp only
  rw [← List.filterMap_flatMap, slices_flatten, List.take_of_length_le (by rw [List.length_zipIdx]; exact hsize)]
  have hz : b.zipIdx processed = b.zipIdx.map (fun x => (x.1, processed + x.2)) := by
    rw [List.zipIdx_eq_map_add]
  rw [hz, List.filterMap_map]
  apply List.filterMap_congr
  rintro ⟨x, i⟩ hx
  rw [List.mem_zipIdx_iff_getElem?] at hx
  dsimp only at hx
  simp only [hit, Function.comp_apply, dupAt_dupMap, hx, Option.map_some, Option.getD_some]

theorem compareThread_all (self : MemStore) (threads : Nat) (ht : 0 < threads) (bs : List (List (Bytes × Nat)))
    (processed : Nat) :
    ((List.range threads).flatMap (fun idx => compareThread self threads idx processed bs)).Perm
      ((bs.flatten.zipIdx processed).filterMap (hit self)) := by
  induction bs generalizing processed with
  | nil => simp [compareThread]
  | cons b bs ih =>
    simp only [compareThread]
    refine (List.flatMap_append_perm _ _ _).symm.trans ?_
    rw [compareSlice_all self threads processed ht, List.flatten_cons, List.zipIdx_append, List.filterMap_append]
    exact List.Perm.append_left _ (by simpa [Nat.add_comm] using ih (processed + b.length))

theorem computeIndices_ok (self : MemStore) {peer : ClientStore} {items : List (Bytes × Nat)}
    (h : Holds peer items) (batch threads : Nat) (hb : 0 < batch) (ht : 0 < threads)
    (hfind : ∀ t i, self.find t = some i → i < 2 ^ 32) :
    ∃ found, computeIndices self peer batch threads = .ok found ∧
      found.Perm (items.zipIdx.filterMap (hit self)) := by
  obtain ⟨bs, h1, h2⟩ := drain_store h batch hb
  rw [computeIndices, h1]
  dsimp only
  rw [if_neg (by omega)]
  refine ⟨_, rfl, ?_⟩
  have hp := compareThread_all self threads ht bs 0
  rw [h2] at hp
  refine (hp.map _).trans (List.Perm.of_eq ?_)
  conv_rhs => rw [← List.map_id (List.filterMap _ _)]
  apply List.map_congr_left
  rintro ⟨i, k, d⟩ hx
  obtain ⟨⟨⟨t, d'⟩, k'⟩, hx', hf⟩ := List.mem_filterMap.mp hx
  simp only [hit, Option.map_eq_some_iff, Prod.mk.injEq] at hf
  obtain ⟨i', hi, rfl, rfl, rfl⟩ := hf
  rw [List.mem_zipIdx_iff_getElem?] at hx'
  obtain ⟨hk, e⟩ := List.getElem?_eq_some_iff.mp hx'
  dsimp only at hk e
  have hs := h.small
  have hle := length_le_rows items
  have hdl := le_rows items _ (List.getElem_mem hk)
  rw [e] at hdl
  dsimp only at hdl
  simp only [id_eq, Prod.mk.injEq]
  exact ⟨Nat.mod_eq_of_lt (hfind _ _ hi), Nat.mod_eq_of_lt (by omega), Nat.mod_eq_of_lt (by omega)⟩

end Psi.UbPsi
