import Verif.Nty.Lemmas
import Verif.Baxos.Props

/-!
# C73: the multi-party intersection

A value (`tag`) of an item is the item plus what the tables decode to.  The receiver's result are its items whose value is one of the
helper's.  For an item that all parties have the two values agree; so the result is the intersection unless two
different items, or one item that some party lacks, have agreeing values by accident.
-/

namespace Psi.Nty
open Psi.Gf128
open Psi.Okvs hiding Err
open Psi.Baxos hiding Err
open Psi.Rr22 Psi.Rr22.Oprf
open Psi.Ecdh (Bytes)

/-! ### Specification -/

/-- `T` is the table that the sender makes for the values `f` of its items. -/
def Store.Solves (o : Store) (items : List Gf) (f : Gf → Gf) (T : Nat → Gf) : Prop :=
  items ≠ [] ∧ solve (o.cfg items.length) (encGf (o.cfg items.length) o.pick) o.send.threads o.send.solve1 o.send.solve2
    (items.map o.hash) (fun j => (items.map f).getD j 0) (fun _ => 0) = .ok T

/-- What a table of `n` items decodes to. -/
noncomputable def Store.dec (o : Store) (n : Nat) (T : Nat → Gf) (x : Gf) : Gf := Baxos.lookup (o.cfg n) powCoef T (o.hash x)

/-- Sizes, pivot choice and threads of a store for `n` items. -/
structure Store.Ok (o : Store) (n : Nat) : Prop where
  wf : Wf (o.cfg n)
  pick : PickOk (o.cfg n).S o.pick
  s1 : ∀ i ∈ o.send.solve1, i < max 1 o.send.threads
  s2 : ∀ i ∈ o.send.solve2, i < max 1 o.send.threads
  d : ∀ i ∈ o.recv.decode, i < max 1 o.recv.threads

/-- The threads of the decoder of `m` items are let to finish. -/
structure Store.Ends (o : Store) (n m : Nat) : Prop where
  init : paxosInitOk (o.cfg n) 1 = true
  fair : Fair (o.cfg n) (max 1 o.recv.threads) m o.recv.decode

/-- The parties that encode their items. -/
def Setup.senders (s : Setup) : List Nat := if s.n = 3 then [s.server] else s.server :: s.others

variable {aes aesInv : Gf → Gf → Gf} {s : Setup} {broadcast : Bool} {C : Coins} {inputs : Nat → List Gf}

/-- The sum of the pseudorandom values of an item under all keys. -/
noncomputable def prfSum (aes : Gf → Gf → Gf) (s : Setup) (C : Coins) (x : Gf) : Gf :=
  if s.n = 3 then aes (C.seed s.helper) x else (s.others.map fun i => aes (C.seed i) x).sum

/-- The values that sender `i` encodes. -/
noncomputable def encoded (aes : Gf → Gf → Gf) (s : Setup) (C : Coins) (i : Nat) : Gf → Gf :=
  if i = s.server then prfSum aes s C else aes (C.seed i)

/-- `T` are the tables of a run. -/
def Tables (aes : Gf → Gf → Gf) (s : Setup) (C : Coins) (inputs : Nat → List Gf) (T : Nat → Nat → Gf) : Prop :=
  ∀ i ∈ s.senders, (C.store i).Solves (inputs i) (encoded aes s C i) (T i)

/-- The value of an item at the receiver. -/
noncomputable def tagR (s : Setup) (C : Coins) (inputs : Nat → List Gf) (T : Nat → Nat → Gf) (x : Gf) : Gf :=
  x + (C.store s.server).dec (inputs s.server).length (T s.server) x

/-- The value of an item at the helper. -/
noncomputable def tagH (aes : Gf → Gf → Gf) (s : Setup) (C : Coins) (inputs : Nat → List Gf) (T : Nat → Nat → Gf) (x : Gf) : Gf :=
  x + if s.n = 3 then aes (C.seed s.helper) x
    else (s.others.map fun i => (C.store i).dec (inputs i).length (T i) x).sum

/-- `x` is an item of every party. -/
def Common (s : Setup) (inputs : Nat → List Gf) (x : Gf) : Prop := ∀ i < s.n, x ∈ inputs i

/-- No two values agree by accident. -/
structure NoAccident (aes : Gf → Gf → Gf) (s : Setup) (C : Coins) (inputs : Nat → List Gf) (T : Nat → Nat → Gf) : Prop where
  inj : ∀ x ∈ inputs s.receiver, ∀ y ∈ inputs s.receiver, tagR s C inputs T x = tagR s C inputs T y → x = y
  only : ∀ x ∈ inputs s.receiver, ∀ y ∈ inputs s.helper, tagR s C inputs T x = tagH aes s C inputs T y → x = y ∧ Common s inputs x

/-- Shuffles permute, decryption inverts encryption, stores have valid sizes. -/
structure Honest (aes aesInv : Gf → Gf → Gf) (s : Setup) (C : Coins) (inputs : Nat → List Gf) : Prop where
  inv : ∀ x, aesInv C.key (aes C.key x) = x
  shuffleH : ∀ l, (C.shuffleH l).Perm l
  shuffleR : ∀ l, (C.shuffleR l).Perm l
  store : ∀ i ∈ s.senders, (C.store i).Ok (inputs i).length
  len : (inputs s.receiver).length ≤ 2 ^ 32

/-! ### The steps of a run -/

theorem Store.Solves.dec_eq {o : Store} {items : List Gf} {f : Gf → Gf} {T : Nat → Gf} (h : o.Solves items f T) (ok : o.Ok items.length)
    {x : Gf} (hx : x ∈ items) : o.dec items.length T x = f x := by
  obtain ⟨j, hj, rfl⟩ := List.getElem_of_mem hx
  have := solve_lookup (encOk_gf ok.wf.w0 ok.wf.wS ok.pick) ok.wf.wS ok.wf.S62 ok.wf.bins ok.s1 ok.s2 h.2 j (by simpa using hj)
  rw [List.getElem_map, List.getD_eq_getElem _ _ (by simpa using hj), List.getElem_map] at this
  exact this

theorem lookup_congr {c : Cfg} (w : Wf c) {t u : Nat → Gf} (h : ∀ k < tableSize c, t k = u k) (x : Nat) :
    Baxos.lookup c powCoef t x = Baxos.lookup c powCoef u x := by
  have hs : c.size = c.S + c.D := rfl
  unfold Baxos.lookup
  apply decode_congr
  · intro k hk
    have := (buildRow_spec w.wS x).2.2 k hk
    exact h _ (binIdx_mul_lt w x k (by omega))
  · intro k hk
    exact h _ (binIdx_mul_lt w x _ (by omega))

theorem range_getD {l : List Gf} {n : Nat} (h : l.length = n) (v : Nat → Gf) (hv : ∀ j (hj : j < l.length), v j = l[j]) :
    (List.range n).map v = l := by
  apply List.ext_getElem
  · simp [h]
  · intro i h1 h2
    rw [List.getElem_map, List.getElem_range, hv i h2]

/-- One table, sent and decoded. -/
theorem transfer_ok {o : Store} {items own : List Gf} {f : Gf → Gf} (ok : o.Ok items.length) {l : List Gf}
    (h : (do let msgs ← genOkvs o items (items.map f); decodeOkvs o items.length msgs own) = .ok l) :
    ∃ T, o.Solves items f T ∧ l = own.map (o.dec items.length T) := by
  unfold genOkvs decodeOkvs at h
  by_cases h0 : items.length = 0
  · rw [if_pos h0] at h
    cases h
  simp only [if_neg h0] at h
  cases hs : solve (o.cfg items.length) (encGf (o.cfg items.length) o.pick) o.send.threads o.send.solve1 o.send.solve2
      (items.map o.hash) (fun j => (items.map f).getD j 0) (fun _ => 0) with
  | error e => rw [hs] at h; cases h
  | ok T =>
    rw [hs] at h
    simp only [bind, Except.bind] at h
    have hrecv := recv_send (chunk := kSendChunkSize) (by decide) ((List.range (tableSize (o.cfg items.length))).map T)
    rw [List.length_map, List.length_range] at hrecv
    rw [hrecv] at h
    simp only at h
    refine ⟨T, ⟨fun e => h0 (by rw [e]; rfl), hs⟩, ?_⟩
    split at h
    · rename_i v hv
      cases h
      apply range_getD (by simp)
      intro j hj
      rw [List.getElem_map]
      have hj' : j < (own.map o.hash).length := by simpa using hj
      rw [decodeAll_ok (decOk_gf _ ok.wf.w0 ok.wf.D0) ok.wf.wS ok.wf.S62 ok.wf.w20 ok.wf.bins ok.d hv j hj', List.getElem_map]
      refine lookup_congr ok.wf (t := fun k => ((List.range (tableSize (o.cfg items.length))).map T).getD k 0) (u := T) ?_ (o.hash (own[j]'(by simpa using hj)))
      intro k hk
      rw [List.getD_eq_getElem _ _ (by simpa using hk), List.getElem_map, List.getElem_range]
    · cases h

/-- A table that is made is decoded. -/
theorem transfer_ends {o : Store} {items own : List Gf} {f : Gf → Gf} {T : Nat → Gf} (ok : o.Ok items.length)
    (he : o.Ends items.length own.length) (h : o.Solves items f T) :
    (do let msgs ← genOkvs o items (items.map f); decodeOkvs o items.length msgs own) = .ok (own.map (o.dec items.length T)) := by
  have h0 : items.length ≠ 0 := fun e => h.1 (List.length_eq_zero_iff.1 e)
  have hrecv := recv_send (chunk := kSendChunkSize) (by decide) ((List.range (tableSize (o.cfg items.length))).map T)
  rw [List.length_map, List.length_range] at hrecv
  obtain ⟨v, hv⟩ := C45_gf_decode_total (o.cfg items.length) ok.wf.w0 ok.wf.w20 ok.wf.wS ok.wf.S62 ok.wf.D0 he.init o.recv.threads
    o.recv.decode (own.map o.hash) (by simpa using he.fair)
    (fun k => ((List.range (tableSize (o.cfg items.length))).map T).getD k 0) (fun _ => 0)
  have : ∃ l, (do let msgs ← genOkvs o items (items.map f); decodeOkvs o items.length msgs own) = .ok l := by
    unfold genOkvs decodeOkvs
    simp only [if_neg h0, h.2, bind, Except.bind, hrecv, hv]
    exact ⟨_, rfl⟩
  obtain ⟨l, hl⟩ := this
  obtain ⟨T', h1, rfl⟩ := transfer_ok ok hl
  have e := h1.2.symm.trans h.2
  cases e
  exact hl

theorem addAll_map {A : List Gf} {g k : Gf → Gf} : addAll (A.map g) (A.map k) = A.map fun x => g x + k x := by
  unfold addAll
  rw [List.length_map]
  apply range_getD (by simp)
  intro j hj
  rw [List.length_map] at hj
  rw [List.getElem_map, List.getD_eq_getElem _ _ (by simpa using hj), List.getD_eq_getElem _ _ (by simpa using hj),
    List.getElem_map, List.getElem_map]

theorem addAll_id {A : List Gf} {k : Gf → Gf} : addAll A (A.map k) = A.map fun x => x + k x := by
  have := addAll_map (A := A) (g := id) (k := k)
  rwa [List.map_id] at this

theorem serverValues_eq : serverValues aes s C inputs = (inputs s.server).map (prfSum aes s C) := by
  unfold serverValues prfSum
  split_ifs
  · rfl
  · have key : ∀ (l : List Nat) (g : Gf → Gf), l.foldl (fun acc i => addPrf aes (inputs s.server) acc (C.seed i)) ((inputs s.server).map g) =
        (inputs s.server).map fun x => g x + (l.map fun i => aes (C.seed i) x).sum := by
      intro l
      induction l with
      | nil => intro g; simp
      | cons i l ih =>
        intro g
        have h : addPrf aes (inputs s.server) ((inputs s.server).map g) (C.seed i) = (inputs s.server).map fun x => g x + aes (C.seed i) x := by
          unfold addPrf
          apply range_getD (by simp)
          intro j hj
          rw [List.length_map] at hj
          rw [List.getElem_map, List.getD_eq_getElem _ _ (by simpa using hj), List.getD_eq_getElem _ _ hj, List.getElem_map]
        rw [List.foldl_cons, h, ih]
        apply List.map_congr_left
        intro x _
        rw [List.map_cons, List.sum_cons, add_assoc]
    rw [key]
    apply List.map_congr_left
    intro x _
    rw [zero_add]

theorem server_not_other : s.server ∉ s.others := by
  unfold Setup.others
  rw [List.mem_filter]
  simp

theorem mem_others {i : Nat} : i ∈ s.others ↔ i < s.n ∧ i ≠ s.server ∧ i ≠ s.helper ∧ i ≠ s.receiver := by
  unfold Setup.others
  rw [List.mem_filter, List.mem_range]
  simp

theorem receiverTags_ok (ok : (C.store s.server).Ok (inputs s.server).length) {r : List Gf} (h : receiverTags aes s C inputs = .ok r) :
    ∃ t, (C.store s.server).Solves (inputs s.server) (encoded aes s C s.server) t ∧
      ∀ T : Nat → Nat → Gf, T s.server = t → r = (inputs s.receiver).map (tagR s C inputs T) := by
  unfold receiverTags at h
  rw [serverValues_eq] at h
  cases hd : (do let msgs ← genOkvs (C.store s.server) (inputs s.server) ((inputs s.server).map (prfSum aes s C))
                 decodeOkvs (C.store s.server) (inputs s.server).length msgs (inputs s.receiver)) with
  | error e =>
    rw [← bind_assoc, hd] at h
    cases h
  | ok l =>
    rw [← bind_assoc, hd] at h
    obtain ⟨t, h1, rfl⟩ := transfer_ok ok hd
    refine ⟨t, by unfold encoded; rw [if_pos rfl]; exact h1, fun T hT => ?_⟩
    cases h
    rw [addAll_id, ← hT]
    rfl

theorem receiverTags_ends {T : Nat → Nat → Gf} (ok : (C.store s.server).Ok (inputs s.server).length)
    (he : (C.store s.server).Ends (inputs s.server).length (inputs s.receiver).length)
    (h : (C.store s.server).Solves (inputs s.server) (encoded aes s C s.server) (T s.server)) :
    receiverTags aes s C inputs = .ok ((inputs s.receiver).map (tagR s C inputs T)) := by
  unfold receiverTags
  rw [serverValues_eq]
  unfold encoded at h
  rw [if_pos rfl] at h
  rw [← bind_assoc, transfer_ends ok he h]
  show Except.ok _ = _
  rw [addAll_id]
  rfl

theorem helper_fold {l : List Nat} (ok : ∀ i ∈ l, (C.store i).Ok (inputs i).length) {own : List Gf} :
    ∀ {g : Gf → Gf} {r : List Gf}, l.foldlM (fun acc i => do
      let hashed := (inputs i).map (aes (C.seed i))
      let msgs ← genOkvs (C.store i) (inputs i) hashed
      let l ← decodeOkvs (C.store i) (inputs i).length msgs own
      (Except.ok (addAll acc l) : Except Err (List Gf))) (own.map g) = .ok r →
    ∃ T : Nat → Nat → Gf, (∀ i ∈ l, (C.store i).Solves (inputs i) (aes (C.seed i)) (T i)) ∧
      r = own.map fun x => g x + (l.map fun i => (C.store i).dec (inputs i).length (T i) x).sum := by
  induction l with
  | nil =>
    intro g r h
    cases h
    exact ⟨fun _ _ => 0, by simp, by simp⟩
  | cons i l ih =>
    intro g r h
    rw [List.foldlM_cons] at h
    simp only at h
    rw [← bind_assoc] at h
    cases hd : (do let msgs ← genOkvs (C.store i) (inputs i) ((inputs i).map (aes (C.seed i)))
                   decodeOkvs (C.store i) (inputs i).length msgs own) with
    | error e =>
      rw [hd] at h
      cases h
    | ok d =>
      rw [hd] at h
      obtain ⟨t, h1, rfl⟩ := transfer_ok (ok i (List.mem_cons_self ..)) hd
      have h : l.foldlM (fun acc i => do
          let hashed := (inputs i).map (aes (C.seed i))
          let msgs ← genOkvs (C.store i) (inputs i) hashed
          let l ← decodeOkvs (C.store i) (inputs i).length msgs own
          (Except.ok (addAll acc l) : Except Err (List Gf)))
            (addAll (own.map g) (own.map ((C.store i).dec (inputs i).length t))) = .ok r := h
      rw [addAll_map] at h
      obtain ⟨T, h2, rfl⟩ := ih (fun j hj => ok j (List.mem_cons_of_mem _ hj)) h
      -- the tables are those of the deterministic solver, so a repeated index gets the same table
      refine ⟨fun j => if j = i then t else T j, ?_, ?_⟩
      · intro j hj
        simp only
        split_ifs with e
        · subst e
          exact h1
        · exact h2 j ((List.mem_cons.1 hj).resolve_left e)
      · apply List.map_congr_left
        intro x _
        rw [List.map_cons, List.sum_cons, ← add_assoc]
        simp only [if_pos]
        congr 2
        apply List.map_congr_left
        intro j hj
        split_ifs with e
        · subst e
          have := (h2 j hj).2.symm.trans h1.2
          cases this
          rfl
        · rfl

theorem helper_fold_ends {l : List Nat} {own : List Gf} {T : Nat → Nat → Gf} (ok : ∀ i ∈ l, (C.store i).Ok (inputs i).length)
    (he : ∀ i ∈ l, (C.store i).Ends (inputs i).length own.length)
    (hT : ∀ i ∈ l, (C.store i).Solves (inputs i) (aes (C.seed i)) (T i)) :
    ∀ {g : Gf → Gf}, l.foldlM (fun acc i => do
      let hashed := (inputs i).map (aes (C.seed i))
      let msgs ← genOkvs (C.store i) (inputs i) hashed
      let l ← decodeOkvs (C.store i) (inputs i).length msgs own
      (Except.ok (addAll acc l) : Except Err (List Gf))) (own.map g) =
      .ok (own.map fun x => g x + (l.map fun i => (C.store i).dec (inputs i).length (T i) x).sum) := by
  induction l with
  | nil => intro g; simp only [List.foldlM_nil, List.map_nil, List.sum_nil, add_zero]; rfl
  | cons i l ih =>
    intro g
    rw [List.foldlM_cons]
    simp only
    rw [← bind_assoc, transfer_ends (ok i (List.mem_cons_self ..)) (he i (List.mem_cons_self ..)) (hT i (List.mem_cons_self ..))]
    show l.foldlM _ (addAll (own.map g) (own.map ((C.store i).dec (inputs i).length (T i)))) = _
    rw [addAll_map, ih (fun j hj => ok j (List.mem_cons_of_mem _ hj)) (fun j hj => he j (List.mem_cons_of_mem _ hj))
      (fun j hj => hT j (List.mem_cons_of_mem _ hj))]
    congr 1
    apply List.map_congr_left
    intro x _
    rw [List.map_cons, List.sum_cons, ← add_assoc]

theorem map_zero_eq (own : List Gf) : (own.map fun _ => (0 : Gf)) = own.map (fun _ => 0) := rfl

theorem helperTags_ok (ok : s.n ≠ 3 → ∀ i ∈ s.others, (C.store i).Ok (inputs i).length) {h : List Gf}
    (hh : helperTags aes s C inputs = .ok h) : ∃ t : Nat → Nat → Gf,
      (s.n ≠ 3 → ∀ i ∈ s.others, (C.store i).Solves (inputs i) (aes (C.seed i)) (t i)) ∧
      ∀ T : Nat → Nat → Gf, (s.n ≠ 3 → ∀ i ∈ s.others, T i = t i) → h = (inputs s.helper).map (tagH aes s C inputs T) := by
  unfold helperTags at hh
  simp only at hh
  by_cases h3 : s.n = 3
  · rw [if_pos h3] at hh
    cases hh
    refine ⟨fun _ _ => 0, fun h => absurd h3 h, fun T _ => ?_⟩
    rw [addAll_id]
    apply List.map_congr_left
    intro x _
    unfold tagH
    rw [if_pos h3]
  · rw [if_neg h3] at hh
    cases hf : s.others.foldlM (fun acc i => do
        let hashed := (inputs i).map (aes (C.seed i))
        let msgs ← genOkvs (C.store i) (inputs i) hashed
        let l ← decodeOkvs (C.store i) (inputs i).length msgs (inputs s.helper)
        (Except.ok (addAll acc l) : Except Err (List Gf))) ((inputs s.helper).map fun _ => 0) with
    | error e =>
      rw [hf] at hh
      cases hh
    | ok r =>
      rw [hf] at hh
      obtain ⟨t, h1, rfl⟩ := helper_fold (ok h3) hf
      refine ⟨t, fun _ => h1, fun T hT => ?_⟩
      cases hh
      rw [addAll_id]
      apply List.map_congr_left
      intro x _
      unfold tagH
      rw [if_neg h3, zero_add]
      congr 2
      apply List.map_congr_left
      intro i hi
      rw [hT h3 i hi]

theorem helperTags_ends {T : Nat → Nat → Gf} (ok : s.n ≠ 3 → ∀ i ∈ s.others, (C.store i).Ok (inputs i).length)
    (he : s.n ≠ 3 → ∀ i ∈ s.others, (C.store i).Ends (inputs i).length (inputs s.helper).length)
    (hT : s.n ≠ 3 → ∀ i ∈ s.others, (C.store i).Solves (inputs i) (aes (C.seed i)) (T i)) :
    helperTags aes s C inputs = .ok ((inputs s.helper).map (tagH aes s C inputs T)) := by
  unfold helperTags
  simp only
  by_cases h3 : s.n = 3
  · rw [if_pos h3, addAll_id]
    congr 1
    apply List.map_congr_left
    intro x _
    unfold tagH
    rw [if_pos h3]
  · rw [if_neg h3, helper_fold_ends (ok h3) (he h3) (hT h3)]
    show Except.ok _ = _
    rw [addAll_id]
    congr 1
    apply List.map_congr_left
    intro x _
    unfold tagH
    rw [if_neg h3, zero_add]

theorem mem_senders_server : s.server ∈ s.senders := by
  unfold Setup.senders
  split_ifs
  · exact List.mem_singleton.2 rfl
  · exact List.mem_cons_self ..

theorem mem_senders_other (h3 : s.n ≠ 3) {i : Nat} (hi : i ∈ s.others) : i ∈ s.senders := by
  unfold Setup.senders
  rw [if_neg h3]
  exact List.mem_cons_of_mem _ hi

theorem encoded_other {i : Nat} (hi : i ∈ s.others) : encoded aes s C i = aes (C.seed i) := by
  unfold encoded
  rw [if_neg]
  rintro rfl
  exact server_not_other hi

/-- What a run that ends consists of. -/
theorem run_split (ho : Honest aes aesInv s C inputs) {out : Nat → List Gf} (h : run aes aesInv s broadcast C inputs = .ok out) :
    s.valid = true ∧ ∃ T raw res, Tables aes s C inputs T ∧
      (∀ t, raw.count t = min (((inputs s.helper).map (tagH aes s C inputs T)).count t)
        (((inputs s.receiver).map (tagR s C inputs T)).count t)) ∧
      getIntersection C.empty (inputs s.receiver) ((inputs s.receiver).map (tagR s C inputs T)) raw = .ok res ∧
      out = fun i => if i = s.receiver then res else if i < s.n ∧ broadcast then res else [] := by
  unfold run at h
  by_cases hv : s.valid = true
  swap
  · rw [if_pos hv] at h
    cases h
  refine ⟨hv, ?_⟩
  rw [if_neg (not_not.2 hv)] at h
  simp only [bind, Except.bind] at h
  cases hh : helperTags aes s C inputs with
  | error e => rw [hh] at h; cases h
  | ok hl =>
    rw [hh] at h
    simp only at h
    cases hr : receiverTags aes s C inputs with
    | error e => rw [hr] at h; cases h
    | ok rl =>
      rw [hr] at h
      simp only at h
      obtain ⟨t, t1, t2⟩ := helperTags_ok (fun h3 i hi => ho.store i (mem_senders_other h3 hi)) hh
      obtain ⟨u, u1, u2⟩ := receiverTags_ok (ho.store _ mem_senders_server) hr
      set T : Nat → Nat → Gf := fun i => if i = s.server then u else t i with hT
      have eT : T s.server = u := by rw [hT]; simp
      have eO : ∀ i ∈ s.others, T i = t i := by
        intro i hi
        rw [hT]
        simp only
        rw [if_neg]
        rintro rfl
        exact server_not_other hi
      obtain rfl := t2 T fun _ => eO
      obtain rfl := u2 T eT
      obtain ⟨msg, raw, m1, m2, m3⟩ := aided ho.inv ho.shuffleH ho.shuffleR ((inputs s.helper).map (tagH aes s C inputs T))
        ((inputs s.receiver).map (tagR s C inputs T))
      rw [m1] at h
      simp only [m2] at h
      cases hg : getIntersection C.empty (inputs s.receiver) ((inputs s.receiver).map (tagR s C inputs T)) raw with
      | error e => rw [hg] at h; cases h
      | ok res =>
        rw [hg] at h
        simp only [unpack_packet] at h
        refine ⟨T, raw, res, ?_, m3, hg, ?_⟩
        · intro i hi
          unfold Setup.senders at hi
          by_cases e : i = s.server
          · subst e
            rw [eT]
            exact u1
          · split_ifs at hi with h3
            · exact absurd (List.mem_singleton.1 hi) e
            · have hi := (List.mem_cons.1 hi).resolve_left e
              rw [eO i hi, encoded_other hi]
              exact t1 h3 i hi
        · cases h
          funext i
          congr 1
          congr 1
          rw [List.map_map]
          have : (Gf.ofNat ∘ Gf.val) = id := funext ofNat_val
          rw [this, List.map_id]

theorem Tables.unique {T U : Nat → Nat → Gf} (h : Tables aes s C inputs T) (h' : Tables aes s C inputs U) {i : Nat} (hi : i ∈ s.senders) :
    T i = U i := by
  exact Except.ok.inj ((h i hi).2.symm.trans (h' i hi).2)

theorem tag_congr {T U : Nat → Nat → Gf} (h : ∀ i ∈ s.senders, T i = U i) :
    tagR s C inputs T = tagR s C inputs U ∧ tagH aes s C inputs T = tagH aes s C inputs U := by
  constructor
  · funext x
    unfold tagR
    rw [h _ mem_senders_server]
  · funext x
    unfold tagH
    split_ifs with h3
    · rfl
    · congr 2
      apply List.map_congr_left
      intro i hi
      rw [h i (mem_senders_other h3 hi)]

/-! ### C73 -/

/-- **C73** an item that all parties have has the same value at helper and receiver. -/
theorem nty_agree (ho : Honest aes aesInv s C inputs) (hv : s.valid = true) {T : Nat → Nat → Gf} (hT : Tables aes s C inputs T) {x : Gf}
    (hx : Common s inputs x) : tagH aes s C inputs T x = tagR s C inputs T x := by
  unfold Setup.valid at hv
  simp only [decide_eq_true_eq] at hv
  unfold tagH tagR
  congr 1
  rw [(hT _ mem_senders_server).dec_eq (ho.store _ mem_senders_server) (hx _ hv.2.2.2.1)]
  unfold encoded prfSum
  rw [if_pos rfl]
  split_ifs with h3
  · rfl
  · congr 1
    apply List.map_congr_left
    intro i hi
    have := (hT i (mem_senders_other h3 hi)).dec_eq (ho.store i (mem_senders_other h3 hi)) (hx i (mem_others.1 hi).1)
    rw [this, encoded_other hi]

/-- **C73** in every run that ends, an item of the result is the receiver's, and its value is one of the helper's. -/
theorem nty_sound (ho : Honest aes aesInv s C inputs) {out : Nat → List Gf} (h : run aes aesInv s broadcast C inputs = .ok out) :
    ∃ T, Tables aes s C inputs T ∧ ∀ x ∈ out s.receiver, x ∈ inputs s.receiver ∧
      ∃ y ∈ inputs s.helper, tagH aes s C inputs T y = tagR s C inputs T x := by
  obtain ⟨-, T, raw, res, h1, h2, h3, rfl⟩ := run_split ho h
  refine ⟨T, h1, fun x hx => ?_⟩
  simp only [if_pos] at hx
  have hraw : ∀ t ∈ raw, t ∈ (inputs s.helper).map (tagH aes s C inputs T) ∧ t ∈ (inputs s.receiver).map (tagR s C inputs T) := by
    intro t ht
    have := List.count_pos_iff.2 ht
    rw [h2] at this
    exact ⟨List.count_pos_iff.1 (lt_of_lt_of_le this (min_le_left _ _)), List.count_pos_iff.1 (lt_of_lt_of_le this (min_le_right _ _))⟩
  have := (getIntersection_count ho.len (fun t ht => (hraw t ht).2) h3).1 x hx
  refine ⟨this.1, ?_⟩
  obtain ⟨y, hy, e⟩ := List.mem_map.1 (hraw _ this.2).1
  exact ⟨y, hy, e⟩

/-- **C73** how often an item is in the result, when the values tell the receiver's items apart. -/
theorem nty_count (ho : Honest aes aesInv s C inputs) {T : Nat → Nat → Gf} (hT : Tables aes s C inputs T)
    (hinj : ∀ x ∈ inputs s.receiver, ∀ y ∈ inputs s.receiver, tagR s C inputs T x = tagR s C inputs T y → x = y)
    {out : Nat → List Gf} (h : run aes aesInv s broadcast C inputs = .ok out) {x : Gf} (hx : x ∈ inputs s.receiver) :
    (out s.receiver).count x =
      min (((inputs s.helper).map (tagH aes s C inputs T)).count (tagR s C inputs T x)) ((inputs s.receiver).count x) := by
  obtain ⟨-, U, raw, res, h1, h2, h3, rfl⟩ := run_split ho h
  obtain ⟨e1, e2⟩ := tag_congr (aes := aes) (inputs := inputs) (C := C) fun i hi => hT.unique h1 hi
  rw [← e1] at h2 h3
  rw [← e2] at h2
  simp only [if_pos]
  have hraw : ∀ t ∈ raw, t ∈ (inputs s.receiver).map (tagR s C inputs T) := by
    intro t ht
    have := List.count_pos_iff.2 ht
    rw [h2] at this
    exact List.count_pos_iff.1 (lt_of_lt_of_le this (min_le_right _ _))
  rw [(getIntersection_count ho.len hraw h3).2 hinj x hx, h2]
  congr 1
  rw [List.count, List.countP_map, List.count]
  apply List.countP_congr
  intro y hy
  simp only [Function.comp, beq_iff_eq]
  exact ⟨hinj y hy x hx, fun e => by rw [e]⟩

/-- **C73** no item that all parties have is missed, when the values tell the receiver's items apart. -/
theorem nty_complete (ho : Honest aes aesInv s C inputs) {T : Nat → Nat → Gf} (hT : Tables aes s C inputs T)
    (hinj : ∀ x ∈ inputs s.receiver, ∀ y ∈ inputs s.receiver, tagR s C inputs T x = tagR s C inputs T y → x = y)
    {out : Nat → List Gf} (h : run aes aesInv s broadcast C inputs = .ok out) {x : Gf} (hx : Common s inputs x) :
    x ∈ out s.receiver := by
  have hv := (run_split ho h).1
  have hv' := hv
  unfold Setup.valid at hv'
  simp only [decide_eq_true_eq] at hv'
  have hR := hx _ hv'.2.2.2.2.2.1
  have hH := hx _ hv'.2.2.2.2.1
  rw [← List.count_pos_iff, nty_count ho hT hinj h hR, lt_min_iff, List.count_pos_iff, List.count_pos_iff]
  exact ⟨List.mem_map.2 ⟨x, hH, nty_agree ho hv hT hx⟩, hR⟩

/-- **C73** without accidents the result is the intersection of all sets; repeated items of helper and receiver appear as often as
both have them. -/
theorem nty_exact (ho : Honest aes aesInv s C inputs) {T : Nat → Nat → Gf} (hT : Tables aes s C inputs T)
    (hn : NoAccident aes s C inputs T) {out : Nat → List Gf} (h : run aes aesInv s broadcast C inputs = .ok out) (x : Gf) :
    (x ∈ out s.receiver ↔ Common s inputs x) ∧
      (Common s inputs x → (out s.receiver).count x = min ((inputs s.helper).count x) ((inputs s.receiver).count x)) := by
  have hv := (run_split ho h).1
  have hv' := hv
  unfold Setup.valid at hv'
  simp only [decide_eq_true_eq] at hv'
  refine ⟨⟨fun hx => ?_, nty_complete ho hT hn.inj h⟩, fun hx => ?_⟩
  · obtain ⟨U, hU, h1⟩ := nty_sound ho h
    obtain ⟨e1, e2⟩ := tag_congr (aes := aes) (inputs := inputs) (C := C) fun i hi => hT.unique hU hi
    obtain ⟨h2, y, hy, e⟩ := h1 x hx
    rw [← e1, ← e2] at e
    exact (hn.only x h2 y hy e.symm).2
  · have hR := hx _ hv'.2.2.2.2.2.1
    rw [nty_count ho hT hn.inj h hR]
    congr 1
    rw [List.count, List.countP_map, List.count]
    apply List.countP_congr
    intro y hy
    simp only [Function.comp, beq_iff_eq]
    constructor
    · intro e
      exact (hn.only x hR y hy e.symm).1.symm
    · rintro rfl
      exact nty_agree ho hv hT hx

/-- **C73** for sets: the result is a set. -/
theorem nty_set (ho : Honest aes aesInv s C inputs) {T : Nat → Nat → Gf} (hT : Tables aes s C inputs T)
    (hn : NoAccident aes s C inputs T) {out : Nat → List Gf} (h : run aes aesInv s broadcast C inputs = .ok out)
    (hd : (inputs s.receiver).Nodup ∨ (inputs s.helper).Nodup) :
    (out s.receiver).Nodup ∧ ∀ x, x ∈ out s.receiver ↔ Common s inputs x := by
  refine ⟨List.nodup_iff_count_le_one.2 fun x => ?_, fun x => (nty_exact ho hT hn h x).1⟩
  by_cases hx : Common s inputs x
  · rw [(nty_exact ho hT hn h x).2 hx]
    rcases hd with hd | hd
    · exact (min_le_right _ _).trans (List.nodup_iff_count_le_one.1 hd x)
    · exact (min_le_left _ _).trans (List.nodup_iff_count_le_one.1 hd x)
  · rw [List.count_eq_zero.2 fun hm => hx ((nty_exact ho hT hn h x).1.1 hm)]
    exact Nat.zero_le _

/-- **C73** with broadcast all parties have the list of the receiver, without it the others have nothing. -/
theorem nty_broadcast (ho : Honest aes aesInv s C inputs) {out : Nat → List Gf} (h : run aes aesInv s broadcast C inputs = .ok out)
    {i : Nat} (hi : i < s.n) : out i = if i = s.receiver ∨ broadcast then out s.receiver else [] := by
  obtain ⟨-, T, raw, res, -, -, -, rfl⟩ := run_split ho h
  by_cases e : i = s.receiver
  · simp [e]
  · cases broadcast <;> simp [e, hi]

/-- **C73** a run ends as soon as all tables are made, the threads are let to finish and the random empty key of the map is none of the
receiver's values. -/
theorem nty_runs (ho : Honest aes aesInv s C inputs) (hv : s.valid = true) {T : Nat → Nat → Gf} (hT : Tables aes s C inputs T)
    (he : ∀ i ∈ s.senders, (C.store i).Ends (inputs i).length (inputs (if i = s.server then s.receiver else s.helper)).length)
    (hk : ∀ x ∈ inputs s.receiver, tagR s C inputs T x ≠ C.empty) : ∃ out, run aes aesInv s broadcast C inputs = .ok out := by
  have h1 := helperTags_ends (aes := aes) (T := T) (fun h3 i hi => ho.store i (mem_senders_other h3 hi))
    (fun h3 i hi => by
      have := he i (mem_senders_other h3 hi)
      rwa [if_neg (by rintro rfl; exact server_not_other hi)] at this)
    (fun h3 i hi => by
      have := hT i (mem_senders_other h3 hi)
      rwa [encoded_other hi] at this)
  have h2 := receiverTags_ends (aes := aes) (T := T) (ho.store _ mem_senders_server)
    (by have := he _ mem_senders_server; rwa [if_pos rfl] at this) (hT _ mem_senders_server)
  obtain ⟨msg, raw, m1, m2, m3⟩ := aided ho.inv ho.shuffleH ho.shuffleR ((inputs s.helper).map (tagH aes s C inputs T))
    ((inputs s.receiver).map (tagR s C inputs T))
  have hk' : C.empty ∉ (inputs s.receiver).map (tagR s C inputs T) := by
    intro hm
    obtain ⟨x, hx, e⟩ := List.mem_map.1 hm
    exact hk x hx e
  have hraw : C.empty ∉ raw := by
    rw [← List.count_eq_zero, m3, List.count_eq_zero.2 hk', Nat.min_zero]
  have h3 : ∃ res, getIntersection C.empty (inputs s.receiver) ((inputs s.receiver).map (tagR s C inputs T)) raw = .ok res := by
    unfold getIntersection
    rw [if_neg]
    · exact ⟨_, rfl⟩
    · rintro (h | h)
      · obtain ⟨x, hx, e⟩ := List.any_eq_true.1 h
        rw [decide_eq_true_eq] at e
        exact hk' (e ▸ hx)
      · obtain ⟨x, hx, e⟩ := List.any_eq_true.1 h
        rw [decide_eq_true_eq] at e
        exact hraw (e ▸ hx)
  obtain ⟨res, h3⟩ := h3
  unfold run
  rw [if_neg (not_not.2 hv)]
  simp only [bind, Except.bind, h1, h2, m1, m2, h3, unpack_packet]
  exact ⟨_, rfl⟩

/-- **C73** limit: when a party that encodes has no items, no run ends with the (empty) intersection. -/
theorem nty_empty {i : Nat} (hi : i ∈ s.senders) (he : inputs i = []) (out : Nat → List Gf) :
    run aes aesInv s broadcast C inputs ≠ .ok out := by
  intro h
  have hgen : ∀ (o : Store) hashed, genOkvs o [] hashed = .error .undefined := fun o hashed => rfl
  unfold run at h
  split_ifs at h
  simp only [bind, Except.bind] at h
  cases hh : helperTags aes s C inputs with
  | error e => rw [hh] at h; cases h
  | ok hl =>
    cases hr : receiverTags aes s C inputs with
    | error e => rw [hh, hr] at h; cases h
    | ok rl =>
      by_cases e : i = s.server
      · subst e
        unfold receiverTags at hr
        rw [he, hgen] at hr
        cases hr
      · unfold Setup.senders at hi
        split_ifs at hi with h3
        · exact e (List.mem_singleton.1 hi)
        · have hi := (List.mem_cons.1 hi).resolve_left e
          unfold helperTags at hh
          simp only [if_neg h3] at hh
          have key : ∀ (l : List Nat) (acc : List Gf), i ∈ l → ∀ r, l.foldlM (fun acc i => do
              let hashed := (inputs i).map (aes (C.seed i))
              let msgs ← genOkvs (C.store i) (inputs i) hashed
              let l ← decodeOkvs (C.store i) (inputs i).length msgs (inputs s.helper)
              (Except.ok (addAll acc l) : Except Err (List Gf))) acc ≠ .ok r := by
            intro l
            induction l with
            | nil => intro acc h; cases h
            | cons j l ih =>
              intro acc hj r hf
              rw [List.foldlM_cons] at hf
              by_cases e : j = i
              · subst e
                simp only [he, hgen] at hf
                cases hf
              · simp only [bind, Except.bind] at hf
                split at hf
                · cases hf
                · exact ih _ ((List.mem_cons.1 hj).resolve_left (Ne.symm e)) r hf
          cases hf : s.others.foldlM (fun acc i => do
              let hashed := (inputs i).map (aes (C.seed i))
              let msgs ← genOkvs (C.store i) (inputs i) hashed
              let l ← decodeOkvs (C.store i) (inputs i).length msgs (inputs s.helper)
              (Except.ok (addAll acc l) : Except Err (List Gf))) ((inputs s.helper).map fun _ => 0) with
          | error e => rw [hf] at hh; cases hh
          | ok r => exact key _ _ hi r hf

/-- **C73** limit: a message whose length is no multiple of 16 is copied behind the end of a vector. -/
theorem nty_short_message (helper receiver : Bytes) (h : helper.length % 16 ≠ 0 ∨ receiver.length % 16 ≠ 0) :
    serverAssist helper receiver = .error .undefined := by
  unfold serverAssist
  have hu : ∀ b : Bytes, unpack b = .error .undefined ∨ ∃ l, unpack b = .ok l := by
    intro b
    unfold unpack
    split_ifs
    · exact .inl rfl
    · exact .inr ⟨_, rfl⟩
  have hb : ∀ b : Bytes, b.length % 16 ≠ 0 → unpack b = .error .undefined := by
    intro b hb
    unfold unpack
    rw [if_pos hb]
  rcases hu helper with e | ⟨l, e⟩
  · rw [e]
    rfl
  · rcases h with h | h
    · rw [hb _ h] at e
      cases e
    · rw [e, hb _ h]
      rfl

end Psi.Nty
