import Verif.UbPsi.ExactLemmas
import Verif.EndToEnd.Lemmas
import Verif.Join.Props
import Mathlib.Algebra.Group.Fin.Basic

/-!
# UB-PSI: exact intersection, caches on disk, joins (C28, C29)
-/

namespace Psi.UbPsi
open Psi.Ecdh (Bytes dupMap dupAt)
open Psi.Spec (peerRows ExactIndex)
open Psi.Provider (ShufDup Sim)
open Psi.Provider.Spec (Shuffles Delivers reads)

variable {α G : Type} [AddCommGroup G] {c : Curve α G}

/-! ### OPRF (C28) -/

/-- **C28** (OPRF) Blinding, evaluation by the server and unblinding give the value the server computes
alone, in both forms of the hash, for every item and all keys. -/
theorem C28_oprf (hc : c.Lawful) (r key : Bytes) (hr : c.GoodKey r) (hk : c.GoodKey key) (x : α) :
    ∃ e v v', evaluate c key (blind c r x) = .ok e ∧
      finalize c r e = .ok v ∧ simpleEvaluate c key x = .ok v ∧
      finalizeItem c r (c.bytes x) e = .ok v' ∧ fullEvaluate c key x = .ok v' := by
  refine ⟨_, _, _, evaluate_blind hc r key hr x, finalize_ok hc r key hr hk x, simpleEvaluate_ok hc key x, ?_,
    hashItem_ok hc _ _⟩
  rw [finalizeItem, unblind_enc hc r key hr hk]
  exact hashItem_ok hc _ _

/-! ### Exact results (C28) -/

/-- Both caches after a successful offline phase. -/
structure Prepared (c : Curve α G) (key : Bytes) (server : List (α × Nat)) (cache : ServerCache) (disk : ClientDisk) :
    Prop where
  holds : ∃ order st, FromItems server order ∧ CacheOf cache (order.map (recOf c key)) ∧ cache.privKey = key ∧
    disk = flushStore st ∧ Holds st ((order.map (recOf c key)).map sent) ∧ st.cipherLen = c.cmpLen

theorem prepared_of_offline (hc : c.Lawful) (key : Bytes) (σ : Nat → Nat → List Nat)
    (hσ : ∀ k l, (σ k l).Perm (List.range l)) (raw : List (List (α × Nat))) (hne : ∀ b ∈ raw, b ≠ [])
    (hs : peerRows raw.flatten < 2 ^ 32) (genBatch transferBatch : Nat) (hg : 0 < genBatch)
    (ht : 0 < transferBatch) (junk : Nat → Bytes) (old : ClientDisk) (hold : old.file = none → old.info = none) :
    ∃ cache ms disk, genCache c key σ raw genBatch = .ok cache ∧ transferMsgs cache transferBatch = .ok ms ∧
      clientTransfer junk c.cmpLen ms old = (disk, true) ∧ Prepared c key raw.flatten cache disk := by
  have hle := length_le_rows raw.flatten
  obtain ⟨order, cache, h1, h2, h3, h4, h5, h6⟩ := genCache_ok hc key σ hσ raw hne genBatch hg (by omega)
    (fun x hx => by have := le_rows _ x hx; omega)
  have hf : FromItems raw.flatten order := ⟨h1, h2⟩
  have hrows : peerRows ((order.map (recOf c key)).map sent) = peerRows raw.flatten := by
    have e1 := (hf.perm.map (fun p => p.2 + 1)).sum_nat
    unfold peerRows
    rw [← e1, List.map_map, List.map_map, List.map_map]
    rfl
  have hp : 0 < cache.itemLen := by rw [h6]; exact cmpLen_pos c
  obtain ⟨ms, st, k1, k2, k3, k4⟩ := clientTransfer_ok h4 transferBatch ht hp (by rw [hrows]; exact hs) junk old hold
  rw [h6] at k2 k4
  exact ⟨cache, ms, flushStore st, h3, k1, k2, order, st, hf, h4, h5, rfl, k3, k4⟩

theorem online_of_prepared (hc : c.Lawful) (key : Bytes) (hk : c.GoodKey key) {server : List (α × Nat)}
    (hn : (server.map Prod.fst).Nodup) {cache : ServerCache} {disk : ClientDisk}
    (hp : Prepared c key server cache disk) (o : Online α) (kf : Option Bytes) (ho : GoodSession c key server o kf) :
    ∃ res, online c o kf cache disk = (.ok res, disk) ∧
      ExactResult server o.input.flatten o.clientGets o.serverGets res := by
  obtain ⟨order, st, hf, h1, h2, rfl, h3, h4⟩ := hp.holds
  have hopen := openStore_flush h3
  rw [h4] at hopen
  have hkey : serverKey kf cache = .ok key := by
    rcases ho.keyFile with rfl | rfl
    · simp only [serverKey, openCache_ok h1, h2]
    · rfl
  obtain ⟨self, p, view, e1, e2, e3, e4, -, -⟩ := exchange_ok hc o key ho.r hk ho.nodup
    (fun x hx y hy => ho.noClash x (by simp at hx ⊢; exact Or.inl hx) y (by simp at hy ⊢; exact Or.inl hy)) ho.perm ho.batch ho.small
  have hle := length_le_rows o.input.flatten
  have hsm := ho.small
  obtain ⟨found, f1, f2⟩ := computeIndices_ok self h3 o.batch o.threads ho.batch ho.threads (by
    intro t i hi
    rw [e2.finds] at hi
    obtain ⟨hi', -⟩ := List.getElem?_eq_some_iff.mp hi
    rw [List.length_map, e3.length_eq] at hi'
    omega)
  have hcl : NoClash c key (view.map Prod.fst ++ server.map Prod.fst) := by
    intro x hx y hy
    have hmem : ∀ z, z ∈ view.map Prod.fst ++ server.map Prod.fst → z ∈ o.input.flatten.map Prod.fst ++ server.map Prod.fst := by
      intro z hz
      rw [List.mem_append] at hz ⊢
      exact hz.imp (fun h => (e3.map Prod.fst).mem_iff.mp h) id
    exact ho.noClash x (hmem x hx) y (hmem y hy)
  have hclient : o.clientGets = true → ExactIndex o.input.flatten server (found.map (fun x => (x.1, x.2.2))) := by
    intro e
    have := client_exact e2 hf hcl hn f2
    rwa [e4 e] at this
  have hrows : st.peerCnt = peerRows server := by
    rw [h3.peer]
    have e1 := (hf.perm.map (fun p => p.2 + 1)).sum_nat
    unfold peerRows
    rw [← e1, List.map_map, List.map_map, List.map_map]
    rfl
  have hviewrows : peerRows view = peerRows o.input.flatten := (e3.map _).sum_nat
  unfold online
  rw [hopen]
  dsimp only
  unfold onlineWith
  rw [hkey]
  dsimp only
  rw [e1]
  dsimp only
  rw [f1]
  dsimp only
  have hco : (if o.clientGets then ∃ w, (if o.clientGets = true then
        some (found.map (fun x => (x.1, x.2.2)), st.peerCnt) else none) = some (w, peerRows server) ∧
        ExactIndex o.input.flatten server w
      else (if o.clientGets = true then some (found.map (fun x => (x.1, x.2.2)), st.peerCnt) else none) = none) := by
    by_cases e : o.clientGets = true
    · rw [if_pos e, if_pos e, hrows]
      exact ⟨_, rfl, hclient e⟩
    · rw [if_neg e, if_neg e]
  cases hsg : o.serverGets with
  | false => exact ⟨_, by rw [if_neg (by simp)], hco, by simp⟩
  | true =>
    rw [hsg] at e2
    obtain ⟨w, w1, w2⟩ := server_exact e2 hf hcl f2 h1 o.batch ho.batch
    have w3 : ExactIndex server o.input.flatten w :=
      ⟨w2.nodup, fun i d => by
        rw [w2.mem]
        constructor
        · rintro ⟨x, e, a, b⟩; exact ⟨x, e, a, e3.mem_iff.mp b⟩
        · rintro ⟨x, e, a, b⟩; exact ⟨x, e, a, e3.mem_iff.mpr b⟩⟩
    rw [w1]
    dsimp only
    refine ⟨_, by rw [if_pos rfl], hco, ?_⟩
    rw [if_pos rfl]
    exact ⟨w, by rw [e2.total rfl, hviewrows], w3⟩

/-- **C28** Generation of the server's cache, its transfer and an online phase all succeed.  The client then
has, for each own item that is also the server's, its position and the server's duplicate count, and nothing
else; the server, if it is to get the result, has the rows of the common items with the client's duplicate
counts, whether or not the client gets the result.  Both know the number of rows of the other.  This holds for
all shuffles, keys and batch sizes of the phases, and whatever was on the client's disk before. -/
theorem C28_exact_intersection (hc : c.Lawful) (key : Bytes) (hk : c.GoodKey key) (σ : Nat → Nat → List Nat)
    (hσ : ∀ k l, (σ k l).Perm (List.range l)) (raw : List (List (α × Nat))) (hne : ∀ b ∈ raw, b ≠ [])
    (hn : (raw.flatten.map Prod.fst).Nodup) (hs : peerRows raw.flatten < 2 ^ 32) (genBatch transferBatch : Nat)
    (hg : 0 < genBatch) (ht : 0 < transferBatch) (junk : Nat → Bytes) (old : ClientDisk)
    (hold : old.file = none → old.info = none) (o : Online α) (kf : Option Bytes)
    (ho : GoodSession c key raw.flatten o kf) :
    ∃ cache ms disk res,
      genCache c key σ raw genBatch = .ok cache ∧ transferMsgs cache transferBatch = .ok ms ∧
      clientTransfer junk c.cmpLen ms old = (disk, true) ∧ online c o kf cache disk = (.ok res, disk) ∧
      ExactResult raw.flatten o.input.flatten o.clientGets o.serverGets res := by
  obtain ⟨cache, ms, disk, h1, h2, h3, h4⟩ := prepared_of_offline hc key σ hσ raw hne hs genBatch transferBatch hg
    ht junk old hold
  obtain ⟨res, h5, h6⟩ := online_of_prepared hc key hk hn h4 o kf ho
  exact ⟨cache, ms, disk, res, h1, h2, h3, h5, h6⟩

/-! ### Histories of online phases (C29) -/

/-- **C29** After one offline phase any number of online phases, with any inputs, keys, shuffles and batch
sizes, and also such as fail, leave the client's cache as it was; every phase whose input meets the
assumptions gives the exact result, wherever in the history it stands. -/
theorem C29_any_history (hc : c.Lawful) (key : Bytes) (hk : c.GoodKey key) (σ : Nat → Nat → List Nat)
    (hσ : ∀ k l, (σ k l).Perm (List.range l)) (raw : List (List (α × Nat))) (hne : ∀ b ∈ raw, b ≠ [])
    (hn : (raw.flatten.map Prod.fst).Nodup) (hs : peerRows raw.flatten < 2 ^ 32) (genBatch transferBatch : Nat)
    (hg : 0 < genBatch) (ht : 0 < transferBatch) (junk : Nat → Bytes) (old : ClientDisk)
    (hold : old.file = none → old.info = none) :
    ∃ cache ms disk,
      genCache c key σ raw genBatch = .ok cache ∧ transferMsgs cache transferBatch = .ok ms ∧
      clientTransfer junk c.cmpLen ms old = (disk, true) ∧
      ∀ os : List (Online α × Option Bytes),
        (sessions c cache os disk).2 = disk ∧ (sessions c cache os disk).1.length = os.length ∧
        ∀ (i : Nat) (o : Online α) (kf : Option Bytes), os[i]? = some (o, kf) → GoodSession c key raw.flatten o kf →
          ∃ res, (sessions c cache os disk).1[i]? = some (.ok res) ∧
            ExactResult raw.flatten o.input.flatten o.clientGets o.serverGets res := by
  obtain ⟨cache, ms, disk, h1, h2, h3, h4⟩ := prepared_of_offline hc key σ hσ raw hne hs genBatch transferBatch hg
    ht junk old hold
  refine ⟨cache, ms, disk, h1, h2, h3, ?_⟩
  have hkeep : ∀ (o : Online α) kf, (online c o kf cache disk).2 = disk := by
    intro o kf
    obtain ⟨order, st, -, -, -, e, h5, h6⟩ := h4.holds
    have := openStore_flush h5
    rw [h6] at this
    rw [e, online, this]
  intro os
  induction os with
  | nil => exact ⟨rfl, rfl, by intro i o kf h; simp at h⟩
  | cons x os ih =>
    obtain ⟨i1, i2, i3⟩ := ih
    rw [sessions]
    dsimp only
    rw [hkeep]
    refine ⟨i1, by simp [i2], ?_⟩
    intro i o kf hi ho
    cases i with
    | zero =>
      simp only [List.getElem?_cons_zero, Option.some.injEq] at hi
      subst hi
      obtain ⟨res, r1, r2⟩ := online_of_prepared hc key hk hn h4 o kf ho
      exact ⟨res, by simp [r1], r2⟩
    | succ i =>
      obtain ⟨res, r1, r2⟩ := i3 i o kf (by simpa using hi) ho
      exact ⟨res, by simpa using r1, r2⟩

/-! ### The files (C29) -/

/-- **C29** A record written to the server's cache is read back unchanged. -/
theorem C29_record_round_trip (r : Rec) (h1 : r.origin < 2 ^ 32) (h2 : r.shuffle < 2 ^ 32) (h3 : r.dup < 2 ^ 32)
    (h4 : r.data.length ≤ 32) : r.bytes.length = 44 ∧ parseRec r.data.length r.bytes = r :=
  ⟨Rec.bytes_length r h4, parseRec_bytes r h1 h2 h3⟩

/-- **C29** Records appended to the server's cache are delivered in the order written, for every batch
size. -/
theorem C29_cache_in_order (recs : List Rec) (itemLen : Nat) (key : Bytes) (hl : itemLen ≤ 32)
    (hr : ∀ r ∈ recs, r.origin < 2 ^ 32 ∧ r.shuffle < 2 ^ 32 ∧ r.dup < 2 ^ 32 ∧ r.data.length = itemLen)
    (batch : Nat) (n : Nat) :
    let s : ServerCache := ⟨recs.flatMap Rec.bytes, itemLen, recs.length, key⟩
    openCache s = .ok () ∧ ∃ outs pos, reads (readCache s batch) n 0 = .ok (outs, pos) ∧ outs.length = n ∧
      Delivers recs batch outs := by
  intro s
  have hs : CacheOf s recs := ⟨rfl, rfl, hl, hr⟩
  refine ⟨openCache_ok hs, ?_⟩
  obtain ⟨outs, pos, h1, h2, h3, -⟩ := Psi.Provider.delivers_of_pending (readCache s batch)
    (fun pos => recs.drop pos) batch (fun _ => True) (by
      intro pos _
      obtain ⟨p, h1, h2⟩ := readCache_step hs batch pos
      exact ⟨p, h1, h2, trivial⟩) n 0 trivial
  exact ⟨outs, pos, h1, h2, h3⟩

/-- **C29** The client's file holds the items of the server's cache with their duplicate counts, in the
order of the cache, and delivers them for every batch size. -/
theorem C29_client_file (recs : List Rec) (itemLen : Nat) (key : Bytes) (hp : 0 < itemLen) (hl : itemLen ≤ 32)
    (hr : ∀ r ∈ recs, r.origin < 2 ^ 32 ∧ r.shuffle < 2 ^ 32 ∧ r.dup < 2 ^ 32 ∧ r.data.length = itemLen)
    (hs : peerRows (recs.map (fun r => (r.data, r.dup))) < 2 ^ 32) (transferBatch : Nat) (ht : 0 < transferBatch)
    (junk : Nat → Bytes) (old : ClientDisk) (hold : old.file = none → old.info = none) (batch n : Nat) :
    ∃ ms disk st outs pos,
      transferMsgs ⟨recs.flatMap Rec.bytes, itemLen, recs.length, key⟩ transferBatch = .ok ms ∧
      clientTransfer junk itemLen ms old = (disk, true) ∧ openStore disk itemLen = .ok st ∧
      flushStore st = disk ∧ st.itemCnt = recs.length ∧
      st.peerCnt = peerRows (recs.map (fun r => (r.data, r.dup))) ∧
      reads (readStore st batch) n 0 = .ok (outs, pos) ∧ outs.length = n ∧
      Delivers (recs.map (fun r => (r.data, r.dup))) batch outs := by
  have hc : CacheOf ⟨recs.flatMap Rec.bytes, itemLen, recs.length, key⟩ recs := ⟨rfl, rfl, hl, hr⟩
  obtain ⟨ms, st, h1, h2, h3, h4⟩ := clientTransfer_ok hc transferBatch ht hp hs junk old hold
  have ho := openStore_flush h3
  rw [h4] at ho
  obtain ⟨outs, pos, k1, k2, k3, -⟩ := Psi.Provider.delivers_of_pending (readStore st batch)
    (fun pos => (recs.map sent).drop pos) batch (fun _ => True) (by
      intro pos _
      obtain ⟨p, e1, e2⟩ := readStore_step h3 batch pos
      exact ⟨p, e1, e2, trivial⟩) n 0 trivial
  refine ⟨ms, _, st, outs, pos, h1, h2, ho, rfl, ?_, h3.peer, k1, k2, k3⟩
  rw [h3.cnt, List.length_map]

/-! ### From tables to output files (C28) -/

section Join
open Psi.Join Psi.Join.Spec Psi.EndToEnd

variable {RA RB K : Type} [LinearOrder K]

/-- The output of a party from what the protocol hands it (index lines and row count of the peer); `none` if
it gets nothing or the join fails.  `MemoryIndexReader` hands out the lines in index order (C33), as the file
reader does. -/
def joined (t : JoinType) (isLeft : Bool) (header : RA) (key : RA → K) (A : List RA)
    (rbs : List (List (KeyRec K))) (r : Option (List (Nat × Nat) × Nat)) : Option (List (OutLine RA)) :=
  match r with
  | none => none
  | some (w, n) =>
    match finalizeStat t isLeft header (sortTable (fun a b => decide (a ≤ b)) key A) rbs w with
    | .error _ => none
    | .ok res => some (finalizeOut true t isLeft res n)

theorem peerRows_records {e : K} {keyA : RA → K} {A : List RA} {kbs rbs} (h : Input e keyA A kbs rbs) :
    peerRows (records e kbs) = A.length := by
  have h1 : ∀ rs : List (KeyRec K), peerRows (rs.map (fun r => (r.key, r.dup))) = (expand rs).length := by
    intro rs
    induction rs with
    | nil => rfl
    | cons r rs ih =>
      rw [expand_cons, List.length_append, List.length_replicate, ← ih]
      simp [peerRows]
  rw [records, h1, h.recs.1, List.length_map]
  exact (sortTable_perm keyA A).length_eq

/-- **C28** (end to end) Two tables, the offline phase and an online phase of unbalanced PSI, and the join: a
party that is to get the result gets the rows the join type asks for, each the right number of times, and the
right number of empty rows; if both get it, the two outputs fit line by line.  `A` is the client's table. -/
theorem C28_join_end_to_end [DecidableEq RA] [DecidableEq RB] {c : Curve K G}
    {eA : K} {keyA : RA → K} {A : List RA} {kbsA rbsA} (hA : Input eA keyA A kbsA rbsA)
    {eB : K} {keyB : RB → K} {B : List RB} {kbsB rbsB} (hB : Input eB keyB B kbsB rbsB)
    (hlA : A.length < 2 ^ 32) (hlB : B.length < 2 ^ 32)
    (hc : c.Lawful) (key : Bytes) (hk : c.GoodKey key) (σ : Nat → Nat → List Nat)
    (hσ : ∀ k l, (σ k l).Perm (List.range l)) (raw : List (List (K × Nat))) (hne : ∀ b ∈ raw, b ≠ [])
    (hraw : raw.flatten = records eB kbsB) (genBatch transferBatch : Nat)
    (hg : 0 < genBatch) (ht : 0 < transferBatch) (junk : Nat → Bytes) (old : ClientDisk)
    (hold : old.file = none → old.info = none) (o : Online K) (hin : o.input.flatten = records eA kbsA)
    (kf : Option Bytes) (hkf : kf = none ∨ kf = some key) (hr : c.GoodKey o.r)
    (hcl : NoClash c key (A.map keyA ++ B.map keyB)) (hperm : ∀ n, (o.perm n).Perm (List.range n))
    (hb : 0 < o.batch) (hth : 0 < o.threads) (t : JoinType) (aIsLeft : Bool) (headerA : RA) (headerB : RB) :
    ∃ cache ms disk res,
      genCache c key σ raw genBatch = .ok cache ∧ transferMsgs cache transferBatch = .ok ms ∧
      clientTransfer junk c.cmpLen ms old = (disk, true) ∧ online c o kf cache disk = (.ok res, disk) ∧
      (o.clientGets = true → ∃ outA, joined t aIsLeft headerA keyA A rbsA res.client = some outA ∧
        (∀ r, outA.count (.own r) = rowMultiplicity t aIsLeft keyA A keyB B r) ∧
        outA.count .na = (if keepUnmatched t (!aIsLeft) then (unmatched keyB B keyA A).length else 0)) ∧
      (o.serverGets = true → ∃ outB, joined t (!aIsLeft) headerB keyB B rbsB res.server = some outB ∧
        (∀ r, outB.count (.own r) = rowMultiplicity t (!aIsLeft) keyB B keyA A r) ∧
        outB.count .na = (if keepUnmatched t aIsLeft then (unmatched keyA A keyB B).length else 0)) ∧
      ∀ outA outB, joined t aIsLeft headerA keyA A rbsA res.client = some outA →
        joined t (!aIsLeft) headerB keyB B rbsB res.server = some outB →
        List.Forall₂ (Fits keyA A keyB B) outA outB := by
  have hrA := peerRows_records hA
  have hrB := peerRows_records hB
  have session : ∀ o' : Online K, o'.input = o.input → o'.r = o.r → o'.perm = o.perm → o'.batch = o.batch →
      o'.threads = o.threads → GoodSession c key raw.flatten o' kf := by
    intro o' h1 h2 h3 h4 h5
    refine ⟨hkf, by rw [h2]; exact hr, ?_, ?_, by rw [h3]; exact hperm, by omega, by omega, ?_⟩
    · rw [h1, hin, records_fst]; exact hA.nodup_keys
    · rw [h1, hin, hraw, records_fst, records_fst]
      have hm : ∀ x, x ∈ protocolKeys eA kbsA ++ protocolKeys eB kbsB → x ∈ A.map keyA ++ B.map keyB := by
        intro x hx
        rw [List.mem_append] at hx ⊢
        exact hx.imp (hA.mem_keys x).mp (hB.mem_keys x).mp
      exact fun x hx y hy => hcl x (hm x hx) y (hm y hy)
    · rw [h1, hin, hrA]; exact hlA
  have hn : (raw.flatten.map Prod.fst).Nodup := by rw [hraw, records_fst]; exact hB.nodup_keys
  obtain ⟨cache, ms, disk, h1, h2, h3, h4⟩ := prepared_of_offline hc key σ hσ raw hne
    (by rw [hraw, hrB]; exact hlB) genBatch transferBatch hg ht junk old hold
  obtain ⟨res, h5, h6⟩ := online_of_prepared hc key hk hn h4 o kf (session o rfl rfl rfl rfl rfl)
  -- index lines of both sides exist whether or not this run delivers them
  obtain ⟨res', -, h7⟩ := online_of_prepared hc key hk hn h4 { o with clientGets := true, serverGets := true } kf
    (session _ rfl rfl rfl rfl rfl)
  have c1 := h6.forClient
  have s1 := h6.forServer
  obtain ⟨gA, -, hgA⟩ : ∃ w, res'.client = _ ∧ ExactIndex o.input.flatten raw.flatten w := by
    simpa using h7.forClient
  obtain ⟨gB, -, hgB⟩ : ∃ w, res'.server = _ ∧ ExactIndex raw.flatten o.input.flatten w := by
    simpa using h7.forServer
  rw [hin, hraw] at c1 s1 hgA hgB
  rw [hrB] at c1
  rw [hrA] at s1
  have main : ∀ wA wB, ExactIndex (records eA kbsA) (records eB kbsB) wA →
      ExactIndex (records eB kbsB) (records eA kbsA) wB →
      ∃ outA outB, joined t aIsLeft headerA keyA A rbsA (some (wA, B.length)) = some outA ∧
        joined t (!aIsLeft) headerB keyB B rbsB (some (wB, A.length)) = some outB ∧
        (∀ r, outA.count (.own r) = rowMultiplicity t aIsLeft keyA A keyB B r) ∧
        (∀ r, outB.count (.own r) = rowMultiplicity t (!aIsLeft) keyB B keyA A r) ∧
        outA.count .na = (if keepUnmatched t (!aIsLeft) then (unmatched keyB B keyA A).length else 0) ∧
        outB.count .na = (if keepUnmatched t aIsLeft then (unmatched keyA A keyB B).length else 0) ∧
        List.Forall₂ (Fits keyA A keyB B) outA outB := by
    intro wA wB eA' eB'
    have lA := lawful_of_exact hA hB wA eA'
    have lB := lawful_of_exact hB hA wB eB'
    obtain ⟨resA, resB, r1, r2, r3⟩ := C03_joins_exact_and_aligned hA hB t aIsLeft headerA headerB wA wB lA lB
    have oA : resA.1.original = A.length := by
      have := party_stat hA t aIsLeft headerA keyB B wA lA
      rw [this] at r1
      cases r1; rfl
    have oB : resB.1.original = B.length := by
      have := party_stat hB t (!aIsLeft) headerB keyA A wB lB
      rw [this] at r2
      cases r2; rfl
    simp only [oA, oB] at r3
    exact ⟨_, _, by simp only [joined, r1], by simp only [joined, r2], r3⟩
  refine ⟨cache, ms, disk, res, h1, h2, h3, h5, ?_, ?_, ?_⟩
  · intro e
    rw [if_pos e] at c1
    obtain ⟨w, e1, e2⟩ := c1
    obtain ⟨outA, outB, j1, -, j3, -, j5, -⟩ := main w gB e2 hgB
    exact ⟨outA, by rw [e1]; exact j1, j3, j5⟩
  · intro e
    rw [if_pos e] at s1
    obtain ⟨w, e1, e2⟩ := s1
    obtain ⟨outA, outB, -, j2, -, j4, -, j6, -⟩ := main gA w hgA e2
    exact ⟨outB, by rw [e1]; exact j2, j4, j6⟩
  · intro outA outB q1 q2
    have eC : o.clientGets = true := by
      by_contra hne
      rw [if_neg hne] at c1
      rw [c1] at q1
      simp [joined] at q1
    have eS : o.serverGets = true := by
      by_contra hne
      rw [if_neg hne] at s1
      rw [s1] at q2
      simp [joined] at q2
    rw [if_pos eC] at c1
    rw [if_pos eS] at s1
    obtain ⟨wA, a1, a2⟩ := c1
    obtain ⟨wB, b1, b2⟩ := s1
    obtain ⟨oA, oB, j1, j2, -, -, -, -, j7⟩ := main wA wB a2 b2
    rw [a1, j1] at q1
    rw [b1, j2] at q2
    cases q1
    cases q2
    exact j7

end Join

/-! ### Instances and limits -/

namespace Ex

/-- A group of order 11 with one-byte points, keys of one byte. -/
def curve : Curve Nat (Fin 11) where
  order := 11
  scalar := fun b => (b.headD 1).toNat
  inverse := fun k => k ^ 9 % 11
  point := fun x => Fin.ofNat 11 (x % 10 + 1)
  enc := fun g => [UInt8.ofNat g.val]
  dec := fun b => if (b.headD 0).toNat = 0 then none else some (Fin.ofNat 11 (b.headD 0).toNat)
  bytes := fun x => [UInt8.ofNat x]
  digest := fun b => b ++ List.replicate 12 7
  pointLen := 1
  compareLength := 0

theorem lawful : curve.Lawful where
  order := by decide
  inverse := by
    intro k hk
    show k * (k ^ 9 % 11) % 11 = 1
    have h0 : k % 11 ≠ 0 := by
      intro h
      have : 11 ∣ Nat.gcd k 11 := Nat.dvd_gcd (Nat.dvd_of_mod_eq_zero h) (Nat.dvd_refl _)
      rw [show Nat.gcd k 11 = 1 from hk] at this
      omega
    have h1 : k % 11 < 11 := Nat.mod_lt _ (by decide)
    rw [Nat.mul_mod, Nat.mod_mod, Nat.pow_mod]
    generalize k % 11 = m at h0 h1
    have : ∀ m < 11, m ≠ 0 → m * (m ^ 9 % 11) % 11 = 1 := by decide
    exact this m h1 h0
  point := by
    intro x h
    have := congrArg Fin.val h
    simp [curve, Fin.ofNat] at this
    omega
  round := by decide
  encLen := fun _ => rfl
  lenPos := by decide
  digestLen := by intro b; show 12 ≤ (b ++ List.replicate 12 7).length; simp
  cmpLt := by decide

theorem good (b : UInt8) (h : Nat.Coprime b.toNat 11) : curve.GoodKey [b] := h

/-- The shuffles reverse. -/
def σ : Nat → Nat → List Nat := fun _ l => (List.range l).reverse

theorem hσ : ∀ k l, (σ k l).Perm (List.range l) := fun _ _ => List.reverse_perm _

def raw : List (List (Nat × Nat)) := [[(3, 2), (7, 0)], [(9, 0)]]

def session (cg sg : Bool) : Online Nat where
  input := [[(1, 0), (3, 1)], [(7, 0)]]
  r := [3]
  clientGets := cg
  serverGets := sg
  perm := fun l => (List.range l).reverse
  batch := 2
  threads := 2

theorem goodSession (cg sg : Bool) : GoodSession curve [5] raw.flatten (session cg sg) none where
  keyFile := Or.inl rfl
  r := by unfold Curve.GoodKey; decide +revert
  nodup := by decide +revert
  noClash := by unfold NoClash; decide +revert
  perm := fun _ => List.reverse_perm _
  batch := by decide +revert
  threads := by decide +revert
  small := by decide +revert

def fresh : ClientDisk := ⟨none, none⟩

/-- The cache built from `raw`. -/
def cache (batch : Nat) : Except Err ServerCache := genCache curve [5] σ raw batch

/-- Does `P` hold of the cache of batch size 2 and the messages that transfer it one by one? -/
def chain (P : ServerCache → List Batch → Prop) [∀ a b, Decidable (P a b)] : Bool :=
  match cache 2 with
  | .error _ => false
  | .ok s =>
    match transferMsgs s 1 with
    | .error _ => false
    | .ok ms => decide (P s ms)

theorem of_chain {P : ServerCache → List Batch → Prop} [∀ a b, Decidable (P a b)] (h : chain P = true) :
    ∃ s ms, cache 2 = .ok s ∧ transferMsgs s 1 = .ok ms ∧ P s ms := by
  unfold chain at h
  split at h
  · simp at h
  · rename_i s hs
    split at h
    · simp at h
    · rename_i ms hm
      exact ⟨s, ms, hs, hm, of_decide_eq_true h⟩

end Ex

example := C28_oprf Ex.lawful [3] [5] (Ex.good 3 (by decide)) (Ex.good 5 (by decide)) 7

example (cg sg : Bool) := C28_exact_intersection Ex.lawful [5] (Ex.good 5 (by decide)) Ex.σ Ex.hσ Ex.raw
  (by decide) (by decide) (by decide) 2 1 (by decide) (by decide) (fun _ => [1, 2]) Ex.fresh (by decide)
  (Ex.session cg sg) none (Ex.goodSession cg sg)

example := C29_any_history Ex.lawful [5] (Ex.good 5 (by decide)) Ex.σ Ex.hσ Ex.raw
  (by decide) (by decide) (by decide) 2 1 (by decide) (by decide) (fun _ => [1, 2]) Ex.fresh (by decide)

example := C29_record_round_trip ⟨70000, 3, 2, [1, 2, 3]⟩ (by decide) (by decide) (by decide) (by decide)

example := C29_cache_in_order [⟨0, 1, 2, [1, 2, 3]⟩, ⟨1, 0, 0, [4, 5, 6]⟩] 3 [5] (by decide) (by decide) 1 3

example := C29_client_file [⟨0, 1, 2, [1, 2, 3]⟩, ⟨1, 0, 0, [4, 5, 6]⟩] 3 [5] (by decide) (by decide) (by decide)
  (by decide) 1 (by decide) (fun _ => []) Ex.fresh (by decide) 1 3

example := C28_join_end_to_end Psi.Join.Ex.inputA Psi.Join.Ex.inputB (by decide) (by decide) Ex.lawful [5]
  (Ex.good 5 (by decide)) Ex.σ Ex.hσ Ex.raw (by decide) (by decide) 2 1 (by decide) (by decide) (fun _ => [])
  Ex.fresh (by decide) (Ex.session true true) (by decide) none (Or.inl rfl) (Ex.good 3 (by decide))
  (by unfold NoClash; decide) (fun _ => List.reverse_perm _) (by decide) (by decide) .left true (0, 0) (0, 0)

/-- A run with concrete values: the client has the keys 1, 3 (twice), 7, the server 3 (three times), 7, 9. -/
example : (match Ex.cache 2 with
    | .error _ => none
    | .ok cache =>
      match transferMsgs cache 1 with
      | .error _ => none
      | .ok ms => some (online Ex.curve (Ex.session true true) none cache
          (clientTransfer (fun _ => [1]) 12 ms Ex.fresh).1).1)
    = some (.ok ⟨some ([(2, 0), (1, 2)], 5), some ([(1, 0), (0, 1)], 4)⟩) := by decide +kernel

/-- **C29** (limit) A transfer that breaks off after the first batch leaves a cache that the next online phase
accepts: it succeeds and misses common items without any sign of it. -/
theorem C29_interrupted_transfer_accepted :
    ∃ cache ms disk res, Ex.cache 2 = .ok cache ∧ transferMsgs cache 1 = .ok ms ∧
      clientTransfer (fun _ => []) 12 (ms.take 1) Ex.fresh = (disk, false) ∧
      online Ex.curve (Ex.session true false) none cache disk = (.ok res, disk) ∧
      res.client = some ([(2, 0)], 1) := by
  have h : Ex.chain (fun cache ms =>
      let d := clientTransfer (fun _ => []) 12 (ms.take 1) Ex.fresh
      d.2 = false ∧ online Ex.curve (Ex.session true false) none cache d.1
        = (.ok ⟨some ([(2, 0)], 1), none⟩, d.1)) = true := by decide +kernel
  obtain ⟨cache, ms, h1, h2, h3, h4⟩ := Ex.of_chain h
  exact ⟨cache, ms, _, _, h1, h2, Prod.ext rfl h3, h4, rfl⟩

/-- **C28** (limit) The key of the online phase is not compared with the key of the cache: with another key in
`server_secret_key_path` the phase succeeds and reports that nothing is common. -/
theorem C28_other_key_unnoticed :
    ∃ cache ms disk res, Ex.cache 2 = .ok cache ∧ transferMsgs cache 1 = .ok ms ∧
      clientTransfer (fun _ => []) 12 ms Ex.fresh = (disk, true) ∧
      online Ex.curve (Ex.session true true) (some [4]) cache disk = (.ok res, disk) ∧
      res = ⟨some ([], 5), some ([], 4)⟩ := by
  have h : Ex.chain (fun cache ms =>
      let d := clientTransfer (fun _ => []) 12 ms Ex.fresh
      d.2 = true ∧ online Ex.curve (Ex.session true true) (some [4]) cache d.1
        = (.ok ⟨some ([], 5), some ([], 4)⟩, d.1)) = true := by decide +kernel
  obtain ⟨cache, ms, h1, h2, h3, h4⟩ := Ex.of_chain h
  exact ⟨cache, ms, _, _, h1, h2, Prod.ext rfl h3, h4, rfl⟩

end Psi.UbPsi
