import Verif.ThresholdUb.Lemmas

/-!
# Unbalanced PSI with a threshold (C59)
-/

namespace Psi.ThresholdUb
open Psi.Ecdh (Bytes)
open Psi.UbPsi hiding Result online onlineWith
open Psi.Spec (peerRows ExactIndex)
open Psi.Provider (ShufDup)
open Psi.Threshold (commonKeys Choice only)

variable {α G : Type} [AddCommGroup G] {c : Curve α G} [DecidableEq α]

/-- What the online phase must give for the chosen keys `T`, if `n` keys are common. -/
structure LimitedResult (server client : List (α × Nat)) (T : List α) (n : Nat) (clientGets serverGets : Bool)
    (res : Result) : Prop where
  forClient : if clientGets then ∃ w, res.client = some ⟨w, peerRows server, n, T.length⟩ ∧
      ExactIndex client (only T server) w
    else res.client = none
  forServer : if serverGets then ∃ w, res.server = some ⟨w, peerRows client, n, T.length⟩ ∧
      ExactIndex server (only T client) w
    else res.server = none

theorem online_of_prepared (hc : c.Lawful) (key : Bytes) (hk : c.GoodKey key) {server : List (α × Nat)}
    (hn : (server.map Prod.fst).Nodup) {cache : ServerCache} {disk : ClientDisk}
    (hp : Prepared c key server cache disk) (o : Online α) (tC tS : Nat) (kf : Option Bytes)
    (ho : GoodSession c key server o kf) :
    ∃ T, Choice tC o.input.flatten server T ∧
      ((o.serverGets = true → min tS (commonKeys o.input.flatten server).length
          = min tC (commonKeys o.input.flatten server).length) →
        ∃ res, online c o tC tS kf cache disk = (.ok res, disk) ∧
          LimitedResult server o.input.flatten T (commonKeys o.input.flatten server).length o.clientGets
            o.serverGets res) ∧
      ((o.serverGets = true ∧ min tS (commonKeys o.input.flatten server).length
          ≠ min tC (commonKeys o.input.flatten server).length) →
        online c o tC tS kf cache disk = (.error .throw, disk)) := by
  obtain ⟨order, st, hf, h1, h2, rfl, h3, h4⟩ := hp.holds
  have hopen := openStore_flush h3
  rw [h4] at hopen
  have hkey : serverKey kf cache = .ok key := by
    rcases ho.keyFile with rfl | rfl
    · simp only [serverKey, openCache_ok h1, h2]
    · rfl
  obtain ⟨self, p, view, e1, e2, e3, -, e4, e5⟩ := exchange_ok hc { o with clientGets := false } key ho.r hk ho.nodup
    (fun x hx y hy => ho.noClash x (by simp at hx ⊢; exact Or.inl hx) y (by simp at hy ⊢; exact Or.inl hy)) ho.perm ho.batch ho.small
  have e4 := e4 rfl
  dsimp only at e2 e3 e4 e5
  have hle := length_le_rows o.input.flatten
  have hsm := ho.small
  obtain ⟨found, f1, f2⟩ := computeIndices_ok self h3 o.batch o.threads ho.batch ho.threads (by
    intro t i hi
    rw [e2.finds] at hi
    obtain ⟨hi', -⟩ := List.getElem?_eq_some_iff.mp hi
    rw [List.length_map, e3.length_eq] at hi'
    omega)
  have hcl : NoClash c key (view.map Prod.fst ++ server.map Prod.fst) := by
    intro x hx y hy
    have hmem : ∀ z, z ∈ view.map Prod.fst ++ server.map Prod.fst → z ∈ o.input.flatten.map Prod.fst ++ server.map Prod.fst := by
      intro z hz
      rw [List.mem_append] at hz ⊢
      exact hz.imp (fun h => (e3.map Prod.fst).mem_iff.mp h) id
    exact ho.noClash x (hmem x hx) y (hmem y hy)
  have hi : (order.map ShufDup.item).Nodup := by
    have h3 := (hf.perm.map Prod.fst).nodup_iff.mpr hn
    rw [List.map_map] at h3
    exact h3
  have hall : ∀ i k d x y, order[k]? = some x → view[i]? = some y → x.item = y.1 → x.dup = d → (i, k, d) ∈ found :=
    fun i k d x y a1 a2 a3 a4 => (found_iff e2 hf hcl f2 _ _ _).mpr ⟨x, y, a1, a2, a3, a4⟩
  have hl : Lines view order found := by
    refine ⟨?_, fun i k d h => (found_iff e2 hf hcl f2 _ _ _).mp h, fun i k d x y a1 a2 a3 a4 _ => hall i k d x y a1 a2 a3 a4⟩
    rw [(f2.map _).nodup_iff]
    apply zipIdx_filterMap_nodup
    intro x y h
    simp only [hit, Option.map_eq_some_iff] at h
    obtain ⟨_, _, rfl⟩ := h
    rfl
  obtain ⟨hT, hlen⟩ := choice hl hi hf e3 ho.nodup hall tC
  have hl' : Lines view order (limit tC found) := hl.sublist hi (List.take_sublist _ _)
  have hTl : (keysOf order (limit tC found)).length = (limit tC found).length := keysOf_length hl'.sound
  have hrows : st.peerCnt = peerRows server := by
    rw [h3.peer]
    have e1 := (hf.perm.map (fun p => p.2 + 1)).sum_nat
    unfold peerRows
    rw [← e1, List.map_map, List.map_map, List.map_map]
    rfl
  have hviewrows : peerRows view = peerRows o.input.flatten := (e3.map _).sum_nat
  obtain ⟨w, w1, w2⟩ := client_lines hl' hi hf (ho.perm _) e4 o.perm rfl
  refine ⟨_, hT, ?_, ?_⟩
  · intro hmin
    unfold online
    rw [hopen]
    dsimp only
    unfold onlineWith
    rw [hkey]
    dsimp only
    rw [e1]
    dsimp only
    rw [f1]
    dsimp only
    rw [e5, w1]
    dsimp only
    have hco : ∃ co, (if o.clientGets then
          Except.ok (some (⟨w, st.peerCnt, found.length, (limit tC found).length⟩ : Out))
        else .ok none : Except Err (Option Out)) = .ok co ∧
        (if o.clientGets then ∃ w, co = some ⟨w, peerRows server, (commonKeys o.input.flatten server).length,
            (keysOf order (limit tC found)).length⟩ ∧
            ExactIndex o.input.flatten (only (keysOf order (limit tC found)) server) w
          else co = none) := by
      by_cases e : o.clientGets = true
      · rw [if_pos e, hrows, hlen, ← hTl]
        refine ⟨_, rfl, ?_⟩
        rw [if_pos e]
        exact ⟨w, rfl, w2⟩
      · rw [if_neg e]
        exact ⟨_, rfl, by rw [if_neg e]⟩
    obtain ⟨co, c1, c2⟩ := hco
    rw [c1]
    dsimp only
    cases hsg : o.serverGets with
    | false => exact ⟨_, by rw [if_neg (by simp)], c2, by simp⟩
    | true =>
      rw [hsg] at e2
      obtain ⟨ws, s1, s2⟩ := server_rows (c := c) (key := key) hl' hf (e2.dup rfl) h1 o.batch ho.batch
      have s3 : ExactIndex server (only (keysOf order (limit tC found)) o.input.flatten) ws :=
        ⟨s2.nodup, fun i d => by
          rw [s2.mem]
          constructor
          · rintro ⟨x, e, a, b⟩
            exact ⟨x, e, a, List.mem_filter.mpr ⟨e3.mem_iff.mp (List.mem_filter.mp b).1, (List.mem_filter.mp b).2⟩⟩
          · rintro ⟨x, e, a, b⟩
            exact ⟨x, e, a, List.mem_filter.mpr ⟨e3.mem_iff.mpr (List.mem_filter.mp b).1, (List.mem_filter.mp b).2⟩⟩⟩
      have hsz : ((limit tC found).map (fun x => (x.2.1, x.1))).length = min tS found.length := by
        rw [List.length_map, limit, List.length_take, hlen, hmin hsg]
        omega
      rw [if_pos rfl, serverOut, if_neg (by simpa using hsz), s1]
      dsimp only
      refine ⟨_, rfl, c2, ?_⟩
      rw [if_pos rfl]
      refine ⟨ws, ?_, s3⟩
      rw [e2.total rfl, hviewrows, List.length_map, hlen, hTl]
  · rintro ⟨hsg, hne⟩
    unfold online
    rw [hopen]
    dsimp only
    unfold onlineWith
    rw [hkey]
    dsimp only
    rw [e1]
    dsimp only
    rw [f1]
    dsimp only
    rw [e5, w1]
    dsimp only
    have hco : ∃ co, (if o.clientGets then
          Except.ok (some (⟨w, st.peerCnt, found.length, (limit tC found).length⟩ : Out))
        else .ok none : Except Err (Option Out)) = .ok co := by
      by_cases e : o.clientGets = true
      · exact ⟨_, by rw [if_pos e]⟩
      · exact ⟨_, by rw [if_neg e]⟩
    obtain ⟨co, c1⟩ := hco
    rw [c1]
    dsimp only
    have hsz : ((limit tC found).map (fun x => (x.2.1, x.1))).length ≠ min tS found.length := by
      rw [List.length_map, limit, List.length_take, hlen]
      intro h
      apply hne
      omega
    rw [if_pos hsg, serverOut, if_pos hsz]

/-- **C59** After an offline phase the online phase with a threshold succeeds, and there is one choice `T` of
common keys, of size `min threshold (number of common keys)`, such that each party that is to get the result
has exactly the lines of an intersection in which the peer has the keys `T` only.  Both save the true size of
the intersection and the size of `T`, and know the number of rows of the other.  The client's positions are
those of its own order although the server shuffled its items. -/
theorem C59_limited_exact (hc : c.Lawful) (key : Bytes) (hk : c.GoodKey key) (σ : Nat → Nat → List Nat)
    (hσ : ∀ k l, (σ k l).Perm (List.range l)) (raw : List (List (α × Nat))) (hne : ∀ b ∈ raw, b ≠ [])
    (hn : (raw.flatten.map Prod.fst).Nodup) (hs : peerRows raw.flatten < 2 ^ 32) (genBatch transferBatch : Nat)
    (hg : 0 < genBatch) (ht : 0 < transferBatch) (junk : Nat → Bytes) (old : ClientDisk)
    (hold : old.file = none → old.info = none) (o : Online α) (threshold : Nat) (kf : Option Bytes)
    (ho : GoodSession c key raw.flatten o kf) :
    ∃ cache ms disk res T,
      genCache c key σ raw genBatch = .ok cache ∧ transferMsgs cache transferBatch = .ok ms ∧
      clientTransfer junk c.cmpLen ms old = (disk, true) ∧
      online c o threshold threshold kf cache disk = (.ok res, disk) ∧
      Choice threshold o.input.flatten raw.flatten T ∧
      LimitedResult raw.flatten o.input.flatten T (commonKeys o.input.flatten raw.flatten).length o.clientGets
        o.serverGets res := by
  obtain ⟨cache, ms, disk, h1, h2, h3, h4⟩ := prepared_of_offline hc key σ hσ raw hne hs genBatch transferBatch hg
    ht junk old hold
  obtain ⟨T, hT, h5, -⟩ := online_of_prepared hc key hk hn h4 o threshold threshold kf ho
  obtain ⟨res, h6, h7⟩ := h5 (fun _ => rfl)
  exact ⟨cache, ms, disk, res, T, h1, h2, h3, h6, hT, h7⟩

/-- **C59** Parties with different thresholds: if the server is to get the result, the phase fails exactly if
the two thresholds leave different numbers of the common keys; otherwise the client's threshold counts. -/
theorem C59_different_thresholds (hc : c.Lawful) (key : Bytes) (hk : c.GoodKey key) (σ : Nat → Nat → List Nat)
    (hσ : ∀ k l, (σ k l).Perm (List.range l)) (raw : List (List (α × Nat))) (hne : ∀ b ∈ raw, b ≠ [])
    (hn : (raw.flatten.map Prod.fst).Nodup) (hs : peerRows raw.flatten < 2 ^ 32) (genBatch transferBatch : Nat)
    (hg : 0 < genBatch) (ht : 0 < transferBatch) (junk : Nat → Bytes) (old : ClientDisk)
    (hold : old.file = none → old.info = none) (o : Online α) (tClient tServer : Nat) (kf : Option Bytes)
    (ho : GoodSession c key raw.flatten o kf) :
    ∃ cache ms disk T,
      genCache c key σ raw genBatch = .ok cache ∧ transferMsgs cache transferBatch = .ok ms ∧
      clientTransfer junk c.cmpLen ms old = (disk, true) ∧
      Choice tClient o.input.flatten raw.flatten T ∧
      if o.serverGets = true ∧ T.length ≠ min tServer (commonKeys o.input.flatten raw.flatten).length then
        online c o tClient tServer kf cache disk = (.error .throw, disk)
      else ∃ res, online c o tClient tServer kf cache disk = (.ok res, disk) ∧
        LimitedResult raw.flatten o.input.flatten T (commonKeys o.input.flatten raw.flatten).length o.clientGets
          o.serverGets res := by
  obtain ⟨cache, ms, disk, h1, h2, h3, h4⟩ := prepared_of_offline hc key σ hσ raw hne hs genBatch transferBatch hg
    ht junk old hold
  obtain ⟨T, hT, h5, h6⟩ := online_of_prepared hc key hk hn h4 o tClient tServer kf ho
  refine ⟨cache, ms, disk, T, h1, h2, h3, hT, ?_⟩
  rw [hT.size]
  split
  · rename_i h
    exact h6 ⟨h.1, fun e => h.2 e.symm⟩
  · rename_i h
    exact h5 (fun e => by by_contra hne; exact h ⟨e, fun e' => hne e'.symm⟩)

/-! ### Instances -/

example (cg sg : Bool) := C59_limited_exact Ex.lawful [5] (Ex.good 5 (by decide)) Ex.σ Ex.hσ Ex.raw
  (by decide) (by decide) (by decide) 2 1 (by decide) (by decide) (fun _ => [1, 2]) Ex.fresh (by decide)
  (Ex.session cg sg) 1 none (Ex.goodSession cg sg)

example (cg sg : Bool) := C59_different_thresholds Ex.lawful [5] (Ex.good 5 (by decide)) Ex.σ Ex.hσ Ex.raw
  (by decide) (by decide) (by decide) 2 1 (by decide) (by decide) (fun _ => [1, 2]) Ex.fresh (by decide)
  (Ex.session cg sg) 1 2 none (Ex.goodSession cg sg)

/-- A run with concrete values: the client has the keys 1, 3 (twice), 7, the server 3 (three times), 7, 9.  Two
keys are common, one is delivered. -/
example : (match Ex.cache 2 with
    | .error _ => none
    | .ok cache =>
      match transferMsgs cache 1 with
      | .error _ => none
      | .ok ms => some (online Ex.curve (Ex.session true true) 1 1 none cache
          (clientTransfer (fun _ => [1]) 12 ms Ex.fresh).1).1)
    = some (.ok ⟨some ⟨[(2, 0)], 5, 2, 1⟩, some ⟨[(1, 0)], 4, 2, 1⟩⟩) := by decide +kernel

end Psi.ThresholdUb
