import Verif.Rr22.OprfLemmas

/-! # C22: both parties obtain the same pseudorandom value for a common item -/

namespace Psi.Rr22.Oprf
open Psi.Gf128 Psi.Okvs Psi.Baxos
open Psi.Ecdh (Bytes)

/-- The values of the two parties: one for every item, and the same value for the same item. -/
structure SameValues (ys xs outS outR : List Gf) : Prop where
  lenS : outS.length = ys.length
  lenR : outR.length = xs.length
  same : ∀ i j (hi : i < ys.length) (hj : j < xs.length), ys[i] = xs[j] → outS[i] = outR[j]

/-- The correlation produced by the VOLE. -/
def Vole.Holds (v : Vole Gf) (n : Nat) : Prop := ∀ k < n, v.b k = v.c k + v.delta * v.a k

/-- The same with 64-bit values at the receiver. -/
def Vole.HoldsLow (v : Vole Low) (n : Nat) : Prop := ∀ k < n, v.b k = v.c k + v.delta * (v.a k).1

/-- The mask of the malicious variant. -/
def maskOf (coins : Option (Gf × Gf)) : Option Gf := coins.map (fun x => x.2 + x.1)

theorem runFast_values (c : Cfg) (w : Wf c) (pr : Prims) (enc : List Row → (Nat → Gf) → Except Okvs.Err (Nat → Gf))
    (sS sR : Sched) (h2 : ∀ i ∈ sR.decode, i < max 1 sR.threads) (h3 : ∀ i ∈ sS.decode, i < max 1 sS.threads)
    (v : Vole Gf) (hv : v.Holds (tableSize c)) (coins : Option (Gf × Gf)) (ys xs outS outR : List Gf)
    (h : runFast c pr enc sS sR v coins ys xs = .ok (outS, outR)) :
    ∃ p, solveFast c pr enc sR.threads sR.solve1 sR.solve2 xs = .ok p ∧
      outR = xs.map (fun x => final pr (maskOf coins) x (Baxos.lookup c powCoef v.c (pr.hash x))) ∧
      outS = ys.map (fun y => final pr (maskOf coins) y (Baxos.lookup c powCoef v.c (pr.hash y) +
        v.delta * (Baxos.lookup c powCoef p (pr.hash y) + crHash pr y))) := by
  unfold runFast at h
  simp only [bind, Except.bind] at h
  cases hp : solveFast c pr enc sR.threads sR.solve1 sR.solve2 xs with
  | error e => rw [hp] at h; cases h
  | ok p =>
    rw [hp] at h
    simp only at h
    refine ⟨p, rfl, ?_⟩
    have hmask : ∃ m, m = maskOf coins ∧ maskR pr coins = .ok m ∧ maskS coins = .ok m := by
      cases coins with
      | none => exact ⟨none, rfl, rfl, rfl⟩
      | some x =>
        obtain ⟨ws, wr⟩ := x
        unfold maskR at h ⊢
        cases hm : receiverMask pr wr (senderCommit pr ws) (le16 ws.val) with
        | error e => simp only [hm, Except.map] at h; cases h
        | ok m =>
          have h1 := masks_agree pr ws wr m hm
          have h2 : m = wr + ws := by
            unfold senderMask at h1
            rw [if_neg (by rw [le16_length]; simp), ofLe_le16] at h1
            cases h1; rfl
          refine ⟨some m, by rw [h2]; rfl, ?_, ?_⟩
          · simp only [hm, Except.map]
          · unfold maskS
            simp only [h1, Except.map]
    obtain ⟨m, hm, e1, e2⟩ := hmask
    rw [e1, e2] at h
    simp only at h
    cases hd : decodeFast c pr sR.threads sR.decode xs v.c (fun j => (crHashAll pr xs).getD j 0) with
    | error e => rw [hd] at h; cases h
    | ok own =>
      have hown := decodeFast_ok w h2 hd
      rw [hd] at h
      simp only at h
      rw [hown, finish_ok] at h
      simp only at h
      have hrecv := recv_send (chunk := kSendChunkSize) (by decide) (maskTable (tableSize c) p v.a)
      rw [maskTable_length] at hrecv
      rw [hrecv] at h
      simp only at h
      unfold evalHashed at h
      simp only [bind, Except.bind] at h
      cases hd' : decodeFast c pr sS.threads sS.decode ys (senderTable v.b v.delta (maskTable (tableSize c) p v.a)) (fun _ => 0) with
      | error e => rw [hd'] at h; cases h
      | ok outs =>
        have houts := decodeFast_ok w h3 hd'
        rw [hd'] at h
        simp only at h
        have htab : ∀ k < tableSize c, senderTable v.b v.delta (maskTable (tableSize c) p v.a) k = v.c k + v.delta * p k := by
          intro k hk
          unfold senderTable
          rw [maskTable_length, if_pos hk, maskTable_getD _ _ _ _ hk, hv k hk, mul_add, add_assoc, add_comm (v.delta * p k), ← add_assoc (v.delta * v.a k),
            Gf.add_self, zero_add]
        unfold mulDelta at h
        rw [houts, range_map_getD, finish_ok] at h
        simp only at h
        cases h
        rw [hm]
        refine ⟨rfl, ?_⟩
        apply List.map_congr_left
        intro y _
        rw [lookup_corr w htab, mul_add, add_assoc]

/-- C22, fast mode and, with coins, its malicious variant: in every run that ends with values, whatever the threads, the two parties
have the same value for the same item. -/
theorem C22_fast_same_value (c : Cfg) (w : Wf c) (pr : Prims) (pick : Tri → Nat) (hp : PickOk c.S pick) (sS sR : Sched)
    (h1 : ∀ i ∈ sR.solve1, i < max 1 sR.threads) (h1' : ∀ i ∈ sR.solve2, i < max 1 sR.threads)
    (h2 : ∀ i ∈ sR.decode, i < max 1 sR.threads) (h3 : ∀ i ∈ sS.decode, i < max 1 sS.threads)
    (v : Vole Gf) (hv : v.Holds (tableSize c)) (coins : Option (Gf × Gf)) (ys xs outS outR : List Gf)
    (h : runFast c pr (encGf c pick) sS sR v coins ys xs = .ok (outS, outR)) : SameValues ys xs outS outR := by
  obtain ⟨p, e1, rfl, rfl⟩ := runFast_values c w pr (encGf c pick) sS sR h2 h3 v hv coins ys xs outS outR h
  refine ⟨by simp, by simp, fun i j hi hj e => ?_⟩
  rw [List.getElem_map, List.getElem_map, e]
  have : Baxos.lookup c powCoef p (pr.hash xs[j]) = crHash pr xs[j] := by
    unfold solveFast at e1
    split at e1
    · rename_i q hq
      cases e1
      have := solve_lookup (encOk_gf w.w0 w.wS hp) w.wS w.S62 w.bins h1 h1' hq j (by simpa using hj)
      rw [List.getElem_map] at this
      rw [this, crHashAll_getD pr xs j hj]
    · cases e1
  rw [this, Gf.add_self, mul_zero, add_zero]

/-- C22: a run ends with values as soon as the encoding of the receiver's items succeeds, when the threads are let to finish. -/
theorem C22_fast_runs (c : Cfg) (w : Wf c) (hi : paxosInitOk c 1 = true) (pr : Prims) (hsha : ∀ b, (pr.sha b).length = 32)
    (enc : List Row → (Nat → Gf) → Except Okvs.Err (Nat → Gf)) (sS sR : Sched) (coins : Option (Gf × Gf)) (ys xs : List Gf)
    (h2 : ∀ i ∈ sR.decode, i < max 1 sR.threads) (h3 : ∀ i ∈ sS.decode, i < max 1 sS.threads)
    (hf : Fair c (max 1 sR.threads) xs.length sR.decode) (hf' : Fair c (max 1 sS.threads) ys.length sS.decode) (v : Vole Gf) :
    (∃ out, runFast c pr enc sS sR v coins ys xs = .ok out) ↔ ∃ p, solveFast c pr enc sR.threads sR.solve1 sR.solve2 xs = .ok p := by
  have hdec : ∀ (s : Sched) (l : List Gf) (hf : Fair c (max 1 s.threads) l.length s.decode) (hr : ∀ i ∈ s.decode, i < max 1 s.threads) (t v0 : Nat → Gf),
      decodeFast c pr s.threads s.decode l t v0 = .ok (l.map (fun x => Baxos.lookup c powCoef t (pr.hash x))) := by
    intro s l hf hr t v0
    obtain ⟨u, hu⟩ := C45_gf_decode_total c w.w0 w.w20 w.wS w.S62 w.D0 hi s.threads s.decode (l.map pr.hash) (by simpa using hf) t v0
    have : decodeFast c pr s.threads s.decode l t v0 = .ok ((List.range l.length).map u) := by
      unfold decodeFast
      rw [hu]
    rw [this, decodeFast_ok w hr this]
  unfold runFast
  simp only [bind, Except.bind]
  constructor
  · rintro ⟨out, h⟩
    cases hp : solveFast c pr enc sR.threads sR.solve1 sR.solve2 xs with
    | error e => rw [hp] at h; cases h
    | ok p => exact ⟨p, rfl⟩
  · rintro ⟨p, hp⟩
    rw [hp]
    simp only
    have hrecv := recv_send (chunk := kSendChunkSize) (by decide) (maskTable (tableSize c) p v.a)
    rw [maskTable_length] at hrecv
    rw [hdec sR xs hf h2, hrecv]
    unfold evalHashed
    simp only [bind, Except.bind]
    rw [hdec sS ys hf' h3]
    unfold mulDelta
    simp only [finish_ok, range_map_getD]
    cases coins with
    | none => exact ⟨_, rfl⟩
    | some x =>
      have h1 : receiverMask pr x.2 (senderCommit pr x.1) (le16 x.1.val) = .ok (x.2 + Gf.ofNat (ofLe (le16 x.1.val))) := by
        unfold receiverMask
        rw [if_neg (by unfold senderCommit; rw [hsha]; simp), if_neg (by rw [le16_length]; simp), if_neg (by simp [senderCommit])]
      have h2 : senderMask x.1 (le16 x.2.val) = .ok (Gf.ofNat (ofLe (le16 x.2.val)) + x.1) := by
        unfold senderMask
        rw [if_neg (by rw [le16_length]; simp)]
      simp only [maskR, maskS, h1, h2, Except.map]
      exact ⟨_, rfl⟩

/-- C22: for an item of the sender that is not the receiver's, the value before the hash is off by the secret times the difference
between the table and the hash of the item: it is the receiver's only if the table decodes to this hash. -/
theorem C22_fast_offset (c : Cfg) (w : Wf c) (pr : Prims) (enc : List Row → (Nat → Gf) → Except Okvs.Err (Nat → Gf)) (sS sR : Sched)
    (h2 : ∀ i ∈ sR.decode, i < max 1 sR.threads) (h3 : ∀ i ∈ sS.decode, i < max 1 sS.threads)
    (v : Vole Gf) (hv : v.Holds (tableSize c)) (hdelta : v.delta ≠ 0) (coins : Option (Gf × Gf)) (ys xs outS outR : List Gf)
    (h : runFast c pr enc sS sR v coins ys xs = .ok (outS, outR)) :
    ∃ p, solveFast c pr enc sR.threads sR.solve1 sR.solve2 xs = .ok p ∧ ∀ i (hi : i < ys.length), ∃ u,
      outS[i]? = some (final pr (maskOf coins) ys[i] u) ∧
      (u = Baxos.lookup c powCoef v.c (pr.hash ys[i]) ↔ Baxos.lookup c powCoef p (pr.hash ys[i]) = crHash pr ys[i]) := by
  obtain ⟨p, e1, rfl, rfl⟩ := runFast_values c w pr enc sS sR h2 h3 v hv coins ys xs outS outR h
  refine ⟨p, e1, fun i hi => ⟨_, by rw [List.getElem?_map, List.getElem?_eq_getElem hi]; rfl, ?_⟩⟩
  constructor
  · intro h
    have h1 : v.delta * (Baxos.lookup c powCoef p (pr.hash ys[i]) + crHash pr ys[i]) = 0 := add_eq_left.mp h
    have h2 : Baxos.lookup c powCoef p (pr.hash ys[i]) + crHash pr ys[i] = 0 := by
      have := congrArg (Gf.inv v.delta * ·) h1
      simp only [mul_zero] at this
      rwa [← mul_assoc, mul_comm (Gf.inv v.delta), Gf.mul_inv _ hdelta, one_mul] at this
    have h3 := congrArg (· + crHash pr ys[i]) h2
    simp only [zero_add] at h3
    rwa [add_add_cancel_gf] at h3
  · intro h
    rw [h, Gf.add_self, mul_zero, add_zero]

/-- C22: the two forms of `Eval` give the same values. -/
theorem C22_eval_forms (c : Cfg) (pr : Prims) (threads : Nat) (sched : List Nat) (m : Option Gf) (delta : Gf) (table : Nat → Gf)
    (inputs : List Gf) : evalPlain c pr threads sched m delta table inputs =
      evalHashed c pr threads sched m table inputs (mulDelta pr delta inputs) := by
  unfold evalPlain evalHashed
  simp only [bind, Except.bind]
  cases decodeFast c pr threads sched inputs table (fun _ => 0) with
  | error e => rfl
  | ok outs =>
    simp only
    congr 1
    apply List.map_congr_left
    intro i hi
    rw [List.mem_range] at hi
    unfold mulDelta
    rw [List.getD_eq_getElem (l := inputs.map _) _ (by simpa using hi), List.getElem_map, List.getD_eq_getElem _ _ hi]

/-- C22: the receiver goes on only with the coins the sender has committed to; a second opening is a collision of SHA256. -/
theorem C22_coins_bound (pr : Prims) (ws wr : Gf) (opened : Bytes) (m : Gf)
    (h : receiverMask pr wr (senderCommit pr ws) opened = .ok m) :
    (opened = le16 ws.val ∧ m = wr + ws) ∨ (opened ≠ le16 ws.val ∧ pr.sha opened = pr.sha (le16 ws.val)) := by
  unfold receiverMask at h
  split at h
  · cases h
  · split at h
    · cases h
    · split at h
      · cases h
      · rename_i h3
        cases h
        by_cases e : opened = le16 ws.val
        · left
          refine ⟨e, ?_⟩
          rw [e, ofLe_le16]
        · exact Or.inr ⟨e, by simpa [senderCommit] using h3⟩

/-! ## Low communication mode -/

theorem solveLow_lookup {c : Cfg} (w : Wf c) {pr : Prims} {gMax : Nat} {pick : Tri → Nat} (hp : PickOk c.S pick)
    (hg : gMax ≤ c.D) (hov : ∀ i ≤ gMax, c.D * c.D.choose i < 2 ^ 64) {xs : List Gf} {p : Nat → Low}
    (h : solveLow c pr gMax pick xs = .ok p) (j : Nat) (hj : j < xs.length) :
    lookup1 c bitCoef p (pr.hash xs[j]) = low64 (crHash pr xs[j]) := by
  unfold solveLow at h
  split at h
  · cases h
  · split at h
    · cases h
    · rw [rows32_eq c.avx2 w.wS w.S62] at h
      split at h
      · rename_i q hq
        cases h
        have := encOk_bin (V := Low) w.w0 w.wS hp hg hov _ _ _ hq j (by simpa using hj)
        rw [List.getElem_map] at this
        unfold lookup1
        rw [this, List.getD_eq_getElem _ _ (by simpa using hj), List.getElem_map]
      · cases h

theorem runLow_values (c : Cfg) (w : Wf c) (hD : c.D ≤ 64) (pr : Prims) (gMax : Nat) (pick : Tri → Nat)
    (v : Vole Low) (hv : v.HoldsLow c.size) (ys xs : List Gf) (p : Nat → Low) (hp : solveLow c pr gMax pick xs = .ok p) :
    runLow c pr gMax pick v ys xs = .ok
      (ys.map (fun y => crHash pr (lookup1 c bitCoef v.c (pr.hash y) +
        v.delta * (lookup1 c bitCoef p (pr.hash y) + low64 (crHash pr y)).1)),
       xs.map (fun x => crHash pr (lookup1 c bitCoef v.c (pr.hash x)))) := by
  unfold runLow evalHashedLow
  have hrecv := recv_send (chunk := kSendChunkSize) (by decide) (maskTable c.size p v.a)
  rw [maskTable_length] at hrecv
  simp only [bind, Except.bind]
  rw [hp]
  simp only
  have htab : ∀ k < c.size, senderTableLow v.b v.delta (maskTable c.size p v.a) k = v.c k + v.delta * (p k).1 := by
    intro k hk
    unfold senderTableLow
    rw [maskTable_length, if_pos hk, maskTable_getD _ _ _ _ hk, hv k hk]
    show _ + v.delta * ((p k).1 + (v.a k).1) = _
    rw [mul_add, add_assoc, add_comm (v.delta * (p k).1), ← add_assoc (v.delta * (v.a k).1), Gf.add_self, zero_add]
  rw [decodeLow_ok w hD, hrecv]
  unfold mulDeltaLow
  simp only [finish_ok, decodeLow_ok w hD, range_map_getD]
  congr 2
  apply List.map_congr_left
  intro y _
  rw [lookup1_corr w htab]
  show crHash pr _ = crHash pr (_ + v.delta * ((lookup1 c bitCoef p (pr.hash y)).1 + (low64 (crHash pr y)).1))
  rw [mul_add, add_assoc]

/-- C22, low communication mode: a run ends with values as soon as the encoding of the receiver's items succeeds, and then the two
parties have the same value for the same item. -/
theorem C22_low_same_value (c : Cfg) (w : Wf c) (hD : c.D ≤ 64) (pr : Prims) (gMax : Nat) (pick : Tri → Nat) (hpick : PickOk c.S pick)
    (hg : gMax ≤ c.D) (hov : ∀ i ≤ gMax, c.D * c.D.choose i < 2 ^ 64)
    (v : Vole Low) (hv : v.HoldsLow c.size) (ys xs : List Gf) :
    (∀ outS outR, runLow c pr gMax pick v ys xs = .ok (outS, outR) → SameValues ys xs outS outR) ∧
    ((∃ out, runLow c pr gMax pick v ys xs = .ok out) ↔ ∃ p, solveLow c pr gMax pick xs = .ok p) := by
  constructor
  · intro outS outR h
    cases hp : solveLow c pr gMax pick xs with
    | error e =>
      unfold runLow at h
      simp only [bind, Except.bind] at h
      rw [hp] at h
      cases h
    | ok p =>
      rw [runLow_values c w hD pr gMax pick v hv ys xs p hp] at h
      cases h
      refine ⟨by simp, by simp, fun i j hi hj e => ?_⟩
      rw [List.getElem_map, List.getElem_map, e, solveLow_lookup w hpick hg hov hp j hj]
      show crHash pr (_ + v.delta * ((low64 (crHash pr xs[j])).1 + (low64 (crHash pr xs[j])).1)) = _
      rw [Gf.add_self, mul_zero, add_zero]
  · constructor
    · rintro ⟨out, h⟩
      cases hp : solveLow c pr gMax pick xs with
      | error e =>
        unfold runLow at h
        simp only [bind, Except.bind] at h
        rw [hp] at h
        cases h
      | ok p => exact ⟨p, rfl⟩
    · rintro ⟨p, hp⟩
      exact ⟨_, runLow_values c w hD pr gMax pick v hv ys xs p hp⟩

/-- C22: the two forms of `Eval` give the same values. -/
theorem C22_eval_forms_low (c : Cfg) (pr : Prims) (delta : Gf) (table : Nat → Gf) (inputs : List Gf) :
    evalPlainLow c pr delta table inputs = evalHashedLow c pr table inputs (mulDeltaLow pr delta inputs) := by
  unfold evalPlainLow evalHashedLow
  simp only [bind, Except.bind]
  cases decodeLow c pr inputs table (fun _ => 0) with
  | error e => rfl
  | ok outs =>
    simp only
    congr 1
    apply List.map_congr_left
    intro i hi
    rw [List.mem_range] at hi
    unfold mulDeltaLow
    rw [List.getD_eq_getElem (l := inputs.map _) _ (by simpa using hi), List.getElem_map, List.getD_eq_getElem _ _ hi]

/-! ## Examples -/

/-- Toy primitives. -/
def toy : Prims := ⟨fun k x => if x.val < 2 ^ 60 then x else k, fun x => x.val, fun b => (b ++ List.replicate 32 0).take 32, 1⟩

def toyR : List Gf := [0, 1, Gf.ofNat 2, Gf.ofNat (2 ^ 70 + 5)]
def toyS : List Gf := [Gf.ofNat 7, Gf.ofNat (2 ^ 70 + 5), 1]
def toySched : Sched := ⟨2, [0, 1, 1, 0], [1, 0], [1, 0, 0, 0, 1, 0, 1, 1]⟩

theorem toy_wf : Wf cfg2 := ⟨by decide, by decide, by decide, by decide, by decide, by decide⟩

theorem toy_solve : ∃ p, solveFast cfg2 toy (encGf cfg2 (minPick 10)) 2 [0, 1, 1, 0] [1, 0] toyR = .ok p := by
  have h : (match solveFast cfg2 toy (encGf cfg2 (minPick 10)) 2 [0, 1, 1, 0] [1, 0] toyR with
    | .ok _ => true | .error _ => false) = true := by decide +kernel
  split at h
  · rename_i out ho
    exact ⟨out, ho⟩
  · cases h

/-- Two threads each, a common item at different places, both variants. -/
example (a cc : Nat → Gf) (delta : Gf) (hd : delta ≠ 0) (coins : Option (Gf × Gf)) :
    ∃ outS outR, runFast cfg2 toy (encGf cfg2 (minPick 10)) toySched toySched
        ⟨a, fun k => cc k + delta * a k, cc, delta⟩ coins toyS toyR = .ok (outS, outR) ∧
      SameValues toyS toyR outS outR ∧ (outS.length = 3 → outR.length = 4 → outS[1]? = outR[3]?) ∧
      ∃ u, outS[0]? = some (final toy (maskOf coins) (Gf.ofNat 7) u) := by
  have hs := toy_solve
  obtain ⟨⟨outS, outR⟩, h⟩ := (C22_fast_runs cfg2 toy_wf (by decide) toy
    (fun b => by simp [toy]) (encGf cfg2 (minPick 10)) toySched toySched coins toyS toyR (by decide) (by decide)
    (by unfold Fair; decide) (by unfold Fair; decide) ⟨a, fun k => cc k + delta * a k, cc, delta⟩).mpr hs
  have h1 := C22_fast_same_value cfg2 toy_wf _ (minPick 10) (minPick_ok 10) toySched toySched (by decide) (by decide) (by decide) (by decide) _
    (fun _ _ => rfl) coins _ _ _ _ h
  obtain ⟨p, _, h2⟩ := C22_fast_offset cfg2 toy_wf _ _ toySched toySched (by decide) (by decide) _ (fun _ _ => rfl) hd coins _ _ _ _ h
  obtain ⟨u, hu, _⟩ := h2 0 (by decide)
  refine ⟨outS, outR, h, h1, fun l1 l2 => ?_, u, hu⟩
  rw [List.getElem?_eq_getElem (by omega), List.getElem?_eq_getElem (by omega)]
  exact congrArg some (h1.same 1 3 (by decide) (by decide) rfl)

/-- One bin, binary dense part. -/
def cfg1b : Cfg := ⟨4, 1, 4, fun _ => 4, 3, 10, 4, false⟩

example (a : Nat → Low) (cc : Nat → Gf) (delta : Gf) :
    ∃ outS outR, runLow cfg1b toy 2 (minPick 10) ⟨a, fun k => cc k + delta * (a k).1, cc, delta⟩ toyS toyR = .ok (outS, outR) ∧
      SameValues toyS toyR outS outR := by
  have hs : ∃ p, solveLow cfg1b toy 2 (minPick 10) toyR = .ok p := by
    have h : (match solveLow cfg1b toy 2 (minPick 10) toyR with | .ok _ => true | .error _ => false) = true := by decide +kernel
    split at h
    · rename_i out ho
      exact ⟨out, ho⟩
    · cases h
  have h := C22_low_same_value cfg1b ⟨by decide, by decide, by decide, by decide, by decide, by decide⟩ (by decide) toy 2 (minPick 10) (minPick_ok 10)
    (by decide) (by decide) ⟨a, fun k => cc k + delta * (a k).1, cc, delta⟩ (fun _ _ => rfl) toyS toyR
  obtain ⟨⟨outS, outR⟩, h2⟩ := h.2.mpr hs
  exact ⟨outS, outR, h2, h.1 _ _ h2⟩

example : receiverMask toy (Gf.ofNat 5) (senderCommit toy (Gf.ofNat 9)) (le16 9) = .ok (Gf.ofNat 5 + Gf.ofNat 9) := by
  decide +kernel

example : receiverMask toy (Gf.ofNat 5) (senderCommit toy (Gf.ofNat 9)) (le16 8) = .error .check := by
  decide +kernel

example (m : Gf) (h : receiverMask toy (Gf.ofNat 5) (senderCommit toy (Gf.ofNat 9)) (le16 9) = .ok m) : m = Gf.ofNat 5 + Gf.ofNat 9 := by
  rcases C22_coins_bound toy (Gf.ofNat 9) (Gf.ofNat 5) (le16 9) m h with h | h
  · exact h.2
  · exact absurd rfl h.1

end Psi.Rr22.Oprf
