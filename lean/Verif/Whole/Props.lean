import Verif.Whole.BucketLemmas
import Verif.Bucketed.Props
import Verif.Pipeline.Props
import Verif.EndToEnd.Lemmas
import Verif.EndToEnd.Props

/-!
# From stored keys to index files and joins with RR22 and KKRT (C27, C46, C47)

`C46` and `C47` join what is proved of the parts: the bucket stores (C16), the OPRF (C22), the intersection step (C24), the pipeline (C23),
the KKRT round (C20, C21), the index file after interruptions (C17), and the join (C03).
-/

namespace Psi.Whole
open Psi.Bucket Psi.Spec Psi.Gf128 Psi.Bucketed Psi.EndToEnd Psi.Join Psi.Join.Spec
open Psi.Rr22 (maskSize)
open Psi.Rr22.Oprf (SameValues Prims Sched Vole runFast runLow Wf tableSize Low)

/-! ## Number of buckets (C27) -/

/-- **C27** With the same configured bucket size (`CheckPeerConfig` sees to that), both parties get the same number of buckets; none exactly
when one of them has no items; and then no party has more than `n` times the bucket size of items. -/
theorem C27_bucket_number_partial (a b conf : Nat) (ha : a + bucketSizeOf conf ≤ 2 ^ 64) (hb : b + bucketSizeOf conf ≤ 2 ^ 64) :
    ∃ n, bucketNum a b (bucketSizeOf conf) = some n ∧ bucketNum b a (bucketSizeOf conf) = some n ∧ (n = 0 ↔ a = 0 ∨ b = 0) ∧
      (0 < n → a ≤ n * bucketSizeOf conf ∧ b ≤ n * bucketSizeOf conf ∧ (n - 1) * bucketSizeOf conf < max a b) := by
  have hs : 0 < bucketSizeOf conf := by unfold bucketSizeOf; split <;> omega
  generalize bucketSizeOf conf = size at *
  have hz : size ≠ 0 := by omega
  have hceil : ∀ c, c + size ≤ 2 ^ 64 → c ≤ (c + size - 1) % 2 ^ 64 / size * size ∧
      (0 < c → ((c + size - 1) % 2 ^ 64 / size - 1) * size < c ∧ 0 < (c + size - 1) % 2 ^ 64 / size) := by
    intro c hc
    rw [Nat.mod_eq_of_lt (by omega)]
    have h1 := Nat.div_add_mod (c + size - 1) size
    have h2 := Nat.mod_lt (c + size - 1) hs
    rw [Nat.mul_comm] at h1
    refine ⟨by omega, fun hc => ?_⟩
    have h3 : 0 < (c + size - 1) / size := Nat.div_pos (by omega) hs
    refine ⟨?_, h3⟩
    rw [Nat.sub_mul]
    have : size ≤ (c + size - 1) / size * size := Nat.le_mul_of_pos_left _ h3
    omega
  refine ⟨_, by unfold bucketNum; rw [if_neg hz], ?_, ?_, ?_⟩
  · unfold bucketNum
    rw [if_neg hz]
    simp only
    rw [Nat.min_comm, Nat.max_comm]
  · simp only
    split
    · simp only [true_iff]
      omega
    · have := (hceil a ha).2 (by omega)
      constructor
      · intro h
        omega
      · intro h
        omega
  · simp only
    split
    · intro h; omega
    · intro _
      obtain ⟨a1, a2⟩ := hceil a ha
      obtain ⟨b1, b2⟩ := hceil b hb
      obtain ⟨a3, a4⟩ := a2 (by omega)
      obtain ⟨b3, b4⟩ := b2 (by omega)
      refine ⟨a1.trans (Nat.mul_le_mul_right _ (Nat.le_max_left _ _)), b1.trans (Nat.mul_le_mul_right _ (Nat.le_max_right _ _)), ?_⟩
      rcases le_total ((a + size - 1) % 2 ^ 64 / size) ((b + size - 1) % 2 ^ 64 / size) with h | h
      · rw [Nat.max_eq_right h]; omega
      · rw [Nat.max_eq_left h]; omega

/-- **C27, negation**: the sum of items and bucket size is computed in 64 bits.  With a very large configured size there are no buckets, so that
the intersection of two non-empty inputs is taken to be empty without an error. -/
theorem C27_wraps : bucketNum 5 7 (bucketSizeOf (2 ^ 64 - 1)) = some 0 := by decide

/-- **C27, negation** for different bucket sizes: each party uses its own, and then they have different numbers of buckets (nothing is
exchanged but the counts). -/
theorem C27_sizes_differ : bucketNum 5 7 2 = some 4 ∧ bucketNum 7 5 4 = some 2 := by decide

/-- **C27**: when there are no buckets because of empty inputs, no index line is the right result. -/
theorem C27_no_buckets_exact (own peer : List (List UInt8 × Nat)) (conf : Nat) (ha : own.length + bucketSizeOf conf ≤ 2 ^ 64)
    (hb : peer.length + bucketSizeOf conf ≤ 2 ^ 64) (h : bucketNum own.length peer.length (bucketSizeOf conf) = some 0) :
    ExactIndex own peer [] := by
  obtain ⟨n, h1, _, h2, _⟩ := C27_bucket_number_partial own.length peer.length conf ha hb
  rw [h] at h1
  cases h1
  rcases h2.mp rfl with h | h
  · exact exact_nil (Or.inl (List.eq_nil_of_length_eq_zero h))
  · exact exact_nil (Or.inr (List.eq_nil_of_length_eq_zero h))

/-! ## From buckets to the whole -/

/-- `S b` are the items of bucket `b`, in some order. -/
def Loaded (hash : List Char → Nat) (n : Nat) (ds : List (List UInt8 × Nat)) (S : Nat → List Item) : Prop :=
  ∀ b < n, ∃ l, ((Cache.fresh n).writeAll hash ds).load b = some l ∧ (S b).Perm l

theorem Loaded.perm {hash : List Char → Nat} {n : Nat} {ds : List (List UInt8 × Nat)} {S : Nat → List Item} (h : Loaded hash n ds S)
    (hf : Psi.Bucket.Fits ds) : ∀ b < n, (S b).Perm (inBucket hash n ds b) := by
  intro b hb
  obtain ⟨l, h1, h2⟩ := h b hb
  rw [load_fresh hash n ds hf b hb] at h1
  cases h1
  exact h2

theorem Loaded.length {hash : List Char → Nat} {n : Nat} {ds : List (List UInt8 × Nat)} {S : Nat → List Item} (h : Loaded hash n ds S)
    (hf : Psi.Bucket.Fits ds) {b : Nat} (hb : b < n) : (S b).length ≤ ds.length := by
  rw [(h.perm hf b hb).length_eq, inBucket]
  refine (List.length_filter_le _ _).trans ?_
  have := itemsFrom_length 0 ds
  omega

/-- What the theorems say of the two index files: the receiver's is exact; the sender's too with `broadcast_result`, and empty without. -/
structure Outcome (broadcast : Bool) (dsS dsR : List (List UInt8 × Nat)) (fileS fileR : List (Nat × Nat)) : Prop where
  receiver : ExactIndex dsR dsS fileR
  sender : broadcast = true → ExactIndex dsS dsR fileS
  silent : broadcast = false → fileS = []

theorem outcome_of_buckets {hash : List Char → Nat} {n : Nat} (hn : 0 < n) {dsS dsR : List (List UInt8 × Nat)}
    (fS : Psi.Bucket.Fits dsS) (fR : Psi.Bucket.Fits dsR) {S R : Nat → List Item} (hS : Loaded hash n dsS S) (hR : Loaded hash n dsR R)
    {broadcast : Bool} {out : Nat → List (Nat × Nat) × List (Nat × Nat)}
    (h : ∀ b < n, ∃ wS wR, out b = (post (S b) wS, post (R b) wR) ∧ ExactIndex ((R b).map kv) ((S b).map kv) wR ∧
      (broadcast = true → ExactIndex ((S b).map kv) ((R b).map kv) wS) ∧ (broadcast = false → wS = [])) :
    Outcome broadcast dsS dsR ((List.range n).flatMap (fun b => (out b).1)) ((List.range n).flatMap (fun b => (out b).2)) := by
  classical
  have h' : ∀ b, ∃ w : List (Nat × Nat) × List (Nat × Nat), b < n → out b = (post (S b) w.1, post (R b) w.2) ∧
      ExactIndex ((R b).map kv) ((S b).map kv) w.2 ∧
      (broadcast = true → ExactIndex ((S b).map kv) ((R b).map kv) w.1) ∧ (broadcast = false → w.1 = []) := by
    intro b
    by_cases hb : b < n
    · obtain ⟨wS, wR, h1⟩ := h b hb
      exact ⟨(wS, wR), fun _ => h1⟩
    · exact ⟨([], []), fun h => absurd h hb⟩
  choose w hw using h'
  have e1 : (List.range n).flatMap (fun b => (out b).1) = (List.range n).flatMap (fun b => post (S b) (w b).1) :=
    List.flatMap_congr (fun b hb => by rw [(hw b (List.mem_range.mp hb)).1])
  have e2 : (List.range n).flatMap (fun b => (out b).2) = (List.range n).flatMap (fun b => post (R b) (w b).2) :=
    List.flatMap_congr (fun b hb => by rw [(hw b (List.mem_range.mp hb)).1])
  rw [e1, e2]
  refine ⟨?_, fun hb => ?_, fun hb => ?_⟩
  · exact exact_of_buckets hash hn dsR dsS R S (hR.perm fR) (hS.perm fS) _ (fun b hb => (hw b hb).2.1)
  · exact exact_of_buckets hash hn dsS dsR S R (hS.perm fS) (hR.perm fR) _ (fun b h => (hw b h).2.2.1 hb)
  · rw [List.flatMap_eq_nil_iff]
    intro b h
    rw [(hw b (List.mem_range.mp h)).2.2.2 hb]
    rfl

/-! ## RR22 (C46) -/

/-- The OPRF run of each bucket gives equal values for equal items, and no clash that would make the result of the bucket wrong. -/
structure OprfGood (e : Rr22Env) (oprf : List Gf → List Gf → Except Rr22.Oprf.Err (List Gf × List Gf)) (S R : List Item) : Prop where
  same : ∀ oS oR, oprf (S.map (fun x => e.blake x.data64)) (R.map (fun x => e.blake x.data64)) = .ok (oS, oR) →
    SameValues (S.map (fun x => e.blake x.data64)) (R.map (fun x => e.blake x.data64)) oS oR
  clash : ∀ m oS oR, maskSize e.ceilLog2 S.length R.length e.ssp e.malicious e.compress = .bytes m →
    oprf (S.map (fun x => e.blake x.data64)) (R.map (fun x => e.blake x.data64)) = .ok (oS, oR) → NoClash m S R oS oR

/-- **C46** (one bucket) What can happen in a bucket of up to `2 ^ 31` items: the OPRF fails, or a bucket is empty and the conversion of
`log2(0)` is undefined, or there is a result; in particular the receiver's checks on the sender's message never fail. -/
theorem C46_rr22_bucket (e : Rr22Env) (hssp : 0 < e.ssp) (oprf : List Gf → List Gf → Except Rr22.Oprf.Err (List Gf × List Gf))
    (chunks : List (List Nat)) (S R : List Item) (hS : (S.map (·.data64)).Nodup) (hR : (R.map (·.data64)).Nodup)
    (lS : S.length ≤ 2 ^ 31) (lR : R.length ≤ 2 ^ 31) (hc : chunks.flatten.Perm (List.range S.length)) (hg : OprfGood e oprf S R) :
    ((∃ out, rr22Bucket e oprf chunks S R = .ok out) ↔
      if S = [] ∨ R = [] then e.compress = false ∨ e.malicious = true ∨ e.logZero = true
      else ∃ o, oprf (S.map (fun x => e.blake x.data64)) (R.map (fun x => e.blake x.data64)) = .ok o) ∧
    rr22Bucket e oprf chunks S R ≠ .error .check := by
  have hsz : (maskSize e.ceilLog2 S.length R.length e.ssp e.malicious e.compress = .undefined) ↔
      (S = [] ∨ R = []) ∧ e.compress = true ∧ e.malicious = false := by
    unfold maskSize Rr22.truncateSize
    have h1 : S.length * R.length % 2 ^ 64 = 0 ↔ S = [] ∨ R = [] := by
      have : S.length * R.length ≤ 2 ^ 31 * 2 ^ 31 := Nat.mul_le_mul lS lR
      rw [Nat.mod_eq_of_lt (by omega), Nat.mul_eq_zero]
      simp
    cases e.compress <;> cases e.malicious <;> simp
    rw [show (18446744073709551616 : Nat) = 2 ^ 64 by rfl, h1]
  have hlen : (S.length = 0 ∨ R.length = 0) ↔ (S = [] ∨ R = []) := by simp
  rcases rr22Bucket_core hssp hS hR (by omega) (by omega) hc hg.same hg.clash with h1 | ⟨er, h0, h2, h3, h1⟩ | ⟨wS, wR, h1, h2⟩
  · obtain ⟨h1, h2, h3⟩ := h1
    refine ⟨?_, by rw [h1]; simp⟩
    rw [hlen] at h3
    obtain ⟨h4, h5, h6⟩ := hsz.mp h2
    rw [h1, if_pos h4]
    simp [h5, h6] at h3 ⊢
    by_contra hz
    exact absurd h4 (by simpa using h3 (by simpa using hz))
  · refine ⟨?_, by rw [h1]; simp⟩
    rw [h1, if_neg (by rw [← hlen]; omega), h0]
    simp
  · refine ⟨?_, by rw [h1]; simp⟩
    rw [h1]
    constructor
    · intro _
      split
      · rename_i hn
        by_contra hcon
        simp only [not_or] at hcon
        have hu := hsz.mpr ⟨hn, by simpa using hcon.1, by simpa using hcon.2.1⟩
        have hu' := hu
        rw [maskSize_comm] at hu'
        unfold rr22Bucket at h1
        rw [hu, hu'] at h1
        simp only at h1
        rw [if_neg (by simp [hcon.2.2])] at h1
        cases h1
      · rename_i hn
        cases ho : oprf (S.map (fun x => e.blake x.data64)) (R.map (fun x => e.blake x.data64)) with
        | ok o => exact ⟨o, rfl⟩
        | error er =>
          unfold rr22Bucket at h1
          rw [← hlen] at hn
          split at h1
          · rw [if_neg hn, ho] at h1
            cases h1
          · rw [if_neg (fun h => hn h.2)] at h1
            cases h1
    · intro _
      exact ⟨_, rfl⟩

/-- **C46** RR22 over buckets, for every number of buckets, every order of the sender's items, every division of the receiver's work, and every
series of interruptions between buckets: when all buckets end, the receiver's index file is the exact intersection, and so is the sender's
with `broadcast_result`; without it the sender's is empty. -/
theorem C46_rr22_exact (e : Rr22Env) (hssp : 0 < e.ssp) (hash : List Char → Nat) {n : Nat} (hn : 0 < n)
    (dsS dsR : List (List UInt8 × Nat)) (hdS : (dsS.map Prod.fst).Nodup) (hdR : (dsR.map Prod.fst).Nodup)
    (lS : dsS.length ≤ 2 ^ 32) (lR : dsR.length ≤ 2 ^ 32) (uS : ∀ d ∈ dsS, d.2 < 2 ^ 32) (uR : ∀ d ∈ dsR, d.2 < 2 ^ 32)
    (S R : Nat → List Item) (hS : Loaded hash n dsS S) (hR : Loaded hash n dsR R)
    (oprf : Nat → List Gf → List Gf → Except Rr22.Oprf.Err (List Gf × List Gf)) (chunks : Nat → List (List Nat))
    (hc : ∀ b < n, (chunks b).flatten.Perm (List.range (S b).length)) (hg : ∀ b < n, OprfGood e (oprf b) (S b) (R b))
    (out : Nat → List (Nat × Nat) × List (Nat × Nat)) (hout : ∀ b < n, rr22Bucket e (oprf b) (chunks b) (S b) (R b) = .ok (out b))
    (crashes : List (Bool → Nat)) (hcr : ∀ p ∈ crashes, ∃ q, ∀ r, p r = 2 * q) :
    Outcome e.broadcast dsS dsR (((task n out (fun _ => true)).history crashes).file false)
      (((task n out (fun _ => true)).history crashes).file true) := by
  have fS : Psi.Bucket.Fits dsS := ⟨by omega, uS⟩
  have fR : Psi.Bucket.Fits dsR := ⟨by omega, uR⟩
  have h1 := C17_exact_partial (task n out (fun _ => true)) (by intro r b h; cases h) crashes hcr
  rw [h1 false, h1 true]
  refine outcome_of_buckets hn fS fR hS hR (fun b hb => ?_)
  exact rr22Bucket_exact hssp (bucket_nodup hdS (hS.perm fS b hb)) (bucket_nodup hdR (hR.perm fR b hb))
    ((hS.length fS hb).trans lS) ((hR.length fR hb).trans lR) (hc b hb) (hg b hb).same (hg b hb).clash (hout b hb)

/-- **C46** with the threads of the pipeline: the lines handed on in the order in which a finished run handed on the buckets. -/
theorem C46_rr22_pipeline (e : Rr22Env) (hssp : 0 < e.ssp) (hash : List Char → Nat) {n : Nat} (hn : 0 < n)
    (dsS dsR : List (List UInt8 × Nat)) (hdS : (dsS.map Prod.fst).Nodup) (hdR : (dsR.map Prod.fst).Nodup)
    (lS : dsS.length ≤ 2 ^ 32) (lR : dsR.length ≤ 2 ^ 32) (uS : ∀ d ∈ dsS, d.2 < 2 ^ 32) (uR : ∀ d ∈ dsR, d.2 < 2 ^ 32)
    (S R : Nat → List Item) (hS : Loaded hash n dsS S) (hR : Loaded hash n dsR R)
    (oprf : Nat → List Gf → List Gf → Except Rr22.Oprf.Err (List Gf × List Gf)) (chunks : Nat → List (List Nat))
    (hc : ∀ b < n, (chunks b).flatten.Perm (List.range (S b).length)) (hg : ∀ b < n, OprfGood e (oprf b) (S b) (R b))
    (out : Nat → List (Nat × Nat) × List (Nat × Nat)) (hout : ∀ b < n, rr22Bucket e (oprf b) (chunks b) (S b) (R b) = .ok (out b))
    (sched : List (Bool × Pipeline.Step)) (s : Pipeline.State) (hs : Pipeline.exec n (Pipeline.init 0) sched = some s)
    (hf : s.a.finished n ∧ s.b.finished n) :
    Outcome e.broadcast dsS dsR (s.a.iDone.flatMap (fun b => (out b).1)) (s.b.iDone.flatMap (fun b => (out b).2)) := by
  have h1 := (Pipeline.C23_same_as_sequential 0 n sched s hs hf s.a (Or.inl rfl)).1
  have h2 := (Pipeline.C23_same_as_sequential 0 n sched s hs hf s.b (Or.inr rfl)).1
  have h3 := C46_rr22_exact e hssp hash hn dsS dsR hdS hdR lS lR uS uR S R hS hR oprf chunks hc hg out hout [] (by simp)
  have h4 := C17_exact_partial (task n out (fun _ => true)) (by intro r b h; cases h) [] (by simp)
  rw [h4 false, h4 true] at h3
  have h5 : Pipeline.sequential 0 n = List.range n := by
    simp [Pipeline.sequential, List.range_eq_range']
  rw [h1, h2, h5]
  exact h3

/-- What is fixed for the OPRF of a bucket in fast mode: the store, the threads, the VOLE, the coins of the malicious variant. -/
structure Fast where
  c : Baxos.Cfg
  pick : Okvs.Tri → Nat
  sS : Sched
  sR : Sched
  v : Vole Gf
  coins : Option (Gf × Gf)

structure Fast.Ok (f : Fast) : Prop where
  wf : Wf f.c
  pick : Okvs.PickOk f.c.S f.pick
  r1 : ∀ i ∈ f.sR.solve1, i < max 1 f.sR.threads
  r2 : ∀ i ∈ f.sR.solve2, i < max 1 f.sR.threads
  r3 : ∀ i ∈ f.sR.decode, i < max 1 f.sR.threads
  s3 : ∀ i ∈ f.sS.decode, i < max 1 f.sS.threads
  vole : f.v.Holds (tableSize f.c)

noncomputable def Fast.oprf (pr : Prims) (f : Fast) (ys xs : List Gf) : Except Rr22.Oprf.Err (List Gf × List Gf) :=
  runFast f.c pr (Baxos.encGf f.c f.pick) f.sS f.sR f.v f.coins ys xs

/-- The same for low communication mode. -/
structure Slow where
  c : Baxos.Cfg
  gMax : Nat
  pick : Okvs.Tri → Nat
  v : Vole Low

structure Slow.Ok (f : Slow) : Prop where
  wf : Wf f.c
  dense : f.c.D ≤ 64
  pick : Okvs.PickOk f.c.S f.pick
  gap : f.gMax ≤ f.c.D
  noOverflow : ∀ i ≤ f.gMax, f.c.D * f.c.D.choose i < 2 ^ 64
  vole : f.v.HoldsLow f.c.size

noncomputable def Slow.oprf (pr : Prims) (f : Slow) (ys xs : List Gf) : Except Rr22.Oprf.Err (List Gf × List Gf) :=
  runLow f.c pr f.gMax f.pick f.v ys xs

/-- The OPRF of a bucket in either mode. -/
noncomputable def modeOprf (pr : Prims) : Fast ⊕ Slow → List Gf → List Gf → Except Rr22.Oprf.Err (List Gf × List Gf)
  | .inl f => f.oprf pr
  | .inr f => f.oprf pr

def modeOk : Fast ⊕ Slow → Prop
  | .inl f => f.Ok
  | .inr f => f.Ok

theorem mode_same (pr : Prims) (f : Fast ⊕ Slow) (h : modeOk f) (ys xs oS oR : List Gf) (hr : modeOprf pr f ys xs = .ok (oS, oR)) :
    SameValues ys xs oS oR := by
  cases f with
  | inl f =>
    obtain ⟨h1, h2, h3, h4, h5, h6, h7⟩ := h
    exact Rr22.Oprf.C22_fast_same_value f.c h1 pr f.pick h2 f.sS f.sR h3 h4 h5 h6 f.v h7 f.coins ys xs oS oR hr
  | inr f =>
    obtain ⟨h1, h2, h3, h4, h5, h6⟩ := h
    exact (Rr22.Oprf.C22_low_same_value f.c h1 h2 pr f.gMax f.pick h3 h4 h5 f.v h6 ys xs).1 oS oR hr

variable {RA RB K : Type} [LinearOrder K]

/-- The keys of a table as the protocol sees them. -/
def stored (toBytes : K → List UInt8) (recs : List (K × Nat)) : List (List UInt8 × Nat) := recs.map (fun x => (toBytes x.1, x.2))

omit [LinearOrder K] in
theorem stored_nodup {toBytes : K → List UInt8} (hb : Function.Injective toBytes) {recs : List (K × Nat)} (h : (recs.map Prod.fst).Nodup) :
    ((stored toBytes recs).map Prod.fst).Nodup := by
  unfold stored
  rw [List.map_map]
  have : (Prod.fst ∘ fun x : K × Nat => (toBytes x.1, x.2)) = toBytes ∘ Prod.fst := rfl
  rw [this, ← List.map_map]
  exact h.map hb

/-- The joins of two exact index files. -/
theorem joins_of_outcome [DecidableEq RA] [DecidableEq RB] {toBytes : K → List UInt8} (hb : Function.Injective toBytes)
    {eA : K} {keyA : RA → K} {A : List RA} {kbsA rbsA} (hA : Input eA keyA A kbsA rbsA)
    {eB : K} {keyB : RB → K} {B : List RB} {kbsB rbsB} (hB : Input eB keyB B kbsB rbsB)
    (t : JoinType) (aIsLeft : Bool) (headerA : RA) (headerB : RB) {idxA idxB : List (Nat × Nat)}
    (h : Outcome true (stored toBytes (records eA kbsA)) (stored toBytes (records eB kbsB)) idxA idxB) :
    ∃ resA resB,
      finalizeStat t aIsLeft headerA (sortTable (fun a b => decide (a ≤ b)) keyA A) rbsA idxA = .ok resA ∧
      finalizeStat t (!aIsLeft) headerB (sortTable (fun a b => decide (a ≤ b)) keyB B) rbsB idxB = .ok resB ∧
      let outA := finalizeOut true t aIsLeft resA resB.1.original
      let outB := finalizeOut true t (!aIsLeft) resB resA.1.original
      (∀ r, outA.count (.own r) = rowMultiplicity t aIsLeft keyA A keyB B r) ∧
      (∀ r, outB.count (.own r) = rowMultiplicity t (!aIsLeft) keyB B keyA A r) ∧
      List.Forall₂ (Psi.Join.Spec.Fits keyA A keyB B) outA outB := by
  have x1 : ExactIndex (records eA kbsA) (records eB kbsB) idxA := exact_of_map toBytes (fun _ _ _ _ h => hb h) (h.sender rfl)
  have x2 : ExactIndex (records eB kbsB) (records eA kbsA) idxB := exact_of_map toBytes (fun _ _ _ _ h => hb h) h.receiver
  obtain ⟨resA, resB, r1, r2, r3, r4, -, -, r5⟩ := C03_joins_exact_and_aligned hA hB t aIsLeft
    headerA headerB idxA idxB (lawful_of_exact hA hB idxA x1) (lawful_of_exact hB hA idxB x2)
  exact ⟨resA, resB, r1, r2, r3, r4, r5⟩

/-- The receiver's inner join when only the receiver gets the result. -/
theorem join_of_outcome [DecidableEq RB] {toBytes : K → List UInt8} (hb : Function.Injective toBytes)
    {eA : K} {keyA : RA → K} {A : List RA} {kbsA rbsA} (hA : Input eA keyA A kbsA rbsA)
    {eB : K} {keyB : RB → K} {B : List RB} {kbsB rbsB} (hB : Input eB keyB B kbsB rbsB)
    (isLeft : Bool) (header : RB) {broadcast : Bool} {idxA idxB : List (Nat × Nat)}
    (h : Outcome broadcast (stored toBytes (records eA kbsA)) (stored toBytes (records eB kbsB)) idxA idxB) :
    ∃ res, finalizeStat .inner isLeft header (sortTable (fun a b => decide (a ≤ b)) keyB B) rbsB idxB = .ok res ∧
      ∀ broadcast peerOriginal,
        (∀ r, (finalizeOut broadcast .inner isLeft res peerOriginal).count (.own r)
          = B.count r * A.countP fun a => keyA a = keyB r) ∧
        .na ∉ finalizeOut broadcast .inner isLeft res peerOriginal := by
  have x2 : ExactIndex (records eB kbsB) (records eA kbsA) idxB := exact_of_map toBytes (fun _ _ _ _ h => hb h) h.receiver
  exact C01_inner_join_exact hB isLeft header keyA A idxB (lawful_of_exact hB hA idxB x2)

/-- **C46** end to end: two tables, RR22 in fast or low communication mode with the result for both parties, then the join.  The sender has
table `A`, the receiver table `B`; in each bucket the OPRF is run as in the code, and the only thing asked of the random values is that
there is no clash. -/
theorem C46_rr22_join_end_to_end [DecidableEq RA] [DecidableEq RB] {toBytes : K → List UInt8} (hb : Function.Injective toBytes)
    {eA : K} {keyA : RA → K} {A : List RA} {kbsA rbsA} (hA : Input eA keyA A kbsA rbsA)
    {eB : K} {keyB : RB → K} {B : List RB} {kbsB rbsB} (hB : Input eB keyB B kbsB rbsB)
    (hlA : A.length ≤ 2 ^ 32) (hlB : B.length ≤ 2 ^ 32)
    (e : Rr22Env) (hbc : e.broadcast = true) (hssp : 0 < e.ssp) (hash : List Char → Nat) {n : Nat} (hn : 0 < n)
    (S R : Nat → List Item) (hS : Loaded hash n (stored toBytes (records eA kbsA)) S)
    (hR : Loaded hash n (stored toBytes (records eB kbsB)) R)
    (pr : Prims) (f : Nat → Fast ⊕ Slow) (hf : ∀ b < n, modeOk (f b)) (chunks : Nat → List (List Nat))
    (hc : ∀ b < n, (chunks b).flatten.Perm (List.range (S b).length))
    (hg : ∀ b < n, ∀ m oS oR, maskSize e.ceilLog2 (S b).length (R b).length e.ssp e.malicious e.compress = .bytes m →
      modeOprf pr (f b) ((S b).map (fun x => e.blake x.data64)) ((R b).map (fun x => e.blake x.data64)) = .ok (oS, oR) →
      NoClash m (S b) (R b) oS oR)
    (out : Nat → List (Nat × Nat) × List (Nat × Nat))
    (hout : ∀ b < n, rr22Bucket e (modeOprf pr (f b)) (chunks b) (S b) (R b) = .ok (out b))
    (crashes : List (Bool → Nat)) (hcr : ∀ p ∈ crashes, ∃ q, ∀ r, p r = 2 * q)
    (t : JoinType) (aIsLeft : Bool) (headerA : RA) (headerB : RB) :
    ∃ resA resB,
      finalizeStat t aIsLeft headerA (sortTable (fun a b => decide (a ≤ b)) keyA A) rbsA
        (((task n out (fun _ => true)).history crashes).file false) = .ok resA ∧
      finalizeStat t (!aIsLeft) headerB (sortTable (fun a b => decide (a ≤ b)) keyB B) rbsB
        (((task n out (fun _ => true)).history crashes).file true) = .ok resB ∧
      let outA := finalizeOut true t aIsLeft resA resB.1.original
      let outB := finalizeOut true t (!aIsLeft) resB resA.1.original
      (∀ r, outA.count (.own r) = rowMultiplicity t aIsLeft keyA A keyB B r) ∧
      (∀ r, outB.count (.own r) = rowMultiplicity t (!aIsLeft) keyB B keyA A r) ∧
      List.Forall₂ (Psi.Join.Spec.Fits keyA A keyB B) outA outB := by
  have bA := records_bounds' hA hlA
  have bB := records_bounds' hB hlB
  have h := C46_rr22_exact e hssp hash hn (stored toBytes (records eA kbsA)) (stored toBytes (records eB kbsB))
    (stored_nodup hb (by rw [records_fst]; exact hA.nodup_keys)) (stored_nodup hb (by rw [records_fst]; exact hB.nodup_keys))
    (by rw [stored, List.length_map]; exact bA.1) (by rw [stored, List.length_map]; exact bB.1)
    (by intro d hd; obtain ⟨x, hx, rfl⟩ := List.mem_map.mp hd; exact bA.2 x hx)
    (by intro d hd; obtain ⟨x, hx, rfl⟩ := List.mem_map.mp hd; exact bB.2 x hx)
    S R hS hR (fun b => modeOprf pr (f b)) chunks hc
    (fun b hb => ⟨fun oS oR h => mode_same pr (f b) (hf b hb) _ _ _ _ h, hg b hb⟩) out hout crashes hcr
  rw [hbc] at h
  exact joins_of_outcome hb hA hB t aIsLeft headerA headerB h

/-! ## KKRT (C47) -/

/-- What is asked of KKRT in a bucket: the cryptography does not collide, and the inputs are as the code makes them. -/
structure KkrtGood (e : KkrtEnv) (r : KkrtRun) (S R : List Item) : Prop where
  batch : 0 < e.p.batch
  bins : 0 < e.p.numBinsOf R.length
  perm : ((List.range S.length).map r.perm).Perm (List.range S.length)
  size : ∀ b x, (e.p.F b x).length = e.p.size
  fill : ∀ pos h, pos < S.length → h < 3 → (r.fill pos h).length = e.p.size
  blake : ∀ x ∈ S ++ R, ∀ y ∈ S ++ R, e.blake x.data64 = e.blake y.data64 → x.data64 = y.data64
  collide : Kkrt.Spec.NoCollision e.p.F (e.p.numBinsOf R.length) (R.map (fun x => e.blake x.data64))
    (S.map (fun x => (e.blake x.data64, x.dup))) r.fill

/-- **C47** KKRT over buckets: the same for KKRT.  A bucket that is empty at one party is skipped and not counted. -/
theorem C47_kkrt_exact (e : KkrtEnv) (hash : List Char → Nat) {n : Nat} (hn : 0 < n)
    (dsS dsR : List (List UInt8 × Nat)) (hdS : (dsS.map Prod.fst).Nodup) (hdR : (dsR.map Prod.fst).Nodup)
    (lS : dsS.length ≤ 2 ^ 56) (lR : dsR.length ≤ 2 ^ 56) (uS : ∀ d ∈ dsS, d.2 < 2 ^ 32) (uR : ∀ d ∈ dsR, d.2 < 2 ^ 32)
    (S R : Nat → List Item) (hS : Loaded hash n dsS S) (hR : Loaded hash n dsR R)
    (r : Nat → KkrtRun) (hg : ∀ b < n, KkrtGood e (r b) (S b) (R b))
    (out : Nat → List (Nat × Nat) × List (Nat × Nat)) (hout : ∀ b < n, kkrtBucket e (r b) (S b) (R b) = some (out b))
    (crashes : List (Bool → Nat)) (hcr : ∀ p ∈ crashes, ∃ q, ∀ r, p r = 2 * q) :
    Outcome e.broadcast dsS dsR
      (((task n out (kkrtCounted n S R)).history crashes).file false)
      (((task n out (kkrtCounted n S R)).history crashes).file true) := by
  have fS : Psi.Bucket.Fits dsS := ⟨by omega, uS⟩
  have fR : Psi.Bucket.Fits dsR := ⟨by omega, uR⟩
  have h1 := C17_exact_partial (task n out (kkrtCounted n S R)) (by
    intro x b h
    have h' : ¬ (n ≤ b ∨ min (S b).length (R b).length ≠ 0) := of_decide_eq_false h
    have h0 : min (S b).length (R b).length = 0 := by
      by_contra hne
      exact h' (Or.inr hne)
    have := hout b (by
      by_contra hne
      exact h' (Or.inl (by omega)))
    unfold kkrtBucket at this
    rw [if_pos h0] at this
    cases h2 : out b
    rw [h2] at this
    cases this
    cases x <;> simp [task, h2]) crashes hcr
  rw [h1 false, h1 true]
  refine outcome_of_buckets hn fS fR hS hR (fun b hb => ?_)
  obtain ⟨g1, g2, g3, g4, g5, g6, g7⟩ := hg b hb
  exact kkrtBucket_exact (bucket_nodup hdS (hS.perm fS b hb)) (bucket_nodup hdR (hR.perm fR b hb))
    ((hR.length fR hb).trans lR) g1 g2 g3 g4 g5 g6 g7 (hout b hb)

/-- **C47** end to end: two tables, KKRT with the result for both parties, then the join. -/
theorem C47_kkrt_join_end_to_end [DecidableEq RA] [DecidableEq RB] {toBytes : K → List UInt8} (hb : Function.Injective toBytes)
    {eA : K} {keyA : RA → K} {A : List RA} {kbsA rbsA} (hA : Input eA keyA A kbsA rbsA)
    {eB : K} {keyB : RB → K} {B : List RB} {kbsB rbsB} (hB : Input eB keyB B kbsB rbsB)
    (hlA : A.length ≤ 2 ^ 32) (hlB : B.length ≤ 2 ^ 32)
    (e : KkrtEnv) (hbc : e.broadcast = true) (hash : List Char → Nat) {n : Nat} (hn : 0 < n)
    (S R : Nat → List Item) (hS : Loaded hash n (stored toBytes (records eA kbsA)) S)
    (hR : Loaded hash n (stored toBytes (records eB kbsB)) R)
    (r : Nat → KkrtRun) (hg : ∀ b < n, KkrtGood e (r b) (S b) (R b))
    (out : Nat → List (Nat × Nat) × List (Nat × Nat)) (hout : ∀ b < n, kkrtBucket e (r b) (S b) (R b) = some (out b))
    (crashes : List (Bool → Nat)) (hcr : ∀ p ∈ crashes, ∃ q, ∀ r, p r = 2 * q)
    (t : JoinType) (aIsLeft : Bool) (headerA : RA) (headerB : RB) :
    ∃ resA resB,
      finalizeStat t aIsLeft headerA (sortTable (fun a b => decide (a ≤ b)) keyA A) rbsA
        (((task n out (kkrtCounted n S R)).history crashes).file false) = .ok resA ∧
      finalizeStat t (!aIsLeft) headerB (sortTable (fun a b => decide (a ≤ b)) keyB B) rbsB
        (((task n out (kkrtCounted n S R)).history crashes).file true) = .ok resB ∧
      let outA := finalizeOut true t aIsLeft resA resB.1.original
      let outB := finalizeOut true t (!aIsLeft) resB resA.1.original
      (∀ r, outA.count (.own r) = rowMultiplicity t aIsLeft keyA A keyB B r) ∧
      (∀ r, outB.count (.own r) = rowMultiplicity t (!aIsLeft) keyB B keyA A r) ∧
      List.Forall₂ (Psi.Join.Spec.Fits keyA A keyB B) outA outB := by
  have bA := records_bounds' hA hlA
  have bB := records_bounds' hB hlB
  have h := C47_kkrt_exact e hash hn (stored toBytes (records eA kbsA)) (stored toBytes (records eB kbsB))
    (stored_nodup hb (by rw [records_fst]; exact hA.nodup_keys)) (stored_nodup hb (by rw [records_fst]; exact hB.nodup_keys))
    (by rw [stored, List.length_map]; exact bA.1.trans (by decide)) (by rw [stored, List.length_map]; exact bB.1.trans (by decide))
    (by intro d hd; obtain ⟨x, hx, rfl⟩ := List.mem_map.mp hd; exact bA.2 x hx)
    (by intro d hd; obtain ⟨x, hx, rfl⟩ := List.mem_map.mp hd; exact bB.2 x hx)
    S R hS hR r hg out hout crashes hcr
  rw [hbc] at h
  exact joins_of_outcome hb hA hB t aIsLeft headerA headerB h

/-! ## Examples -/

namespace Ex
open Psi.Join.Ex Psi.Rr22.Oprf

example := C27_bucket_number_partial 5 7 2 (by decide) (by decide)
example := C27_bucket_number_partial (2 ^ 33) 7 0 (by decide) (by decide)
example := C27_no_buckets_exact [([1], 0), ([2], 1)] [] 2 (by decide) (by decide) (by decide)

/-- Keys as bytes. -/
def toBytes (k : Nat) : List UInt8 := List.replicate k 1

theorem toBytes_inj : Function.Injective toBytes := by
  intro a b h
  have := congrArg List.length h
  simpa [toBytes] using this

def recsA : List (Nat × Nat) := [(1, 0), (3, 1), (7, 0)]
def recsB : List (Nat × Nat) := [(3, 2), (7, 0), (9, 0)]

theorem recsA_eq : records 0 kbsA = recsA := by decide
theorem recsB_eq : records 0 kbsB = recsB := by decide

/-- A bucket number from the characters. -/
def hash (s : List Char) : Nat := s.length / 8

def dsA : List (List UInt8 × Nat) := stored toBytes recsA
def dsB : List (List UInt8 × Nat) := stored toBytes recsB

/-- The sender has its items in reverse order. -/
def S (b : Nat) : List Item := ((itemsFrom 0 dsA).filter (fun x => hash x.data64 % 2 = b)).reverse
def R (b : Nat) : List Item := (itemsFrom 0 dsB).filter (fun x => hash x.data64 % 2 = b)

theorem loadedS : Loaded hash 2 dsA S := by
  intro b hb
  exact ⟨_, load_fresh hash 2 dsA (by unfold Psi.Bucket.Fits; decide) b hb, List.reverse_perm _⟩

theorem loadedR : Loaded hash 2 dsB R := by
  intro b hb
  exact ⟨_, load_fresh hash 2 dsB (by unfold Psi.Bucket.Fits; decide) b hb, .refl _⟩

/-- Both buckets have items at both parties, among them a common one. -/
example : (S 0).length = 2 ∧ (S 1).length = 1 ∧ (R 0).length = 1 ∧ (R 1).length = 2 := by decide +kernel

def blake (s : List Char) : Gf := Gf.ofNat (2 ^ 100 + s.foldl (fun a c => (a * 67 + c.toNat) % 2 ^ 64) 1)

def env (broadcast : Bool) : Rr22Env := ⟨blake, fun n => n, 40, false, true, broadcast, false⟩

def chunks (b : Nat) : List (List Nat) := if b = 0 then [[1], [], [0]] else [[0]]

/-- A VOLE with everything but `a` zero, and coins that add 5. -/
def fast (a : Nat → Gf) : Fast :=
  ⟨Baxos.cfg2, Okvs.minPick 10, toySched, toySched, ⟨a, fun _ => 0, fun _ => 0, 0⟩, some (Gf.ofNat 4, Gf.ofNat 1)⟩

theorem fast_ok (a : Nat → Gf) : (fast a).Ok :=
  ⟨toy_wf, Okvs.minPick_ok 10, show ∀ i ∈ toySched.solve1, i < max 1 toySched.threads by decide,
    show ∀ i ∈ toySched.solve2, i < max 1 toySched.threads by decide, show ∀ i ∈ toySched.decode, i < max 1 toySched.threads by decide,
    show ∀ i ∈ toySched.decode, i < max 1 toySched.threads by decide, fun _ _ => by simp [fast]⟩

theorem solved (b : Nat) (hb : b < 2) : ∃ p, solveFast Baxos.cfg2 toy (Baxos.encGf Baxos.cfg2 (Okvs.minPick 10)) 2 [0, 1, 1, 0] [1, 0]
    ((R b).map (fun x => blake x.data64)) = .ok p := by
  have h : ∀ b < 2, (match solveFast Baxos.cfg2 toy (Baxos.encGf Baxos.cfg2 (Okvs.minPick 10)) 2 [0, 1, 1, 0] [1, 0]
    ((R b).map (fun x => blake x.data64)) with | .ok _ => true | .error _ => false) = true := by decide +kernel
  have h := h b hb
  split at h
  · rename_i out ho
    exact ⟨out, ho⟩
  · cases h

theorem lookup_zero (c : Baxos.Cfg) (x : Nat) : Baxos.lookup c Okvs.powCoef (fun _ => (0 : Gf)) x = 0 :=
  decode_map (0 : Gf →ₗ[Gf] Gf) Okvs.powCoef c.D (fun _ => 0) (fun _ => 0) _

def value (x : Gf) : Gf := final toy (some (Gf.ofNat 5)) x 0

theorem fairR : ∀ b < 2, Baxos.Fair Baxos.cfg2 toySched.threads ((R b).map (fun x => blake x.data64)).length toySched.decode := by
  unfold Baxos.Fair
  decide +kernel

theorem fairS : ∀ b < 2, Baxos.Fair Baxos.cfg2 toySched.threads ((S b).map (fun x => blake x.data64)).length toySched.decode := by
  unfold Baxos.Fair
  decide +kernel

/-- The values the OPRF gives. -/
theorem fast_values (a : Nat → Gf) (b : Nat) (hb : b < 2) :
    modeOprf toy (.inl (fast a)) ((S b).map (fun x => blake x.data64)) ((R b).map (fun x => blake x.data64)) =
      .ok (((S b).map (fun x => blake x.data64)).map value, ((R b).map (fun x => blake x.data64)).map value) := by
  have hs : ∃ p, solveFast Baxos.cfg2 toy (Baxos.encGf Baxos.cfg2 (Okvs.minPick 10)) toySched.threads toySched.solve1 toySched.solve2
    ((R b).map (fun x => blake x.data64)) = .ok p := solved b hb
  obtain ⟨⟨outS, outR⟩, h⟩ := (C22_fast_runs Baxos.cfg2 toy_wf (by decide) toy
    (fun b => by simp [toy]) (Baxos.encGf Baxos.cfg2 (Okvs.minPick 10)) toySched toySched (some (Gf.ofNat 4, Gf.ofNat 1))
    ((S b).map (fun x : Item => blake x.data64)) ((R b).map (fun x : Item => blake x.data64)) (by decide) (by decide)
    (fairR b hb) (fairS b hb) ⟨a, fun _ => 0, fun _ => 0, 0⟩).mpr hs
  obtain ⟨p, _, h1, h2⟩ := runFast_values _ toy_wf _ _ _ _ (by decide) (by decide) _ (fun _ _ => by simp) _ _ _ _ _ h
  have hm : maskOf (some (Gf.ofNat 4, Gf.ofNat 1)) = some (Gf.ofNat 5) := by decide +kernel
  rw [hm] at h1 h2
  simp only [lookup_zero, zero_mul, add_zero] at h1 h2
  rw [h1, h2] at h
  exact h

theorem noClash (b : Nat) (hb : b < 2) (m : Nat) (hm : maskSize (fun n => n) (S b).length (R b).length 40 false true = .bytes m) :
    NoClash m (S b) (R b) (((S b).map (fun x => blake x.data64)).map value) (((R b).map (fun x => blake x.data64)).map value) := by
  have k1 : ∀ b < 2, maskSize (fun n => n) (S b).length (R b).length 40 false true = .bytes 6 := by decide +kernel
  have k2 : ∀ b < 2, ∀ i < (S b).length, ∀ j < (R b).length, decide
      (((S b).getD i ⟨0, 0, []⟩).data64 ≠ ((R b).getD j ⟨0, 0, []⟩).data64 →
        ((((S b).map (fun x => blake x.data64)).map value).getD i 0).val % 256 ^ 6 ≠
          ((((R b).map (fun x => blake x.data64)).map value).getD j 0).val % 256 ^ 6) = true := by decide +kernel
  have k3 : ∀ b < 2, ∀ i < (S b).length, ((((S b).map (fun x => blake x.data64)).map value).getD i 0).val % 256 ^ 6 ≠ 0 := by decide +kernel
  have k1 := k1 b hb
  rw [hm] at k1
  cases k1
  intro i j hi hj
  have k2 := of_decide_eq_true (k2 b hb i hi j hj)
  rw [List.getD_eq_getElem (S b) _ hi, List.getD_eq_getElem (R b) _ hj] at k2
  exact ⟨k2, fun _ => k3 b hb i hi⟩

/-- The buckets end. -/
theorem ends (bc : Bool) (a : Nat → Gf) (b : Nat) (hb : b < 2) :
    ∃ out, rr22Bucket (env bc) (modeOprf toy (.inl (fast a))) (chunks b) (S b) (R b) = .ok out := by
  have fS : Psi.Bucket.Fits dsA := by unfold Psi.Bucket.Fits; decide
  have fR : Psi.Bucket.Fits dsB := by unfold Psi.Bucket.Fits; decide
  refine (C46_rr22_bucket (env bc) (show 0 < 40 by decide) _ _ _ _ (bucket_nodup (by decide) (loadedS.perm fS b hb))
    (bucket_nodup (by decide) (loadedR.perm fR b hb)) ((loadedS.length fS hb).trans (by decide)) ((loadedR.length fR hb).trans (by decide)) ?_
    ⟨fun oS oR h => mode_same toy (.inl (fast a)) (fast_ok a) _ _ _ _ h, fun m oS oR hm h => ?_⟩).1.mpr ?_
  · have : ∀ b < 2, ((chunks b).flatten.Perm (List.range (S b).length)) := by decide +kernel
    exact this b hb
  · have h' := fast_values a b hb
    simp only [env] at h
    rw [h'] at h
    cases h
    exact noClash b hb m hm
  · rw [if_neg (by
      have : ∀ b < 2, ¬ (S b = [] ∨ R b = []) := by decide +kernel
      exact this b hb)]
    exact ⟨_, fast_values a b hb⟩

theorem good (bc : Bool) (a : Nat → Gf) (b : Nat) (hb : b < 2) : OprfGood (env bc) (modeOprf toy (.inl (fast a))) (S b) (R b) :=
  ⟨fun oS oR h => mode_same toy (.inl (fast a)) (fast_ok a) _ _ _ _ h, fun m oS oR hm h => by
    have h' := fast_values a b hb
    simp only [env] at h
    rw [h'] at h
    cases h
    exact noClash b hb m hm⟩

theorem chunks_ok : ∀ b < 2, ((chunks b).flatten.Perm (List.range (S b).length)) := by decide +kernel

/-- Two buckets, an interruption between them. -/
example (a : Nat → Gf) : ∃ out, Outcome true dsA dsB (((task 2 out (fun _ => true)).history [fun _ => 2]).file false)
    (((task 2 out (fun _ => true)).history [fun _ => 2]).file true) := by
  choose! out hout using ends true a
  exact ⟨out, C46_rr22_exact (env true) (by decide) hash (by decide) dsA dsB (by decide) (by decide) (by decide) (by decide) (by decide)
    (by decide) S R loadedS loadedR (fun _ => modeOprf toy (.inl (fast a))) chunks chunks_ok (good true a) out hout
    [fun _ => 2] (by intro p hp; exact ⟨1, fun r => by simp at hp; rw [hp]⟩)⟩

example (a : Nat → Gf) (sched : List (Bool × Pipeline.Step)) (s : Pipeline.State)
    (hs : Pipeline.exec 2 (Pipeline.init 0) sched = some s) (hf : s.a.finished 2 ∧ s.b.finished 2) : ∃ out : Nat → List (Nat × Nat) × List (Nat × Nat), Outcome false dsA dsB
      (s.a.iDone.flatMap (fun b => (out b).1)) (s.b.iDone.flatMap (fun b => (out b).2)) := by
  choose! out hout using ends false a
  exact ⟨out, C46_rr22_pipeline (env false) (by decide) hash (by decide) dsA dsB (by decide) (by decide) (by decide) (by decide) (by decide)
    (by decide) S R loadedS loadedR (fun _ => modeOprf toy (.inl (fast a))) chunks chunks_ok (good false a) out hout sched s hs hf⟩

/-- The tables of the join examples. -/
example (a : Nat → Gf) (t : JoinType) : ∃ out resA,
    finalizeStat t true (0, 0) (sortTable (fun a b => decide (a ≤ b)) key A) rbsA (((task 2 out (fun _ => true)).history []).file false)
      = .ok resA := by
  choose! out hout using ends true a
  obtain ⟨resA, resB, h, _⟩ := C46_rr22_join_end_to_end toBytes_inj inputA inputB (by decide) (by decide) (env true) rfl (by decide) hash
    (by decide) S R (by rw [recsA_eq]; exact loadedS) (by rw [recsB_eq]; exact loadedR) toy (fun _ => .inl (fast a)) (fun _ _ => fast_ok a)
    chunks chunks_ok (fun b hb => (good true a b hb).clash) out hout [] (by simp) t true (0, 0) (0, 0)
  exact ⟨out, resA, h⟩

/-! KKRT -/

def kenv (bc : Bool) : KkrtEnv := ⟨Kkrt.exP, fun s => s.foldl (fun a c => (a * 7919 + c.toNat) % 2 ^ 120) 1, bc⟩

def krun : KkrtRun := ⟨2, fun i => i, Kkrt.exFill, [3, 5, 5]⟩

theorem kends (bc : Bool) (b : Nat) (hb : b < 2) : ∃ out, kkrtBucket (kenv bc) krun (S b) (R b) = some out := by
  have h : ∀ b < 2, ∀ bc, (kkrtBucket (kenv bc) krun (S b) (R b)).isSome = true := by decide +kernel
  exact Option.isSome_iff_exists.mp (h b hb bc)

theorem kgood (bc : Bool) (b : Nat) (hb : b < 2) : KkrtGood (kenv bc) krun (S b) (R b) where
  batch := show 0 < 2 by decide
  bins := show 0 < 9 by decide
  perm := by simp [krun]
  size := fun _ _ => rfl
  fill := fun _ _ _ _ => rfl
  blake := by
    have h : ∀ b < 2, ∀ x ∈ S b ++ R b, ∀ y ∈ S b ++ R b, (kenv true).blake x.data64 = (kenv true).blake y.data64 → x.data64 = y.data64 := by
      decide +kernel
    exact h b hb
  collide := by
    have h : ∀ b < 2, ∀ i, i < 9 → ∀ i', i' < 9 → ∀ x ∈ (R b).map (fun x => (kenv true).blake x.data64),
        ∀ y ∈ (R b).map (fun x => (kenv true).blake x.data64) ++ ((S b).map (fun x => ((kenv true).blake x.data64, x.dup))).map Prod.fst,
        Kkrt.exP.F i x = Kkrt.exP.F i' y → i = i' ∧ x = y := by decide +kernel
    refine ⟨fun i i' x y h1 h2 h3 h4 => h b hb i h1 i' h2 x h3 y h4, ?_⟩
    intro pos h i x _ _ hb _ he
    have : (100 : UInt8) = UInt8.ofNat i := (List.cons.inj he).1
    have h9 : i < 9 := hb
    have := congrArg UInt8.toNat this
    rw [UInt8.toNat_ofNat', Nat.mod_eq_of_lt (by omega)] at this
    simp at this
    omega

example (bc : Bool) : ∃ out, Outcome bc dsA dsB (((task 2 out (kkrtCounted 2 S R)).history [fun _ => 2]).file false)
    (((task 2 out (kkrtCounted 2 S R)).history [fun _ => 2]).file true) := by
  choose! out hout using kends bc
  exact ⟨out, C47_kkrt_exact (kenv bc) hash (by decide) dsA dsB (by decide) (by decide) (by decide) (by decide) (by decide)
    (by decide) S R loadedS loadedR (fun _ => krun) (kgood bc) out hout
    [fun _ => 2] (by intro p hp; exact ⟨1, fun r => by simp at hp; rw [hp]⟩)⟩

example (t : JoinType) : ∃ out resA,
    finalizeStat t true (0, 0) (sortTable (fun a b => decide (a ≤ b)) key A) rbsA (((task 2 out (kkrtCounted 2 S R)).history []).file false)
      = .ok resA := by
  choose! out hout using kends true
  obtain ⟨resA, resB, h, _⟩ := C47_kkrt_join_end_to_end toBytes_inj inputA inputB (by decide) (by decide) (kenv true) rfl hash
    (by decide) S R (by rw [recsA_eq]; exact loadedS) (by rw [recsB_eq]; exact loadedR) (fun _ => krun) (kgood true)
    out hout [] (by simp) t true (0, 0) (0, 0)
  exact ⟨out, resA, h⟩

end Ex
end Psi.Whole
