import Verif.Baxos.RunLemmas
import Verif.Okvs.Props

/-! # Properties of the binned key-value store -/

namespace Psi.Baxos
open Psi.Okvs Psi.Gf128

theorem decode_congr {K V : Type} [CommRing K] [AddCommGroup V] [Module K V] (coef : Nat → Nat → K) (D : Nat) {P P' Q Q' : Nat → V} (r : Row)
    (h1 : ∀ x ∈ r.cols, P x = P' x) (h2 : ∀ k < D, Q k = Q' k) : decode coef D P Q r = decode coef D P' Q' r := by
  unfold decode sparsePart densePart
  congr 2
  · exact List.map_congr_left h1
  · apply List.map_congr_left
    intro k hk
    rw [h2 k (List.mem_range.mp hk)]

/-- The value of a key in a table, by the sparse and dense part of its bin. -/
def lookup {K V : Type} [CommRing K] [AddCommGroup V] [Module K V] (c : Cfg) (coef : Nat → Nat → K) (pp : Nat → V) (h : Nat) : V :=
  decode coef c.D (fun k => pp (binIdx c.nBins h * c.size + k)) (fun k => pp (binIdx c.nBins h * c.size + (c.S + k)))
    ⟨buildRow c.w c.S h, h⟩

theorem decOk_gf (c : Cfg) (hw : 0 < c.w) (hD : 0 < c.D) : DecOk (V := Gf) c (decode1Gf c.w c.S c.D) (decode32Gf c.w c.S c.D)
    (fun p r => decode powCoef c.D p (fun k => p (c.S + k)) r) :=
  ⟨fun p row d => decode1Gf_eq hw hD p row d, fun p rows dense v => decode32Gf_eq hw hD p rows dense v⟩

theorem decOk_bin {V : Type} [AddCommGroup V] [Module (ZMod 2) V] (c : Cfg) (hw : 0 < c.w) (hD : c.D ≤ 64) :
    DecOk (V := V) c (decode1Bin c.w c.S c.D) (decode32Bin c.w c.S c.D)
    (fun p r => decode bitCoef c.D p (fun k => p (c.S + k)) r) :=
  ⟨fun p row d => decode1Bin_eq hw p row d, fun p rows dense v => decode32Bin_eq hw hD p rows dense v⟩

theorem mem_binItems {V : Type} (c : Cfg) (hs : List Nat) (X : Nat → V) {x : Nat} (hx : x < hs.length) :
    ∃ j, ∃ h : j < (binItems c hs X (binIdx c.nBins hs[x])).length, (binItems c hs X (binIdx c.nBins hs[x]))[j] = (hs[x], X x) := by
  have : (hs[x], X x) ∈ binItems c hs X (binIdx c.nBins hs[x]) := by
    unfold binItems inBin allItems
    rw [List.mem_filter, List.mem_map]
    exact ⟨⟨x, List.mem_range.mpr hx, by rw [List.getD_eq_getElem _ _ hx]⟩, by simp⟩
  obtain ⟨j, h1, h2⟩ := List.mem_iff_getElem.mp this
  exact ⟨j, h1, h2⟩

/-- What an encoder of a bin has to satisfy. -/
def EncOk {K V : Type} [CommRing K] [AddCommGroup V] [Module K V] (c : Cfg) (coef : Nat → Nat → K)
    (enc : List Row → (Nat → V) → Except Okvs.Err (Nat → V)) : Prop :=
  ∀ hs X p, enc (rowsOf c.w c.S hs) X = .ok p → ∀ r (hr : r < hs.length),
    decode coef c.D p (fun k => p (c.S + k)) ⟨buildRow c.w c.S hs[r], hs[r]⟩ = X r

theorem solve_lookup {K V : Type} [CommRing K] [AddCommGroup V] [Module K V] {c : Cfg} {coef : Nat → Nat → K}
    {enc : List Row → (Nat → V) → Except Okvs.Err (Nat → V)} (henc : EncOk c coef enc) {threads : Nat}
    (hw : c.w ≤ c.S) (hS : c.S < 2 ^ 62) (hn : 0 < c.nBins) {s1 s2 : List Nat} (h1 : ∀ i ∈ s1, i < max 1 threads)
    (h2 : ∀ i ∈ s2, i < max 1 threads) {hs : List Nat} {X out0 out : Nat → V}
    (h : solve c enc threads s1 s2 hs X out0 = .ok out) (x : Nat) (hx : x < hs.length) : lookup c coef out hs[x] = X x := by
  by_cases hb : c.nBins = 1
  · unfold solve at h
    simp only [bind, Except.bind, if_pos hb] at h
    split at h
    · cases h
    · split at h
      · cases h
      · split at h
        · cases h
        · rw [rows32_eq c.avx2 hw hS] at h
          split at h
          · rename_i p hp
            cases h
            have := henc hs X _ hp x hx
            unfold lookup binIdx
            rw [hb, Nat.mod_one]
            simpa using this
          · cases h
  · obtain ⟨p, Y, e1, e2, e3⟩ := solve_bins hw hS hb h1 h2 h (binIdx c.nBins hs[x]) (binIdx_lt hn)
    obtain ⟨j, hj, ej⟩ := mem_binItems c hs X hx
    have hj' : j < ((binItems c hs X (binIdx c.nBins hs[x])).map Prod.fst).length := by simpa using hj
    have e4 := henc _ _ _ e1 j hj'
    rw [List.getElem_map, ej] at e4
    have e5 := e2 j hj
    rw [ej] at e5
    rw [e5] at e4
    simp only at e4
    rw [← e4]
    unfold lookup
    have hsz : c.size = c.S + c.D := rfl
    apply decode_congr
    · intro k hk
      have := (buildRow_spec hw hs[x]).2.2 k hk
      rw [Nat.mul_comm, e3 k (by omega)]
    · intro k hk
      rw [Nat.mul_comm, e3 (c.S + k) (by omega)]

theorem encOk_gf {c : Cfg} {pick : Tri → Nat} (hw0 : 0 < c.w) (hw : c.w ≤ c.S) (hp : PickOk c.S pick) :
    EncOk c powCoef (encGf c pick) := by
  intro hs X p h r hr
  unfold encGf at h
  cases he : encodeGf (rowsOf c.w c.S hs) c.S c.D pick powCoef Gf.inv X with
  | error e => rw [he] at h; cases h
  | ok out =>
    rw [he] at h
    cases h
    rw [← C26_gf_round_trip_partial c.w c.S c.D pick hs X hw0 hw hp he r hr]
    apply decode_congr
    · intro k hk
      have := (buildRow_spec hw hs[r]).2.2 k hk
      unfold flat
      rw [if_pos this]
    · intro k _
      unfold flat
      rw [if_neg (by omega), Nat.add_sub_cancel_left]

theorem encOk_bin {V : Type} [AddCommGroup V] [Module (ZMod 2) V] {c : Cfg} {gMax : Nat} {pick : Tri → Nat} (hw0 : 0 < c.w)
    (hw : c.w ≤ c.S) (hp : PickOk c.S pick) (hg : gMax ≤ c.D) (hov : ∀ i ≤ gMax, c.D * c.D.choose i < 2 ^ 64) :
    EncOk (V := V) c bitCoef (encBin c gMax pick) := by
  intro hs X p h r hr
  unfold encBin at h
  cases he : encodeBin (rowsOf c.w c.S hs) c.S c.D gMax pick bitCoef X with
  | error e => rw [he] at h; cases h
  | ok out =>
    rw [he] at h
    cases h
    rw [← C26_binary_round_trip c.w c.S c.D gMax pick hs X hw0 hw hp hg hov he r hr]
    apply decode_congr
    · intro k hk
      have := (buildRow_spec hw hs[r]).2.2 k hk
      unfold flat
      rw [if_pos this]
    · intro k _
      unfold flat
      rw [if_neg (by omega), Nat.add_sub_cancel_left]

/-- C45, the fast mode, in part (missing: that the encoding succeeds; the encoder of a bin runs into undefined
behaviour with two gap rows, `C26_gf_two_gaps_undefined`).  Any numbers of threads, any order of their steps and any bins:
if `Solve` returns a table, then `Decode` of any list of keys returns for every encoded key its value. -/
theorem C45_gf_round_trip_partial (c : Cfg) (pick : Tri → Nat) (hw0 : 0 < c.w) (hw20 : c.w ≤ 20) (hw : c.w ≤ c.S)
    (hS : c.S < 2 ^ 62) (hD : 0 < c.D) (hn : 0 < c.nBins) (hp : PickOk c.S pick) (threads threads' : Nat)
    (s1 s2 s3 : List Nat) (h1 : ∀ i ∈ s1, i < max 1 threads) (h2 : ∀ i ∈ s2, i < max 1 threads)
    (h3 : ∀ i ∈ s3, i < max 1 threads') (hs ks : List Nat) (X out0 out v0 v : Nat → Gf)
    (he : solve c (encGf c pick) threads s1 s2 hs X out0 = .ok out)
    (hd : decodeAll c (decode1Gf c.w c.S c.D) (decode32Gf c.w c.S c.D) threads' s3 ks out v0 = .ok v)
    (j x : Nat) (hj : j < hs.length) (hx : x < ks.length) (hk : ks[x] = hs[j]) : v x = X j := by
  rw [decodeAll_ok (decOk_gf c hw0 hD) hw hS hw20 hn h3 hd x hx, hk]
  exact solve_lookup (encOk_gf hw0 hw hp) hw hS hn h1 h2 he j hj

/-- C45, `DenseType::Binary`. -/
theorem C45_binary_round_trip {V : Type} [AddCommGroup V] [Module (ZMod 2) V] (c : Cfg) (gMax : Nat) (pick : Tri → Nat)
    (hw0 : 0 < c.w) (hw20 : c.w ≤ 20) (hw : c.w ≤ c.S) (hS : c.S < 2 ^ 62) (hD : c.D ≤ 64) (hn : 0 < c.nBins)
    (hp : PickOk c.S pick) (hg : gMax ≤ c.D) (hov : ∀ i ≤ gMax, c.D * c.D.choose i < 2 ^ 64) (threads threads' : Nat)
    (s1 s2 s3 : List Nat) (h1 : ∀ i ∈ s1, i < max 1 threads) (h2 : ∀ i ∈ s2, i < max 1 threads)
    (h3 : ∀ i ∈ s3, i < max 1 threads') (hs ks : List Nat) (X out0 out v0 v : Nat → V)
    (he : solve c (encBin c gMax pick) threads s1 s2 hs X out0 = .ok out)
    (hd : decodeAll c (decode1Bin c.w c.S c.D) (decode32Bin c.w c.S c.D) threads' s3 ks out v0 = .ok v)
    (j x : Nat) (hj : j < hs.length) (hx : x < ks.length) (hk : ks[x] = hs[j]) : v x = X j := by
  rw [decodeAll_ok (decOk_bin c hw0 hD) hw hS hw20 hn h3 hd x hx, hk]
  exact solve_lookup (encOk_bin hw0 hw hp hg hov) hw hS hn h1 h2 he j hj

/-- C45: decoding never fails once the sizes pass `Paxos::Init` (any table, any keys, any threads that are let to finish). -/
theorem C45_gf_decode_total (c : Cfg) (hw0 : 0 < c.w) (hw20 : c.w ≤ 20) (hw : c.w ≤ c.S)
    (hS : c.S < 2 ^ 62) (hD : 0 < c.D) (hi : paxosInitOk c 1 = true) (threads : Nat) (sched ks : List Nat)
    (hf : Fair c (max 1 threads) ks.length sched) (pp v0 : Nat → Gf) :
    ∃ v, decodeAll c (decode1Gf c.w c.S c.D) (decode32Gf c.w c.S c.D) threads sched ks pp v0 = .ok v := by
  rcases decodeAll_total (decOk_gf c hw0 hD) hw hS hw20 hi threads ks pp v0 sched with h | h
  · exact h
  · exact absurd h (decodeAll_fair hf)

/-- C45: encoding comes to an end, with a table or with a failure, when the threads are let to finish. -/
theorem C45_gf_solve_ends (c : Cfg) (pick : Tri → Nat) (threads : Nat) (s1 s2 hs : List Nat)
    (h1 : Fair c (max 1 threads) hs.length s1) (h2 : Fair c (max 1 threads) hs.length s2) (X out0 : Nat → Gf) :
    solve c (encGf c pick) threads s1 s2 hs X out0 ≠ .error .unfinished := solve_fair h1 h2

/-- C45: the value decoded for a key depends on the table and on the key only: not on the other keys in the call, its
place among them (and so not on whether it is handled alone or among 32), the threads, their order, or the buffer. -/
theorem C45_gf_decode_same (c : Cfg) (hw0 : 0 < c.w) (hw20 : c.w ≤ 20) (hw : c.w ≤ c.S) (hS : c.S < 2 ^ 62) (hD : 0 < c.D)
    (hn : 0 < c.nBins) (threads threads' : Nat) (s s' ks ks' : List Nat) (h1 : ∀ i ∈ s, i < max 1 threads)
    (h2 : ∀ i ∈ s', i < max 1 threads') (pp v0 v v0' v' : Nat → Gf)
    (hd : decodeAll c (decode1Gf c.w c.S c.D) (decode32Gf c.w c.S c.D) threads s ks pp v0 = .ok v)
    (hd' : decodeAll c (decode1Gf c.w c.S c.D) (decode32Gf c.w c.S c.D) threads' s' ks' pp v0' = .ok v')
    (x y : Nat) (hx : x < ks.length) (hy : y < ks'.length) (hk : ks[x] = ks'[y]) : v x = v' y := by
  rw [decodeAll_ok (decOk_gf c hw0 hD) hw hS hw20 hn h1 hd x hx, decodeAll_ok (decOk_gf c hw0 hD) hw hS hw20 hn h2 hd' y hy, hk]

/-- Two bins, two threads. -/
def cfg2 : Cfg := ⟨4, 2, 4, fun _ => 3, 3, 10, 2, true⟩

theorem solve2 : ∃ out, solve cfg2 (encGf cfg2 (minPick 10)) 2 [0, 1, 1, 0] [1, 0] [0, 1, 2, 2 ^ 70 + 5]
    (fun r => if r = 3 then 1 else 0) (fun _ => 0) = .ok out := by
  have h : (match solve cfg2 (encGf cfg2 (minPick 10)) 2 [0, 1, 1, 0] [1, 0] [0, 1, 2, 2 ^ 70 + 5]
    (fun r => if r = 3 then 1 else 0) (fun _ => 0) with | .ok _ => true | .error _ => false) = true := by decide +kernel
  split at h
  · rename_i out ho
    exact ⟨out, ho⟩
  · cases h

theorem decode2 (out : Nat → Gf) : ∃ v, decodeAll cfg2 (decode1Gf 3 10 2) (decode32Gf 3 10 2) 1 [0, 0, 0, 0, 0] [7, 2 ^ 70 + 5, 1]
    out (fun _ => 0) = .ok v := ⟨_, rfl⟩

example : ∃ out v, solve cfg2 (encGf cfg2 (minPick 10)) 2 [0, 1, 1, 0] [1, 0] [0, 1, 2, 2 ^ 70 + 5]
      (fun r => if r = 3 then 1 else 0) (fun _ => 0) = .ok out ∧
    decodeAll cfg2 (decode1Gf 3 10 2) (decode32Gf 3 10 2) 1 [0, 0, 0, 0, 0] [7, 2 ^ 70 + 5, 1] out (fun _ => 0) = .ok v ∧ v 1 = 1 := by
  obtain ⟨out, ho⟩ := solve2
  obtain ⟨v, hv⟩ := decode2 out
  exact ⟨out, v, ho, hv, C45_gf_round_trip_partial cfg2 (minPick 10) (by decide) (by decide) (by decide) (by decide) (by decide)
    (by decide) (minPick_ok 10) 2 1 _ _ _ (by decide) (by decide) (by decide) _ _ _ _ _ _ _ ho hv 3 1 (by decide) (by decide) rfl⟩

example (out v v' : Nat → Gf)
    (h : decodeAll cfg2 (decode1Gf 3 10 2) (decode32Gf 3 10 2) 1 [0, 0, 0, 0, 0] [7, 2 ^ 70 + 5, 1] out (fun _ => 0) = .ok v)
    (h' : decodeAll cfg2 (decode1Gf 3 10 2) (decode32Gf 3 10 2) 2 [0, 1, 0, 1, 0, 1] [1, 7] out (fun _ => 1) = .ok v') : v 0 = v' 1 :=
  C45_gf_decode_same cfg2 (by decide) (by decide) (by decide) (by decide) (by decide) (by decide) 1 2 _ _ _ _ (by decide)
    (by decide) _ _ _ _ _ h h' 0 1 (by decide) (by decide) rfl

example (out : Nat → Gf) : ∃ v', decodeAll cfg2 (decode1Gf 3 10 2) (decode32Gf 3 10 2) 2 [0, 1, 0, 1, 0, 1] [1, 7] out (fun _ => 1) = .ok v' :=
  C45_gf_decode_total cfg2 (by decide) (by decide) (by decide) (by decide) (by decide) (by decide) 2 _ _ (by unfold Fair; decide) _ _

example (out : Nat → Gf) : ∃ v, decodeAll cfg2 (decode1Gf 3 10 2) (decode32Gf 3 10 2) 2 [1, 0, 0, 0, 1, 0, 1, 1] [7, 2 ^ 70 + 5, 1]
    out (fun _ => 0) = .ok v :=
  C45_gf_decode_total cfg2 (by decide) (by decide) (by decide) (by decide) (by decide) (by decide) 2 _ _ (by unfold Fair; decide) _ _

example : solve cfg2 (encGf cfg2 (minPick 10)) 2 [0, 1, 1, 0, 0, 0, 1, 1] [1, 0, 0, 1, 0, 1, 1, 0] [0, 1, 2, 2 ^ 70 + 5]
    (fun r => if r = 3 then 1 else 0) (fun _ => 0) ≠ .error .unfinished :=
  C45_gf_solve_ends cfg2 _ 2 _ _ _ (by unfold Fair; decide) (by unfold Fair; decide) _ _

/-- Binary values, two bins, two threads. -/
def cfg2b : Cfg := ⟨4, 2, 4, fun _ => 3, 3, 10, 4, false⟩

example : ∃ out v, solve cfg2b (encBin (V := ZMod 2) cfg2b 2 (minPick 10)) 2 [0, 1, 1, 0] [1, 0] [0, 1, 2, 2 ^ 70 + 5]
      (fun r => if r = 3 then 1 else 0) (fun _ => 0) = .ok out ∧
    decodeAll cfg2b (decode1Bin 3 10 4) (decode32Bin 3 10 4) 1 [0, 0, 0, 0, 0] [7, 2 ^ 70 + 5, 1] out (fun _ => 0) = .ok v ∧ v 1 = 1 := by
  have h : ∃ out, solve cfg2b (encBin (V := ZMod 2) cfg2b 2 (minPick 10)) 2 [0, 1, 1, 0] [1, 0] [0, 1, 2, 2 ^ 70 + 5]
      (fun r => if r = 3 then 1 else 0) (fun _ => 0) = .ok out := by
    have h : (match solve cfg2b (encBin (V := ZMod 2) cfg2b 2 (minPick 10)) 2 [0, 1, 1, 0] [1, 0] [0, 1, 2, 2 ^ 70 + 5]
      (fun r => if r = 3 then 1 else 0) (fun _ => 0) with | .ok _ => true | .error _ => false) = true := by decide +kernel
    split at h
    · rename_i out ho
      exact ⟨out, ho⟩
    · cases h
  obtain ⟨out, ho⟩ := h
  have h : ∃ v, decodeAll cfg2b (decode1Bin 3 10 4) (decode32Bin 3 10 4) 1 [0, 0, 0, 0, 0] [7, 2 ^ 70 + 5, 1] out (fun _ => 0) = .ok v :=
    (decodeAll_total (decOk_bin cfg2b (by decide) (by decide)) (by decide) (by decide) (by decide) (by decide) 1 _ _ _ _).resolve_right
      (decodeAll_fair (by unfold Fair; decide))
  obtain ⟨v, hv⟩ := h
  exact ⟨out, v, ho, hv, C45_binary_round_trip cfg2b 2 (minPick 10) (by decide) (by decide) (by decide) (by decide) (by decide)
    (by decide) (minPick_ok 10) (by decide) (by decide) 2 1 _ _ _ (by decide) (by decide) (by decide) _ _ _ _ _ _ _ ho hv 3 1 (by decide)
    (by decide) rfl⟩

/-- C45 fails for the code: keys that are handled 32 at a time are stored without a look at the capacity of the bin.
One thread, and more keys in one bin than `per_thrd_max_bin_size`: a write behind the part of the bin. -/
theorem C45_overflow_undefined (nBins cap : Nat) (c : Cfg) (hb : c.nBins = nBins) (h1 : nBins ≠ 1) (hcap : c.perThread 1 = cap)
    (hc : cap < 32) (enc : List Row → (Nat → Gf) → Except Okvs.Err (Nat → Gf)) (hs : List Nat) (h32 : 32 ≤ hs.length) (hi : hs.length ≤ c.nItems)
    (hsame : ∀ k ≤ cap, binIdx nBins (hs.getD k 0) = binIdx nBins (hs.getD 0 0)) (s2 : List Nat) (X out0 : Nat → Gf) :
    solve c enc 1 (List.replicate (cap + 1) 0) s2 hs X out0 = .error .undefined := by
  subst hb hcap
  have hrun : ∀ m ≤ c.perThread 1, ∃ a, Threads.run (scanStep c 1 hs X) (List.replicate m 0) (fun _ => ⟨0, fun _ => 0⟩, fun _ => (0, 0)) = .ok a ∧
      (a.1 0).pos = m ∧ (a.1 0).sizes (binIdx c.nBins (hs.getD 0 0)) = m := by
    intro m
    induction m with
    | zero => intro _; exact ⟨_, rfl, rfl, rfl⟩
    | succ m ih =>
      intro hm
      obtain ⟨a, e1, e2, e3⟩ := ih (by omega)
      have e4 := hsame m (by omega)
      have hfirst0 : first hs.length 1 0 = 0 := first_zero _ _
      have hfirst1 : first hs.length 1 1 = hs.length := first_last (by decide)
      rw [List.replicate_succ']
      unfold Threads.run at e1 ⊢
      rw [List.foldlM_append, e1]
      simp only [bind, Except.bind, List.foldlM_cons, List.foldlM_nil, pure, Except.pure]
      unfold Threads.exec scanStep
      simp only [hfirst0, hfirst1, e2, Nat.zero_add, Nat.sub_zero]
      rw [if_pos (by omega), e4, e3, if_pos (by omega)]
      refine ⟨_, rfl, ?_, ?_⟩ <;> simp
  obtain ⟨a, e1, e2, e3⟩ := hrun _ (Nat.le_refl _)
  have e4 := hsame _ (Nat.le_refl _)
  have hfirst0 : first hs.length 1 0 = 0 := first_zero _ _
  have hfirst1 : first hs.length 1 1 = hs.length := first_last (by decide)
  unfold solve
  simp only [bind, Except.bind]
  rw [if_neg (by omega), if_neg h1]
  have hlast : Threads.run (scanStep c (max 1 1) hs X) (List.replicate (c.perThread 1 + 1) 0)
      (fun _ => ⟨0, fun _ => 0⟩, fun _ => (0, 0)) = .error .undefined := by
    rw [List.replicate_succ', show max 1 1 = 1 from rfl]
    unfold Threads.run at e1 ⊢
    rw [List.foldlM_append, e1]
    simp only [bind, Except.bind, List.foldlM_cons, List.foldlM_nil, pure, Except.pure]
    unfold Threads.exec scanStep
    simp only [hfirst0, hfirst1, e2, Nat.zero_add, Nat.sub_zero]
    rw [if_pos (by omega), e4, e3, if_neg (by omega), if_pos (by omega)]
  rw [hlast]

/-- 33 keys in the same bin of two, capacity 31. -/
example (enc : List Row → (Nat → Gf) → Except Okvs.Err (Nat → Gf)) (X out0 : Nat → Gf) :
    solve ⟨40, 2, 40, fun _ => 31, 3, 10, 2, true⟩ enc 1 (List.replicate 32 0) [0, 0] ((List.range 33).map (· * 2)) X out0 = .error .undefined :=
  C45_overflow_undefined 2 31 _ rfl (by decide) rfl (by decide) enc _ (by decide) (by decide) (by decide) _ _ _

/-- C45: a sparse part of 255, 65535 or 2^32 - 1 columns gets an index type that `Paxos::Init` refuses. -/
theorem C45_index_type (c : Cfg) (h : c.S = 255 ∨ c.S = 65535 ∨ c.S = 2 ^ 32 - 1) (n : Nat) : paxosInitOk c n = false := by
  unfold paxosInitOk idxBits
  rcases h with h | h | h <;> rw [h] <;> simp

example := C45_index_type ⟨4, 2, 4, fun _ => 3, 3, 65535, 4, false⟩ (.inr (.inl rfl)) 1000

end Psi.Baxos
