import Verif.Whole.Lemmas
import Verif.Rr22.IntersectProps
import Verif.Rr22.OprfProps
import Verif.Kkrt.Props

/-! # Each bucket is exact -/

namespace Psi.Whole
open Psi.Bucket Psi.Spec Psi.Gf128
open Psi.Rr22 (receive sendBuf cntMap receiverLines senderLines maskSize truncateSize Good Size)
open Psi.Rr22.Oprf (SameValues)

/-! ## RR22 -/

/-- The values of two buckets do not clash: after truncation to `m` bytes, different keys have different values, and no common key has the
value zero. -/
def NoClash (m : Nat) (S R : List Item) (oS oR : List Gf) : Prop :=
  ∀ i j (hi : i < S.length) (hj : j < R.length),
    (S[i].data64 ≠ R[j].data64 → (oS.getD i 0).val % 256 ^ m ≠ (oR.getD j 0).val % 256 ^ m) ∧
    (S[i].data64 = R[j].data64 → (oS.getD i 0).val % 256 ^ m ≠ 0)

theorem maskSize_comm (cl : Nat → Nat) (a b ssp : Nat) (mal comp : Bool) : maskSize cl a b ssp mal comp = maskSize cl b a ssp mal comp := by
  unfold maskSize truncateSize
  rw [Nat.mul_comm]

theorem maskSize_bounds {cl : Nat → Nat} {a b ssp : Nat} {mal comp : Bool} (hs : 0 < ssp) {m : Nat}
    (h : maskSize cl a b ssp mal comp = .bytes m) : 0 < m ∧ m ≤ 16 := by
  unfold maskSize truncateSize at h
  split at h
  · split at h
    · cases h; omega
    · simp only at h
      split at h
      · cases h
      · cases h
        omega
  · cases h; omega

theorem exists_fun {A B : Type} [DecidableEq A] (l : List A) (hl : l.Nodup) (f : Nat → B) : ∃ g : A → B, ∀ i (h : i < l.length), g l[i] = f i :=
  ⟨fun a => f (l.idxOf a), fun i h => by simp only [hl.idxOf_getElem]⟩

theorem rr22Bucket_core {e : Rr22Env} (hssp : 0 < e.ssp) {oprf : List Gf → List Gf → Except Rr22.Oprf.Err (List Gf × List Gf)}
    {chunks : List (List Nat)} {S R : List Item} (hS : (S.map (·.data64)).Nodup) (hR : (R.map (·.data64)).Nodup)
    (lS : S.length ≤ 2 ^ 32) (lR : R.length ≤ 2 ^ 32) (hc : chunks.flatten.Perm (List.range S.length))
    (hsame : ∀ oS oR, oprf (S.map (fun x => e.blake x.data64)) (R.map (fun x => e.blake x.data64)) = .ok (oS, oR) →
      SameValues (S.map (fun x => e.blake x.data64)) (R.map (fun x => e.blake x.data64)) oS oR)
    (hclash : ∀ m oS oR, maskSize e.ceilLog2 S.length R.length e.ssp e.malicious e.compress = .bytes m →
      oprf (S.map (fun x => e.blake x.data64)) (R.map (fun x => e.blake x.data64)) = .ok (oS, oR) → NoClash m S R oS oR)
    :
    (rr22Bucket e oprf chunks S R = .error .undefined ∧ maskSize e.ceilLog2 S.length R.length e.ssp e.malicious e.compress = .undefined ∧
      ¬ (e.logZero ∧ (S.length = 0 ∨ R.length = 0))) ∨
    (∃ er, oprf (S.map (fun x => e.blake x.data64)) (R.map (fun x => e.blake x.data64)) = .error er ∧ S.length ≠ 0 ∧ R.length ≠ 0 ∧
      rr22Bucket e oprf chunks S R = .error (.oprf er)) ∨
    ∃ wS wR, rr22Bucket e oprf chunks S R = .ok (post S wS, post R wR) ∧ ExactIndex (R.map kv) (S.map kv) wR ∧
      (e.broadcast = true → ExactIndex (S.map kv) (R.map kv) wS) ∧ (e.broadcast = false → wS = []) := by
  unfold rr22Bucket
  rw [maskSize_comm e.ceilLog2 R.length S.length]
  cases hm : maskSize e.ceilLog2 S.length R.length e.ssp e.malicious e.compress with
  | undefined =>
    simp only
    split
    · rename_i h0
      refine Or.inr (Or.inr ⟨[], [], rfl, exact_nil ?_, fun _ => exact_nil ?_, fun _ => rfl⟩)
      · rcases h0.2 with h0 | h0
        · exact Or.inr (by rw [List.eq_nil_of_length_eq_zero h0]; rfl)
        · exact Or.inl (by rw [List.eq_nil_of_length_eq_zero h0]; rfl)
      · rcases h0.2 with h0 | h0
        · exact Or.inl (by rw [List.eq_nil_of_length_eq_zero h0]; rfl)
        · exact Or.inr (by rw [List.eq_nil_of_length_eq_zero h0]; rfl)
    · rename_i h0
      exact Or.inl ⟨rfl, trivial, h0⟩
  | bytes m =>
    obtain ⟨m0, m16⟩ := maskSize_bounds hssp hm
    simp only
    split
    · rename_i h0
      refine Or.inr (Or.inr ⟨[], [], rfl, exact_nil ?_, fun _ => exact_nil ?_, fun _ => rfl⟩)
      · rcases h0 with h0 | h0
        · exact Or.inr (by rw [List.eq_nil_of_length_eq_zero h0]; rfl)
        · exact Or.inl (by rw [List.eq_nil_of_length_eq_zero h0]; rfl)
      · rcases h0 with h0 | h0
        · exact Or.inl (by rw [List.eq_nil_of_length_eq_zero h0]; rfl)
        · exact Or.inr (by rw [List.eq_nil_of_length_eq_zero h0]; rfl)
    · rename_i h0
      cases ho : oprf (S.map (fun x => e.blake x.data64)) (R.map (fun x => e.blake x.data64)) with
      | error er => exact Or.inr (Or.inl ⟨er, rfl, fun h => h0 (Or.inl h), fun h => h0 (Or.inr h), rfl⟩)
      | ok o =>
        obtain ⟨oS, oR⟩ := o
        have hs := hsame oS oR ho
        have hcl := hclash m oS oR hm ho
        simp only
        have l1 : oS.length = S.length := by rw [hs.lenS, List.length_map]
        have l2 : oR.length = R.length := by rw [hs.lenR, List.length_map]
        obtain ⟨vS, hvS⟩ := exists_fun _ hS (fun i => (oS.getD i 0).val)
        obtain ⟨vR, hvR⟩ := exists_fun _ hR (fun i => (oR.getD i 0).val)
        have hvS' : ∀ i (hi : i < S.length), vS S[i].data64 = (oS.getD i 0).val := by
          intro i hi
          have := hvS i (by simpa using hi)
          rwa [List.getElem_map] at this
        have hvR' : ∀ i (hi : i < R.length), vR R[i].data64 = (oR.getD i 0).val := by
          intro i hi
          have := hvR i (by simpa using hi)
          rwa [List.getElem_map] at this
        have eS : oS.map Gf.val = (S.map kv).map (fun y => vS y.1) := by
          apply List.ext_getElem
          · simp [l1]
          · intro i h1 h2
            have hi : i < S.length := by simpa using h2
            simp only [List.getElem_map, kv]
            rw [hvS' i hi, List.getD_eq_getElem _ _ (by omega)]
        have eR : oR.map Gf.val = (R.map kv).map (fun y => vR y.1) := by
          apply List.ext_getElem
          · simp [l2]
          · intro i h1 h2
            have hi : i < R.length := by simpa using h2
            simp only [List.getElem_map, kv]
            rw [hvR' i hi, List.getD_eq_getElem _ _ (by omega)]
        have dS : S.map (·.dup) = (S.map kv).map Prod.snd := by rw [List.map_map]; rfl
        have dR : R.map (·.dup) = (R.map kv).map Prod.snd := by rw [List.map_map]; rfl
        have g : Good m vR vS (R.map kv) (S.map kv) := by
          constructor
          · intro x hx
            obtain ⟨r, hr, rfl⟩ := List.mem_map.mp hx
            obtain ⟨i, hi, rfl⟩ := List.mem_iff_getElem.mp hr
            simp only [kv]
            rw [hvR' i hi]
            exact (oR.getD i 0).lt
          · intro x hx
            obtain ⟨r, hr, rfl⟩ := List.mem_map.mp hx
            obtain ⟨i, hi, rfl⟩ := List.mem_iff_getElem.mp hr
            simp only [kv]
            rw [hvS' i hi]
            exact (oS.getD i 0).lt
          · intro x hx y hy
            obtain ⟨r, hr, rfl⟩ := List.mem_map.mp hx
            obtain ⟨j, hj, rfl⟩ := List.mem_iff_getElem.mp hr
            obtain ⟨s, hs', rfl⟩ := List.mem_map.mp hy
            obtain ⟨i, hi, rfl⟩ := List.mem_iff_getElem.mp hs'
            simp only [kv]
            rw [hvS' i hi, hvR' j hj]
            constructor
            · intro he
              by_contra hne
              exact (hcl i j hi hj).1 (fun h => hne h.symm) he.symm
            · intro he
              have := hs.same i j (by simpa using hi) (by simpa using hj) (by simp only [List.getElem_map, he])
              rw [List.getD_eq_getElem _ _ (by omega), List.getD_eq_getElem _ _ (by omega), this]
          · intro x hx y hy
            obtain ⟨r, hr, rfl⟩ := List.mem_map.mp hx
            obtain ⟨j, hj, rfl⟩ := List.mem_iff_getElem.mp hr
            obtain ⟨s, hs', rfl⟩ := List.mem_map.mp hy
            obtain ⟨i, hi, rfl⟩ := List.mem_iff_getElem.mp hs'
            simp only [kv]
            intro he
            rw [hvS' i hi]
            exact (hcl i j hi hj).2 he.symm
        have fS : (S.map kv).map Prod.fst = S.map (·.data64) := by rw [List.map_map]; rfl
        have fR : (R.map kv).map Prod.fst = R.map (·.data64) := by rw [List.map_map]; rfl
        obtain ⟨w, hw, x1, x2, x3⟩ := Rr22.C24_intersection_exact_partial m0 m16 g (by rw [fR]; exact hR) (by rw [fS]; exact hS)
          (by simpa using lR) (by simpa using lS) chunks (by simpa using hc)
        rw [List.length_map] at hw
        rw [eS, eR, dS, dR, hw]
        refine Or.inr (Or.inr ⟨_, _, rfl, x1, ?_, ?_⟩)
        · intro hb
          rw [hb]
          exact x2
        · intro hb
          rw [hb]
          exact x3

theorem rr22Bucket_exact {e : Rr22Env} (hssp : 0 < e.ssp) {oprf : List Gf → List Gf → Except Rr22.Oprf.Err (List Gf × List Gf)}
    {chunks : List (List Nat)} {S R : List Item} (hS : (S.map (·.data64)).Nodup) (hR : (R.map (·.data64)).Nodup)
    (lS : S.length ≤ 2 ^ 32) (lR : R.length ≤ 2 ^ 32) (hc : chunks.flatten.Perm (List.range S.length))
    (hsame : ∀ oS oR, oprf (S.map (fun x => e.blake x.data64)) (R.map (fun x => e.blake x.data64)) = .ok (oS, oR) →
      SameValues (S.map (fun x => e.blake x.data64)) (R.map (fun x => e.blake x.data64)) oS oR)
    (hclash : ∀ m oS oR, maskSize e.ceilLog2 S.length R.length e.ssp e.malicious e.compress = .bytes m →
      oprf (S.map (fun x => e.blake x.data64)) (R.map (fun x => e.blake x.data64)) = .ok (oS, oR) → NoClash m S R oS oR)
    {out : List (Nat × Nat) × List (Nat × Nat)} (h : rr22Bucket e oprf chunks S R = .ok out) :
    ∃ wS wR, out = (post S wS, post R wR) ∧ ExactIndex (R.map kv) (S.map kv) wR ∧
      (e.broadcast = true → ExactIndex (S.map kv) (R.map kv) wS) ∧ (e.broadcast = false → wS = []) := by
  rcases rr22Bucket_core hssp hS hR lS lR hc hsame hclash with h1 | ⟨er, _, _, _, h1⟩ | ⟨wS, wR, h1, h2⟩
  · rw [h1.1] at h; cases h
  · rw [h1] at h; cases h
  · rw [h1] at h
    cases h
    exact ⟨wS, wR, rfl, h2⟩

/-! ## KKRT -/

theorem peerResult_eq {res : List Item} (hn : (res.map (·.data64)).Nodup) (k : List Char) (d : Nat) :
    peerResult res k = some d ↔ ∃ x ∈ res, x.data64 = k ∧ x.dup = d := by
  unfold peerResult
  rw [Option.map_eq_some_iff]
  constructor
  · rintro ⟨x, h1, h2⟩
    have hp := List.find?_some h1
    have hm := List.mem_of_find?_eq_some h1
    exact ⟨x, List.mem_reverse.mp hm, by simpa using hp, h2⟩
  · rintro ⟨x, hx, h1, h2⟩
    refine ⟨x, ?_, h2⟩
    cases hf : res.reverse.find? (fun x => x.data64 == k) with
    | none =>
      rw [List.find?_eq_none] at hf
      exact absurd (by simpa using h1) (hf x (List.mem_reverse.mpr hx))
    | some y =>
      have hp := List.find?_some hf
      have hm := List.mem_reverse.mp (List.mem_of_find?_eq_some hf)
      have := List.inj_on_of_nodup_map hn hm hx (by rw [h1]; simpa using hp)
      rw [this]

/-- The lines of the sender, with positions instead of index numbers. -/
theorem kkrtSenderLines_eq {S res : List Item} (hres : (res.map (·.data64)).Nodup)
    (hsub : ∀ x ∈ res, ∃ y ∈ S, y.data64 = x.data64) :
    kkrtSenderLines true S res = post S (S.zipIdx.filterMap (fun y => (peerResult res y.1.data64).map (fun d => (y.2, d)))) := by
  have hpost : post S (S.zipIdx.filterMap (fun y => (peerResult res y.1.data64).map (fun d => (y.2, d)))) =
      S.filterMap (fun x => (peerResult res x.data64).map (fun d => (x.index, d))) := by
    unfold post
    rw [List.map_filterMap]
    have h1 : ∀ y ∈ S.zipIdx, Option.map (fun x : Nat × Nat => ((S.getD x.1 ⟨0, 0, []⟩).index, x.2))
        ((peerResult res y.1.data64).map (fun d => (y.2, d))) = (fun x : Item => (peerResult res x.data64).map (fun d => (x.index, d))) y.1 := by
      intro y hy
      obtain ⟨h2, h3⟩ := List.mem_zipIdx' hy
      rw [Option.map_map]
      simp only [Function.comp_def]
      rw [List.getD_eq_getElem _ _ h2, ← h3]
    rw [List.filterMap_congr h1]
    conv_rhs => rw [← List.zipIdx_map_fst 0 S, List.filterMap_map]
    rfl
  rw [hpost]
  unfold kkrtSenderLines
  rw [if_pos rfl]
  split
  · rename_i he
    have : res = [] := by simpa using he
    subst this
    simp [peerResult]
  · split
    · rename_i hlen
      -- all of the sender's items are in the result
      have hsubset : (res.map (·.data64)) ⊆ S.map (·.data64) := by
        intro k hk
        obtain ⟨x, hx, rfl⟩ := List.mem_map.mp hk
        obtain ⟨y, hy, h1⟩ := hsub x hx
        exact List.mem_map.mpr ⟨y, hy, h1⟩
      have hperm : (res.map (·.data64)).Perm (S.map (·.data64)) := (hres.subperm hsubset).perm_of_length_le (by simp [hlen])
      have hall : ∀ y ∈ S, ∃ d, peerResult res y.data64 = some d := by
        intro y hy
        have : y.data64 ∈ res.map (·.data64) := hperm.mem_iff.mpr (List.mem_map.mpr ⟨y, hy, rfl⟩)
        obtain ⟨x, hx, h1⟩ := List.mem_map.mp this
        exact ⟨x.dup, (peerResult_eq hres _ _).mpr ⟨x, hx, h1, rfl⟩⟩
      rw [← List.filterMap_eq_map']
      apply List.filterMap_congr
      intro y hy
      obtain ⟨d, hd⟩ := hall y hy
      rw [hd]
      rfl
    · rfl

theorem kkrt_recv_exact (p : Kkrt.Params) (xs : List Nat) (ys : List (Nat × Nat)) (step : Nat)
    (perm : Nat → Nat) (fill : Nat → Nat → Psi.Ecdh.Bytes) (rs : List Nat)
    (hxs : xs.Nodup) (hys : (ys.map Prod.fst).Nodup) (hx : xs.length ≤ 2 ^ 56)
    (hy : ys ≠ []) (hb : 0 < p.batch) (hnb : 0 < p.numBinsOf xs.length)
    (hperm : ((List.range ys.length).map perm).Perm (List.range ys.length))
    (hF : ∀ b x, (p.F b x).length = p.size)
    (hfill : ∀ pos h, pos < ys.length → h < 3 → (fill pos h).length = p.size)
    (hc : Kkrt.Spec.NoCollision p.F (p.numBinsOf xs.length) xs ys fill) {w : List (Nat × Nat)}
    (hw : Kkrt.recv p xs (Kkrt.send p ys xs.length step perm fill rs) = some w) : ExactIndex (xs.map (fun x => (x, 0))) ys w := by
  cases ht : Cuckoo.insertAll (p.options xs.length) [xs] with
  | error er =>
    unfold Kkrt.recv Kkrt.recvIndices at hw
    rw [ht] at hw
    cases hw
  | ok t =>
    obtain ⟨w', hw', hex⟩ := Kkrt.C20_kkrt_round p xs ys step perm fill rs t hxs hys hx hy hb hnb ht hperm hF hfill hc
    rw [hw] at hw'
    cases hw'
    exact hex

theorem kkrtBucket_exact {e : KkrtEnv} {r : KkrtRun} {S R : List Item} (hS : (S.map (·.data64)).Nodup) (hR : (R.map (·.data64)).Nodup)
    (lR : R.length ≤ 2 ^ 56) (hbatch : 0 < e.p.batch) (hnb : 0 < e.p.numBinsOf R.length)
    (hperm : ((List.range S.length).map r.perm).Perm (List.range S.length)) (hF : ∀ b x, (e.p.F b x).length = e.p.size)
    (hfill : ∀ pos h, pos < S.length → h < 3 → (r.fill pos h).length = e.p.size)
    (hblake : ∀ x ∈ S ++ R, ∀ y ∈ S ++ R, e.blake x.data64 = e.blake y.data64 → x.data64 = y.data64)
    (hc : Kkrt.Spec.NoCollision e.p.F (e.p.numBinsOf R.length) (R.map (fun x => e.blake x.data64))
      (S.map (fun x => (e.blake x.data64, x.dup))) r.fill)
    {out : List (Nat × Nat) × List (Nat × Nat)} (h : kkrtBucket e r S R = some out) :
    ∃ wS wR, out = (post S wS, post R wR) ∧ ExactIndex (R.map kv) (S.map kv) wR ∧
      (e.broadcast = true → ExactIndex (S.map kv) (R.map kv) wS) ∧ (e.broadcast = false → wS = []) := by
  unfold kkrtBucket at h
  split at h
  · rename_i h0
    cases h
    have h0' : S = [] ∨ R = [] := by
      by_cases hs : S.length = 0
      · exact Or.inl (List.eq_nil_of_length_eq_zero hs)
      · exact Or.inr (List.eq_nil_of_length_eq_zero (by omega))
    refine ⟨[], [], rfl, exact_nil ?_, fun _ => exact_nil ?_, fun _ => rfl⟩
    · rcases h0' with rfl | rfl
      · exact Or.inr rfl
      · exact Or.inl rfl
    · rcases h0' with rfl | rfl
      · exact Or.inl rfl
      · exact Or.inr rfl
  · rename_i h0
    have hSne : S ≠ [] := by
      rintro rfl
      simp at h0
    have hxs : (R.map (fun x => e.blake x.data64)).Nodup := by
      rw [List.Nodup, List.pairwise_map] at hR ⊢
      refine hR.imp_of_mem ?_
      intro a b ha hb hne he
      exact hne (hblake a (by simp [ha]) b (by simp [hb]) he)
    have hys : ((S.map (fun x => (e.blake x.data64, x.dup))).map Prod.fst).Nodup := by
      rw [List.map_map]
      rw [List.Nodup, List.pairwise_map] at hS ⊢
      refine hS.imp_of_mem ?_
      intro a b ha hb hne he
      exact hne (hblake a (by simp [ha]) b (by simp [hb]) he)
    cases hw : Kkrt.recv e.p (R.map (fun x => e.blake x.data64))
        (Kkrt.send e.p (S.map (fun x => (e.blake x.data64, x.dup))) R.length r.step r.perm r.fill r.rs) with
    | none => rw [hw] at h; cases h
    | some w =>
      rw [hw] at h
      simp only [Option.map_some, Option.some.injEq] at h
      have hex := kkrt_recv_exact e.p (R.map (fun x => e.blake x.data64)) (S.map (fun x => (e.blake x.data64, x.dup)))
        r.step r.perm r.fill r.rs hxs hys (by rw [List.length_map]; exact lR) (fun h => hSne (List.map_eq_nil_iff.mp h)) hbatch
        (by rw [List.length_map]; exact hnb) (by rw [List.length_map]; exact hperm) hF
        (by rw [List.length_map]; exact hfill) (by rw [List.length_map]; exact hc) (by rw [List.length_map]; exact hw)
      have hexR : ExactIndex (R.map kv) (S.map kv) w := by
        apply exact_of_map e.blake
        · intro x hx y hy he
          obtain ⟨a, ha, rfl⟩ := List.mem_map.mp hx
          obtain ⟨b, hb, rfl⟩ := List.mem_map.mp hy
          exact hblake a (by simp [ha]) b (by simp [hb]) he
        · refine exact_own ?_ (by rw [List.map_map]; exact hex)
          simp [kv, Function.comp_def]
      refine ⟨if e.broadcast then S.zipIdx.filterMap (fun y => (peerResult (w.map (fun x => R.getD x.1 ⟨0, 0, []⟩)) y.1.data64).map
        (fun d => (y.2, d))) else [], w, ?_, hexR, ?_, ?_⟩
      · rw [← h]
        refine congrArg (fun z => (z, post R w)) ?_
        cases hb : e.broadcast with
        | false => rfl
        | true =>
          rw [if_pos rfl]
          apply kkrtSenderLines_eq
          · -- distinct
            rw [List.map_map, List.Nodup, List.pairwise_map]
            have := hexR.nodup
            rw [List.Nodup, List.pairwise_map] at this
            refine this.imp_of_mem ?_
            intro a b ha hb' hne he
            apply hne
            have p1 := exact_pos hexR (p := a.1) (d := a.2) ha
            have p2 := exact_pos hexR (p := b.1) (d := b.2) hb'
            rw [List.length_map] at p1 p2
            simp only [Function.comp] at he
            rw [List.getD_eq_getElem _ _ p1, List.getD_eq_getElem _ _ p2] at he
            have h1 : (R.map (·.data64))[a.1]'(by simpa using p1) = (R.map (·.data64))[b.1]'(by simpa using p2) := by
              simpa using he
            exact (List.Nodup.getElem_inj_iff hR).mp h1
          · intro x hx
            obtain ⟨a, ha, rfl⟩ := List.mem_map.mp hx
            have p1 := exact_pos hexR (p := a.1) (d := a.2) ha
            obtain ⟨k, d, h1, h2⟩ := (hexR.mem a.1 a.2).mp ha
            obtain ⟨y, hy, h3⟩ := List.mem_map.mp h2
            rw [List.length_map] at p1
            rw [List.getElem?_map, List.getElem?_eq_getElem p1] at h1
            simp only [Option.map_some, Option.some.injEq, kv, Prod.mk.injEq] at h1 h3
            refine ⟨y, hy, ?_⟩
            rw [List.getD_eq_getElem _ _ p1, h3.1, ← h1.1]
      · intro hb
        rw [hb, if_pos rfl]
        have hres : ((w.map (fun x => R.getD x.1 ⟨0, 0, []⟩)).map (·.data64)).Nodup := by
          rw [List.map_map, List.Nodup, List.pairwise_map]
          have := hexR.nodup
          rw [List.Nodup, List.pairwise_map] at this
          refine this.imp_of_mem ?_
          intro a b ha hb' hne he
          apply hne
          have p1 := exact_pos hexR (p := a.1) (d := a.2) ha
          have p2 := exact_pos hexR (p := b.1) (d := b.2) hb'
          rw [List.length_map] at p1 p2
          simp only [Function.comp] at he
          rw [List.getD_eq_getElem _ _ p1, List.getD_eq_getElem _ _ p2] at he
          have h1 : (R.map (·.data64))[a.1]'(by simpa using p1) = (R.map (·.data64))[b.1]'(by simpa using p2) := by
            simpa using he
          exact (List.Nodup.getElem_inj_iff hR).mp h1
        constructor
        · rw [List.map_filterMap, List.Nodup, List.pairwise_filterMap]
          have hz : (S.zipIdx).Pairwise (fun a b => a.2 ≠ b.2) := by
            rw [List.pairwise_iff_getElem]
            intro i j hi hj hij
            simp only [List.getElem_zipIdx]
            omega
          refine hz.imp ?_
          intro a b hne i hi j hj he
          rw [Option.map_map, Option.map_eq_some_iff] at hi hj
          obtain ⟨_, _, rfl⟩ := hi
          obtain ⟨_, _, rfl⟩ := hj
          exact hne he
        · intro i d
          rw [List.mem_filterMap]
          constructor
          · rintro ⟨y, hy, he⟩
            obtain ⟨h2, h3⟩ := List.mem_zipIdx' hy
            obtain ⟨d', h4, h5⟩ := Option.map_eq_some_iff.mp he
            simp only [Prod.mk.injEq] at h5
            obtain ⟨rfl, rfl⟩ := h5
            obtain ⟨x, hx, h6, h7⟩ := (peerResult_eq hres _ _).mp h4
            refine ⟨y.1.data64, y.1.dup, ?_, ?_⟩
            · rw [List.getElem?_map, List.getElem?_eq_getElem h2, ← h3]
              rfl
            · obtain ⟨a, ha, rfl⟩ := List.mem_map.mp hx
              have p1 := exact_pos hexR (p := a.1) (d := a.2) ha
              rw [List.length_map] at p1
              rw [List.getD_eq_getElem _ _ p1] at h6 h7
              exact List.mem_map.mpr ⟨_, List.getElem_mem p1, by simp [kv, h6, h7]⟩
          · rintro ⟨k, f, h1, h2⟩
            rw [List.getElem?_map] at h1
            obtain ⟨y, h3, h4⟩ := Option.map_eq_some_iff.mp h1
            obtain ⟨x, hx, h5⟩ := List.mem_map.mp h2
            simp only [kv, Prod.mk.injEq] at h4 h5
            obtain ⟨hi, h6⟩ := List.getElem?_eq_some_iff.mp h3
            refine ⟨(y, i), ?_, ?_⟩
            · rw [List.mem_zipIdx_iff_getElem?]
              exact h3
            · rw [Option.map_eq_some_iff]
              refine ⟨d, ?_, rfl⟩
              rw [peerResult_eq hres]
              obtain ⟨p, hp, h7⟩ := List.mem_iff_getElem.mp hx
              have hmem : (p, y.dup) ∈ w := by
                rw [hexR.mem]
                refine ⟨k, d, ?_, ?_⟩
                · rw [List.getElem?_map, List.getElem?_eq_getElem hp, h7]
                  simp [kv, h5.1, h5.2]
                · refine List.mem_map.mpr ⟨y, List.mem_of_getElem? h3, ?_⟩
                  simp [kv, h4.1]
              refine ⟨x, List.mem_map.mpr ⟨_, hmem, ?_⟩, ?_, h5.2⟩
              · simp only
                rw [List.getD_eq_getElem _ _ hp, h7]
              · rw [h5.1, h4.1]
      · intro hb
        rw [hb]
        rfl

end Psi.Whole
