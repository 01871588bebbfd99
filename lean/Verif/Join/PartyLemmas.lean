import Verif.Join.TableLemmas
import Mathlib.Algebra.BigOperators.Group.List.Basic

/-! Helper lemmas: the outputs of one party and of a pair of parties. -/

namespace Psi.Join
open Spec
variable {RA RB K : Type} [LinearOrder K]

/-- Rows of the intersection file. -/
def interL (keyA : RA → K) (A : List RA) (keyB : RB → K) (B : List RB) : List RA :=
  (sortTable leK keyA A).flatMap (fun a => List.replicate (cnt keyB B (keyA a)) a)

/-- Rows of the except file. -/
def exceptL (keyA : RA → K) (A : List RA) (keyB : RB → K) (B : List RB) : List RA :=
  (sortTable leK keyA A).filter (fun a => cnt keyB B (keyA a) = 0)

theorem Spec.Input.kbs_ne {e : K} {keyA : RA → K} {A : List RA} {kbs rbs}
    (h : Input e keyA A kbs rbs) : kbs ≠ [] := by
  intro hk
  have h1 := h.keyChunks.2
  rw [hk] at h1
  have h2 : (sortTable leK keyA A).length = 0 := by
    have := congrArg List.length h1; simp at this; simpa using this.symm
  rw [(sortTable_perm keyA A).length_eq] at h2
  exact h.nonempty (List.length_eq_zero_iff.mp h2)

theorem Spec.Input.recs {e : K} {keyA : RA → K} {A : List RA} {kbs rbs}
    (h : Input e keyA A kbs rbs) :
    expand (keyInfoMake e kbs) = (sortTable leK keyA A).map keyA ∧
    StartsFrom 0 (keyInfoMake e kbs) ∧ (protocolKeys e kbs).Pairwise (· < ·) := by
  obtain ⟨h1, h2, h3⟩ := keyInfoMake_spec e kbs h.keyChunks.1 h.kbs_ne
  have h1' : expand (keyInfoMake e kbs) = (sortTable leK keyA A).map keyA :=
    h1.trans h.keyChunks.2
  refine ⟨h1', h2, ?_⟩
  apply keys_strict _ h3
  rw [h1']
  exact sortTable_sorted keyA A

omit [LinearOrder K] in
theorem mem_expand (rs : List (KeyRec K)) (k : K) : k ∈ expand rs ↔ k ∈ rs.map (·.key) := by
  induction rs with
  | nil => simp
  | cons r rs ih =>
    rw [expand_cons]
    simp [ih]

theorem Spec.Input.mem_keys {e : K} {keyA : RA → K} {A : List RA} {kbs rbs}
    (h : Input e keyA A kbs rbs) (k : K) : k ∈ protocolKeys e kbs ↔ k ∈ A.map keyA := by
  rw [protocolKeys, ← mem_expand, h.recs.1]
  exact ((sortTable_perm keyA A).map keyA).mem_iff

theorem Spec.Input.nodup_keys {e : K} {keyA : RA → K} {A : List RA} {kbs rbs}
    (h : Input e keyA A kbs rbs) : (protocolKeys e kbs).Nodup :=
  h.recs.2.2.imp (fun h => ne_of_lt h)

theorem cnt_eq_zero (keyB : RB → K) (B : List RB) (k : K) : cnt keyB B k = 0 ↔ k ∉ B.map keyB := by
  simp [cnt, List.countP_eq_zero]

theorem cnt_eq_count (keyB : RB → K) (B : List RB) (k : K) :
    cnt keyB B k = (B.map keyB).count k := by
  rw [cnt, List.count, List.countP_map]
  congr 1

theorem sum_cnt (keyB : RB → K) (B : List RB) (ks : List K) (hn : ks.Nodup) :
    (ks.map (cnt keyB B)).sum = B.countP (fun b => keyB b ∈ ks) := by
  induction B with
  | nil =>
    have : ∀ l : List K, (l.map (cnt keyB [])).sum = 0 := by
      intro l
      induction l with
      | nil => rfl
      | cons k l ih => simpa [cnt] using ih
    simpa using this ks
  | cons b B ih =>
    have : ks.map (cnt keyB (b :: B)) =
        ks.map (fun k => cnt keyB B k + if keyB b = k then 1 else 0) := by
      apply List.map_congr_left
      intro k _
      simp [cnt, List.countP_cons]
    rw [this, List.sum_map_add, ih, List.countP_cons]
    congr 1
    clear this ih
    induction ks with
    | nil => simp
    | cons k ks ih =>
      rw [List.nodup_cons] at hn
      simp only [List.map_cons, List.sum_cons, ih hn.2]
      by_cases hk : keyB b = k
      · subst hk; simp [hn.1]
      · simp [hk]

theorem party_stat {e : K} {keyA : RA → K} {A : List RA} {kbs rbs} (h : Input e keyA A kbs rbs)
    (t : JoinType) (isLeft : Bool) (header : RA) (keyB : RB → K) (B : List RB)
    (idx : List (Nat × Nat)) (hidx : LawfulIndex (protocolKeys e kbs) keyB B idx) :
    finalizeStat t isLeft header (sortTable leK keyA A) rbs idx =
      .ok (⟨A.countP (fun a => keyA a ∈ B.map keyB), B.countP (fun b => keyB b ∈ A.map keyA),
            A.length, (interL keyA A keyB B).length,
            ((A.map keyA).toFinset ∩ (B.map keyB).toFinset).card⟩,
           (Dumper.make (interOn t) (exceptOn t isLeft)).add (header :: interL keyA A keyB B)
            (header :: exceptL keyA A keyB B)) := by
  obtain ⟨h1, h2, _⟩ := h.recs
  rw [dealResult_spec t isLeft header keyA A keyB B _ h1 h2 rbs h.recChunks.1 h.recChunks.2 idx hidx]
  have e1 : (List.map (cnt keyB B) (List.map (·.key) (keyInfoMake e kbs))).sum
      = B.countP (fun b => keyB b ∈ A.map keyA) := by
    have hn : ((keyInfoMake e kbs).map (·.key)).Nodup := h.nodup_keys
    rw [sum_cnt keyB B _ hn]
    apply List.countP_congr
    intro b _
    simp only [decide_eq_true_eq]
    exact h.mem_keys _
  have e2 : A.countP (fun a => decide (cnt keyB B (keyA a) ≠ 0))
      = A.countP (fun a => decide (keyA a ∈ B.map keyB)) := by
    apply List.countP_congr
    intro a _
    simp [cnt_eq_zero]
  have e3 : (List.map (·.key) (keyInfoMake e kbs)).countP (fun k => decide (cnt keyB B k ≠ 0))
      = ((A.map keyA).toFinset ∩ (B.map keyB).toFinset).card := by
    have hn : ((keyInfoMake e kbs).map (·.key)).Nodup := h.nodup_keys
    rw [List.countP_eq_length_filter, ← List.toFinset_card_of_nodup (hn.filter _)]
    congr 1
    ext k
    have := h.mem_keys k
    rw [protocolKeys] at this
    simp only [List.mem_toFinset, List.mem_filter, this, Finset.mem_inter, decide_eq_true_eq, ne_eq,
      cnt_eq_zero, not_not]
  rw [e1, e2, e3]
  rfl

theorem party_out {e : K} {keyA : RA → K} {A : List RA} {kbs rbs} (h : Input e keyA A kbs rbs)
    (t : JoinType) (isLeft : Bool) (header : RA) (keyB : RB → K) (B : List RB)
    (idx : List (Nat × Nat)) (hidx : LawfulIndex (protocolKeys e kbs) keyB B idx)
    (res : Stat × Dumper RA)
    (hres : finalizeStat t isLeft header (sortTable leK keyA A) rbs idx = .ok res)
    (broadcast : Bool) (p : Nat) :
    finalizeOut broadcast t isLeft res p =
      (if t = .difference then [] else (interL keyA A keyB B).map .own)
      ++ (if isLeft = false ∧ (t = .left ∨ t = .difference ∨ t = .full)
          then List.replicate
            (if broadcast then p - B.countP (fun b => keyB b ∈ A.map keyA) else 0) .na else [])
      ++ (if keepUnmatched t isLeft then (exceptL keyA A keyB B).map .own else [])
      ++ (if isLeft = true ∧ (t = .right ∨ t = .difference ∨ t = .full)
          then List.replicate
            (if broadcast then p - B.countP (fun b => keyB b ∈ A.map keyA) else 0) .na else []) := by
  rw [party_stat h t isLeft header keyB B idx hidx] at hres
  simp only [Except.ok.injEq] at hres
  subst hres
  cases t <;> cases isLeft <;>
    simp [finalizeOut, generateResult, Dumper.make, Dumper.add, interOn, exceptOn, writeOutput,
      writeNa, keepUnmatched]

theorem count_flatMap_replicate [DecidableEq RA] (l : List RA) (f : RA → Nat) (r : RA) :
    (l.flatMap (fun a => List.replicate (f a) a)).count r = l.count r * f r := by
  induction l with
  | nil => simp
  | cons a l ih =>
    simp only [List.flatMap_cons, List.count_append, ih, List.count_replicate, List.count_cons]
    by_cases h : a = r
    · subst h; simp [Nat.add_mul, Nat.add_comm]
    · simp [h]

theorem count_interL [DecidableEq RA] (keyA : RA → K) (A : List RA) (keyB : RB → K) (B : List RB)
    (r : RA) : (interL keyA A keyB B).count r = A.count r * cnt keyB B (keyA r) := by
  rw [interL, count_flatMap_replicate, (sortTable_perm keyA A).count_eq]

theorem count_exceptL [DecidableEq RA] (keyA : RA → K) (A : List RA) (keyB : RB → K) (B : List RB)
    (r : RA) : (exceptL keyA A keyB B).count r =
      if cnt keyB B (keyA r) = 0 then A.count r else 0 := by
  rw [exceptL]
  by_cases h : cnt keyB B (keyA r) = 0
  · rw [if_pos h, List.count_filter (by simpa using h), (sortTable_perm keyA A).count_eq]
  · rw [if_neg h, List.count_eq_zero]
    simp [h]

theorem exceptL_perm (keyA : RA → K) (A : List RA) (keyB : RB → K) (B : List RB) :
    (exceptL keyA A keyB B).Perm (unmatched keyA A keyB B) :=
  (sortTable_perm keyA A).filter _

theorem interL_keys_sorted (keyA : RA → K) (A : List RA) (keyB : RB → K) (B : List RB) :
    ((interL keyA A keyB B).map keyA).Pairwise (· ≤ ·) := by
  have h := sortTable_sorted keyA A
  rw [interL]
  generalize sortTable leK keyA A = l at h
  rw [List.pairwise_map] at h ⊢
  induction l with
  | nil => simp
  | cons a l ih =>
    rw [List.pairwise_cons] at h
    rw [List.flatMap_cons, List.pairwise_append]
    refine ⟨?_, ih h.2, ?_⟩
    · exact List.pairwise_replicate.mpr (Or.inr le_rfl)
    · intro x hx y hy
      rw [List.mem_replicate] at hx
      rw [List.mem_flatMap] at hy
      obtain ⟨z, hz, hy⟩ := hy
      rw [List.mem_replicate] at hy
      rw [hx.2, hy.2]
      exact h.1 z hz

theorem count_key_interL (keyA : RA → K) (A : List RA) (keyB : RB → K) (B : List RB) (k : K) :
    ((interL keyA A keyB B).map keyA).count k = cnt keyA A k * cnt keyB B k := by
  have hA : cnt keyA A k = cnt keyA (sortTable leK keyA A) k :=
    ((sortTable_perm keyA A).countP_eq _).symm
  rw [hA, interL]
  generalize sortTable leK keyA A = l
  induction l with
  | nil => simp [cnt]
  | cons a l ih =>
    rw [List.flatMap_cons, List.map_append, List.count_append, ih, List.map_replicate,
      List.count_replicate]
    by_cases h : keyA a = k
    · subst h; simp [cnt, Nat.add_mul, Nat.add_comm]
    · simp [cnt, h]

theorem interL_aligned (keyA : RA → K) (A : List RA) (keyB : RB → K) (B : List RB) :
    (interL keyA A keyB B).map keyA = (interL keyB B keyA A).map keyB := by
  have hp : ((interL keyA A keyB B).map keyA).Perm ((interL keyB B keyA A).map keyB) := by
    rw [List.perm_iff_count]
    intro k
    rw [count_key_interL, count_key_interL, Nat.mul_comm]
  exact hp.eq_of_pairwise (fun a b _ _ h1 h2 => le_antisymm h1 h2)
    (interL_keys_sorted _ _ _ _) (interL_keys_sorted _ _ _ _)

theorem unmatched_length (keyA : RA → K) (A : List RA) (keyB : RB → K) (B : List RB) :
    A.length - A.countP (fun a => keyA a ∈ B.map keyB) = (unmatched keyA A keyB B).length := by
  have h1 := List.length_eq_countP_add_countP (fun a => decide (keyA a ∈ B.map keyB)) (l := A)
  rw [unmatched, ← List.countP_eq_length_filter]
  have : A.countP (fun a => decide (cnt keyB B (keyA a) = 0)) =
      A.countP (fun a => decide (¬(decide (keyA a ∈ B.map keyB)) = true)) := by
    apply List.countP_congr
    intro a _
    simp only [decide_eq_true_eq, cnt_eq_zero]
  omega

theorem zip_interL_unique (keyA : RA → K) (A : List RA) (keyB : RB → K) (B : List RB)
    (hu : (B.map keyB).Nodup) :
    ((interL keyA A keyB B).zip (interL keyB B keyA A)).Perm (sqlJoin keyA A keyB B) := by
  -- pairs with equal keys are determined by their first component
  have key : ∀ (l : List RA) (m : List RB), l.map keyA = m.map keyB → (∀ b ∈ m, b ∈ B) →
      l.zip m = l.flatMap fun a => (B.filter fun b => keyB b = keyA a).map fun b => (a, b) := by
    intro l
    induction l with
    | nil => intro m _ _; simp
    | cons a l ih =>
      intro m hm hB
      cases m with
      | nil => simp at hm
      | cons b m =>
        simp only [List.map_cons, List.cons.injEq] at hm
        have hf : (B.filter fun b' => decide (keyB b' = keyA a)) = [b] := by
          have hbB := hB b (by simp)
          rw [hm.1]
          clear ih hm hB
          induction B with
          | nil => simp at hbB
          | cons c B ihB =>
            simp only [List.map_cons, List.nodup_cons] at hu
            rcases List.mem_cons.mp hbB with rfl | hb
            · have : (B.filter fun b' => decide (keyB b' = keyB b)) = [] := by
                rw [List.filter_eq_nil_iff]
                intro x hx
                simp only [decide_eq_true_eq]
                intro he
                exact hu.1 (he ▸ List.mem_map_of_mem hx)
              simp [this]
            · have hne : keyB c ≠ keyB b := fun he => hu.1 (he ▸ List.mem_map_of_mem hb)
              simp only [List.filter_cons, hne, decide_false, Bool.false_eq_true, if_false]
              exact ihB hu.2 hb
        rw [List.zip_cons_cons, List.flatMap_cons, hf,
          ih m hm.2 (fun b hb => hB b (by simp [hb]))]
        rfl
  rw [key _ _ (interL_aligned keyA A keyB B)
    (fun b hb => by
      rw [interL, List.mem_flatMap] at hb
      obtain ⟨c, hc, hb⟩ := hb
      rw [List.mem_replicate] at hb
      rw [hb.2]
      exact (sortTable_perm keyB B).mem_iff.mp hc)]
  rw [sqlJoin]
  -- each row of `A` is kept once or not at all
  have hsub : ∀ l : List RA,
      (l.flatMap (fun a => List.replicate (cnt keyB B (keyA a)) a)).flatMap
        (fun a => (B.filter fun b => keyB b = keyA a).map fun b => (a, b)) =
      l.flatMap (fun a => (B.filter fun b => keyB b = keyA a).map fun b => (a, b)) := by
    intro l
    induction l with
    | nil => rfl
    | cons a l ih =>
      simp only [List.flatMap_cons, List.flatMap_append, ih]
      congr 1
      have hle : cnt keyB B (keyA a) ≤ 1 := by
        rw [cnt_eq_count]; exact List.nodup_iff_count_le_one.mp hu _
      have hlen : (B.filter fun b => decide (keyB b = keyA a)).length = cnt keyB B (keyA a) := by
        rw [cnt, List.countP_eq_length_filter]
      rcases Nat.lt_or_ge 0 (cnt keyB B (keyA a)) with h1 | h1
      · have : cnt keyB B (keyA a) = 1 := by omega
        rw [this]; simp
      · have h0 : cnt keyB B (keyA a) = 0 := by omega
        rw [h0] at hlen
        rw [h0, List.length_eq_zero_iff.mp hlen]
        rfl
  rw [interL, hsub]
  exact (sortTable_perm keyA A).flatMap_right _

theorem interL_length (keyA : RA → K) (A : List RA) (keyB : RB → K) (B : List RB) :
    (interL keyA A keyB B).length = (sqlJoin keyA A keyB B).length := by
  rw [interL, sqlJoin, List.length_flatMap, List.length_flatMap]
  have : (A.map fun a => ((B.filter fun b => decide (keyB b = keyA a)).map fun b => (a, b)).length) =
      A.map fun a => (List.replicate (cnt keyB B (keyA a)) a).length := by
    apply List.map_congr_left
    intro a _
    simp [cnt, List.countP_eq_length_filter]
  rw [this]
  exact ((sortTable_perm keyA A).map _).sum_eq

theorem Spec.Input.keys_card {e : K} {keyA : RA → K} {A : List RA} {kbs rbs}
    (h : Input e keyA A kbs rbs) : (protocolKeys e kbs).length = (A.map keyA).toFinset.card := by
  rw [← List.toFinset_card_of_nodup h.nodup_keys]
  congr 1
  ext k
  simp only [List.mem_toFinset]
  exact h.mem_keys k

omit [LinearOrder K] in
theorem count_expand [DecidableEq K] (rs : List (KeyRec K)) (hn : (rs.map (·.key)).Nodup)
    (r : KeyRec K) (hr : r ∈ rs) : (expand rs).count r.key = r.dup + 1 := by
  induction rs with
  | nil => simp at hr
  | cons x rs ih =>
    rw [expand_cons, List.count_append]
    simp only [List.map_cons, List.nodup_cons] at hn
    rcases List.mem_cons.mp hr with rfl | hr
    · have : (expand rs).count r.key = 0 := by
        rw [List.count_eq_zero, mem_expand]; exact hn.1
      simp [this]
    · have hne : x.key ≠ r.key := fun he => hn.1 (he ▸ List.mem_map_of_mem hr)
      rw [ih hn.2 hr, List.count_replicate]
      simp [hne]

theorem recs_dup {e : K} {keyA : RA → K} {A : List RA} {kbs rbs}
    (h : Input e keyA A kbs rbs) :
    ∀ r ∈ keyInfoMake e kbs, r.dup + 1 = A.countP fun a => keyA a = r.key := by
  intro r hr
  have h1 := count_expand _ h.nodup_keys r hr
  rw [h.recs.1, ((sortTable_perm keyA A).map keyA).count_eq, ← cnt_eq_count] at h1
  rw [← h1]; rfl

omit [LinearOrder K] in
theorem StartsFrom_range (rs : List (KeyRec K)) (pos : Nat) (hs : StartsFrom pos rs)
    (hn : (rs.map (·.key)).Nodup) (r : KeyRec K) (hr : r ∈ rs) (j : Nat)
    (hj : j < (expand rs).length) :
    (expand rs)[j] = r.key ↔ r.start ≤ pos + j ∧ pos + j ≤ r.start + r.dup := by
  induction rs generalizing pos j with
  | nil => simp at hr
  | cons x rs ih =>
    simp only [List.map_cons, List.nodup_cons] at hn
    have hlow : ∀ (rs : List (KeyRec K)) (pos : Nat), StartsFrom pos rs → ∀ r ∈ rs, pos ≤ r.start := by
      intro rs
      induction rs with
      | nil => intro pos _ r hr; simp at hr
      | cons y rs ih =>
        intro pos hs r hr
        rcases List.mem_cons.mp hr with rfl | hr
        · exact le_of_eq hs.1.symm
        · have := ih _ hs.2 r hr
          omega
    simp only [expand_cons]
    by_cases hlt : j < x.dup + 1
    · rw [List.getElem_append_left (by simpa using hlt)]
      simp only [List.getElem_replicate]
      rcases List.mem_cons.mp hr with rfl | hr
      · have := hs.1
        simp; omega
      · have hne : x.key ≠ r.key := fun he => hn.1 (he ▸ List.mem_map_of_mem hr)
        have := hlow _ _ hs.2 r hr
        simp [hne]; omega
    · have hj' : j - (x.dup + 1) < (expand rs).length := by
        rw [expand_cons] at hj; simp at hj; omega
      rw [List.getElem_append_right (by simpa using hlt)]
      simp only [List.length_replicate]
      rcases List.mem_cons.mp hr with rfl | hr
      · have hmem : (expand rs)[j - (r.dup + 1)] ∈ expand rs := List.getElem_mem hj'
        have hne : (expand rs)[j - (r.dup + 1)] ≠ r.key := by
          intro he
          rw [he, mem_expand] at hmem
          exact hn.1 hmem
        have := hs.1
        simp [hne]; omega
      · rw [ih (pos + x.dup + 1) hs.2 hn.2 hr _ hj']
        constructor <;> intro hh <;> constructor <;> omega

theorem recs_range {e : K} {keyA : RA → K} {A : List RA} {kbs rbs}
    (h : Input e keyA A kbs rbs) :
    ∀ r ∈ keyInfoMake e kbs, ∀ j, ∀ hj : j < (sortTable leK keyA A).length,
      (keyA (sortTable leK keyA A)[j] = r.key ↔ r.start ≤ j ∧ j ≤ r.start + r.dup) := by
  intro r hr j hj
  have h1 := h.recs.1
  have hj' : j < (expand (keyInfoMake e kbs)).length := by rw [h1]; simpa using hj
  have := StartsFrom_range _ 0 h.recs.2.1 h.nodup_keys r hr j hj'
  simp only [Nat.zero_add] at this
  rw [← this]
  simp only [h1, List.getElem_map]

omit [LinearOrder K] in
theorem keyMeta_fold (rs : List (KeyRec K)) (m : KeyMeta) :
    rs.foldl metaStep m =
      { originCnt := m.originCnt + (expand rs).length
        uniqueKeyCnt := m.uniqueKeyCnt + rs.length
        duplicateKeyCnt := m.duplicateKeyCnt + rs.countP (fun r => r.dup ≠ 0) } := by
  induction rs generalizing m with
  | nil => simp
  | cons r rs ih =>
    rw [List.foldl_cons, ih, expand_cons]
    by_cases hd : r.dup = 0 <;> simp [metaStep, hd] <;> omega

theorem keyMeta_spec {e : K} {keyA : RA → K} {A : List RA} {kbs rbs}
    (h : Input e keyA A kbs rbs) :
    keyMeta (keyInfoMake e kbs) =
      { originCnt := A.length
        uniqueKeyCnt := (A.map keyA).toFinset.card
        duplicateKeyCnt := ((A.map keyA).toFinset.filter fun k => 2 ≤ cnt keyA A k).card } := by
  rw [keyMeta, keyMeta_fold]
  simp only [Nat.zero_add]
  have h1 : (expand (keyInfoMake e kbs)).length = A.length := by
    rw [h.recs.1, List.length_map, (sortTable_perm keyA A).length_eq]
  have h2 : (keyInfoMake e kbs).length = (A.map keyA).toFinset.card := by
    rw [← h.keys_card, protocolKeys, List.length_map]
  have h3 : (keyInfoMake e kbs).countP (fun r => decide (r.dup ≠ 0)) =
      ((A.map keyA).toFinset.filter fun k => 2 ≤ cnt keyA A k).card := by
    have e1 : (keyInfoMake e kbs).countP (fun r => decide (r.dup ≠ 0)) =
        (protocolKeys e kbs).countP (fun k => decide (2 ≤ cnt keyA A k)) := by
      rw [protocolKeys, List.countP_map]
      apply List.countP_congr
      intro r hr
      have := recs_dup h r hr
      simp only [decide_eq_true_eq, Function.comp]
      rw [cnt, ← this]
      omega
    rw [e1, List.countP_eq_length_filter, ← List.toFinset_card_of_nodup (h.nodup_keys.filter _)]
    congr 1
    ext k
    simp only [List.mem_toFinset, List.mem_filter, Finset.mem_filter, decide_eq_true_eq]
    rw [h.mem_keys k]
  rw [h1, h2, h3]

/-! Inputs declared to have unique keys. -/

omit [LinearOrder K] in
theorem keyInfoUnique_spec (ks : List K) (pos : Nat) :
    expand (keyInfoUnique pos ks) = ks ∧ StartsFrom pos (keyInfoUnique pos ks) ∧
    (keyInfoUnique pos ks).map (·.key) = ks := by
  induction ks generalizing pos with
  | nil => exact ⟨rfl, trivial, rfl⟩
  | cons k ks ih =>
    obtain ⟨h1, h2, h3⟩ := ih (pos + 1)
    exact ⟨by simp [keyInfoUnique, expand_cons, h1], ⟨rfl, h2⟩, by simp [keyInfoUnique, h3]⟩

/-- The body of the intersection file of a party with unique keys before re-sorting. -/
def interU (keyA : RA → K) (A : List RA) (keyB : RB → K) (B : List RB) : List RA :=
  A.flatMap (fun a => List.replicate (cnt keyB B (keyA a)) a)

theorem unique_stat (keyA : RA → K) (A : List RA) (rbs : List (List (KeyRec K)))
    (hr : Chunks rbs (keyInfoUnique 0 (A.map keyA)))
    (align : Bool) (sortAll : List RA → List RA)
    (t : JoinType) (isLeft : Bool) (header : RA) (keyB : RB → K) (B : List RB)
    (idx : List (Nat × Nat)) (hidx : LawfulIndex (A.map keyA) keyB B idx) :
    finalizeStatUnique align sortAll t isLeft header A rbs idx =
      .ok (⟨A.countP (fun a => cnt keyB B (keyA a) ≠ 0), ((A.map keyA).map (cnt keyB B)).sum, A.length,
            (interU keyA A keyB B).length, (A.map keyA).countP (fun k => cnt keyB B k ≠ 0)⟩,
           ⟨if t = .difference then none else some (header ::
                  (if align = true ∧ interU keyA A keyB B ≠ [] then
                    sortAll (interU keyA A keyB B) else interU keyA A keyB B)),
                if keepUnmatched t isLeft then
                  some (header :: A.filter (fun a => cnt keyB B (keyA a) = 0)) else none,
                (interU keyA A keyB B).length + 1,
                (A.filter (fun a => cnt keyB B (keyA a) = 0)).length + 1⟩) := by
  obtain ⟨h1, h2, h3⟩ := keyInfoUnique_spec (A.map keyA) 0
  have hd := dealResult_rows t isLeft header keyA A keyB B _ h1 h2 rbs hr.1 hr.2 idx
    (by rw [h3]; exact hidx)
  rw [h3] at hd
  unfold finalizeStatUnique dealResultUnique
  rw [hd]
  rw [← interU]
  generalize interU keyA A keyB B = I
  cases I <;> cases align <;> cases t <;> cases isLeft <;>
    simp [Dumper.make, Dumper.add, interOn, exceptOn, keepUnmatched]

end Psi.Join
