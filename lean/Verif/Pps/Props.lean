import Verif.Pps.SessionLemmas

/-!
# C88 – C90: punctured sets, one query, many queries
-/

namespace Psi.Pps

open Psi.Spiral (Res mapRes w64)

variable {prg : Nat → Nat × Nat}

/-! ### C88: puncturing takes out one element and keeps all others -/

/-- **C88**: a key stands for the set of the values at the first `s` leaves of its tree. -/
theorem set_of_leaves {n s k x : Nat} : x ∈ eval prg n s k ↔ ∃ i < s, lemire (node prg k (Nat.clog 2 s) i) n = x :=
  mem_eval prg

/-- **C88**: for a key whose elements are different, puncturing at any element gives a key for exactly the other elements. -/
theorem punctured_set {n s k i : Nat} (hk : GoodKey prg n s k) (hi : i ∈ eval prg n s k) (delta : Nat) :
    ∃ pk, punc prg s (evalMap prg n s k) i k ⟨[], 0, delta⟩ = .ok pk ∧ pk.delta = delta ∧ pk.k.length = Nat.clog 2 s ∧
      evalPunc prg n s pk = .ok ((eval prg n s k).filter fun x => x ≠ i) := by
  obtain ⟨p, hp, rfl⟩ := (mem_eval prg).mp hi
  exact ⟨_, punc_ok prg hk.nodup hp delta, rfl, by simp [depth], evalPunc_ok prg hk.nodup hp hk.noZero delta⟩

/-- **C88**: `Gen` gives only keys whose elements are different, so that their sets have the full size. -/
theorem gen_full {n s lambda : Nat} {rand : Nat → Nat} {key : Nat × List (Nat × Nat)}
    (h : genKey prg n s rand lambda = .ok key) : (eval prg n s key.1).length = s ∧ key.2 = evalMap prg n s key.1 :=
  ⟨(genKey_ok h).2.2, (genKey_ok h).2.1⟩

/-! ### C89: one query -/

/-- Some shift brings an element of the set to the index. -/
def Covered (prg : Nat → Nat × Nat) (n s k : Nat) (deltas : List Nat) (i : Nat) : Prop :=
  ∃ d ∈ deltas, ∃ x ∈ eval prg n s k, (x + d) % n = i

theorem covered_iff {n s k i : Nat} (hk : k < 2 ^ 128) (hw : Wide prg) (hn : n ≤ 2 ^ 63) (hi : i < n)
    {deltas : List Nat} (hd : ∀ d ∈ deltas, d < n) :
    Covered prg n s k deltas i ↔ ∃ d ∈ deltas, ∃ p < s, element prg n s k p = moduleSub i d n := by
  constructor
  · rintro ⟨d, hdm, x, hx, he⟩
    obtain ⟨p, hp, rfl⟩ := (mem_eval prg).mp hx
    have hlt := element_lt prg hw hk (Nat.pos_of_ne_zero (by omega)) (n := n) (s := s) p
    refine ⟨d, hdm, p, hp, ?_⟩
    rw [← moduleAdd_eq hlt (hd d hdm) hn] at he
    rw [← he, moduleSub_add hlt (hd d hdm) hn]
  · rintro ⟨d, hdm, p, hp, he⟩
    have hlt := element_lt prg hw hk (Nat.pos_of_ne_zero (by omega)) (n := n) (s := s) p
    refine ⟨d, hdm, _, (mem_eval prg).mpr ⟨p, hp, rfl⟩, ?_⟩
    rw [← moduleAdd_eq hlt (hd d hdm) hn, he, moduleAdd_sub hi (hd d hdm) hn]

open Classical in
/-- **C89**: after a set up that succeeded, a query over the wire gives the bit of the database at the index, unless the coin
says otherwise or no shifted set has the index; then it is given up. -/
theorem single_right {n s lambda lg i : Nat} {order : List (Nat × Nat) → List (Nat × Nat)} {randKey rand : Nat → Nat}
    {c : QueryCoins} {bits : List Bool} {key : Nat × List (Nat × Nat)} {deltas : List Nat} (hw : Wide prg) (hn : n ≤ 2 ^ 63)
    (hs : sizesOk n s = true) (ho : ∀ m, (order m).Perm m) (hrk : ∀ t, randKey t < 2 ^ 128) (hr : ∀ t, rand t < 2 ^ 64)
    (hset : setup prg n s lambda lg randKey rand = .ok (key, deltas)) (hz : NoZero prg key.1 (Nat.clog 2 s))
    (hr1 : c.r1 < s) (hr2 : c.r2 < s) (hb : n ≤ bits.length) (hi : i < n) :
    runSingle prg n s lambda lg order randKey rand c bits i
      = .ok (if c.b = true ∨ ¬ Covered prg n s key.1 deltas i then none else some (bits.getD i false)) := by
  have h0 : 0 < n := Nat.pos_of_ne_zero (by omega)
  obtain ⟨⟨t, -, ht⟩, hmap, hfull, hsorted, hdl⟩ := setup_ok h0 hr hset
  have hk : GoodKey prg n s key.1 := ⟨ht ▸ hrk t, hfull, hz⟩
  have hlen : deltas.length ≤ n := nodup_card (hsorted.imp fun h => ne_of_lt h) hdl
  obtain ⟨k, map⟩ := key
  dsimp only at hmap hk ⊢
  subst hmap
  obtain ⟨hsh, -⟩ := shiftOf_ok hk hw hn ho hdl hi hr1
  obtain ⟨p, hp, hq, he⟩ := query_ok hk hw hn ho hdl hi hr1 hr2
  have hhint : hint prg n s k deltas bits = .ok (deltas.map fun d => sumOver n bits (eval prg n s k) d) :=
    mapRes_of_ok fun d hd => evalParity_ok hk.lt hw h0 hn (hdl d hd) hb
  rw [runSingle, if_pos hs, hset, bind_ok]
  dsimp only
  rw [offline_round_trip hk.lt hsorted (fun d hd => lt_of_lt_of_le (hdl d hd) (by omega)) (by omega), bind_ok]
  dsimp only
  rw [hhint, bind_ok, hq, bind_ok]
  dsimp only
  rw [puncKey_wire hk hw h0 hn hp hsh, bind_ok, answer_ok hk hw h0 hn hp hsh hb, bind_ok, bits_round_trip, reconstruct]
  have hcov := covered_iff hk.lt hw hn hi hdl (prg := prg) (s := s)
  by_cases hcb : c.b = true
  · rw [if_pos (by simp [hcb]), if_pos (Or.inl hcb)]
  · rw [if_neg hcb] at he
    cases hf : findDelta n (evalMap prg n s k) i deltas with
    | none =>
      have : ¬ Covered prg n s k deltas i := by
        rw [hcov]
        rintro ⟨d, hd, q, hq, hqe⟩
        exact findDelta_none hk.nodup hf d hd q hq hqe
      rw [if_pos (by simp), if_pos (Or.inr this)]
    | some j =>
      obtain ⟨hj, q, hq, hqe⟩ := findDelta_some hk.nodup hf
      have hcv : Covered prg n s k deltas i :=
        hcov.mpr ⟨deltas.getD j 0, by rw [List.getD_eq_getElem _ _ hj]; exact List.getElem_mem _, q, hq, hqe⟩
      have hjn : j ≠ pirAbort := by unfold pirAbort; omega
      have hshift : shiftOf n order (evalMap prg n s k) deltas c.r1 i = deltas.getD j 0 := by rw [shiftOf, hf]
      rw [if_neg (by simp [hcb, hjn]), if_neg (by simp [hcb, hcv]), Option.getD_some, bitAt, if_pos (by simpa using hj), bind_ok]
      rw [hshift] at he hsh ⊢
      have hx : (deltas.map fun d => sumOver n bits (eval prg n s k) d).getD j false
          = sumOver n bits (eval prg n s k) (deltas.getD j 0) := by
        rw [List.getD_eq_getElem (l := deltas.map _) _ (by simpa using hj), List.getElem_map, List.getD_eq_getElem _ _ hj]
      rw [hx, sum_minus hp, he, moduleAdd_sub hi hsh hn]

/-- **C89**, where it stops: the set up wants as many different shifts as `M()` says, so it fails, whatever the random
numbers, when there are fewer places. -/
theorem setup_small {n s lambda lg : Nat} {randKey rand : Nat → Nat} (h0 : 0 < n) (hr : ∀ t, rand t < 2 ^ 64)
    (hm : n < setupCount n s lg) : setup prg n s lambda lg randKey rand = .throws := by
  rw [setup]
  rcases genKey_cases prg n s lambda randKey with hg | ⟨key', hg⟩
  · rw [hg]; rfl
  · rw [hg, bind_ok]
    dsimp only
    rw [if_neg]
    have h1 := drawDeltas_inv (m := setupCount n s lg) h0 hr (10 * setupCount n s lg) 0 0 [] List.Pairwise.nil (by simp)
    have h2 := nodup_card (h1.1.imp fun h => ne_of_lt h) h1.2
    rcases drawDeltas_count (n := n) (m := setupCount n s lg) (rand := rand) (10 * setupCount n s lg) 0 [] with h | h
    · rw [List.length_nil] at h
      omega
    · rw [List.length_nil] at h
      omega

/-- **C89**: a set up that succeeds has so many shifts that the shifted sets together hold `lg` times as many places as
there are: on average every place is in at least `lg` of them. -/
theorem setup_enough {n s lambda lg : Nat} {randKey rand : Nat → Nat} (hs : 0 < s)
    {key : Nat × List (Nat × Nat)} {deltas : List Nat} (h : setup prg n s lambda lg randKey rand = .ok (key, deltas)) :
    lg * n ≤ deltas.length * s := by
  rw [setup] at h
  rcases genKey_cases prg n s lambda randKey with hg | ⟨key', hg⟩
  · rw [hg] at h; cases h
  · rw [hg, bind_ok] at h
    dsimp only at h
    split_ifs at h with hc
    have he := Res.ok.inj h
    rw [Prod.mk.injEq] at he
    obtain ⟨rfl, rfl⟩ := he
    have hl : setupCount n s lg ≤ (drawDeltas n (setupCount n s lg) rand (10 * setupCount n s lg) 0 0 []).2.length := by
      rcases drawDeltas_count (n := n) (m := setupCount n s lg) (rand := rand) (10 * setupCount n s lg) 0 [] with h | h
      · rw [List.length_nil] at h
        omega
      · exact h
    refine le_trans ?_ (Nat.mul_le_mul_right s hl)
    rw [setupCount]
    have hd := Nat.div_add_mod n s
    have hm := Nat.mod_lt n hs
    have hn : n ≤ (if n % s ≠ 0 then n / s + 1 else n / s) * s := by
      split_ifs with h0
      · rw [Nat.add_mul, Nat.one_mul, Nat.mul_comm]
        omega
      · rw [Nat.mul_comm]
        omega
    calc lg * n ≤ lg * ((if n % s ≠ 0 then n / s + 1 else n / s) * s) := Nat.mul_le_mul_left lg hn
      _ = _ := by rw [← Nat.mul_assoc, Nat.mul_comm lg]

/-! ### C90: many queries -/

/-- The client's sets belong to its keys, and its hints are the sums over its sets. -/
structure Consistent (prg : Nat → Nat × Nat) (n s : Nat) (bits : List Bool) (cl : Client) (h : List Bool) : Prop where
  vlen : cl.v.length = cl.ck.length
  hlen : h.length = cl.ck.length
  few : cl.ck.length < 2 ^ 64 - 1
  good : ∀ j < cl.ck.length, GoodKey prg n s (cl.ck.getD j (0, 0)).1 ∧ (cl.ck.getD j (0, 0)).2 < n
  sets : ∀ j < cl.ck.length, cl.v.getD j [] = eval prg n s (cl.ck.getD j (0, 0)).1
  sums : ∀ j < cl.ck.length,
    h.getD j false = sumOver n bits (eval prg n s (cl.ck.getD j (0, 0)).1) (cl.ck.getD j (0, 0)).2

/-- The first levels of two trees differ. -/
def Apart (prg : Nat → Nat × Nat) (k k' : Nat) : Prop := (prg k).1 ≠ (prg k').1 ∧ (prg k).2 ≠ (prg k').2

theorem getD_set {α : Type} (l : List α) (j i : Nat) (a d : α) (hj : j < l.length) :
    (l.set j a).getD i d = if i = j then a else l.getD i d := by
  by_cases hi : i < l.length
  · rw [List.getD_eq_getElem _ _ (by simpa using hi), List.getElem_set, List.getD_eq_getElem _ _ hi]
    by_cases h : i = j
    · rw [if_pos h.symm, if_pos h]
    · rw [if_neg (Ne.symm h), if_neg h]
  · rw [List.getD_eq_default _ _ (by simpa using hi), List.getD_eq_default _ _ (by omega), if_neg (by omega)]

theorem depth_pos {s : Nat} (hs : 2 ≤ s) : 0 < depth s := Nat.clog_pos (by decide) hs

theorem puncKey_ne_nil {s : Nat} (hs : 2 ≤ s) (k p delta : Nat) : (puncKey prg s k p delta).k ≠ [] := by
  have := depth_pos hs
  simp only [puncKey, ne_eq, List.map_eq_nil_iff, List.range_eq_nil]
  omega

theorem puncKey_head {s : Nat} (hs : 2 ≤ s) (k p delta : Nat) :
    (puncKey prg s k p delta).k.getD 0 0 = sibling prg k (depth s) p 0 := by
  rw [puncKey, List.getD_eq_getElem _ _ (by simpa using depth_pos hs), List.getElem_map, List.getElem_range]

theorem sibling_apart {k k' h p : Nat} (ha : Apart prg k k') : sibling prg k h p 0 ≠ sibling prg k' h p 0 := by
  simp only [sibling, node]
  split_ifs
  · exact ha.1
  · exact ha.2

theorem answerMulti_same {n s k p delta : Nat} {bits : List Bool} (hs : 2 ≤ s) (h : GoodKey prg n s k) (hw : Wide prg)
    (h0 : 0 < n) (hn : n ≤ 2 ^ 63) (hp : p < s) (hd : delta < n) (hb : n ≤ bits.length) :
    ∃ a, answerMulti prg n s (puncKey prg s k p delta) (puncKey prg s k p delta) bits = .ok (a, a) := by
  rw [answerMulti, answer_ok h hw h0 hn hp hd hb, bind_ok, if_neg, if_pos ⟨rfl, rfl⟩]
  · exact ⟨_, rfl⟩
  · rintro ⟨-, h | h⟩ <;> exact puncKey_ne_nil hs k p delta h

theorem answerMulti_apart {n s k p delta k' p' delta' : Nat} {bits : List Bool} (hs : 2 ≤ s) (h : GoodKey prg n s k)
    (h' : GoodKey prg n s k') (ha : Apart prg k k') (hw : Wide prg) (h0 : 0 < n) (hn : n ≤ 2 ^ 63) (hp : p < s) (hp' : p' < s)
    (hd : delta < n) (hd' : delta' < n) (hb : n ≤ bits.length) :
    answerMulti prg n s (puncKey prg s k p delta) (puncKey prg s k' p' delta') bits
      = .ok (sumOver n bits ((eval prg n s k).filter fun x => x ≠ element prg n s k p) delta,
          sumOver n bits ((eval prg n s k').filter fun x => x ≠ element prg n s k' p') delta') := by
  rw [answerMulti, answer_ok h hw h0 hn hp hd hb, bind_ok, if_neg, if_neg, answer_ok h' hw h0 hn hp' hd' hb]
  · rfl
  · rintro ⟨h1, h2⟩
    rw [puncKey_head hs, puncKey_head hs] at h2
    obtain rfl : p = p' := h1
    exact sibling_apart ha h2
  · rintro ⟨-, h | h⟩
    · exact puncKey_ne_nil hs _ _ _ h
    · exact puncKey_ne_nil hs _ _ _ h

/-- What a set up instance needs: sizes and a database. -/
structure Sizes (prg : Nat → Nat × Nat) (n s : Nat) (order : List (Nat × Nat) → List (Nat × Nat)) (bits : List Bool) : Prop where
  wide : Wide prg
  pos : 0 < n
  le : n ≤ 2 ^ 63
  two : 2 ≤ s
  order : ∀ m, (order m).Perm m
  bits : n ≤ bits.length

theorem findSet_some {n s i j : Nat} {bits : List Bool} {cl : Client} {h : List Bool} (hc : Consistent prg n s bits cl h)
    (hf : findSet n cl i = some j) : j < cl.ck.length ∧
      ∃ p < s, element prg n s (cl.ck.getD j (0, 0)).1 p = moduleSub i (cl.ck.getD j (0, 0)).2 n := by
  obtain ⟨h1, h2⟩ := find_range.1 j hf
  rw [hc.sets j h1, decide_eq_true_eq, mem_eval] at h2
  exact ⟨h1, h2⟩

theorem findSet_none {n s i : Nat} {bits : List Bool} {cl : Client} {h : List Bool} (hc : Consistent prg n s bits cl h)
    (hf : findSet n cl i = none) : ∀ j < cl.ck.length,
      ∀ p < s, element prg n s (cl.ck.getD j (0, 0)).1 p ≠ moduleSub i (cl.ck.getD j (0, 0)).2 n := by
  intro j hj p hp he
  have h2 := find_range.2 hf j hj
  rw [hc.sets j hj, decide_eq_false_iff_not, mem_eval] at h2
  exact h2 ⟨p, hp, he⟩

/-- The new element of a query. -/
theorem fresh_ok {n s i : Nat} {order : List (Nat × Nat) → List (Nat × Nat)} {bits : List Bool} (hz : Sizes prg n s order bits)
    {k : Nat} (hk : GoodKey prg n s k) {c : QueryCoins} (hr1 : c.r1 < s) (hi : i < n) :
    freshDelta n order (evalMap prg n s k) c i < n ∧
      ∃ p < s, element prg n s k p = moduleSub i (freshDelta n order (evalMap prg n s k) c i) n := by
  obtain ⟨p, hp, he⟩ := elementAt_mem hk.nodup hz.order hr1
  have hlt := element_lt prg hz.wide hk.lt hz.pos (n := n) (s := s) p
  rw [freshDelta, he]
  exact ⟨moduleSub_lt hi hlt hz.le, p, hp, (moduleSub_sub hi hlt hz.le).symm⟩

/-- A query that is given up. -/
theorem turn_none {n s lambda : Nat} {order : List (Nat × Nat) → List (Nat × Nat)} {bits : List Bool}
    (hz : Sizes prg n s order bits) {st : Client × List Bool} {t : Turn} {key : Nat × List (Nat × Nat)}
    (hg : genKey prg n s t.keys lambda = .ok key) (hk : GoodKey prg n s key.1) (hr1 : t.coins.r1 < s) (hr2 : t.coins.r2 < s)
    (hi : t.index < n) (hno : t.coins.b = true ∨ findSet n st.1 t.index = none) :
    ∃ p < s, turn prg n s lambda order bits st t
      = .ok (st, (puncKey prg s key.1 p (freshDelta n order (evalMap prg n s key.1) t.coins t.index),
          puncKey prg s key.1 p (freshDelta n order (evalMap prg n s key.1) t.coins t.index)), none) := by
  obtain ⟨-, hmap, -⟩ := genKey_ok hg
  obtain ⟨k, map⟩ := key
  dsimp only at hmap hk ⊢
  subst hmap
  obtain ⟨hd, p0, hp0, he0⟩ := fresh_ok hz hk hr1 hi
  have hq : ∃ p < s, queryMulti prg n s order (k, evalMap prg n s k) st.1 t.coins t.index
      = .ok (st.1, pirAbort, puncKey prg s k p (freshDelta n order (evalMap prg n s k) t.coins t.index),
          puncKey prg s k p (freshDelta n order (evalMap prg n s k) t.coins t.index)) := by
    rw [queryMulti]
    dsimp only
    by_cases hb : t.coins.b = true
    · obtain ⟨p, hp, he⟩ := elementAt_mem hk.nodup hz.order hr2
      refine ⟨p, hp, ?_⟩
      rw [if_pos hb, he, moduleSub_add (element_lt prg hz.wide hk.lt hz.pos p) hd hz.le, punc_ok prg hk.nodup hp, bind_ok]
      rfl
    · refine ⟨p0, hp0, ?_⟩
      rw [if_neg hb, ← he0, punc_ok prg hk.nodup hp0, bind_ok, hno.resolve_left hb]
      rfl
  obtain ⟨p, hp, hq⟩ := hq
  obtain ⟨a, ha⟩ := answerMulti_same hz.two hk hz.wide hz.pos hz.le hp hd hz.bits
  refine ⟨p, hp, ?_⟩
  rw [turn, hg, bind_ok, hq, bind_ok]
  dsimp only
  rw [puncKey_wire hk hz.wide hz.pos hz.le hp hd, bind_ok, bind_ok, ha, bind_ok, reconstructMulti, if_neg (by simp), bind_ok]

/-- A query that is answered. -/
theorem turn_some {n s lambda : Nat} {order : List (Nat × Nat) → List (Nat × Nat)} {bits : List Bool}
    (hz : Sizes prg n s order bits) {st : Client × List Bool} (hc : Consistent prg n s bits st.1 st.2) {t : Turn}
    {key : Nat × List (Nat × Nat)} (hg : genKey prg n s t.keys lambda = .ok key) (hk : GoodKey prg n s key.1)
    (hr1 : t.coins.r1 < s) (hi : t.index < n) (hb : t.coins.b = false) {j : Nat} (hf : findSet n st.1 t.index = some j)
    (ha : ∀ c ∈ st.1.ck, Apart prg key.1 c.1) :
    ∃ p < s, ∃ p' < s, element prg n s key.1 p
        = moduleSub t.index (freshDelta n order (evalMap prg n s key.1) t.coins t.index) n ∧
      element prg n s (st.1.ck.getD j (0, 0)).1 p' = moduleSub t.index (st.1.ck.getD j (0, 0)).2 n ∧
      turn prg n s lambda order bits st t
        = .ok ((⟨st.1.ck.set j (key.1, freshDelta n order (evalMap prg n s key.1) t.coins t.index),
              st.1.v.set j (eval prg n s key.1)⟩,
            st.2.set j (sumOver n bits (eval prg n s key.1) (freshDelta n order (evalMap prg n s key.1) t.coins t.index))),
          (puncKey prg s key.1 p (freshDelta n order (evalMap prg n s key.1) t.coins t.index),
            puncKey prg s (st.1.ck.getD j (0, 0)).1 p' (st.1.ck.getD j (0, 0)).2), some (bits.getD t.index false)) := by
  obtain ⟨-, hmap, -⟩ := genKey_ok hg
  obtain ⟨k, map⟩ := key
  dsimp only at hmap hk ha ⊢
  subst hmap
  obtain ⟨hd, p, hp, he⟩ := fresh_ok hz hk hr1 hi
  obtain ⟨hj, p', hp', he'⟩ := findSet_some hc hf
  obtain ⟨hk', hd'⟩ := hc.good j hj
  have hap : Apart prg k (st.1.ck.getD j (0, 0)).1 := by
    apply ha
    rw [List.getD_eq_getElem _ _ hj]
    exact List.getElem_mem _
  have hsum := hc.sums j hj
  generalize hcj : st.1.ck.getD j (0, 0) = cj at he' hk' hd' hap hsum ⊢
  generalize hdel : freshDelta n order (evalMap prg n s k) t.coins t.index = delta at hd he ⊢
  have hq : queryMulti prg n s order (k, evalMap prg n s k) st.1 t.coins t.index
      = .ok (⟨st.1.ck.set j (k, delta), st.1.v.set j (eval prg n s k)⟩, j, puncKey prg s k p delta,
          puncKey prg s cj.1 p' cj.2) := by
    rw [queryMulti]
    dsimp only
    rw [hdel, if_neg (by simp [hb]), ← he, punc_ok prg hk.nodup hp, bind_ok, hf]
    dsimp only
    rw [hcj, ← he', PuncKey.empty, punc_ok prg hk'.nodup hp', bind_ok]
    rfl
  refine ⟨p, hp, p', hp', he, he', ?_⟩
  rw [turn, hg, bind_ok, hq, bind_ok]
  dsimp only
  rw [puncKey_wire hk hz.wide hz.pos hz.le hp hd, bind_ok, puncKey_wire hk' hz.wide hz.pos hz.le hp' hd', bind_ok,
    answerMulti_apart hz.two hk hk' hap hz.wide hz.pos hz.le hp hp' hd hd' hz.bits, bind_ok, reconstructMulti,
    if_pos (by have := hc.few; unfold pirAbort; omega)]
  dsimp only
  rw [bitAt, if_pos (by rw [hc.hlen]; exact hj), bind_ok, bind_ok, hsum, sum_minus hp', he',
    moduleAdd_sub hi hd' hz.le]
  have h2 := sum_minus (prg := prg) (n := n) (k := k) (bits := bits) (delta := delta) hp
  rw [he, moduleAdd_sub hi hd hz.le] at h2
  have h3 : (sumOver n bits ((eval prg n s k).filter fun x => x ≠ element prg n s k p) delta ^^ bits.getD t.index false)
      = sumOver n bits (eval prg n s k) delta := by
    rw [he, ← h2]
    generalize sumOver n bits _ delta = u
    generalize sumOver n bits _ delta = w
    cases u <;> cases w <;> rfl
  rw [h3]

theorem Consistent.set {n s : Nat} {bits : List Bool} {cl : Client} {h : List Bool} (hc : Consistent prg n s bits cl h)
    {j k delta : Nat} (hj : j < cl.ck.length) (hk : GoodKey prg n s k) (hd : delta < n) :
    Consistent prg n s bits ⟨cl.ck.set j (k, delta), cl.v.set j (eval prg n s k)⟩
      (h.set j (sumOver n bits (eval prg n s k) delta)) where
  vlen := by simp [hc.vlen]
  hlen := by simp [hc.hlen]
  few := by simpa using hc.few
  good := by
    intro i hi
    rw [List.length_set] at hi
    rw [getD_set _ _ _ _ _ hj]
    split_ifs
    · exact ⟨hk, hd⟩
    · exact hc.good i hi
  sets := by
    intro i hi
    rw [List.length_set] at hi
    dsimp only
    rw [getD_set _ _ _ _ _ hj, getD_set _ _ _ _ _ (by rw [hc.vlen]; exact hj)]
    split_ifs
    · rfl
    · exact hc.sets i hi
  sums := by
    intro i hi
    rw [List.length_set] at hi
    dsimp only
    rw [getD_set _ _ _ _ _ hj, getD_set _ _ _ _ _ (by rw [hc.hlen]; exact hj)]
    split_ifs
    · rfl
    · exact hc.sums i hi

/-- Some set of the client, shifted, has the index. -/
def CoveredMulti (prg : Nat → Nat × Nat) (n s : Nat) (ck : List (Nat × Nat)) (i : Nat) : Prop :=
  ∃ c ∈ ck, ∃ x ∈ eval prg n s c.1, (x + c.2) % n = i

theorem coveredMulti_iff {n s i : Nat} {bits : List Bool} {cl : Client} {h : List Bool} (hc : Consistent prg n s bits cl h)
    (hw : Wide prg) (hn : n ≤ 2 ^ 63) (hi : i < n) :
    CoveredMulti prg n s cl.ck i ↔ ∃ j < cl.ck.length, ∃ p < s,
      element prg n s (cl.ck.getD j (0, 0)).1 p = moduleSub i (cl.ck.getD j (0, 0)).2 n := by
  constructor
  · rintro ⟨c, hcm, hx⟩
    obtain ⟨j, hj, rfl⟩ := List.getElem_of_mem hcm
    obtain ⟨hg, hd⟩ := hc.good j hj
    rw [List.getD_eq_getElem _ _ hj] at hg hd
    obtain ⟨d, hdm, p, hp, he⟩ := (covered_iff hg.lt hw hn hi (deltas := [cl.ck[j].2]) (by simpa using hd)).mp
      ⟨_, by simp, hx⟩
    rw [List.mem_singleton] at hdm
    subst hdm
    refine ⟨j, hj, p, hp, ?_⟩
    rw [List.getD_eq_getElem _ _ hj]
    exact he
  · rintro ⟨j, hj, p, hp, he⟩
    obtain ⟨hg, hd⟩ := hc.good j hj
    rw [List.getD_eq_getElem _ _ hj] at hg hd he
    obtain ⟨d, hdm, hx⟩ := (covered_iff hg.lt hw hn hi (deltas := [cl.ck[j].2]) (by simpa using hd)).mpr
      ⟨_, by simp, p, hp, he⟩
    rw [List.mem_singleton] at hdm
    subst hdm
    exact ⟨_, List.getElem_mem hj, hx⟩

open Classical in
/-- **C90**: from a consistent state, a query for which a key was found gives the bit at the index exactly when the coin allows
it and some set has the index, and leaves a consistent state. -/
theorem turn_right {n s lambda : Nat} {order : List (Nat × Nat) → List (Nat × Nat)} {bits : List Bool}
    (hz : Sizes prg n s order bits) {st : Client × List Bool} (hc : Consistent prg n s bits st.1 st.2) {t : Turn}
    {key : Nat × List (Nat × Nat)} (hg : genKey prg n s t.keys lambda = .ok key)
    (hlt : key.1 < 2 ^ 128) (hnz : NoZero prg key.1 (Nat.clog 2 s))
    (hr1 : t.coins.r1 < s) (hr2 : t.coins.r2 < s) (hi : t.index < n) (ha : ∀ c ∈ st.1.ck, Apart prg key.1 c.1) :
    ∃ st' seen, turn prg n s lambda order bits st t = .ok (st', seen,
        if t.coins.b = false ∧ CoveredMulti prg n s st.1.ck t.index then some (bits.getD t.index false) else none) ∧
      Consistent prg n s bits st'.1 st'.2 ∧ ∀ c ∈ st'.1.ck, c ∈ st.1.ck ∨ c.1 = key.1 := by
  have hk : GoodKey prg n s key.1 := ⟨hlt, (gen_full hg).1, hnz⟩
  have hcov := coveredMulti_iff hc hz.wide hz.le hi
  by_cases hb : t.coins.b = true
  · obtain ⟨p, -, h⟩ := turn_none hz (st := st) hg hk hr1 hr2 hi (Or.inl hb)
    rw [if_neg (by simp [hb])]
    exact ⟨_, _, h, hc, fun c hc => Or.inl hc⟩
  · have hb' : t.coins.b = false := by simpa using hb
    cases hf : findSet n st.1 t.index with
    | none =>
      obtain ⟨p, -, h⟩ := turn_none hz (st := st) hg hk hr1 hr2 hi (Or.inr hf)
      rw [if_neg]
      · exact ⟨_, _, h, hc, fun c hc => Or.inl hc⟩
      · rintro ⟨-, h⟩
        obtain ⟨j, hj, p, hp, he⟩ := hcov.mp h
        exact findSet_none hc hf j hj p hp he
    | some j =>
      obtain ⟨p, -, p', -, -, -, h⟩ := turn_some hz hc hg hk hr1 hi hb' hf ha
      obtain ⟨hj, hp⟩ := findSet_some hc hf
      rw [if_pos ⟨hb', hcov.mpr ⟨j, hj, hp⟩⟩]
      refine ⟨_, _, h, hc.set hj hk (fresh_ok hz hk hr1 hi).1, ?_⟩
      intro c hcm
      rcases List.mem_or_eq_of_mem_set hcm with hm | rfl
      · exact Or.inl hm
      · exact Or.inr rfl

/-- The trees of the keys drawn for a query differ on the first level from those of all keys drawn before (`AnswerMulti`
compares only one value of that level). -/
def FreshTurns (prg : Nat → Nat × Nat) (lambda : Nat) : List Nat → List Turn → Prop
  | _, [] => True
  | old, t :: ts => (∀ u < lambda, ∀ k ∈ old, Apart prg (t.keys u) k) ∧
    FreshTurns prg lambda (old ++ (List.range lambda).map t.keys) ts

/-- What is asked of a query: its random numbers are in range, its index is in the database. -/
structure GoodTurn (prg : Nat → Nat × Nat) (n s lambda : Nat) (t : Turn) : Prop where
  lt : ∀ u < lambda, t.keys u < 2 ^ 128
  noZero : ∀ u < lambda, NoZero prg (t.keys u) (Nat.clog 2 s)
  r1 : t.coins.r1 < s
  r2 : t.coins.r2 < s
  index : t.index < n

theorem turns_right {n s lambda : Nat} {order : List (Nat × Nat) → List (Nat × Nat)} {bits : List Bool}
    (hz : Sizes prg n s order bits) : ∀ (ts : List Turn) {st : Client × List Bool} {old : List Nat},
    Consistent prg n s bits st.1 st.2 → (∀ c ∈ st.1.ck, c.1 ∈ old) → (∀ t ∈ ts, GoodTurn prg n s lambda t) →
    FreshTurns prg lambda old ts →
    turns prg n s lambda order bits st ts = .throws ∨ ∃ rs, turns prg n s lambda order bits st ts = .ok rs ∧
      List.Forall₂ (fun t r => r = none ∨ r = some (bits.getD t.index false)) ts rs
  | [], _, _, _, _, _, _ => Or.inr ⟨[], rfl, List.Forall₂.nil⟩
  | t :: ts, st, old, hc, hold, hgood, hfresh => by
    rw [turns]
    rcases genKey_cases prg n s lambda t.keys with hg | ⟨key, hg⟩
    · left
      rw [turn, hg]
      rfl
    · obtain ⟨⟨u, hu, hkey⟩, -, -⟩ := genKey_ok hg
      have hgt := hgood t (by simp)
      obtain ⟨st', seen, h1, h2, h3⟩ := turn_right hz hc hg (hkey ▸ hgt.lt u hu) (hkey ▸ hgt.noZero u hu) hgt.r1 hgt.r2 hgt.index
        fun c hcm => hkey ▸ hfresh.1 u hu c.1 (hold c hcm)
      rw [h1, bind_ok]
      have := turns_right hz ts (old := old ++ (List.range lambda).map t.keys) h2 (by
        intro c hcm
        rw [List.mem_append]
        rcases h3 c hcm with h | h
        · exact Or.inl (hold c h)
        · right
          rw [h, hkey]
          exact List.mem_map_of_mem (List.mem_range.mpr hu)) (fun t ht => hgood t (List.mem_cons_of_mem _ ht)) hfresh.2
      dsimp only
      rcases this with h | ⟨rs, h, hrs⟩
      · left; rw [h]; rfl
      · right
        rw [h, bind_ok]
        refine ⟨_, rfl, List.Forall₂.cons ?_ hrs⟩
        split_ifs
        · exact Or.inr rfl
        · exact Or.inl rfl

theorem drawKeys_inv {n s m : Nat} {rand : Nat → Nat} : ∀ (fuel count : Nat) (keys : List Nat), keys.length ≤ m →
    (∀ k ∈ keys, (eval prg n s k).length = s ∧ ∃ u < count, k = rand u) →
    (drawKeys prg n s m rand fuel count keys).2.length ≤ m ∧
    ∀ k ∈ (drawKeys prg n s m rand fuel count keys).2, (eval prg n s k).length = s ∧ ∃ u < count + fuel, k = rand u
  | 0, count, keys, hl, h => ⟨hl, h⟩
  | fuel + 1, count, keys, hl, h => by
    rw [drawKeys]
    split_ifs with h1 h2
    · have := drawKeys_inv (m := m) (rand := rand) fuel (count + 1) (keys ++ [rand count]) (by simp; omega) (by
        intro k hk
        rcases List.mem_append.mp hk with hk | hk
        · obtain ⟨e, u, hu, hr⟩ := h k hk
          exact ⟨e, u, by omega, hr⟩
        · rw [List.mem_singleton] at hk
          exact ⟨hk ▸ h2, count, by omega, hk⟩)
      rwa [show count + 1 + fuel = count + (fuel + 1) by omega] at this
    · have := drawKeys_inv (m := m) (rand := rand) fuel (count + 1) keys hl (by
        intro k hk
        obtain ⟨e, u, hu, hr⟩ := h k hk
        exact ⟨e, u, by omega, hr⟩)
      rwa [show count + 1 + fuel = count + (fuel + 1) by omega] at this
    · refine ⟨hl, fun k hk => ?_⟩
      obtain ⟨e, u, hu, hr⟩ := h k hk
      exact ⟨e, u, by omega, hr⟩

/-- **C90**: in a run with set up and any number of queries, every answer is the bit at the index asked for, or none; a run
can only end early because no key without collision was found. -/
theorem many_right {n s lambda lg : Nat} {order : List (Nat × Nat) → List (Nat × Nat)} {rand : Nat → Nat} {bits : List Bool}
    {ts : List Turn} (hz : Sizes prg n s order bits) (hm : setupCountMulti n s lg < 2 ^ 64 - 1)
    (hr : ∀ u < 10 * setupCountMulti n s lg, rand u < 2 ^ 128 ∧ NoZero prg (rand u) (Nat.clog 2 s))
    (hgood : ∀ t ∈ ts, GoodTurn prg n s lambda t)
    (hfresh : FreshTurns prg lambda ((List.range (10 * setupCountMulti n s lg)).map rand) ts) :
    runMulti prg n s lambda lg order rand bits ts = .throws ∨ ∃ rs, runMulti prg n s lambda lg order rand bits ts = .ok rs ∧
      List.Forall₂ (fun t r => r = none ∨ r = some (bits.getD t.index false)) ts rs := by
  rw [runMulti]
  split_ifs with hok
  swap
  · exact Or.inl rfl
  rw [setupMulti]
  split_ifs with hcount
  swap
  · exact Or.inl rfl
  obtain ⟨hlen, hkeys⟩ := drawKeys_inv (prg := prg) (n := n) (s := s) (m := setupCountMulti n s lg) (rand := rand)
    (10 * setupCountMulti n s lg) 0 [] (by simp) (by simp)
  generalize (drawKeys prg n s (setupCountMulti n s lg) rand (10 * setupCountMulti n s lg) 0 []).2 = keys at hlen hkeys ⊢
  rw [Nat.zero_add] at hkeys
  have hgk : ∀ k ∈ keys, GoodKey prg n s k := by
    intro k hk
    obtain ⟨e, u, hu, rfl⟩ := hkeys k hk
    exact ⟨(hr u hu).1, e, (hr u hu).2⟩
  rw [bind_ok]
  dsimp only
  rw [keys_round_trip (by
    intro c hc
    obtain ⟨k, hk, rfl⟩ := List.mem_map.mp hc
    exact ⟨(hgk k hk).lt, by dsimp only; omega⟩) (by rw [List.length_map]; omega), bind_ok]
  have hh : hintMulti prg n s (keys.map fun k => (k, 0)) bits
      = .ok ((keys.map fun k => (k, 0)).map fun c => sumOver n bits (eval prg n s c.1) c.2) := by
    apply mapRes_of_ok
    intro c hc
    obtain ⟨k, hk, rfl⟩ := List.mem_map.mp hc
    exact evalParity_ok (hgk k hk).lt hz.wide hz.pos hz.le hz.pos hz.bits
  rw [hh, bind_ok, bits_round_trip]
  apply turns_right hz ts _ _ hgood hfresh
  · refine ⟨by simp, by simp, by simp only [List.length_map]; omega, ?_, ?_, ?_⟩
    · intro j hj
      rw [List.length_map] at hj
      rw [List.getD_eq_getElem _ _ (by simpa using hj), List.getElem_map]
      exact ⟨hgk _ (List.getElem_mem hj), hz.pos⟩
    · intro j hj
      dsimp only at hj ⊢
      rw [List.length_map] at hj
      rw [List.getD_eq_getElem (l := keys.map fun k => (k, 0)) _ (by simpa using hj), List.getElem_map,
        List.getD_eq_getElem _ _ (by simpa using hj), List.getElem_map]
    · intro j hj
      dsimp only at hj ⊢
      rw [List.length_map] at hj
      rw [List.getD_eq_getElem (l := keys.map fun k => (k, 0)) _ (by simpa using hj), List.getElem_map,
        List.getD_eq_getElem _ _ (by simpa using hj), List.getElem_map, List.getElem_map]
  · intro c hc
    obtain ⟨k, hk, rfl⟩ := List.mem_map.mp hc
    obtain ⟨-, u, hu, rfl⟩ := hkeys k hk
    exact List.mem_map_of_mem (List.mem_range.mpr hu)

/-- Either all tries are used up or there are `m` keys. -/
theorem drawKeys_count {n s m : Nat} {rand : Nat → Nat} : ∀ (fuel count : Nat) (keys : List Nat),
    (drawKeys prg n s m rand fuel count keys).1 = count + fuel ∨ m ≤ (drawKeys prg n s m rand fuel count keys).2.length
  | 0, count, keys => Or.inl rfl
  | fuel + 1, count, keys => by
    rw [drawKeys]
    split_ifs with h1 h2
    · rcases drawKeys_count (n := n) (s := s) (m := m) (rand := rand) fuel (count + 1) (keys ++ [rand count]) with h | h
      · exact Or.inl (by omega)
      · exact Or.inr h
    · rcases drawKeys_count (n := n) (s := s) (m := m) (rand := rand) fuel (count + 1) keys with h | h
      · exact Or.inl (by omega)
      · exact Or.inr h
    · exact Or.inr (by simpa using h1)

/-- **C90**: a set up that succeeds has so many sets that together they hold `2 lg` times as many places as there are. -/
theorem setupMulti_enough {n s lg : Nat} {rand : Nat → Nat} (hs : 0 < s) {cl : Client}
    (h : setupMulti prg n s lg rand = .ok cl) : 2 * (lg * n) ≤ cl.ck.length * s := by
  rw [setupMulti] at h
  split_ifs at h with hc
  have he := Res.ok.inj h
  subst he
  have hl : setupCountMulti n s lg
      ≤ (drawKeys prg n s (setupCountMulti n s lg) rand (10 * setupCountMulti n s lg) 0 []).2.length := by
    rcases drawKeys_count (prg := prg) (n := n) (s := s) (m := setupCountMulti n s lg) (rand := rand)
      (10 * setupCountMulti n s lg) 0 [] with h | h
    · omega
    · exact h
  dsimp only
  rw [List.length_map]
  refine le_trans ?_ (Nat.mul_le_mul_right s hl)
  rw [setupCountMulti]
  have hd := Nat.div_add_mod (2 * n) s
  have hm := Nat.mod_lt (2 * n) hs
  have hn : 2 * n ≤ (if 2 * n % s ≠ 0 then 2 * n / s + 1 else 2 * n / s) * s := by
    generalize 2 * n = v at hd hm ⊢
    split_ifs with h0
    · rw [Nat.add_mul, Nat.one_mul, Nat.mul_comm]
      omega
    · rw [Nat.mul_comm]
      omega
  calc 2 * (lg * n) = lg * (2 * n) := by rw [Nat.mul_left_comm]
    _ ≤ lg * ((if 2 * n % s ≠ 0 then 2 * n / s + 1 else 2 * n / s) * s) := Nat.mul_le_mul_left lg hn
    _ = _ := by rw [← Nat.mul_assoc, Nat.mul_comm lg]

end Psi.Pps
