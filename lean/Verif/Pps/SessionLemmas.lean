import Verif.Pps.WireLemmas

/-! # Set up, queries and answers -/

namespace Psi.Pps

open Psi.Spiral (Res mapRes w64)

section Session

variable (prg : Nat → Nat × Nat)

/-- The values of the generator have 128 bits. -/
def Wide : Prop := ∀ x, (prg x).1 < 2 ^ 128 ∧ (prg x).2 < 2 ^ 128

/-- A key as `Gen` gives it: its elements are different, and no inner node of its tree is zero. -/
structure GoodKey (n s k : Nat) : Prop where
  lt : k < 2 ^ 128
  full : (eval prg n s k).length = s
  noZero : NoZero prg k (depth s)

variable {prg}

theorem GoodKey.nodup {n s k : Nat} (h : GoodKey prg n s k) : (elements prg n s k).Nodup := (eval_length prg).mp h.full

theorem nodup_card {l : List Nat} (h : l.Nodup) {n : Nat} (hl : ∀ x ∈ l, x < n) : l.length ≤ n := by
  have := (List.subperm_of_subset h (l₂ := List.range n) fun x hx => List.mem_range.mpr (hl x hx)).length_le
  simpa using this

theorem GoodKey.size_le {n s k : Nat} (h : GoodKey prg n s k) (hw : Wide prg) (h0 : 0 < n) : s ≤ n := by
  have := nodup_card h.nodup (n := n) (by
    intro x hx
    obtain ⟨i, -, rfl⟩ := (mem_elements prg).mp hx
    exact element_lt prg hw h.lt h0 i)
  rwa [elements_length] at this

theorem depth_lt {s : Nat} (h : s ≤ 2 ^ 63) : depth s < 2 ^ 64 := by
  have : depth s ≤ 63 := (Nat.clog_le_iff_le_pow (by decide)).mpr h
  omega

/-- The punctured key for a place. -/
def puncKey (prg : Nat → Nat × Nat) (s k p delta : Nat) : PuncKey :=
  ⟨(List.range (depth s)).map (sibling prg k (depth s) p), p, delta⟩

theorem puncKey_wire {n s k p delta : Nat} (h : GoodKey prg n s k) (hw : Wide prg) (h0 : 0 < n) (hn : n ≤ 2 ^ 63)
    (hp : p < s) (hd : delta < n) : onlineOfBytes (onlineBytes (puncKey prg s k p delta)) = .ok (puncKey prg s k p delta) := by
  have hs := h.size_le hw h0
  apply online_round_trip
  · intro x hx
    obtain ⟨t, -, rfl⟩ := List.mem_map.mp hx
    exact node_lt prg hw h.lt _ _
  · simp only [puncKey, List.length_map, List.length_range]
    exact depth_lt (by omega)
  · simp only [puncKey]; omega
  · simp only [puncKey]; omega

/-- What the server computes from a punctured key. -/
theorem answer_ok {n s k p delta : Nat} {bits : List Bool} (h : GoodKey prg n s k) (hw : Wide prg) (h0 : 0 < n)
    (hn : n ≤ 2 ^ 63) (hp : p < s) (hd : delta < n) (hb : n ≤ bits.length) :
    answer prg n s (puncKey prg s k p delta) bits
      = .ok (sumOver n bits ((eval prg n s k).filter fun x => x ≠ element prg n s k p) delta) := by
  rw [answer, puncKey, evalPunc_ok prg h.nodup hp h.noZero, bind_ok]
  apply parity_ok
  intro x hx
  obtain ⟨i, -, rfl⟩ := (mem_eval prg).mp (List.mem_filter.mp hx).1
  exact lt_of_lt_of_le (moduleAdd_lt (element_lt prg hw h.lt h0 i) hd hn) hb

theorem evalParity_ok {n s k delta : Nat} {bits : List Bool} (hk : k < 2 ^ 128) (hw : Wide prg) (h0 : 0 < n)
    (hn : n ≤ 2 ^ 63) (hd : delta < n) (hb : n ≤ bits.length) :
    parity n bits (eval prg n s k) delta = .ok (sumOver n bits (eval prg n s k) delta) := by
  apply parity_ok
  intro x hx
  obtain ⟨i, -, rfl⟩ := (mem_eval prg).mp hx
  exact lt_of_lt_of_le (moduleAdd_lt (element_lt prg hw hk h0 i) hd hn) hb

/-- The sum over the set and the sum over the punctured set differ by the bit at the punctured place. -/
theorem sum_minus {n s k p delta : Nat} {bits : List Bool} (hp : p < s) :
    (sumOver n bits ((eval prg n s k).filter fun x => x ≠ element prg n s k p) delta ^^ sumOver n bits (eval prg n s k) delta)
      = bits.getD (moduleAdd (element prg n s k p) delta n) false := by
  rw [sumOver_split (eval_sorted prg n s k) ((mem_eval prg).mpr ⟨p, hp, rfl⟩) delta]
  generalize bits.getD (moduleAdd (element prg n s k p) delta n) false = a
  generalize sumOver n bits _ delta = b
  cases a <;> cases b <;> rfl

theorem elementAt_mem {n s k r : Nat} (h : (elements prg n s k).Nodup)
    {order : List (Nat × Nat) → List (Nat × Nat)} (ho : ∀ m, (order m).Perm m) (hr : r < s) :
    ∃ p < s, elementAt order (evalMap prg n s k) r = element prg n s k p := by
  have hl : (order (evalMap prg n s k)).length = s := by rw [(ho _).length_eq, (evalMap_length prg).mpr h]
  have hm : (order (evalMap prg n s k)).getD r (0, 0) ∈ evalMap prg n s k := by
    rw [List.getD_eq_getElem _ _ (by omega)]
    exact (ho _).mem_iff.mp (List.getElem_mem _)
  rw [evalMap_eq prg h] at hm
  obtain ⟨p, hp, he⟩ := List.mem_map.mp hm
  refine ⟨p, List.mem_range.mp hp, ?_⟩
  rw [elementAt, evalMap_eq prg h, ← he]

theorem genKey_ok {n s lambda : Nat} {rand : Nat → Nat} {key : Nat × List (Nat × Nat)}
    (h : genKey prg n s rand lambda = .ok key) :
    (∃ t < lambda, key.1 = rand t) ∧ key.2 = evalMap prg n s key.1 ∧ (eval prg n s key.1).length = s := by
  rw [genKey] at h
  split at h
  · next i hi =>
    have h1 := List.mem_range.mp (List.mem_of_find?_eq_some hi)
    have h2 := List.find?_some hi
    rw [decide_eq_true_eq, evalMap_length] at h2
    obtain rfl := Res.ok.inj h
    exact ⟨⟨i, h1, rfl⟩, rfl, (eval_length prg).mpr h2⟩
  · cases h

theorem genKey_cases (prg : Nat → Nat × Nat) (n s lambda : Nat) (rand : Nat → Nat) :
    genKey prg n s rand lambda = .throws ∨ ∃ key, genKey prg n s rand lambda = .ok key := by
  rw [genKey]
  split
  · exact Or.inr ⟨_, rfl⟩
  · exact Or.inl rfl

theorem drawDeltas_inv {n m : Nat} {rand : Nat → Nat} (h0 : 0 < n) (hr : ∀ t, rand t < 2 ^ 64) :
    ∀ (fuel count i : Nat) (deltas : List Nat), deltas.Pairwise (· < ·) → (∀ d ∈ deltas, d < n) →
      (drawDeltas n m rand fuel count i deltas).2.Pairwise (· < ·) ∧
      ∀ d ∈ (drawDeltas n m rand fuel count i deltas).2, d < n
  | 0, _, _, deltas, h1, h2 => ⟨h1, h2⟩
  | fuel + 1, count, i, deltas, h1, h2 => by
    rw [drawDeltas]
    dsimp only
    split_ifs
    · exact drawDeltas_inv h0 hr fuel _ _ _ h1 h2
    · refine drawDeltas_inv h0 hr fuel _ _ _ (sorted_setInsert h1) ?_
      intro d hd
      rcases mem_setInsert.mp hd with rfl | hd
      · exact lemire64_lt (hr _) h0
      · exact h2 d hd
    · exact ⟨h1, h2⟩

theorem setInsert_length {x : Nat} : ∀ {l : List Nat}, x ∉ l → (setInsert x l).length = l.length + 1
  | [], _ => rfl
  | y :: r, h => by
    rw [setInsert]
    split_ifs with h1 h2
    · rfl
    · exact absurd (h2 ▸ List.mem_cons_self) h
    · rw [List.length_cons, setInsert_length fun hx => h (List.mem_cons_of_mem _ hx), List.length_cons]

/-- Either all tries are used up or there are `m` shifts. -/
theorem drawDeltas_count {n m : Nat} {rand : Nat → Nat} : ∀ (fuel count : Nat) (deltas : List Nat),
    (drawDeltas n m rand fuel count deltas.length deltas).1 = count + fuel ∨
      m ≤ (drawDeltas n m rand fuel count deltas.length deltas).2.length
  | 0, count, deltas => Or.inl rfl
  | fuel + 1, count, deltas => by
    rw [drawDeltas]
    dsimp only
    split_ifs with h1 h2
    · rcases drawDeltas_count (n := n) (m := m) (rand := rand) fuel (count + 1) deltas with h | h
      · left; omega
      · right; exact h
    · have hl := setInsert_length h2
      rw [← hl]
      rcases drawDeltas_count (n := n) (m := m) (rand := rand) fuel (count + 1) (setInsert (lemire64 (rand count) n) deltas)
        with h | h
      · left; omega
      · right; exact h
    · right; dsimp only; omega

theorem setup_ok {n s lambda lg : Nat} {randKey rand : Nat → Nat} (h0 : 0 < n) (hr : ∀ t, rand t < 2 ^ 64)
    {key : Nat × List (Nat × Nat)} {deltas : List Nat} (h : setup prg n s lambda lg randKey rand = .ok (key, deltas)) :
    (∃ t < lambda, key.1 = randKey t) ∧ key.2 = evalMap prg n s key.1 ∧ (eval prg n s key.1).length = s ∧
      deltas.Pairwise (· < ·) ∧ ∀ d ∈ deltas, d < n := by
  rw [setup] at h
  rcases genKey_cases prg n s lambda randKey with hg | ⟨key', hg⟩
  · rw [hg] at h; cases h
  · rw [hg, bind_ok] at h
    dsimp only at h
    split_ifs at h
    have he := Res.ok.inj h
    rw [Prod.mk.injEq] at he
    obtain ⟨rfl, rfl⟩ := he
    obtain ⟨h1, h2, h3⟩ := genKey_ok hg
    exact ⟨h1, h2, h3, drawDeltas_inv h0 hr _ _ _ _ List.Pairwise.nil (by simp)⟩

/-- A `find?` over positions of a list. -/
theorem find_range {m : Nat} {f : Nat → Bool} :
    (∀ j, (List.range m).find? f = some j → j < m ∧ f j = true) ∧
      ((List.range m).find? f = none → ∀ j < m, f j = false) := by
  refine ⟨fun j h => ⟨List.mem_range.mp (List.mem_of_find?_eq_some h), List.find?_some h⟩, fun h j hj => ?_⟩
  have := List.find?_eq_none.mp h j (List.mem_range.mpr hj)
  simpa using this

theorem findDelta_some {n s k i : Nat} (hn : (elements prg n s k).Nodup) {deltas : List Nat} {j : Nat}
    (h : findDelta n (evalMap prg n s k) i deltas = some j) :
    j < deltas.length ∧ ∃ p < s, element prg n s k p = moduleSub i (deltas.getD j 0) n := by
  obtain ⟨h1, h2⟩ := find_range.1 j h
  rw [map_fst_evalMap prg hn, decide_eq_true_eq, mem_elements] at h2
  exact ⟨h1, h2⟩

theorem findDelta_none {n s k i : Nat} (hn : (elements prg n s k).Nodup) {deltas : List Nat}
    (h : findDelta n (evalMap prg n s k) i deltas = none) :
    ∀ d ∈ deltas, ∀ p < s, element prg n s k p ≠ moduleSub i d n := by
  intro d hd p hp he
  obtain ⟨j, hj, rfl⟩ := List.getElem_of_mem hd
  have h2 := find_range.2 h j hj
  rw [map_fst_evalMap prg hn, decide_eq_false_iff_not, mem_elements, List.getD_eq_getElem _ _ hj] at h2
  exact h2 ⟨p, hp, he⟩

/-- The shift of a query. -/
def shiftOf (n : Nat) (order : List (Nat × Nat) → List (Nat × Nat)) (map : List (Nat × Nat)) (deltas : List Nat) (r1 i : Nat) :
    Nat :=
  match findDelta n map i deltas with
  | some j => deltas.getD j 0
  | none => moduleSub i (elementAt order map r1) n

/-- The shift brings an element of the set to the index asked for. -/
theorem shiftOf_ok {n s k i r1 : Nat} (hk : GoodKey prg n s k) (hw : Wide prg) (hn : n ≤ 2 ^ 63)
    {order : List (Nat × Nat) → List (Nat × Nat)} (ho : ∀ m, (order m).Perm m) {deltas : List Nat}
    (hd : ∀ d ∈ deltas, d < n) (hi : i < n) (hr : r1 < s) :
    shiftOf n order (evalMap prg n s k) deltas r1 i < n ∧
      ∃ p < s, element prg n s k p = moduleSub i (shiftOf n order (evalMap prg n s k) deltas r1 i) n := by
  unfold shiftOf
  cases hf : findDelta n (evalMap prg n s k) i deltas with
  | some j =>
    dsimp only
    obtain ⟨h1, h2⟩ := findDelta_some hk.nodup hf
    refine ⟨?_, h2⟩
    rw [List.getD_eq_getElem _ _ h1]
    exact hd _ (List.getElem_mem _)
  | none =>
    dsimp only
    obtain ⟨p, hp, he⟩ := elementAt_mem hk.nodup ho hr
    have hlt := element_lt prg hw hk.lt (Nat.pos_of_ne_zero (by omega)) (n := n) (s := s) p
    rw [he]
    exact ⟨moduleSub_lt hi hlt hn, p, hp, (moduleSub_sub hi hlt hn).symm⟩

theorem query_ok {n s k i : Nat} (hk : GoodKey prg n s k) (hw : Wide prg) (hn : n ≤ 2 ^ 63)
    {order : List (Nat × Nat) → List (Nat × Nat)} (ho : ∀ m, (order m).Perm m) {deltas : List Nat}
    (hd : ∀ d ∈ deltas, d < n) (hi : i < n) {c : QueryCoins} (hr1 : c.r1 < s) (hr2 : c.r2 < s) :
    ∃ p < s, query prg n s order (k, evalMap prg n s k) deltas c i PuncKey.empty
        = .ok ((findDelta n (evalMap prg n s k) i deltas).getD pirAbort, c.b,
          puncKey prg s k p (shiftOf n order (evalMap prg n s k) deltas c.r1 i)) ∧
      element prg n s k p = if c.b then elementAt order (evalMap prg n s k) c.r2
        else moduleSub i (shiftOf n order (evalMap prg n s k) deltas c.r1 i) n := by
  obtain ⟨-, h2⟩ := shiftOf_ok hk hw hn ho hd hi hr1
  have hp : ∃ p < s, element prg n s k p = if c.b then elementAt order (evalMap prg n s k) c.r2
        else moduleSub i (shiftOf n order (evalMap prg n s k) deltas c.r1 i) n := by
    by_cases hb : c.b
    · obtain ⟨p, hp, he⟩ := elementAt_mem hk.nodup ho hr2
      exact ⟨p, hp, by rw [if_pos hb, he]⟩
    · obtain ⟨p, hp, he⟩ := h2
      exact ⟨p, hp, by rw [if_neg hb, he]⟩
  obtain ⟨p, hps, he⟩ := hp
  refine ⟨p, hps, ?_, he⟩
  rw [query]
  dsimp only
  change (punc prg s (evalMap prg n s k) (if c.b = true then elementAt order (evalMap prg n s k) c.r2
    else moduleSub i (shiftOf n order (evalMap prg n s k) deltas c.r1 i) n) k
    ⟨[], 0, shiftOf n order (evalMap prg n s k) deltas c.r1 i⟩).bind _ = _
  rw [← he, punc_ok prg hk.nodup hps, bind_ok]
  rfl

end Session

end Psi.Pps
