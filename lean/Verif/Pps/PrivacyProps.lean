import Verif.Pps.Props
import Mathlib.Algebra.BigOperators.Field
import Mathlib.Algebra.BigOperators.Group.Finset.Sigma
import Mathlib.Algebra.BigOperators.Ring.Finset
import Mathlib.Algebra.Order.Field.Rat
import Mathlib.Tactic.FieldSimp
import Mathlib.Tactic.Linarith

/-!
# C91: what the server learns about the index
-/

namespace Psi.Pps

open Psi.Spiral (Res mapRes w64)

variable {prg : Nat → Nat × Nat}

/-- The places of the database that the server reads for a punctured key. -/
def places (prg : Nat → Nat × Nat) (n s : Nat) (pk : PuncKey) : List Nat :=
  match evalPunc prg n s pk with
  | .ok set => set.map fun x => moduleAdd x pk.delta n
  | _ => []

theorem places_ok {n s k p delta : Nat} (hk : GoodKey prg n s k) (hp : p < s) :
    places prg n s (puncKey prg s k p delta)
      = ((eval prg n s k).filter fun x => x ≠ element prg n s k p).map fun x => moduleAdd x delta n := by
  rw [places]
  have := evalPunc_ok prg hk.nodup hp hk.noZero delta
  rw [show evalPunc prg n s (puncKey prg s k p delta) = _ from this]
  rfl

theorem eval_lt {n s k x : Nat} (hw : Wide prg) (hk : k < 2 ^ 128) (h0 : 0 < n) (hx : x ∈ eval prg n s k) : x < n := by
  obtain ⟨p, -, rfl⟩ := (mem_eval prg).mp hx
  exact element_lt prg hw hk h0 p

theorem eval_nodup {n s k : Nat} : (eval prg n s k).Nodup := (eval_sorted prg _ _ _).imp fun h => ne_of_lt h

theorem mem_places {n s k p delta x : Nat} (hw : Wide prg) (hk : GoodKey prg n s k) (h0 : 0 < n) (hn : n ≤ 2 ^ 63)
    (hd : delta < n) (hx : x < n) (hp : p < s) : x ∈ places prg n s (puncKey prg s k p delta)
      ↔ moduleSub x delta n ∈ eval prg n s k ∧ moduleSub x delta n ≠ element prg n s k p := by
  rw [places_ok hk hp, List.mem_map]
  constructor
  · rintro ⟨y, hy, rfl⟩
    rw [List.mem_filter, decide_eq_true_eq] at hy
    rw [moduleSub_add (eval_lt hw hk.lt h0 hy.1) hd hn]
    exact hy
  · intro h
    exact ⟨_, List.mem_filter.mpr ⟨h.1, decide_eq_true h.2⟩, moduleAdd_sub hx hd hn⟩

theorem places_nodup {n s k p delta : Nat} (hw : Wide prg) (hk : GoodKey prg n s k) (h0 : 0 < n) (hn : n ≤ 2 ^ 63)
    (hd : delta < n) (hp : p < s) : (places prg n s (puncKey prg s k p delta)).Nodup := by
  rw [places_ok hk hp]
  apply List.Nodup.map_on _ (eval_nodup.filter _)
  intro x hx y hy h
  rw [← moduleSub_add (eval_lt hw hk.lt h0 (List.mem_of_mem_filter hx)) hd hn, h,
    moduleSub_add (eval_lt hw hk.lt h0 (List.mem_of_mem_filter hy)) hd hn]

theorem places_lt {n s k p delta x : Nat} (hw : Wide prg) (hk : GoodKey prg n s k) (h0 : 0 < n) (hn : n ≤ 2 ^ 63)
    (hd : delta < n) (hp : p < s) (hx : x ∈ places prg n s (puncKey prg s k p delta)) : x < n := by
  rw [places_ok hk hp, List.mem_map] at hx
  obtain ⟨y, hy, rfl⟩ := hx
  exact moduleAdd_lt (eval_lt hw hk.lt h0 (List.mem_of_mem_filter hy)) hd hn

theorem places_length {n s k p delta : Nat} (hk : GoodKey prg n s k) (hp : p < s) :
    (places prg n s (puncKey prg s k p delta)).length + 1 = s := by
  rw [places_ok hk hp, List.length_map]
  have h1 : (eval prg n s k).filter (fun x => x ≠ element prg n s k p) = (eval prg n s k).erase (element prg n s k p) := by
    rw [List.Nodup.erase_eq_filter eval_nodup]
    apply List.filter_congr
    intro x _
    by_cases h : x = element prg n s k p <;> simp [h]
  have hm : element prg n s k p ∈ eval prg n s k := (mem_eval prg).mpr ⟨p, hp, rfl⟩
  rw [h1, List.length_erase_of_mem hm, hk.full]
  omega

/-! ### Many queries: both keys go to one server -/

/-- **C91** (violated): the online server of the protocol for many queries gets both keys of every query.  From the new key
of one query and the old key of a later query for another index that uses the same set, it computes the first index. -/
theorem server_learns_index {n s lambda : Nat} {order : List (Nat × Nat) → List (Nat × Nat)} {bits : List Bool}
    (hz : Sizes prg n s order bits) {st st2 : Client × List Bool} (hc : Consistent prg n s bits st.1 st.2)
    (hc2 : Consistent prg n s bits st2.1 st2.2) {t t2 : Turn} {key key2 : Nat × List (Nat × Nat)}
    (hg : genKey prg n s t.keys lambda = .ok key) (hg2 : genKey prg n s t2.keys lambda = .ok key2)
    (hk : GoodKey prg n s key.1) (hk2 : GoodKey prg n s key2.1)
    (hr : t.coins.r1 < s) (hr2 : t2.coins.r1 < s) (hi : t.index < n) (hi2 : t2.index < n) (hne : t2.index ≠ t.index)
    (hb : t.coins.b = false) (hb2 : t2.coins.b = false)
    (ha : ∀ c ∈ st.1.ck, Apart prg key.1 c.1) (ha2 : ∀ c ∈ st2.1.ck, Apart prg key2.1 c.1)
    {j : Nat} (hf : findSet n st.1 t.index = some j) (hf2 : findSet n st2.1 t2.index = some j)
    (hsame : st2.1.ck.getD j (0, 0) = (key.1, freshDelta n order (evalMap prg n s key.1) t.coins t.index)) :
    ∃ st' seen r st2' seen2 r2, turn prg n s lambda order bits st t = .ok (st', seen, r) ∧
      turn prg n s lambda order bits st2 t2 = .ok (st2', seen2, r2) ∧ st'.1.ck.getD j (0, 0) = st2.1.ck.getD j (0, 0) ∧
      (places prg n s seen2.2).filter (fun x => x ∉ places prg n s seen.1) = [t.index] := by
  obtain ⟨p, hp, p', hp', he, he', h1⟩ := turn_some hz hc hg hk hr hi hb hf ha
  obtain ⟨q, hq, q', hq', hqe, hqe', h2⟩ := turn_some hz hc2 hg2 hk2 hr2 hi2 hb2 hf2 ha2
  obtain ⟨hd, -⟩ := fresh_ok hz hk hr hi
  obtain ⟨hj, -⟩ := findSet_some hc hf
  refine ⟨_, _, _, _, _, _, h1, h2, ?_, ?_⟩
  · dsimp only
    rw [getD_set _ _ _ _ _ hj, if_pos rfl, hsame]
  · dsimp only
    rw [hsame] at hqe' ⊢
    dsimp only at hqe' ⊢
    generalize freshDelta n order (evalMap prg n s key.1) t.coins t.index = delta at hd he hqe' ⊢
    have hdiff : element prg n s key.1 p ≠ element prg n s key.1 q' := by
      intro h
      apply hne
      rw [← moduleAdd_sub hi2 hd hz.le, ← hqe', ← h, he, moduleAdd_sub hi hd hz.le]
    have hm : element prg n s key.1 p ∈ eval prg n s key.1 := (mem_eval prg).mpr ⟨p, hp, rfl⟩
    rw [places_ok hk hq', List.filter_map, List.filter_filter]
    have hfil : (eval prg n s key.1).filter (fun x =>
        ((fun x => decide (x ∉ places prg n s (puncKey prg s key.1 p delta))) ∘ fun x => moduleAdd x delta n) x &&
          decide (x ≠ element prg n s key.1 q')) = (eval prg n s key.1).filter (fun x => x == element prg n s key.1 p) := by
      apply List.filter_congr
      intro x hx
      have hlt := eval_lt hz.wide hk.lt hz.pos hx
      have := mem_places hz.wide hk hz.pos hz.le hd (moduleAdd_lt hlt hd hz.le) hp
      rw [moduleSub_add hlt hd hz.le] at this
      by_cases h : x = element prg n s key.1 p
      · subst h
        simp [this, hdiff]
      · simp [this, hx, h]
    rw [hfil, List.filter_beq, List.count_eq_one_of_mem eval_nodup hm, List.replicate_one, List.map_singleton, he,
      moduleAdd_sub hi hd hz.le]

/-! ### One query: the index is read too seldom -/

/-- The probability of the coin: `client.cc:23-30`. -/
def coinProb (n s : Nat) : ℚ := ((s : ℚ) - 1) / n

/-- The places that the online server reads for a query. -/
def reads (prg : Nat → Nat × Nat) (n s : Nat) (order : List (Nat × Nat) → List (Nat × Nat)) (key : Nat × List (Nat × Nat))
    (deltas : List Nat) (c : QueryCoins) (i : Nat) : List Nat :=
  match query prg n s order key deltas c i PuncKey.empty with
  | .ok out => places prg n s out.2.2
  | _ => []

/-- The probability that the online server reads place `x` for a query for `i`, over the coin and the two random places of the
map, for one outcome of the set up. -/
def probRead (prg : Nat → Nat × Nat) (n s : Nat) (order : List (Nat × Nat) → List (Nat × Nat)) (key : Nat × List (Nat × Nat))
    (deltas : List Nat) (i x : Nat) : ℚ :=
  (∑ r1 ∈ Finset.range s, ∑ r2 ∈ Finset.range s,
    (coinProb n s * (if x ∈ reads prg n s order key deltas ⟨true, r1, r2⟩ i then 1 else 0)
      + (1 - coinProb n s) * (if x ∈ reads prg n s order key deltas ⟨false, r1, r2⟩ i then 1 else 0))) / (s * s)

theorem reads_ok {n s k i : Nat} (hk : GoodKey prg n s k) (hw : Wide prg) (hn : n ≤ 2 ^ 63)
    {order : List (Nat × Nat) → List (Nat × Nat)} (ho : ∀ m, (order m).Perm m) {deltas : List Nat}
    (hd : ∀ d ∈ deltas, d < n) (hi : i < n) {c : QueryCoins} (hr1 : c.r1 < s) (hr2 : c.r2 < s) :
    ∃ p < s, reads prg n s order (k, evalMap prg n s k) deltas c i
        = places prg n s (puncKey prg s k p (shiftOf n order (evalMap prg n s k) deltas c.r1 i)) ∧
      element prg n s k p = if c.b then elementAt order (evalMap prg n s k) c.r2
        else moduleSub i (shiftOf n order (evalMap prg n s k) deltas c.r1 i) n := by
  obtain ⟨p, hp, h1, h2⟩ := query_ok hk hw hn ho hd hi hr1 hr2
  refine ⟨p, hp, ?_, h2⟩
  rw [reads, h1]

/-- The random place of the map gives every element once. -/
theorem elementAt_once {n s k e : Nat} (h : (elements prg n s k).Nodup) {order : List (Nat × Nat) → List (Nat × Nat)}
    (ho : ∀ m, (order m).Perm m) (he : e ∈ eval prg n s k) :
    ∃ r0 < s, ∀ r < s, elementAt order (evalMap prg n s k) r = e ↔ r = r0 := by
  have hp : ((order (evalMap prg n s k)).map Prod.fst).Perm (elements prg n s k) := by
    rw [← map_fst_evalMap prg h]
    exact (ho _).map _
  have hlen : (order (evalMap prg n s k)).length = s := by
    have := hp.length_eq
    rwa [List.length_map, elements_length] at this
  have hnd : ((order (evalMap prg n s k)).map Prod.fst).Nodup := hp.nodup_iff.mpr h
  have hget : ∀ r, r < s → ∃ hr : r < ((order (evalMap prg n s k)).map Prod.fst).length,
      elementAt order (evalMap prg n s k) r = ((order (evalMap prg n s k)).map Prod.fst)[r] := by
    intro r hr
    refine ⟨by simpa [hlen] using hr, ?_⟩
    rw [elementAt, List.getD_eq_getElem _ _ (by omega), List.getElem_map]
  have hem : e ∈ (order (evalMap prg n s k)).map Prod.fst := by
    rw [hp.mem_iff, mem_elements]
    exact (mem_eval prg).mp he
  obtain ⟨r0, hr0, hr0e⟩ := List.getElem_of_mem hem
  refine ⟨r0, by simpa [hlen] using hr0, fun r hr => ?_⟩
  obtain ⟨hr', hre⟩ := hget r hr
  rw [hre, ← hr0e, hnd.getElem_inj_iff]

/-- **C91** (violated), one query: the place asked for is read with probability `(s-1)²/(s·n)`, whatever the set up gave. -/
theorem own_index_read {n s k i : Nat} (hk : GoodKey prg n s k) (hw : Wide prg) (hn : n ≤ 2 ^ 63)
    {order : List (Nat × Nat) → List (Nat × Nat)} (ho : ∀ m, (order m).Perm m) {deltas : List Nat}
    (hd : ∀ d ∈ deltas, d < n) (hi : i < n) (hs : 0 < s) :
    probRead prg n s order (k, evalMap prg n s k) deltas i i = ((s : ℚ) - 1) ^ 2 / (s * n) := by
  have h0 : 0 < n := Nat.pos_of_ne_zero (by omega)
  have hinner : ∀ r1 ∈ Finset.range s, ∑ r2 ∈ Finset.range s,
      (coinProb n s * (if i ∈ reads prg n s order (k, evalMap prg n s k) deltas ⟨true, r1, r2⟩ i then 1 else 0)
      + (1 - coinProb n s) * (if i ∈ reads prg n s order (k, evalMap prg n s k) deltas ⟨false, r1, r2⟩ i then 1 else 0))
      = coinProb n s * (s - 1) := by
    intro r1 hr1
    rw [Finset.mem_range] at hr1
    obtain ⟨hdl, q, hq, hqe⟩ := shiftOf_ok hk hw hn ho hd hi hr1
    have hmem : moduleSub i (shiftOf n order (evalMap prg n s k) deltas r1 i) n ∈ eval prg n s k :=
      (mem_eval prg).mpr ⟨q, hq, hqe⟩
    obtain ⟨r0, hr0, hone⟩ := elementAt_once hk.nodup ho hmem
    have hterm : ∀ r2 ∈ Finset.range s,
        (coinProb n s * (if i ∈ reads prg n s order (k, evalMap prg n s k) deltas ⟨true, r1, r2⟩ i then 1 else 0)
        + (1 - coinProb n s) * (if i ∈ reads prg n s order (k, evalMap prg n s k) deltas ⟨false, r1, r2⟩ i then 1 else 0))
        = coinProb n s * (1 - if r2 = r0 then 1 else 0) := by
      intro r2 hr2
      rw [Finset.mem_range] at hr2
      obtain ⟨p, hp, h1, h2⟩ := reads_ok hk hw hn ho hd hi (c := ⟨true, r1, r2⟩) hr1 hr2
      obtain ⟨p', hp', h1', h2'⟩ := reads_ok hk hw hn ho hd hi (c := ⟨false, r1, r2⟩) hr1 hr2
      dsimp only at h1 h2 h1' h2'
      rw [if_pos rfl] at h2
      rw [if_neg (by simp)] at h2'
      have hm' : ¬ i ∈ places prg n s (puncKey prg s k p' (shiftOf n order (evalMap prg n s k) deltas r1 i)) := by
        rw [mem_places hw hk h0 hn hdl hi hp', h2']
        simp
      have hm := mem_places hw hk h0 hn hdl hi hp
      rw [h2] at hm
      rw [h1, h1', if_neg hm']
      by_cases h : r2 = r0
      · rw [if_neg, if_pos h]
        · ring
        · rw [hm]
          rintro ⟨-, hne⟩
          exact hne ((hone r2 hr2).mpr h).symm
      · rw [if_pos (hm.mpr ⟨hmem, fun he => h ((hone r2 hr2).mp he.symm)⟩), if_neg h]
        ring
    rw [Finset.sum_congr rfl hterm, ← Finset.mul_sum, Finset.sum_sub_distrib, Finset.sum_ite_eq' (Finset.range s) r0,
      if_pos (Finset.mem_range.mpr hr0)]
    simp
  rw [probRead, Finset.sum_congr rfl hinner, Finset.sum_const, Finset.card_range, nsmul_eq_mul, coinProb]
  have h1 : (s : ℚ) ≠ 0 := by exact_mod_cast hs.ne'
  have h2 : (n : ℚ) ≠ 0 := by exact_mod_cast h0.ne'
  field_simp

theorem sum_member {n : Nat} {l : List Nat} (hnd : l.Nodup) (hl : ∀ x ∈ l, x < n) :
    (∑ x ∈ Finset.range n, if x ∈ l then (1 : ℚ) else 0) = l.length := by
  rw [Finset.sum_boole]
  congr 1
  rw [← List.toFinset_card_of_nodup hnd]
  congr 1
  ext x
  rw [Finset.mem_filter, Finset.mem_range, List.mem_toFinset]
  exact ⟨fun h => h.2, fun h => ⟨hl x h, h⟩⟩

/-- Whatever the index, `s - 1` places are read. -/
theorem sum_probRead {n s k i : Nat} (hk : GoodKey prg n s k) (hw : Wide prg) (hn : n ≤ 2 ^ 63)
    {order : List (Nat × Nat) → List (Nat × Nat)} (ho : ∀ m, (order m).Perm m) {deltas : List Nat}
    (hd : ∀ d ∈ deltas, d < n) (hi : i < n) (hs : 0 < s) :
    ∑ x ∈ Finset.range n, probRead prg n s order (k, evalMap prg n s k) deltas i x = (s : ℚ) - 1 := by
  have h0 : 0 < n := Nat.pos_of_ne_zero (by omega)
  have hread : ∀ b, ∀ r1 ∈ Finset.range s, ∀ r2 ∈ Finset.range s, (∑ x ∈ Finset.range n,
      if x ∈ reads prg n s order (k, evalMap prg n s k) deltas ⟨b, r1, r2⟩ i then (1 : ℚ) else 0) = s - 1 := by
    intro b r1 hr1 r2 hr2
    rw [Finset.mem_range] at hr1 hr2
    obtain ⟨hdl, -⟩ := shiftOf_ok hk hw hn ho hd hi hr1
    obtain ⟨p, hp, h1, -⟩ := reads_ok hk hw hn ho hd hi (c := ⟨b, r1, r2⟩) hr1 hr2
    dsimp only at h1
    rw [h1, sum_member (places_nodup hw hk h0 hn hdl hp) fun x hx => places_lt hw hk h0 hn hdl hp hx]
    have := places_length (delta := shiftOf n order (evalMap prg n s k) deltas r1 i) hk hp
    rw [eq_sub_iff_add_eq]
    exact_mod_cast this
  simp only [probRead]
  rw [← Finset.sum_div, Finset.sum_comm]
  have hinner : ∀ r1 ∈ Finset.range s, ∑ x ∈ Finset.range n, ∑ r2 ∈ Finset.range s,
      (coinProb n s * (if x ∈ reads prg n s order (k, evalMap prg n s k) deltas ⟨true, r1, r2⟩ i then 1 else 0)
      + (1 - coinProb n s) * (if x ∈ reads prg n s order (k, evalMap prg n s k) deltas ⟨false, r1, r2⟩ i then 1 else 0))
      = s * ((s : ℚ) - 1) := by
    intro r1 hr1
    rw [Finset.sum_comm]
    have : ∀ r2 ∈ Finset.range s, ∑ x ∈ Finset.range n,
        (coinProb n s * (if x ∈ reads prg n s order (k, evalMap prg n s k) deltas ⟨true, r1, r2⟩ i then 1 else 0)
        + (1 - coinProb n s) * (if x ∈ reads prg n s order (k, evalMap prg n s k) deltas ⟨false, r1, r2⟩ i then 1 else 0))
        = (s : ℚ) - 1 := by
      intro r2 hr2
      rw [Finset.sum_add_distrib, ← Finset.mul_sum, ← Finset.mul_sum, hread true r1 hr1 r2 hr2, hread false r1 hr1 r2 hr2]
      ring
    rw [Finset.sum_congr rfl this, Finset.sum_const, Finset.card_range, nsmul_eq_mul]
  rw [Finset.sum_congr rfl hinner, Finset.sum_const, Finset.card_range, nsmul_eq_mul]
  have h1 : (s : ℚ) ≠ 0 := by exact_mod_cast hs.ne'
  field_simp

/-- A distribution of outcomes of the set up: keys and shifts with weights. -/
structure SetupDist (prg : Nat → Nat × Nat) (n s : Nat) (Ω : Type) [Fintype Ω] where
  weight : Ω → ℚ
  key : Ω → Nat
  deltas : Ω → List Nat
  total : ∑ ω, weight ω = 1
  good : ∀ ω, GoodKey prg n s (key ω)
  inRange : ∀ ω, ∀ d ∈ deltas ω, d < n

/-- The probability that the online server reads place `x` for a query for `i`. -/
def SetupDist.prob {n s : Nat} {Ω : Type} [Fintype Ω] (D : SetupDist prg n s Ω)
    (order : List (Nat × Nat) → List (Nat × Nat)) (i x : Nat) : ℚ :=
  ∑ ω, D.weight ω * probRead prg n s order (D.key ω, evalMap prg n s (D.key ω)) (D.deltas ω) i x

/-- **C91** (violated), one query: whatever the distribution of keys and shifts, what the online server reads depends on
the index. -/
theorem single_not_private {n s : Nat} {Ω : Type} [Fintype Ω] (D : SetupDist prg n s Ω) (hw : Wide prg) (h0 : 0 < n)
    (hn : n ≤ 2 ^ 63) (hs : 2 ≤ s) {order : List (Nat × Nat) → List (Nat × Nat)} (ho : ∀ m, (order m).Perm m) :
    ∃ i < n, ∃ i' < n, ∃ x < n, D.prob order i x ≠ D.prob order i' x := by
  by_contra hcon
  have hall : ∀ i < n, ∀ i' < n, ∀ x < n, D.prob order i x = D.prob order i' x := by
    intro i hi i' hi' x hx
    by_contra h
    exact hcon ⟨i, hi, i', hi', x, hx, h⟩
  have hown : ∀ i < n, D.prob order i i = ((s : ℚ) - 1) ^ 2 / (s * n) := by
    intro i hi
    rw [SetupDist.prob]
    rw [Finset.sum_congr rfl fun ω _ => by rw [own_index_read (D.good ω) hw hn ho (D.inRange ω) hi (by omega)]]
    rw [← Finset.sum_mul, D.total, one_mul]
  have hsum : ∑ x ∈ Finset.range n, D.prob order 0 x = (s : ℚ) - 1 := by
    simp only [SetupDist.prob]
    rw [Finset.sum_comm]
    rw [Finset.sum_congr rfl fun ω _ => by
      rw [← Finset.mul_sum, sum_probRead (D.good ω) hw hn ho (D.inRange ω) h0 (by omega)]]
    rw [← Finset.sum_mul, D.total, one_mul]
  rw [Finset.sum_congr rfl fun x hx => by
    rw [hall 0 h0 x (Finset.mem_range.mp hx) x (Finset.mem_range.mp hx), hown x (Finset.mem_range.mp hx)],
    Finset.sum_const, Finset.card_range, nsmul_eq_mul] at hsum
  have h1 : (s : ℚ) ≠ 0 := by
    have : s ≠ 0 := by omega
    exact_mod_cast this
  have h2 : (n : ℚ) ≠ 0 := by exact_mod_cast h0.ne'
  have h3 : (2 : ℚ) ≤ s := by exact_mod_cast hs
  field_simp at hsum
  nlinarith

end Psi.Pps
