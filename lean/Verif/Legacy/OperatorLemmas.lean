import Verif.Legacy.NpartyLemmas
import Mathlib.Tactic.Ring

/-! # Operators and one bucket: lemmas -/

namespace Psi.Legacy
open Psi.Coll (Prog Sys Event Does)
open Psi.Std (Bytes)

variable {D R S : Type}

/-! ## Programs of all parties together -/

/-- All parties play their programs along the events `l` and end with `v`. -/
structure Plays (c : Env D) (l : List (Ev D)) (p : Nat → P D R) (v : Nat → R) : Prop where
  ok : ∀ e ∈ l, (sys c).members e.key ≠ [] ∧ ∀ t ∈ (sys c).members e.key, t < c.world
  does : ∀ r, r < c.world → Does (sys c) r l (p r) (v r)

theorem Plays.ret (c : Env D) (v : Nat → R) : Plays c [] (fun r => .ret (v r)) v := ⟨by simp, fun _ _ => rfl⟩

theorem Plays.bind {c : Env D} {l₁ l₂ : List (Ev D)} {p : Nat → P D R} {f : Nat → R → P D S} {v : Nat → R} {w : Nat → S}
    (h₁ : Plays c l₁ p v) (h₂ : Plays c l₂ (fun r => f r (v r)) w) : Plays c (l₁ ++ l₂) (fun r => (p r).bind (f r)) w where
  ok e he := by
    rcases List.mem_append.mp he with h | h
    · exact h₁.ok e h
    · exact h₂.ok e h
  does r hr := (h₁.does r hr).bind (h₂.does r hr)

theorem Plays.congr {c : Env D} {l : List (Ev D)} {p p' : Nat → P D R} {v v' : Nat → R} (h : Plays c l p v)
    (hp : ∀ r, r < c.world → p' r = p r) (hv : ∀ r, r < c.world → v' r = v r) : Plays c l p' v' :=
  ⟨h.ok, fun r hr => by rw [hp r hr, hv r hr]; exact h.does r hr⟩

theorem mem_ranks {c : Env D} {r : Nat} : r ∈ c.ranks ↔ r < c.world := by simp [Env.ranks]

theorem ranks_ne_nil {c : Env D} (h : 2 ≤ c.world) : c.ranks ≠ [] := by
  intro e
  have := congrArg List.length e
  simp [Env.ranks] at this
  omega

theorem plays_gather {c : Env D} (h : 2 ≤ c.world) (f : Nat → Nat) :
    Plays c [gatherEvent c.ranks f] (fun r => gatherSizes c.ranks (f r)) (fun _ => c.ranks.map f) where
  ok e he := by
    rw [List.mem_singleton.mp he]
    exact ⟨ranks_ne_nil h, fun t ht => mem_ranks.mp ht⟩
  does r hr := does_gather c c.ranks f (mem_ranks.mpr hr)

/-- A call of everybody. -/
theorem plays_world {c : Env D} (h : 2 ≤ c.world) (k : Call) (hk : members c k = c.ranks) (pay : Nat → Msg D)
    (f : Nat → Msg D → P D R) (l : List (Ev D)) (v : Nat → R)
    (hl : Plays c l (fun r => f r (answer c k pay r)) v)
    (hm : ∀ r, r < c.world → answer c k ((sys c).masked k pay) r = answer c k pay r) :
    Plays c (⟨k, pay⟩ :: l) (fun r => .call k (pay r) (f r)) v where
  ok e he := by
    rcases List.mem_cons.mp he with rfl | he
    · show members c k ≠ [] ∧ ∀ t ∈ members c k, t < c.world
      rw [hk]
      exact ⟨ranks_ne_nil h, fun t ht => mem_ranks.mp ht⟩
    · exact hl.ok e he
  does r hr := by
    refine Does.call (e := (⟨k, pay⟩ : Ev D)) (show r ∈ members c k by rw [hk]; exact mem_ranks.mpr hr) rfl ?_
    have := hl.does r hr
    show Does (sys c) r l (f r (answer c k ((sys c).masked k pay) r)) (v r)
    rw [hm r hr]
    exact this

theorem masked_world (c : Env D) (k : Call) (hk : members c k = c.ranks) (pay : Nat → Msg D) {r : Nat} (hr : r < c.world) :
    (sys c).masked k pay r = pay r :=
  if_pos (show r ∈ members c k by rw [hk]; exact mem_ranks.mpr hr)

/-! ## Sizes and ranks -/

theorem pairLe_trans (a b c : Nat × Nat) (h1 : pairLe a b = true) (h2 : pairLe b c = true) : pairLe a c = true := by
  simp only [pairLe, Bool.or_eq_true, Bool.and_eq_true, decide_eq_true_eq, beq_iff_eq] at *
  omega

theorem pairLe_total (a b : Nat × Nat) : (pairLe a b || pairLe b a) = true := by
  simp only [pairLe, Bool.or_eq_true, Bool.and_eq_true, decide_eq_true_eq, beq_iff_eq]
  omega

theorem swap_length (l : List (Nat × Nat)) (i j : Nat) : (swap l i j).length = l.length := by
  unfold swap
  split <;> simp

/-- The element that is swapped to the front. -/
theorem swap_zero (l : List (Nat × Nat)) (m : Nat) (hm : m < l.length) (h0 : m ≠ 0) : (swap l 0 m)[0]? = l[m]? := by
  unfold swap
  rw [List.getElem?_eq_getElem (show 0 < l.length by omega), List.getElem?_eq_getElem hm]
  simp only
  rw [List.getElem?_set_ne (by omega), List.getElem?_set_self (by omega)]

theorem swap_perm (l : List (Nat × Nat)) (m : Nat) (hm : m < l.length) (h0 : m ≠ 0) : (swap l 0 m).Perm l := by
  cases l with
  | nil => simp at hm
  | cons a l =>
    obtain ⟨k, rfl⟩ : ∃ k, m = k + 1 := ⟨m - 1, by omega⟩
    have hk : k < l.length := by simpa using hm
    have he : swap (a :: l) 0 (k + 1) = l[k] :: l.set k a := by
      unfold swap
      simp [hk]
    rw [he]
    have h1 : (l.take k ++ l[k] :: l.drop (k + 1)) = l := by simp
    have h2 : l.set k a = l.take k ++ a :: l.drop (k + 1) := List.set_eq_take_append_cons_drop .. |>.trans (by simp [hk])
    rw [h2]
    conv => rhs; rw [← h1]
    refine List.Perm.trans ?_ (List.Perm.cons a List.perm_middle.symm)
    refine List.Perm.trans (List.Perm.cons _ List.perm_middle) ?_
    exact List.Perm.swap _ _ _

theorem sizeRankVec_perm (master : Nat) (sizes : List Nat) (hm : master < sizes.length) :
    (sizeRankVec master sizes).Perm sizes.zipIdx := by
  unfold sizeRankVec
  simp only
  have h1 : ∀ v : List (Nat × Nat), (v.take 1 ++ (v.drop 1).mergeSort pairLe).Perm v := by
    intro v
    refine List.Perm.trans (List.Perm.append_left _ (List.mergeSort_perm _ _)) ?_
    rw [List.take_append_drop]
  refine (h1 _).trans ?_
  split
  · exact swap_perm _ _ (by simpa using hm) ‹_›
  · exact .refl _

theorem sizeRankVec_length (master : Nat) (sizes : List Nat) (hm : master < sizes.length) :
    (sizeRankVec master sizes).length = sizes.length := by
  rw [(sizeRankVec_perm master sizes hm).length_eq, List.length_zipIdx]

theorem sizeRankVec_zero (master : Nat) (sizes : List Nat) (hm : master < sizes.length) :
    (sizeRankVec master sizes)[0]? = some (sizes[master], master) := by
  unfold sizeRankVec
  simp only
  have h1 : ∀ v : List (Nat × Nat), 0 < v.length → (v.take 1 ++ (v.drop 1).mergeSort pairLe)[0]? = v[0]? := by
    intro v hv
    rw [List.getElem?_append_left (by simp; omega), List.getElem?_take]
    simp
  split
  · rename_i h0
    rw [h1 _ (by rw [swap_length]; simp; omega), swap_zero _ _ (by simpa using hm) h0]
    simp [hm]
  · rename_i h0
    have h0 : master = 0 := by omega
    subst h0
    rw [h1 _ (by simpa using hm)]
    simp [hm]

theorem sizeRankVec_ranks (master : Nat) (sizes : List Nat) (hm : master < sizes.length) :
    ((sizeRankVec master sizes).map Prod.snd).Perm (List.range sizes.length) := by
  refine ((sizeRankVec_perm master sizes hm).map Prod.snd).trans (List.Perm.of_eq ?_)
  rw [List.zipIdx_map_snd]
  exact (List.range_eq_range' ..).symm

/-- The check for empty inputs looks at the first two entries only; this suffices. -/
theorem sizeRankVec_empty (master : Nat) (sizes : List Nat) (hm : master < sizes.length) (h2 : 2 ≤ sizes.length) :
    (((sizeRankVec master sizes).getD 0 (0, 0)).1 = 0 ∨ ((sizeRankVec master sizes).getD 1 (0, 0)).1 = 0) ↔ 0 ∈ sizes := by
  have hp := sizeRankVec_perm master sizes hm
  have hl := sizeRankVec_length master sizes hm
  have hmem : ∀ s, s ∈ sizes ↔ ∃ x ∈ sizeRankVec master sizes, x.1 = s := by
    intro s
    constructor
    · intro hs
      obtain ⟨i, hi, rfl⟩ := List.getElem_of_mem hs
      exact ⟨(sizes[i], i), hp.mem_iff.mpr (by rw [List.mk_mem_zipIdx_iff_getElem?]; simp [hi]), rfl⟩
    · rintro ⟨x, hx, rfl⟩
      have := hp.mem_iff.mp hx
      rw [show x = (x.1, x.2) from rfl, List.mk_mem_zipIdx_iff_getElem?] at this
      exact List.mem_of_getElem? this
  have hget : ∀ i (hi : i < 2), (sizeRankVec master sizes).getD i (0, 0) = (sizeRankVec master sizes)[i]'(by omega) := by
    intro i hi
    simp [List.getD, show i < (sizeRankVec master sizes).length by omega]
  rw [hget 0 (by omega), hget 1 (by omega)]
  constructor
  · rintro (h | h)
    · exact (hmem 0).mpr ⟨_, List.getElem_mem _, h⟩
    · exact (hmem 0).mpr ⟨_, List.getElem_mem _, h⟩
  · intro h
    obtain ⟨x, hx, hx0⟩ := (hmem 0).mp h
    obtain ⟨i, hi, rfl⟩ := List.getElem_of_mem hx
    by_cases h0 : i = 0
    · subst h0
      exact Or.inl hx0
    · by_cases h1 : i = 1
      · subst h1
        exact Or.inr hx0
      · right
        -- the rest is sorted
        have key : ∀ v : List (Nat × Nat), ∀ hi : i < (v.take 1 ++ (v.drop 1).mergeSort pairLe).length, 1 ≤ v.length →
            pairLe ((v.take 1 ++ (v.drop 1).mergeSort pairLe)[1]'(by omega)) ((v.take 1 ++ (v.drop 1).mergeSort pairLe)[i]) = true := by
          intro v hi hv
          have hs := List.pairwise_mergeSort (le := pairLe) pairLe_trans pairLe_total (v.drop 1)
          have hl1 : (v.take 1).length = 1 := by simp; omega
          rw [List.getElem_append_right (by omega), List.getElem_append_right (by omega)]
          exact List.pairwise_iff_getElem.mp hs _ _ (by simp at hi ⊢; omega) (by simp at hi ⊢; omega) (by omega)
        have := key (if master ≠ 0 then swap sizes.zipIdx 0 master else sizes.zipIdx)
          (show i < (sizeRankVec master sizes).length from hi) (by split <;> simp [swap_length] <;> omega)
        have this : pairLe (sizeRankVec master sizes)[1] (sizeRankVec master sizes)[i] = true := this
        simp only [pairLe, Bool.or_eq_true, Bool.and_eq_true, decide_eq_true_eq, beq_iff_eq] at this
        omega

theorem levelNumFrom_le (n : Nat) : ∀ (fuel p : Nat), 0 < p → n ≤ p + fuel → n ≤ p * 2 ^ levelNumFrom n fuel p
  | 0, p, _, h => by simp [levelNumFrom]; omega
  | fuel + 1, p, hp, h => by
    unfold levelNumFrom
    split
    · simpa using ‹n ≤ p›
    · have := levelNumFrom_le n fuel (2 * p) (by omega) (by omega)
      rw [Nat.pow_succ]
      calc n ≤ 2 * p * 2 ^ levelNumFrom n fuel (2 * p) := this
        _ = p * (2 ^ levelNumFrom n fuel (2 * p) * 2) := by ring

theorem le_levelNum (n : Nat) : n ≤ 2 ^ levelNum n := by
  have := levelNumFrom_le n n 1 (by omega) (by omega)
  simpa [levelNum] using this

/-! ## Operators -/

theorem refLevels_ok (c : Env D) : ∀ (n : Nat) (vec : List Nat) (I : Nat → List Bytes), (∀ r ∈ vec, r < c.world) → vec ≠ [] →
    2 ≤ c.world → ∀ e ∈ refLevels c n vec I, (sys c).members e.key ≠ [] ∧ ∀ t ∈ (sys c).members e.key, t < c.world
  | 0, _, _, _, _, _ => by simp [refLevels]
  | n + 1, vec, I, hv, hne, h2 => by
    intro e he
    have hs : ∀ r ∈ survivors vec, r < c.world := fun r hr => hv r (mem_survivors_of hr)
    have hlen := survivors_length vec
    have hpos : 0 < vec.length := List.length_pos_iff.mpr hne
    have hsne : survivors vec ≠ [] := by
      intro h
      rw [h] at hlen
      simp at hlen
      omega
    unfold refLevels at he
    rcases List.mem_append.mp he with he | he
    · obtain ⟨k, hk, rfl⟩ := List.mem_map.mp he
      have hk := List.mem_range.mp hk
      refine ⟨by simp [sys, members, pairEvent], ?_⟩
      intro t ht
      simp only [sys, members, pairEvent, List.mem_cons, List.not_mem_nil, or_false] at ht
      rw [getD_getElem (by omega), getD_getElem (by omega)] at ht
      rcases ht with rfl | rfl
      · exact hv _ (List.getElem_mem _)
      · exact hv _ (List.getElem_mem _)
    · rcases List.mem_cons.mp he with rfl | he
      · exact ⟨hsne, hs⟩
      · split at he
        · rw [List.mem_singleton.mp he]
          exact ⟨ranks_ne_nil h2, fun t ht => mem_ranks.mp ht⟩
        · exact refLevels_ok c n _ _ hs hsne h2 e he

/-- N parties: the master ends with the sorted list of its items that all have, the others with nothing. -/
theorem plays_nparty {c : Env D} {good : List Bytes → Prop} (hc : Lawful c good) (I : Nat → List Bytes)
    (hg : ∀ r, r < c.world → good (I r)) :
    ∃ l, Plays c l (fun r => npartyRun c r (I r))
      (fun r => if r = c.master then Std.sort ((I r).filter fun x => InAll c I x) else []) := by
  have hlen : (c.ranks.map fun t => (I t).length).length = c.world := by simp [Env.ranks]
  have hm : c.master < (c.ranks.map fun t => (I t).length).length := by rw [hlen]; exact hc.master
  have h2 : 2 ≤ (c.ranks.map fun t => (I t).length).length := by rw [hlen]; exact hc.two
  have hz := sizeRankVec_empty _ _ hm h2
  have hl := sizeRankVec_length _ _ hm
  have hp := sizeRankVec_ranks _ _ hm
  have h0 := sizeRankVec_zero _ _ hm
  rw [hlen] at hl hp
  have hmz : 0 ∈ (c.ranks.map fun t => (I t).length) ↔ ∃ u ∈ c.ranks, I u = [] := by
    simp [List.length_eq_zero_iff]
  generalize hv : sizeRankVec c.master (c.ranks.map fun t => (I t).length) = vec at hz hl hp h0
  by_cases he : 0 ∈ (c.ranks.map fun t => (I t).length)
  · refine ⟨[gatherEvent c.ranks fun t => (I t).length] ++ [], ?_⟩
    have hP := Plays.bind (S := List Bytes) (f := fun r sizes =>
      let vec := sizeRankVec c.master sizes
      if (vec.getD 0 (0, 0)).1 = 0 ∨ (vec.getD 1 (0, 0)).1 = 0 then .ret []
      else levels c r (I r).length (levelNum vec.length) (vec.map Prod.snd) (I r))
      (plays_gather hc.two (fun t => (I t).length)) (Plays.congr (Plays.ret c fun _ => []) (v' := fun _ => []) (by
        intro r _
        simp only [hv]
        rw [if_pos (hz.mpr he)]) (fun _ _ => rfl))
    refine hP.congr (fun _ _ => rfl) ?_
    intro r hr
    obtain ⟨u, hu, hnil⟩ := hmz.mp he
    split
    · rw [List.filter_eq_nil_iff.mpr]
      · exact List.perm_nil.mp (Std.sort_perm [])
      · intro x _
        rw [decide_eq_true_eq]
        intro hx
        have := hx u hu
        rw [hnil] at this
        simp at this
    · rfl
  · have hnd : (vec.map Prod.snd).Nodup := hp.nodup_iff.mpr List.nodup_range
    have hlt : ∀ r, r ∈ vec.map Prod.snd ↔ r < c.world := fun r => by rw [hp.mem_iff, List.mem_range]
    have hl' : (vec.map Prod.snd).length = c.world := by rw [List.length_map, hl]
    have hfirst : (vec.map Prod.snd).getD 0 0 = c.master := by
      simp only [List.getD, List.getElem?_map, h0, Option.map_some, Option.getD_some]
    have hpos : ∀ r, r < c.world → (I r).length ≠ 0 := by
      intro r hr h
      exact he (hmz.mpr ⟨r, mem_ranks.mpr hr, List.length_eq_zero_iff.mp h⟩)
    refine ⟨[gatherEvent c.ranks fun t => (I t).length] ++ refLevels c (levelNum vec.length) (vec.map Prod.snd) I, ?_⟩
    refine Plays.bind (f := fun r sizes =>
      let vec := sizeRankVec c.master sizes
      if (vec.getD 0 (0, 0)).1 = 0 ∨ (vec.getD 1 (0, 0)).1 = 0 then .ret []
      else levels c r (I r).length (levelNum vec.length) (vec.map Prod.snd) (I r))
      (plays_gather hc.two (fun t => (I t).length)) ⟨?_, ?_⟩
    · exact refLevels_ok c _ _ _ (fun r hr => (hlt r).mp hr) (by
        intro h
        rw [h] at hl'
        have := hc.two
        simp at hl'
        omega) hc.two
    · intro r hr
      simp only [hv]
      rw [if_neg (fun h => he (hz.mp h))]
      have hd := does_levels c (I r).length (hpos r hr) (levelNum vec.length) (vec.map Prod.snd) I r ((hlt r).mpr hr) hr hnd
        (by rw [hl']; exact hc.two) (by rw [List.length_map]; exact le_levelNum _)
      rw [refResult_eq hc _ _ _ _ hnd (by rw [hl']; exact hc.two) (by rw [List.length_map]; exact le_levelNum _)
        (fun u hu => hg u ((hlt u).mp hu)), hfirst] at hd
      convert hd using 5
      rename_i x
      unfold InAll
      apply decide_eq_decide.mpr
      constructor
      · intro h u hu
        exact h u (mem_ranks.mpr ((hlt u).mp hu))
      · intro h u hu
        exact h u ((hlt u).mpr (mem_ranks.mp hu))

/-- Any operator: the master ends with its items that all have, in some order, the others with nothing. -/
theorem plays_onRun {c : Env D} {good : List Bytes → Prop} (hc : Lawful c good) (I : Nat → List Bytes)
    (hg : ∀ r, r < c.world → good (I r)) :
    ∃ l v, Plays c l (fun r => onRun c r (I r)) v ∧ (v c.master).Perm ((I c.master).filter fun x => InAll c I x) ∧
      ∀ r, r ≠ c.master → v r = [] := by
  by_cases hn : c.nparty = true
  · obtain ⟨l, h⟩ := plays_nparty hc I hg
    refine ⟨l, _, h.congr (fun r _ => by simp [onRun, hn]) (fun _ _ => rfl), ?_, ?_⟩
    · simp only [if_true]
      exact Std.sort_perm _
    · intro r hr
      simp [hr]
  · have hk : members c .protocol = c.ranks := rfl
    let pay : Nat → Msg D := fun t => [.items (I t)]
    let v : Nat → List Bytes := fun r => ((answer c .protocol pay r).headD .empty).toItems
    refine ⟨[⟨.protocol, pay⟩] , v, ?_, ?_, ?_⟩
    · have := plays_world hc.two .protocol hk pay (fun _ (l : Msg D) => (.ret (l.headD .empty).toItems : P D (List Bytes))) [] v
        (Plays.ret c v) (by
          intro r hr
          simp only [answer]
          have h1 := masked_world c .protocol hk pay hr
          have h2 : ((c.ranks.filter (· ≠ c.master)).map fun u => (((sys c).masked .protocol pay u).headD .empty).toItems) =
              ((c.ranks.filter (· ≠ c.master)).map fun u => ((pay u).headD .empty).toItems) := by
            apply List.map_congr_left
            intro u hu
            rw [masked_world c .protocol hk pay (mem_ranks.mp (List.mem_filter.mp hu).1)]
          rw [h1, h2])
      exact this.congr (fun r _ => by simp [onRun, hn, pay]) (fun _ _ => rfl)
    · have h1 := hc.direct (I c.master) ((c.ranks.filter (· ≠ c.master)).map I) (hg _ hc.master) (by
        intro b hb
        obtain ⟨u, hu, rfl⟩ := List.mem_map.mp hb
        exact hg u (mem_ranks.mp (List.mem_filter.mp hu).1))
      have h2 : v c.master = c.direct (I c.master) ((c.ranks.filter (· ≠ c.master)).map I) := by
        simp [v, pay, answer, Part.toItems]
      rw [h2]
      refine h1.trans (List.Perm.of_eq (List.filter_congr ?_))
      intro x hx
      apply decide_eq_decide.mpr
      unfold InAll
      constructor
      · intro h u hu
        by_cases e : u = c.master
        · rw [e]; exact hx
        · exact h _ (List.mem_map.mpr ⟨u, List.mem_filter.mpr ⟨hu, by simpa using e⟩, rfl⟩)
      · intro h b hb
        obtain ⟨u, hu, rfl⟩ := List.mem_map.mp hb
        exact h u (List.mem_filter.mp hu).1
    · intro r hr
      simp [v, answer, hr, Part.toItems]

/-! ## Broadcast -/

theorem bcastRank_zeros (l : List Nat) (h : ∀ s ∈ l, s = 0) (i rank : Nat) : bcastRank l i rank = some rank := by
  induction l generalizing i with
  | nil => rfl
  | cons s l ih =>
    unfold bcastRank
    rw [if_neg (by rw [h s (by simp)]; omega)]
    exact ih (fun s hs => h s (by simp [hs])) _

/-- One party with results. -/
theorem bcastRank_one (a b : List Nat) (s i : Nat) (hs : 0 < s) (ha : ∀ x ∈ a, x = 0) (hb : ∀ x ∈ b, x = 0) :
    bcastRank (a ++ s :: b) i 0 = some (i + a.length) := by
  induction a generalizing i with
  | nil =>
    rw [List.nil_append]
    unfold bcastRank
    rw [if_pos hs, if_pos rfl, bcastRank_zeros b hb]
    simp
  | cons x a ih =>
    rw [List.cons_append]
    unfold bcastRank
    rw [if_neg (by rw [ha x (by simp)]; omega), ih _ (fun x hx => ha x (by simp [hx]))]
    simp
    omega

theorem foldl_max_eq_zero (l : List Nat) (a : Nat) : l.foldl max a = 0 ↔ a = 0 ∧ ∀ x ∈ l, x = 0 := by
  induction l generalizing a with
  | nil => simp
  | cons b l ih =>
    rw [List.foldl_cons, ih]
    have : max a b = 0 ↔ a = 0 ∧ b = 0 := by omega
    rw [this]
    simp [and_assoc]

/-- If only the master has a result, everybody has it afterwards. -/
theorem plays_broadcast {c : Env D} (h2 : 2 ≤ c.world) (hm : c.master < c.world) (v : Nat → List Bytes)
    (hv : ∀ r, r ≠ c.master → v r = []) :
    ∃ l, Plays c l (fun r => broadcastResult c (v r)) (fun _ => v c.master) := by
  have hsplit : c.ranks.map (fun t => (v t).length) =
      (List.range c.master).map (fun t => (v t).length) ++ (v c.master).length ::
        (List.range' (c.master + 1) (c.world - c.master - 1)).map (fun t => (v t).length) := by
    have : c.ranks = List.range c.master ++ c.master :: List.range' (c.master + 1) (c.world - c.master - 1) := by
      unfold Env.ranks
      have h := List.range'_append_1 (s := 0) (m := c.master) (n := c.world - c.master - 1 + 1)
      rw [List.range'_succ, Nat.zero_add] at h
      rw [List.range_eq_range', List.range_eq_range', h]
      congr 1
      omega
    rw [this, List.map_append, List.map_cons]
  have ha : ∀ x ∈ (List.range c.master).map (fun t => (v t).length), x = 0 := by
    intro x hx
    obtain ⟨t, ht, rfl⟩ := List.mem_map.mp hx
    rw [hv t (by have := List.mem_range.mp ht; omega)]
    rfl
  have hb : ∀ x ∈ (List.range' (c.master + 1) (c.world - c.master - 1)).map (fun t => (v t).length), x = 0 := by
    intro x hx
    obtain ⟨t, ht, rfl⟩ := List.mem_map.mp hx
    rw [hv t (by have := List.mem_range'_1.mp ht; omega)]
    rfl
  by_cases he : v c.master = []
  · have hall : ∀ r, v r = [] := fun r => if h : r = c.master then h ▸ he else hv r h
    have hz : ∀ s ∈ c.ranks.map (fun t => (v t).length), s = 0 := by
      intro s hs
      obtain ⟨t, _, rfl⟩ := List.mem_map.mp hs
      rw [hall t]
      rfl
    refine ⟨[gatherEvent c.ranks fun t => (v t).length] ++ [], ?_⟩
    refine Plays.bind (plays_gather h2 fun t => (v t).length) ((Plays.ret c fun _ => v c.master).congr ?_ (fun _ _ => rfl))
    intro r _
    rw [bcastRank_zeros _ hz]
    simp only
    rw [if_pos ((foldl_max_eq_zero _ _).mpr ⟨by rw [hall r]; rfl, hz⟩), hall r, he]
  · have hpos : 0 < (v c.master).length := List.length_pos_iff.mpr he
    have hr : bcastRank (c.ranks.map fun t => (v t).length) 0 0 = some c.master := by
      rw [hsplit, bcastRank_one _ _ _ _ hpos ha hb]
      simp
    have hmax : ∀ r, ¬ (c.ranks.map fun t => (v t).length).foldl max (v r).length = 0 := by
      intro r h
      have := ((foldl_max_eq_zero _ _).mp h).2 (v c.master).length (List.mem_map.mpr ⟨c.master, mem_ranks.mpr hm, rfl⟩)
      omega
    refine ⟨[gatherEvent c.ranks fun t => (v t).length] ++ [⟨.bcast c.master, fun t => [.items (v t)]⟩], ?_⟩
    refine Plays.bind (plays_gather h2 fun t => (v t).length) ?_
    have := plays_world h2 (.bcast c.master) rfl (fun t => [.items (v t)])
      (fun r (l : Msg D) => (.ret (if v r = [] then (l.headD .empty).toItems else v r) : P D (List Bytes))) []
      (fun _ => v c.master) ((Plays.ret c fun _ => v c.master).congr (by
        intro r _
        simp only [answer, List.headD_cons, Part.toItems]
        by_cases h : r = c.master
        · rw [h, if_neg he]
        · rw [if_pos (hv r h)]) (fun _ _ => rfl)) (by
        intro r _
        simp only [answer]
        exact masked_world c _ rfl _ hm)
    refine this.congr ?_ (fun _ _ => rfl)
    intro r _
    rw [hr]
    simp only
    rw [if_neg (hmax r)]

/-- One bucket through `MemoryPsi::Run`. -/
theorem plays_memory {c : Env D} {good : List Bytes → Prop} (hc : Lawful c good) (I : Nat → List Bytes)
    (hg : ∀ r, r < c.world → good (I r)) :
    ∃ l v, Plays c l (fun r => memoryRun c r (I r)) v ∧
      ∀ r, r < c.world → if r = c.master ∨ c.broadcast = true then (v r).Perm ((I c.master).filter fun x => InAll c I x) else v r = [] := by
  have hz : ∀ r, r < c.world → ((c.ranks.map fun t => (I t).length).foldl min (I r).length = 0 ↔ ∃ u ∈ c.ranks, I u = []) := by
    intro r hr
    rw [foldl_min_eq_zero]
    simp only [List.mem_map, List.length_eq_zero_iff]
    constructor
    · rintro (h | h)
      · exact ⟨r, mem_ranks.mpr hr, h⟩
      · exact h
    · exact Or.inr
  by_cases he : ∃ u ∈ c.ranks, I u = []
  · refine ⟨[gatherEvent c.ranks fun t => (I t).length] ++ [], fun _ => [], ?_, ?_⟩
    · refine Plays.bind (plays_gather hc.two fun t => (I t).length) ((Plays.ret c fun _ => []).congr ?_ (fun _ _ => rfl))
      intro r hr
      rw [if_pos ((hz r hr).mpr he)]
    · intro r hr
      obtain ⟨u, hu, hnil⟩ := he
      split
      · rw [List.filter_eq_nil_iff.mpr]
        intro x _
        rw [decide_eq_true_eq]
        intro hx
        have := hx u hu
        rw [hnil] at this
        simp at this
      · rfl
  · obtain ⟨l₁, v₁, hp₁, hm₁, ho₁⟩ := plays_onRun hc I hg
    have hsync : ∀ (f : Nat → P D (List Bytes)) (l : List (Ev D)) (w : Nat → List Bytes), Plays c l f w →
        Plays c (⟨.sync, fun _ => []⟩ :: l) (fun r => .call .sync [] fun _ => f r) w :=
      fun f l w h => plays_world hc.two .sync rfl (fun _ => []) (fun r _ => f r) l w h (fun _ _ => rfl)
    have hstart : ∀ (l : List (Ev D)) (w : Nat → List Bytes), Plays c l (fun r => operatorRun c r (I r)) w →
        Plays c ([gatherEvent c.ranks fun t => (I t).length] ++ l) (fun r => memoryRun c r (I r)) w := by
      intro l w h
      refine Plays.bind (plays_gather hc.two fun t => (I t).length) (h.congr ?_ (fun _ _ => rfl))
      intro r hr
      rw [if_neg (fun h => he ((hz r hr).mp h))]
    by_cases hb : c.broadcast = true
    · obtain ⟨l₂, hp₂⟩ := plays_broadcast hc.two hc.master v₁ ho₁
      refine ⟨_, fun _ => v₁ c.master, hstart _ _ (Plays.bind hp₁ (hsync (fun r => if c.broadcast then broadcastResult c (v₁ r) else .ret (v₁ r))
        l₂ _ (hp₂.congr (fun r _ => by simp [hb]) (fun _ _ => rfl)))), ?_⟩
      intro r hr
      rw [if_pos (Or.inr hb)]
      exact hm₁
    · refine ⟨_, v₁, hstart _ _ (Plays.bind hp₁ (hsync (fun r => if c.broadcast then broadcastResult c (v₁ r) else .ret (v₁ r))
        [] v₁ ((Plays.ret c v₁).congr (fun r _ => by simp [hb]) (fun _ _ => rfl)))), ?_⟩
      intro r hr
      by_cases h : r = c.master
      · rw [if_pos (Or.inl h), h]
        exact hm₁
      · rw [if_neg (by rintro (h' | h'); exact h h'; exact hb h')]
        exact ho₁ r h

end Psi.Legacy
