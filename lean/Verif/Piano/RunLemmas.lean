import Verif.Piano.TurnLemmas
import Mathlib.Data.Finset.Card
import Mathlib.Data.Finset.Dedup

/-!
# Piano PIR: queries one after the other
-/

namespace Psi.Piano

open Psi.Spiral (Res mapRes w64 w32)

section Run

variable {p : Params} {prf : Nat → Nat → Nat} {rnd : Nat → Nat → Nat} {db : List Nat}

/-- The sets that have an index at the start. -/
def setsWith (p : Params) (prf : Nat → Nat → Nat) (x : Nat) : Finset Nat :=
  (Finset.range p.m1).filter fun j => offset p prf (w32 j) (x / p.cs) = x % p.cs

/-- The queries to a chunk. -/
def inChunk (p : Params) (S : Finset Nat) (c : Nat) : Finset Nat := S.filter fun x => x / p.cs = c

/-- What the earlier queries did; `S` are those that were answered by a set. -/
structure Hist (p : Params) (S seen : Finset Nat) (cl : Client) : Prop where
  sub : S ⊆ seen
  cached : ∀ x ∈ S, (look cl.cache x).isSome
  seenIf : ∀ x, (look cl.cache x).isSome → x ∈ seen
  used : ∀ c < p.ss, cl.rconsumed.getD c 0 = (inChunk p S c).card
  changed : ((Finset.range p.m1).filter fun j => (cl.primary.getD j noSet).programmed = true).card ≤ S.card
  tags : ∀ j < p.m1, (cl.primary.getD j noSet).programmed = false → (cl.primary.getD j noSet).tag = w32 j

theorem After.hist {cl : Client} (h : After p prf rnd db p.ss cl) : Hist p ∅ ∅ cl where
  sub := le_rfl
  cached := by simp
  seenIf := by intro x hx; simp [h.cache, look] at hx
  used := by
    intro c hc
    rw [h.rcons, List.getD_eq_getElem _ _ (by simpa using hc), List.getElem_replicate]
    rfl
  changed := by
    rw [Finset.filter_eq_empty_iff.mpr, Finset.card_empty]
    intro j hj
    rw [h.primary, List.getD_eq_getElem _ _ (by simpa [primaryAt] using hj)]
    simp [primaryAt]
  tags := by
    intro j hj _
    rw [h.primary, List.getD_eq_getElem _ _ (by simpa [primaryAt] using hj)]
    simp [primaryAt]

theorem Hist.masked {S seen : Finset Nat} {cl : Client} (h : Hist p S seen cl) (x : Nat) {cache : List (Nat × Entry)}
    (hc : ∀ y, (look cl.cache y).isSome → (look cache y).isSome)
    (hc' : ∀ y, (look cache y).isSome → y = x ∨ (look cl.cache y).isSome) :
    Hist p S (insert x seen) (maskNext cl x cache) where
  sub := h.sub.trans (Finset.subset_insert _ _)
  cached := fun y hy => hc y (h.cached y hy)
  seenIf := by
    intro y hy
    rcases hc' y hy with rfl | h'
    · exact Finset.mem_insert_self _ _
    · exact Finset.mem_insert_of_mem (h.seenIf y h')
  used := h.used
  changed := h.changed
  tags := h.tags

theorem look_cons_isSome {m : List (Nat × Entry)} {x y : Nat} {v : Entry} :
    (look ((x, v) :: m) y).isSome ↔ y = x ∨ (look m y).isSome := by
  rw [look_cons]
  split_ifs with h
  · simp [h.symm]
  · simp [Ne.symm h]

theorem Hist.answered {S seen : Finset Nat} {cl : Client} (ho : Online p prf rnd db cl) (h : Hist p S seen cl) {x i : Nat}
    (hx : x < p.cs * p.ss) (hi : i < p.m1) (hc : look cl.cache x = none) :
    Hist p (insert x S) (insert x seen) (hitNext p prf db cl x i) := by
  have hxS : x ∉ S := fun hx' => by simpa [hc] using h.cached x hx'
  constructor
  · exact Finset.insert_subset_insert _ h.sub
  · intro y hy
    rw [hitNext, look_cons_isSome]
    rcases Finset.mem_insert.mp hy with rfl | hy
    · exact .inl rfl
    · exact .inr (h.cached y hy)
  · intro y hy
    rw [hitNext, look_cons_isSome] at hy
    rcases hy with rfl | h'
    · exact Finset.mem_insert_self _ _
    · exact Finset.mem_insert_of_mem (h.seenIf y h')
  · intro c hc'
    rw [hitNext, getD_set _ _ _ _ _ (by rw [ho.rlen]; exact chunk_lt hx), inChunk, Finset.filter_insert]
    by_cases hcx : c = x / p.cs
    · rw [if_pos hcx, if_pos hcx.symm, Finset.card_insert_of_notMem (fun hm => hxS (Finset.mem_of_mem_filter _ hm)), ← hcx,
        h.used c hc', inChunk]
    · rw [if_neg hcx, if_neg (Ne.symm hcx), h.used c hc', inChunk]
  · rw [Finset.card_insert_of_notMem hxS]
    refine le_trans (Finset.card_le_card (t := insert i
      ((Finset.range p.m1).filter fun j => (cl.primary.getD j noSet).programmed = true)) ?_) ?_
    · intro j hj
      rw [Finset.mem_filter, hitNext, getD_set _ _ _ _ _ (by rw [ho.plen]; exact hi)] at hj
      by_cases hji : j = i
      · exact hji ▸ Finset.mem_insert_self _ _
      · rw [if_neg hji] at hj
        exact Finset.mem_insert_of_mem (Finset.mem_filter.mpr hj)
    · exact le_trans (Finset.card_insert_le _ _) (Nat.add_le_add_right h.changed 1)
  · intro j hj
    rw [hitNext, getD_set _ _ _ _ _ (by rw [ho.plen]; exact hi)]
    split_ifs with hji
    · intro hp; simp [newSet] at hp
    · exact h.tags j hj

/-- A message has one index of each chunk. -/
def OnePerChunk (p : Params) (msg : List Nat) : Prop := msg.length = p.ss ∧ ∀ c < p.ss, msg.getD c 0 / p.cs = c

theorem maskQuery_one (μ : Nat → Nat) : OnePerChunk p (maskQuery p μ) := by
  refine ⟨by simp [maskQuery], fun c hc => ?_⟩
  rw [List.getD_eq_getElem _ _ (by simpa [maskQuery] using hc)]
  simp only [maskQuery, List.getElem_map, List.getElem_range]
  rw [Nat.add_mul_div_right _ _ (cs_pos p), Nat.div_eq_of_lt (Nat.mod_lt _ (cs_pos p)), Nat.zero_add]

theorem elem_chunk (s : PSet) (c : Nat) : elem p prf s c / p.cs = c := by
  rw [elem]
  split_ifs with h
  · exact h.2
  · rw [Nat.add_comm, Nat.add_mul_div_right _ _ (cs_pos p), Nat.div_eq_of_lt (offset_lt p prf _ _), Nat.zero_add]

theorem replacement_chunk (c k : Nat) : replacement p rnd c k / p.cs = c := by
  rw [replacement, Nat.add_mul_div_right _ _ (cs_pos p), Nat.div_eq_of_lt (Nat.mod_lt _ (cs_pos p)), Nat.zero_add]

theorem hitMessage_one {cl : Client} {x h : Nat} (hx : x < p.cs * p.ss) : OnePerChunk p (hitMessage p prf rnd cl x h) := by
  refine ⟨by rw [hitMessage, List.length_set, elementsOf_length], fun c hc => ?_⟩
  rw [hitMessage, getD_set _ _ _ _ _ (by rw [elementsOf_length]; exact chunk_lt hx)]
  split_ifs with h'
  · rw [replacement_chunk, h']
  · rw [elementsOf_get hc, elem_chunk]

/-- What one query gives. -/
theorem turn_spec (hdb : db.length = p.cs * p.ss * p.size) {S seen : Finset Nat} {cl : Client} (ho : Online p prf rnd db cl)
    (h : Hist p S seen cl) {μ : Nat → Nat} {x : Nat} (hx : x < p.cs * p.ss) :
    ∃ cl' msg v S', turn p prf db μ x cl = .ok (cl', msg, v) ∧ Online p prf rnd db cl' ∧ Hist p S' (insert x seen) cl' ∧
      OnePerChunk p msg ∧ (∀ y, (look cl.cache y).isSome → (look cl'.cache y).isSome) ∧
      ((v = slice p.size db x ∧ (look cl'.cache x).isSome) ∨ (v = zeroEntry p.size ∧ look cl.cache x = none ∧
        (p.m2 ≤ (inChunk p seen (x / p.cs)).card ∨ HitAtStart p prf x ∧ (setsWith p prf x).card ≤ seen.card))) ∧
      ((look cl.cache x).isSome ∨ v = zeroEntry p.size ∨ ¬ HitAtStart p prf x ∨
        cl'.rconsumed.getD (x / p.cs) 0 = cl.rconsumed.getD (x / p.cs) 0 + 1) ∧
      (∀ c, cl.rconsumed.getD c 0 ≤ cl'.rconsumed.getD c 0) ∧
      (∀ y, (look cl'.cache y).isSome → y = x ∨ (look cl.cache y).isSome) := by
  have hch := chunk_lt hx
  rcases hc : look cl.cache x with _ | v
  · rcases hf : findHit p prf x cl.primary with _ | i
    · rcases hm : look cl.miss x with _ | v
      · refine ⟨_, _, _, S, turn_lost hc hf hm, ho.masked x ho.cache, h.masked x (fun _ hy => hy) (fun _ hy => .inr hy),
          maskQuery_one μ, fun _ hy => hy, .inr ⟨rfl, rfl, .inr ⟨?_, ?_⟩⟩, .inr (.inl rfl), fun _ => le_rfl,
          fun _ hy => .inr hy⟩
        · by_contra hn
          rw [ho.missNone x hch hn] at hm
          exact absurd hm (by simp)
        · refine le_trans (Finset.card_le_card ?_) (le_trans h.changed (Finset.card_le_card h.sub))
          intro j hj
          rw [setsWith, Finset.mem_filter, Finset.mem_range] at hj
          rw [Finset.mem_filter, Finset.mem_range]
          refine ⟨hj.1, ?_⟩
          by_contra hp
          rw [Bool.not_eq_true] at hp
          rw [findHit, List.find?_eq_none] at hf
          apply hf j (List.mem_range.mpr hj.1)
          have ht := h.tags j hj.1 hp
          rw [matchSet]
          simp only [noSet] at hp ht
          rw [hp, ht, hj.2]
          simp
      · obtain ⟨-, hn, hv⟩ := ho.missSome x v hm
        refine ⟨_, _, _, S, turn_miss ho hc hf hm, ho.masked x ?_, h.masked x ?_ ?_, maskQuery_one μ, ?_, .inl ⟨rfl, ?_⟩,
          .inr (.inr (.inl hn)), fun _ => le_rfl, ?_⟩
        · intro y w hw
          rw [look_cons] at hw
          split_ifs at hw with h'
          · rw [Option.some_inj] at hw
            rw [← hw, hv, h']
          · exact ho.cache y w hw
        · exact fun y hy => look_cons_isSome.mpr (.inr hy)
        · exact fun y hy => look_cons_isSome.mp hy
        · exact fun y hy => look_cons_isSome.mpr (.inr hy)
        · exact look_cons_isSome.mpr (.inl rfl)
        · exact fun y hy => look_cons_isSome.mp hy
    · have hi := (findHit_some hf).1
      by_cases hr : cl.rconsumed.getD (x / p.cs) 0 = p.m2
      · refine ⟨_, _, _, S, turn_exhausted hx hc hf hr, ho.masked x ho.cache, h.masked x (fun _ hy => hy) (fun _ hy => .inr hy),
          maskQuery_one μ, fun _ hy => hy, .inr ⟨rfl, rfl, .inl ?_⟩, .inr (.inl rfl), fun _ => le_rfl, fun _ hy => .inr hy⟩
        rw [← hr, h.used _ hch]
        exact Finset.card_le_card (Finset.filter_subset_filter _ h.sub)
      · have hr' := lt_of_le_of_ne (ho.rle _ hch) hr
        refine ⟨_, _, _, insert x S, turn_hit hdb ho hx hc hf hr', ho.answered hx hi hr', h.answered ho hx hi hc,
          hitMessage_one hx, ?_, .inl ⟨rfl, ?_⟩, .inr (.inr (.inr ?_)), ?_, ?_⟩
        · exact fun y hy => look_cons_isSome.mpr (.inr hy)
        · exact look_cons_isSome.mpr (.inl rfl)
        · rw [hitNext, getD_set _ _ _ _ _ (by rw [ho.rlen]; exact hch), if_pos rfl]
        · intro c
          rw [hitNext, getD_set _ _ _ _ _ (by rw [ho.rlen]; exact hch)]
          split_ifs with h'
          · rw [h']; omega
          · exact le_rfl
        · exact fun y hy => look_cons_isSome.mp hy
  · have hcs : (look cl.cache x).isSome := by rw [hc]; rfl
    exact ⟨_, _, _, S, turn_cached ho hc, ho.masked x ho.cache, h.masked x (fun _ hy => hy) (fun _ hy => .inr hy),
      maskQuery_one μ, fun _ hy => hy, .inl ⟨rfl, hcs⟩, .inl rfl, fun _ => le_rfl, fun _ hy => .inr hy⟩

/-- Stands for an answer that is not there. -/
abbrev noOut : List Nat × Entry := ([], [])

theorem insert_union (x : Nat) (xs : List Nat) (i : Nat) (seen : Finset Nat) :
    insert x seen ∪ (xs.take i).toFinset = seen ∪ ((x :: xs).take (i + 1)).toFinset := by
  rw [List.take_succ_cons, List.toFinset_cons]
  ext y
  simp only [Finset.mem_union, Finset.mem_insert]
  tauto

theorem turns_cons {t x : Nat} {xs : List Nat} {cl cl' : Client} {μ : Nat → Nat → Nat} {msg : List Nat} {v : Entry}
    (h : turn p prf db (μ t) x cl = .ok (cl', msg, v)) {outs : List (List Nat × Entry)}
    (h' : turns p prf db μ (t + 1) xs cl' = .ok outs) : turns p prf db μ t (x :: xs) cl = .ok ((msg, v) :: outs) := by
  rw [turns, h, bind_ok, h', bind_ok]

/-- Cached entries stay. -/
theorem turns_keep (hdb : db.length = p.cs * p.ss * p.size) {μ : Nat → Nat → Nat} : ∀ {xs : List Nat} {t : Nat} {cl : Client}
    {S seen : Finset Nat} {outs : List (List Nat × Entry)}, Online p prf rnd db cl → Hist p S seen cl →
    (∀ x ∈ xs, x < p.cs * p.ss) → turns p prf db μ t xs cl = .ok outs →
    ∀ i < xs.length, (look cl.cache (xs.getD i 0)).isSome → (outs.getD i noOut).2 = slice p.size db (xs.getD i 0)
  | [], _, _, _, _, _, _, _, _, _ => by simp
  | x :: xs, t, cl, S, seen, outs, ho, h, hxs, hrun => by
    obtain ⟨cl', msg, v, S', hturn, ho', h', -, hmono, hv, -⟩ := turn_spec hdb ho h (μ := μ t) (hxs x List.mem_cons_self)
    rw [turns, hturn, bind_ok] at hrun
    dsimp only at hrun
    rcases hrest : turns p prf db μ (t + 1) xs cl' with rs | _ | _
    · rw [hrest, bind_ok] at hrun
      injection hrun with hrun
      subst hrun
      intro i hi hl
      cases i with
      | zero =>
        rcases hv with hv | hv
        · exact hv.1
        · rw [List.getD_cons_zero, hv.2.1] at hl
          exact absurd hl (by simp)
      | succ i =>
        exact turns_keep hdb ho' h' (fun y hy => hxs y (List.mem_cons_of_mem _ hy)) hrest i (by simpa using hi) (hmono _ hl)
    · rw [hrest] at hrun; exact absurd hrun (by simp [Res.bind])
    · rw [hrest] at hrun; exact absurd hrun (by simp [Res.bind])

/-- All queries are answered. -/
theorem turns_spec (hdb : db.length = p.cs * p.ss * p.size) {μ : Nat → Nat → Nat} : ∀ {xs : List Nat} {t : Nat} {cl : Client}
    {S seen : Finset Nat}, Online p prf rnd db cl → Hist p S seen cl → (∀ x ∈ xs, x < p.cs * p.ss) →
    ∃ outs, turns p prf db μ t xs cl = .ok outs ∧ outs.length = xs.length ∧ ∀ i < xs.length,
      OnePerChunk p (outs.getD i noOut).1 ∧
      ((outs.getD i noOut).2 = slice p.size db (xs.getD i 0) ∨ (outs.getD i noOut).2 = zeroEntry p.size ∧
        (p.m2 ≤ (inChunk p (seen ∪ (xs.take i).toFinset) (xs.getD i 0 / p.cs)).card ∨
          HitAtStart p prf (xs.getD i 0) ∧ (setsWith p prf (xs.getD i 0)).card ≤ (seen ∪ (xs.take i).toFinset).card)) ∧
      ∀ j < xs.length, i < j → xs.getD j 0 = xs.getD i 0 → (outs.getD i noOut).2 = slice p.size db (xs.getD i 0) →
        (outs.getD j noOut).2 = slice p.size db (xs.getD j 0)
  | [], _, _, _, _, _, _, _ => ⟨[], rfl, rfl, by simp⟩
  | x :: xs, t, cl, S, seen, ho, h, hxs => by
    obtain ⟨cl', msg, v, S', hturn, ho', h', hmsg, hmono, hv, -⟩ := turn_spec hdb ho h (μ := μ t) (hxs x List.mem_cons_self)
    have hxs' : ∀ y ∈ xs, y < p.cs * p.ss := fun y hy => hxs y (List.mem_cons_of_mem _ hy)
    obtain ⟨outs, hrun, hlen, hspec⟩ := turns_spec hdb (t := t + 1) (μ := μ) ho' h' hxs'
    refine ⟨_, turns_cons hturn hrun, by simp [hlen], ?_⟩
    intro i hi
    cases i with
    | zero =>
      refine ⟨hmsg, ?_, ?_⟩
      · rcases hv with hv | hv
        · exact .inl hv.1
        · refine .inr ⟨hv.1, ?_⟩
          simpa using hv.2.2
      · intro j hj hij heq hright
        obtain ⟨j, rfl⟩ : ∃ j', j = j' + 1 := ⟨j - 1, by omega⟩
        rw [List.getD_cons_succ, List.getD_cons_zero] at heq
        rw [List.getD_cons_succ, List.getD_cons_succ]
        have hj' : j < xs.length := by simpa using hj
        rcases hv with hv | hv
        · exact turns_keep hdb ho' h' hxs' hrun j hj' (by rw [heq]; exact hv.2)
        · rw [List.getD_cons_zero, List.getD_cons_zero] at hright
          rcases (hspec j hj').2.1 with h1 | h1
          · exact h1
          · rw [h1.1, heq, ← hright]
            exact hv.1.symm
    | succ i =>
      have hi' : i < xs.length := by simpa using hi
      obtain ⟨h1, h2, h3⟩ := hspec i hi'
      rw [List.getD_cons_succ, List.getD_cons_succ]
      refine ⟨h1, ?_, ?_⟩
      · rw [← insert_union]
        exact h2
      · intro j hj hij heq hright
        obtain ⟨j, rfl⟩ : ∃ j', j = j' + 1 := ⟨j - 1, by omega⟩
        rw [List.getD_cons_succ] at heq
        rw [List.getD_cons_succ, List.getD_cons_succ]
        exact h3 j (by simpa using hj) (by omega) heq hright

/-- Distinct queries to one chunk: each answer that is not zero uses up a replacement. -/
theorem turns_limit (hdb : db.length = p.cs * p.ss * p.size) {μ : Nat → Nat → Nat} {c : Nat} (hc : c < p.ss) :
    ∀ {xs : List Nat} {t : Nat} {cl : Client} {S seen : Finset Nat} {outs : List (List Nat × Entry)}, Online p prf rnd db cl →
    Hist p S seen cl → (∀ x ∈ xs, x < p.cs * p.ss) → xs.Nodup → (∀ x ∈ xs, x / p.cs = c) → (∀ x ∈ xs, HitAtStart p prf x) →
    (∀ x ∈ xs, look cl.cache x = none) → turns p prf db μ t xs cl = .ok outs →
    (outs.filter fun o => o.2 ≠ zeroEntry p.size).length + cl.rconsumed.getD c 0 ≤ p.m2
  | [], _, cl, _, _, _, ho, _, _, _, _, _, _, hrun => by
    rw [turns] at hrun
    injection hrun with hrun
    subst hrun
    simpa using ho.rle c hc
  | x :: xs, t, cl, S, seen, outs, ho, h, hxs, hnd, hch, hhit, hcache, hrun => by
    obtain ⟨cl', msg, v, S', hturn, ho', h', -, -, -, hv, hle, hcached⟩ :=
      turn_spec hdb ho h (μ := μ t) (hxs x List.mem_cons_self)
    rw [turns, hturn, bind_ok] at hrun
    dsimp only at hrun
    rcases hrest : turns p prf db μ (t + 1) xs cl' with rs | _ | _
    · rw [hrest, bind_ok] at hrun
      injection hrun with hrun
      subst hrun
      have ih := turns_limit hdb hc ho' h' (fun y hy => hxs y (List.mem_cons_of_mem _ hy)) (List.nodup_cons.mp hnd).2
        (fun y hy => hch y (List.mem_cons_of_mem _ hy)) (fun y hy => hhit y (List.mem_cons_of_mem _ hy)) (fun y hy => by
          rw [← Option.not_isSome_iff_eq_none]
          intro hs
          rcases hcached y hs with rfl | hs
          · exact (List.nodup_cons.mp hnd).1 hy
          · rw [hcache y (List.mem_cons_of_mem _ hy)] at hs
            exact absurd hs (by simp)) hrest
      rw [List.filter_cons]
      by_cases hz : v = zeroEntry p.size
      · have := hle c
        rw [if_neg (by simp [hz])]
        omega
      · rw [if_pos (by simpa using hz), List.length_cons]
        rcases hv with hv | hv | hv | hv
        · rw [hcache x List.mem_cons_self] at hv
          exact absurd hv (by simp)
        · exact absurd hv hz
        · exact absurd (hhit x List.mem_cons_self) hv
        · rw [hch x List.mem_cons_self] at hv
          omega
    · rw [hrest] at hrun; exact absurd hrun (by simp [Res.bind])
    · rw [hrest] at hrun; exact absurd hrun (by simp [Res.bind])

end Run

end Psi.Piano
