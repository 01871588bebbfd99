import Verif.Piano.RunLemmas

/-!
# Piano PIR: what the client gets

Entry `x` of the database is `slice size db x`.  `setsWith p prf x` are the primary sets that have index `x` before the first
query, `inChunk p S c` are the indices of `S` that lie in chunk `c`.
-/

namespace Psi.Piano

open Psi.Spiral (Res mapRes w64 w32)

variable {p : Params} {prf : Nat → Nat → Nat} {pad : Nat → List Nat} {rnd μ : Nat → Nat → Nat} {db xs : List Nat}

theorem run_spec (hdb : db.length = p.n * p.size) (hxs : ∀ x ∈ xs, x < p.n) :
    ∃ outs, run p prf pad rnd μ db xs = .ok outs ∧ outs.length = xs.length ∧ ∀ i < xs.length,
      OnePerChunk p (outs.getD i noOut).1 ∧
      ((outs.getD i noOut).2 = slice p.size db (xs.getD i 0) ∨ (outs.getD i noOut).2 = zeroEntry p.size ∧
        (p.m2 ≤ (inChunk p (xs.take i).toFinset (xs.getD i 0 / p.cs)).card ∨
          HitAtStart p prf (xs.getD i 0) ∧ (setsWith p prf (xs.getD i 0)).card ≤ ((xs.take i).toFinset).card)) ∧
      ∀ j < xs.length, i < j → xs.getD j 0 = xs.getD i 0 → (outs.getD i noOut).2 = slice p.size db (xs.getD i 0) →
        (outs.getD j noOut).2 = slice p.size db (xs.getD j 0) := by
  have hal := align_length pad hdb
  obtain ⟨cl, hoff, hafter⟩ := offline_ok (p := p) (prf := prf) (rnd := rnd) hal
  have hxs' : ∀ x ∈ xs, x < p.cs * p.ss := fun x hx => lt_of_lt_of_le (hxs x hx) (n_le p)
  obtain ⟨outs, hrun, hlen, hspec⟩ := turns_spec (μ := μ) (t := 0) hal hafter.online hafter.hist hxs'
  refine ⟨outs, by rw [run, hoff, bind_ok, hrun], hlen, fun i hi => ?_⟩
  have hget : ∀ j < xs.length, slice p.size (align p pad db) (xs.getD j 0) = slice p.size db (xs.getD j 0) := by
    intro j hj
    exact align_slice pad hdb (hxs _ (by rw [List.getD_eq_getElem _ _ hj]; exact List.getElem_mem _))
  obtain ⟨h1, h2, h3⟩ := hspec i hi
  rw [hget i hi] at h2 h3
  rw [Finset.empty_union] at h2
  refine ⟨h1, h2, fun j hj hij heq hr => ?_⟩
  rw [← hget j hj]
  exact h3 j hj hij heq hr

/-- C92: every query is answered, with the entry or with zeros, and every message has one index of each chunk. -/
theorem entry_or_zeros (hdb : db.length = p.n * p.size) (hxs : ∀ x ∈ xs, x < p.n) :
    ∃ outs, run p prf pad rnd μ db xs = .ok outs ∧ outs.length = xs.length ∧ ∀ i < xs.length,
      ((outs.getD i noOut).2 = slice p.size db (xs.getD i 0) ∨ (outs.getD i noOut).2 = zeroEntry p.size) ∧
      (outs.getD i noOut).1.length = p.ss ∧ ∀ c < p.ss, (outs.getD i noOut).1.getD c 0 / p.cs = c := by
  obtain ⟨outs, h1, h2, h3⟩ := run_spec (pad := pad) (prf := prf) (rnd := rnd) (μ := μ) hdb hxs
  exact ⟨outs, h1, h2, fun i hi => ⟨(h3 i hi).2.1.imp id And.left, (h3 i hi).1⟩⟩

/-- C92: an answer is right if fewer indices of its chunk than there are replacements were asked for before, and either no set has
the index at the start or more sets have it than indices were asked for before. -/
theorem right_unless_used_up (hdb : db.length = p.n * p.size) (hxs : ∀ x ∈ xs, x < p.n) {outs : List (List Nat × Entry)}
    (hrun : run p prf pad rnd μ db xs = .ok outs) {i : Nat} (hi : i < xs.length)
    (hrepl : (inChunk p (xs.take i).toFinset (xs.getD i 0 / p.cs)).card < p.m2)
    (hsets : (setsWith p prf (xs.getD i 0)).card = 0 ∨ (xs.take i).toFinset.card < (setsWith p prf (xs.getD i 0)).card) :
    (outs.getD i noOut).2 = slice p.size db (xs.getD i 0) := by
  obtain ⟨outs', h1, -, h3⟩ := run_spec (pad := pad) (prf := prf) (rnd := rnd) (μ := μ) hdb hxs
  rw [h1] at hrun
  injection hrun with hrun
  subst hrun
  rcases (h3 i hi).2.1 with h | ⟨-, h | ⟨⟨j, hj, hoff⟩, h⟩⟩
  · exact h
  · omega
  · have : j ∈ setsWith p prf (xs.getD i 0) := Finset.mem_filter.mpr ⟨Finset.mem_range.mpr hj, hoff⟩
    have := Finset.card_pos.mpr ⟨j, this⟩
    omega

/-- C92: the first answer is right. -/
theorem first_right (hdb : db.length = p.n * p.size) (hxs : ∀ x ∈ xs, x < p.n) {outs : List (List Nat × Entry)}
    (hrun : run p prf pad rnd μ db xs = .ok outs) (h0 : 0 < xs.length) (hm : 0 < p.m2) :
    (outs.getD 0 noOut).2 = slice p.size db (xs.getD 0 0) := by
  refine right_unless_used_up hdb hxs hrun h0 (by simpa [inChunk] using hm) ?_
  rcases Nat.eq_zero_or_pos (setsWith p prf (xs.getD 0 0)).card with h | h
  · exact .inl h
  · exact .inr (by simpa using h)

/-- C92: what was answered right once is answered right ever after. -/
theorem again_right (hdb : db.length = p.n * p.size) (hxs : ∀ x ∈ xs, x < p.n) {outs : List (List Nat × Entry)}
    (hrun : run p prf pad rnd μ db xs = .ok outs) {i j : Nat} (hij : i < j) (hj : j < xs.length)
    (heq : xs.getD j 0 = xs.getD i 0) (hr : (outs.getD i noOut).2 = slice p.size db (xs.getD i 0)) :
    (outs.getD j noOut).2 = slice p.size db (xs.getD j 0) := by
  obtain ⟨outs', h1, -, h3⟩ := run_spec (pad := pad) (prf := prf) (rnd := rnd) (μ := μ) hdb hxs
  rw [h1] at hrun
  injection hrun with hrun
  subst hrun
  exact (h3 i (by omega)).2.2 j hj hij heq hr

/-- C93, for queries that keep within the replacements of each chunk, when no set or enough sets have each index: all of them get
their entries. -/
theorem C93_within_partial (hdb : db.length = p.n * p.size) (hxs : ∀ x ∈ xs, x < p.n) {outs : List (List Nat × Entry)}
    (hrun : run p prf pad rnd μ db xs = .ok outs) (hrepl : ∀ x ∈ xs, (inChunk p xs.toFinset (x / p.cs)).card ≤ p.m2)
    (hsets : ∀ x ∈ xs, (setsWith p prf x).card = 0 ∨ xs.toFinset.card ≤ (setsWith p prf x).card) {i : Nat} (hi : i < xs.length) :
    (outs.getD i noOut).2 = slice p.size db (xs.getD i 0) := by
  -- the first query for an index
  have first : ∀ j < xs.length, xs.getD j 0 ∉ xs.take j → (outs.getD j noOut).2 = slice p.size db (xs.getD j 0) := by
    intro j hj hnew
    have hmem : xs.getD j 0 ∈ xs := by
      rw [List.getD_eq_getElem _ _ hj]
      exact List.getElem_mem _
    have hsub : (xs.take j).toFinset ⊂ xs.toFinset := by
      refine (Finset.ssubset_iff_of_subset fun x hx => ?_).2 ⟨xs.getD j 0, List.mem_toFinset.2 hmem, fun h => hnew (List.mem_toFinset.1 h)⟩
      exact List.mem_toFinset.2 (List.mem_of_mem_take (List.mem_toFinset.1 hx))
    have hc : inChunk p (xs.take j).toFinset (xs.getD j 0 / p.cs) ⊂ inChunk p xs.toFinset (xs.getD j 0 / p.cs) := by
      unfold inChunk
      refine (Finset.ssubset_iff_of_subset (Finset.filter_subset_filter _ hsub.1)).2 ⟨xs.getD j 0, ?_, fun h => ?_⟩
      · exact Finset.mem_filter.2 ⟨List.mem_toFinset.2 hmem, rfl⟩
      · exact hnew (List.mem_toFinset.1 (Finset.mem_filter.1 h).1)
    refine right_unless_used_up hdb hxs hrun hj (lt_of_lt_of_le (Finset.card_lt_card hc) (hrepl _ hmem)) ?_
    exact (hsets _ hmem).imp id fun h => lt_of_lt_of_le (Finset.card_lt_card hsub) h
  by_cases hnew : xs.getD i 0 ∈ xs.take i
  · obtain ⟨j, hj, hji⟩ := List.getElem_of_mem hnew
    -- the first of the earlier ones
    have hex : ∃ j, j < i ∧ xs.getD j 0 = xs.getD i 0 := by
      rw [List.length_take] at hj
      refine ⟨j, by omega, ?_⟩
      rw [List.getD_eq_getElem _ _ (by omega), ← hji, List.getElem_take]
    obtain ⟨h1, h2⟩ := Nat.find_spec hex
    have hmin := fun m (h : m < Nat.find hex) => Nat.find_min hex h
    generalize Nat.find hex = f at h1 h2 hmin
    refine again_right hdb hxs hrun h1 hi h2.symm (first f (by omega) fun hm => ?_)
    obtain ⟨m, hm', hmf⟩ := List.getElem_of_mem hm
    rw [List.length_take] at hm'
    refine hmin m (by omega) ⟨by omega, ?_⟩
    rw [List.getD_eq_getElem _ _ (by omega), ← h2, ← hmf, List.getElem_take]
  · exact first i hi hnew

/-- C93: of distinct queries to one chunk, whose indices some set has at the start, no more get an answer other than zeros than
there are replacements. -/
theorem chunk_limit (hdb : db.length = p.n * p.size) (hxs : ∀ x ∈ xs, x < p.n) {outs : List (List Nat × Entry)}
    (hrun : run p prf pad rnd μ db xs = .ok outs) (hnd : xs.Nodup) {c : Nat} (hc : ∀ x ∈ xs, x / p.cs = c)
    (hsets : ∀ x ∈ xs, 0 < (setsWith p prf x).card) :
    (outs.filter fun o => o.2 ≠ zeroEntry p.size).length ≤ p.m2 := by
  have hal := align_length pad hdb
  obtain ⟨cl, hoff, hafter⟩ := offline_ok (p := p) (prf := prf) (rnd := rnd) hal
  rw [run, hoff, bind_ok] at hrun
  rcases xs with _ | ⟨x, xs⟩
  · rw [turns] at hrun
    injection hrun with hrun
    subst hrun
    simp
  · have hxs' : ∀ y ∈ x :: xs, y < p.cs * p.ss := fun y hy => lt_of_lt_of_le (hxs y hy) (n_le p)
    have hcs : c < p.ss := by
      rw [← hc x List.mem_cons_self]
      exact chunk_lt (hxs' x List.mem_cons_self)
    refine le_trans (Nat.le_add_right _ _) (turns_limit hal hcs hafter.online hafter.hist hxs' hnd hc ?_ ?_ hrun)
    · intro y hy
      obtain ⟨j, hj⟩ := Finset.card_pos.mp (hsets y hy)
      rw [setsWith, Finset.mem_filter, Finset.mem_range] at hj
      exact ⟨j, hj⟩
    · intro y _
      simp [hafter.cache, look]

/-- C93: an index behind the last chunk that some set matches is used to read behind the end of the groups. -/
theorem beyond_undefined (hdb : db.length = p.n * p.size) {x : Nat} (hx : p.ss ≤ x / p.cs) (hset : 0 < (setsWith p prf x).card) :
    run p prf pad rnd μ db (x :: xs) = .undefined := by
  have hal := align_length pad hdb
  obtain ⟨cl, hoff, hafter⟩ := offline_ok (p := p) (prf := prf) (rnd := rnd) hal
  rw [run, hoff, bind_ok, turns, turn, query, hafter.cache, if_neg (by simp [look])]
  obtain ⟨j, hj⟩ := Finset.card_pos.mp hset
  rw [setsWith, Finset.mem_filter, Finset.mem_range] at hj
  rcases hf : findHit p prf x cl.primary with _ | i
  · rw [findHit, List.find?_eq_none] at hf
    refine absurd ?_ (hf j (List.mem_range.mpr hj.1))
    rw [hafter.primary, List.getD_eq_getElem _ _ (by simpa [primaryAt] using hj.1)]
    simp [primaryAt, matchSet, hj.2]
  · dsimp only
    rw [if_pos hx]
    rfl

end Psi.Piano
