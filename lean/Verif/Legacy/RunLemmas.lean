import Verif.Legacy.BucketLemmas

/-! # The whole run: lemmas -/

namespace Psi.Legacy
open Psi.Coll (Prog Sys Event Does)
open Psi.Std (Bytes)

variable {D : Type} [DecidableEq D]

/-! ## The output file -/

theorem mem_positions {keys : List Bytes} {p : Bytes → Bool} {i : Nat} :
    i ∈ positions keys p ↔ ∃ h : i < keys.length, p keys[i] = true := by
  unfold positions
  rw [List.mem_map]
  constructor
  · rintro ⟨⟨k, j⟩, h, rfl⟩
    rw [List.mem_filter] at h
    have h1 := List.mem_zipIdx h.1
    simp only at h1 h
    refine ⟨by omega, ?_⟩
    have := h1.2.2
    simp at this
    rw [← this]
    exact h.2
  · rintro ⟨h, hp⟩
    refine ⟨(keys[i], i), ?_, rfl⟩
    rw [List.mem_filter]
    exact ⟨by rw [List.mem_iff_getElem]; exact ⟨i, by simpa using h, by simp⟩, hp⟩

theorem pick_positions (sep : UInt8) (rows : List Row) (p : Bytes → Bool) :
    pick false 0 (rows.map (·.line)) (positions (rows.map (Row.key sep)) p) =
      (rows.filter fun r => p (r.key sep)).map (·.line) := by
  have key : ∀ (rs : List Row) (k : Nat), rows.drop k = rs →
      pick false k (rs.map (·.line)) (positions (rows.map (Row.key sep)) p) = (rs.filter fun r => p (r.key sep)).map (·.line) := by
    intro rs
    induction rs with
    | nil => intro k _; rfl
    | cons r rs ih =>
      intro k hk
      have hlt : k < rows.length := by
        rcases Nat.lt_or_ge k rows.length with h | h
        · exact h
        · rw [List.drop_eq_nil_of_le h] at hk; cases hk
      rw [List.drop_eq_getElem_cons hlt] at hk
      injection hk with h1 h2
      rw [List.map_cons, pick_cons, ih (k + 1) h2, List.filter_cons]
      have : decide (k ∈ positions (rows.map (Row.key sep)) p) = p (r.key sep) := by
        have := mem_positions (keys := rows.map (Row.key sep)) (p := p) (i := k)
        rw [← h1]
        cases hp : p (rows[k].key sep) <;> simp [this, hp, hlt]
      rw [this]
      cases p (r.key sep) <;> simp
  exact key rows 0 (by simp)

theorem positions_length (sep : UInt8) (rows : List Row) (p : Bytes → Bool) :
    (positions (rows.map (Row.key sep)) p).length = (rows.filter fun r => p (r.key sep)).length := by
  unfold positions
  rw [List.length_map, ← List.countP_eq_length_filter, ← List.countP_eq_length_filter]
  have : rows.map (Row.key sep) = ((rows.map (Row.key sep)).zipIdx).map Prod.fst := by simp
  rw [show (List.countP (fun r => p (Row.key sep r)) rows) = List.countP p (rows.map (Row.key sep)) by
    rw [List.countP_map]; rfl]
  conv => rhs; rw [this, List.countP_map]
  rfl

theorem produce_eq (c : Env D) (tables : Nat → Bytes × List Row) (r : Nat) (eq : Bool) (ind : List Nat) (p : Bytes → Bool)
    (hf : (tables r).2.length + 1 < 2 ^ 64)
    (h : if r = c.master ∨ c.broadcast = true then ind.Perm (positions (keysOf c tables r) p) else True)
    (heq : eq = decide (SameDigest c (keysOf c tables))) :
    produceOutput c r (tables r).1 (tables r).2 eq ind =
      some (reportOf c tables r ((tables r).2.filter fun x => p (x.key c.sep))) := by
  unfold produceOutput reportOf
  by_cases ho : r = c.master ∨ c.broadcast = true
  · rw [if_pos ho] at h
    have hn : ¬ (r ≠ c.master ∧ c.broadcast = false) := by
      rintro ⟨h1, h2⟩
      rcases ho with h | h
      · exact h1 h
      · rw [h2] at h; cases h
    rw [if_neg hn, if_pos ho, mergeSort_positions h (positions_pairwise _ _)]
    have hp : Inc 0 ((tables r).2.map (·.line)).length (positions (keysOf c tables r) p) := by
      refine ⟨positions_pairwise _ _, fun x hx => ⟨Nat.zero_le _, ?_⟩⟩
      obtain ⟨h, -⟩ := mem_positions.mp hx
      simpa [keysOf] using h
    have hlen : (positions (keysOf c tables r) p).length < 2 ^ 64 := by
      rw [keysOf, positions_length]
      have := List.length_filter_le (fun x : Row => p (x.key c.sep)) (tables r).2
      omega
    have hff := filterFile_eq false [(tables r).1] ((tables r).2.map (·.line)) _ (by simp; omega) hlen
    rw [if_pos hp] at hff
    have hpick := pick_positions c.sep (tables r).2 p
    rw [show (tables r).2.map (Row.key c.sep) = keysOf c tables r from rfl] at hpick
    rw [hpick] at hff
    simp only [List.length_singleton, List.singleton_append] at hff
    rw [hff]
    simp only [Option.some.injEq, Report.mk.injEq, true_and]
    refine ⟨?_, ?_⟩
    · rw [h.length_eq, keysOf, positions_length]
    · rw [heq]
      simp only [List.take_succ_cons, List.take_zero, List.drop_succ_cons, List.drop_zero, List.singleton_append]
      split <;> rfl
  · rw [if_pos ⟨fun e => ho (Or.inl e), by
      cases hb : c.broadcast
      · rfl
      · exact absurd (Or.inr hb) ho⟩, if_neg ho]

/-! ## The run -/

theorem allEqual_iff (c : Env D) (h2 : 2 ≤ c.world) (K : Nat → List Bytes) :
    allEqual (c.ranks.map fun u => some (c.sha (K u).flatten)) = decide (SameDigest c K) := by
  obtain ⟨n, hn⟩ : ∃ n, c.world = n + 1 := ⟨c.world - 1, by omega⟩
  have hr : c.ranks = 0 :: (List.range n).map Nat.succ := by rw [Env.ranks, hn, List.range_succ_eq_map]
  rw [hr, List.map_cons, allEqual, Bool.eq_iff_iff, List.all_eq_true, decide_eq_true_eq]
  unfold SameDigest
  simp only [List.mem_map, decide_eq_true_eq, forall_exists_index, and_imp]
  constructor
  · intro h u hu
    cases u with
    | zero => rfl
    | succ u =>
      have := h _ (u + 1) u (by simp; omega) rfl rfl
      exact Option.some.inj this
  · rintro h _ _ u hu rfl rfl
    rw [h (u + 1) (by simp at hu; omega)]

omit [DecidableEq D] in
theorem checker_some (c : Env D) (header : Bytes) (rows : List Row) (h : checker c header rows ≠ none) :
    checker c header rows = some (rows.length, c.sha (rows.map (Row.key c.sep)).flatten) := by
  unfold checker at h ⊢
  split
  · rename_i h'; rw [if_pos h'] at h; exact absurd rfl h
  · rename_i h1
    rw [if_neg h1] at h
    split
    · rename_i h'; rw [if_pos h'] at h; exact absurd rfl h
    · rename_i h2
      rw [if_neg h2] at h
      split
      · rename_i h'; rw [if_pos h'] at h; exact absurd rfl h
      · rfl

omit [DecidableEq D] in
theorem checker_nodup (c : Env D) (header : Bytes) (rows : List Row) (h : checker c header rows ≠ none) (hp : c.precheck = true) :
    (rows.map (Row.key c.sep)).Nodup := by
  apply nodup_of_duplicates
  by_contra hn
  apply h
  unfold checker
  split
  · rfl
  · split
    · rfl
    · rw [if_pos (by simp [hp, hn])]

/-- Everything after the part that computes the indices. -/
theorem plays_rest {c : Env D} (h2 : 2 ≤ c.world) (tables : Nat → Bytes × List Row)
    (hk : ∀ r, r < c.world → checker c (tables r).1 (tables r).2 ≠ none)
    (hf : ∀ r, r < c.world → (tables r).2.length + 1 < 2 ^ 64) (p : Bytes → Bool) (l : List (Ev D)) (ind : Nat → List Nat)
    (hp : Plays c l (fun r => if decide (SameDigest c (keysOf c tables)) = true then .ret (List.range (tables r).2.length)
      else runBucketPsi c r (keysOf c tables r)) ind)
    (hind : ∀ r, r < c.world → if r = c.master ∨ c.broadcast = true then (ind r).Perm (positions (keysOf c tables r) p) else True) :
    ∃ l, Plays c l (fun r => run c r (tables r).1 (tables r).2)
      (fun r => reportOf c tables r ((tables r).2.filter fun x => p (x.key c.sep))) := by
  set V : Nat → Report := fun r => reportOf c tables r ((tables r).2.filter fun x => p (x.key c.sep)) with hV
  have hlast : Plays c [] (fun r => match produceOutput c r (tables r).1 (tables r).2 (decide (SameDigest c (keysOf c tables))) (ind r) with
      | none => (.fail : P D Report)
      | some x => .ret x) V := by
    refine (Plays.ret c V).congr ?_ (fun _ _ => rfl)
    intro r hr
    rw [produce_eq c tables r _ (ind r) p (hf r hr) (hind r hr) rfl]
  have hbind := Plays.bind (f := fun r indices => match produceOutput c r (tables r).1 (tables r).2
      (decide (SameDigest c (keysOf c tables))) indices with
      | none => (.fail : P D Report)
      | some x => .ret x) hp hlast
  let fin : Nat → Msg D → P D Report := fun r l =>
    Prog.bind (if allEqual (l.map Part.toDigest) then .ret (List.range (tables r).2.length) else runBucketPsi c r (keysOf c tables r))
      fun indices => match produceOutput c r (tables r).1 (tables r).2 (allEqual (l.map Part.toDigest)) indices with
        | none => .fail
        | some x => .ret x
  have hgather := plays_world (c := c) h2 (.gather c.ranks) rfl (fun r => [.digest (c.sha (keysOf c tables r).flatten)]) fin (l ++ [])
    V (hbind.congr (fun r hr => by
      have : allEqual ((answer c (.gather c.ranks) (fun r => [Part.digest (c.sha (keysOf c tables r).flatten)]) r).map Part.toDigest) =
          decide (SameDigest c (keysOf c tables)) := by
        rw [← allEqual_iff c h2]
        simp only [answer, List.map_map]
        rfl
      show fin r _ = _
      simp only [fin, this]) (fun _ _ => rfl)) (fun r hr => by
      simp only [answer]
      apply List.map_congr_left
      intro t ht
      rw [masked_world c _ rfl _ (mem_ranks.mp ht)])
  have hsync := plays_world (c := c) h2 .sync rfl (fun _ => [])
    (fun r _ => .call (.gather c.ranks) [.digest (c.sha (keysOf c tables r).flatten)] (fin r)) _ V hgather (fun _ _ => rfl)
  refine ⟨_, hsync.congr ?_ (fun _ _ => rfl)⟩
  intro r hr
  unfold run
  rw [checker_some c _ _ (hk r hr)]
  rfl

/-- All digests equal: every row counts. -/
theorem plays_same {c : Env D} (h2 : 2 ≤ c.world) (tables : Nat → Bytes × List Row)
    (hk : ∀ r, r < c.world → checker c (tables r).1 (tables r).2 ≠ none)
    (hf : ∀ r, r < c.world → (tables r).2.length + 1 < 2 ^ 64) (he : SameDigest c (keysOf c tables)) :
    ∃ l, Plays c l (fun r => run c r (tables r).1 (tables r).2) (fun r => reportOf c tables r (tables r).2) := by
  obtain ⟨l, h⟩ := plays_rest h2 tables hk hf (fun _ => true) [] (fun r => List.range (tables r).2.length)
    ((Plays.ret c _).congr (fun r _ => by simp [he]) (fun _ _ => rfl)) (by
      intro r hr
      split
      · unfold positions
        rw [List.filter_eq_self.mpr (by simp), List.zipIdx_map_snd, ← List.range_eq_range']
        simp [keysOf]
      · trivial)
  refine ⟨l, h.congr (fun _ _ => rfl) ?_⟩
  intro r _
  rw [List.filter_eq_self.mpr (by simp)]

theorem plays_run {c : Env D} {good : List Bytes → Prop} (hc : Lawful c good) (tables : Nat → Bytes × List Row)
    (hk : ∀ r, r < c.world → checker c (tables r).1 (tables r).2 ≠ none)
    (hg : ∀ r, r < c.world → good ((keysOf c tables r).map data))
    (hd : c.broadcast = true → c.precheck = true ∨ (keysOf c tables c.master).Nodup) (hs : 0 < c.bucketSize)
    (hf : ∀ r, r < c.world → (tables r).2.length + c.bucketSize < 2 ^ 64)
    (hsha : SameDigest c (keysOf c tables) → ∀ r, r < c.world → ∀ k ∈ keysOf c tables r, Common c (keysOf c tables) k) :
    ∃ l, Plays c l (fun r => run c r (tables r).1 (tables r).2) (expected c tables) := by
  have hf' : ∀ r, r < c.world → (tables r).2.length + 1 < 2 ^ 64 := fun r hr => by have := hf r hr; omega
  by_cases he : SameDigest c (keysOf c tables)
  · obtain ⟨l, h⟩ := plays_same hc.two tables hk hf' he
    refine ⟨l, h.congr (fun _ _ => rfl) ?_⟩
    intro r hr
    unfold expected commonRows
    rw [List.filter_eq_self.mpr]
    intro x hx
    exact decide_eq_true (hsha he r hr _ (List.mem_map.mpr ⟨x, hx, rfl⟩))
  · have hnd : c.broadcast = true → (keysOf c tables c.master).Nodup := fun hb =>
      (hd hb).elim (checker_nodup c _ _ (hk c.master hc.master)) id
    obtain ⟨l, v, hp, hv⟩ := plays_buckets hc (keysOf c tables) hg hnd hs
      (fun r hr => by have := hf r hr; simp only [keysOf, List.length_map]; omega)
    refine plays_rest hc.two tables hk hf' (fun k => decide (Common c (keysOf c tables) k)) l v
      (hp.congr (fun r _ => by simp [he]) (fun _ _ => rfl)) ?_
    intro r hr
    have := hv r hr
    split
    · rename_i h
      rwa [if_pos h] at this
    · trivial

/-! ## Schedules -/

omit [DecidableEq D] in
/-- From the plan to every schedule. -/
theorem Plays.exec {R : Type} {c : Env D} {l : List (Ev D)} {p : Nat → P D R} {v : Nat → R} (h : Plays c l p v) (d : R) (sched : List Call) :
    (∀ r, ((sys c).exec sched fun r => if r < c.world then p r else .ret d).1 r ≠ .fail) ∧
    ((sys c).exec sched fun r => if r < c.world then p r else .ret d).2 ≤ l.length ∧
    ((sys c).Stuck ((sys c).exec sched fun r => if r < c.world then p r else .ret d).1 →
      ∀ r, r < c.world → ((sys c).exec sched fun r => if r < c.world then p r else .ret d).1 r = .ret (v r)) := by
  have hd : ∀ r, Does (sys c) r l (if r < c.world then p r else .ret d) (if r < c.world then v r else d) := by
    intro r
    by_cases hr : r < c.world
    · rw [if_pos hr, if_pos hr]
      exact h.does r hr
    · rw [if_neg hr, if_neg hr]
      have := Does.skips (s := sys c) (t := r) (l₀ := l) (l := []) (p := (.ret d : P D R)) (v := d)
        (fun e he hm => hr ((h.ok e he).2 r hm)) (Does.nil _ _ _)
      simpa using this
  obtain ⟨h1, h2, h3⟩ := Coll.exec_does (sys c) (fun r => if r < c.world then v r else d) sched
    (fun r => if r < c.world then p r else .ret d) l (fun e he => (h.ok e he).1) hd
  refine ⟨h1, h2, fun hs r hr => ?_⟩
  rw [h3 hs r, if_pos hr]

omit [DecidableEq D] in
theorem Plays.ends {R : Type} {c : Env D} {l : List (Ev D)} {p : Nat → P D R} {v : Nat → R} (h : Plays c l p v) (d : R) :
    Ends c p d v := by
  have h' := fun sched => h.exec d sched
  refine ⟨⟨l.length, h'⟩, ?_⟩
  obtain ⟨sched, hs⟩ := Coll.exists_stuck (sys c) (parties c p d) l.length (fun sched => (h' sched).2.1)
  exact ⟨sched, hs, (h' sched).2.2 hs⟩

/-- Blocks of the same size can be read back. -/
theorem flatten_inj (w : Nat) (hw : 0 < w) : ∀ (a b : List Bytes), (∀ x ∈ a, x.length = w) → (∀ x ∈ b, x.length = w) →
    a.flatten = b.flatten → a = b
  | [], [], _, _, _ => rfl
  | [], y :: b, _, hb, h => by
    have h1 := hb y (by simp)
    have h2 := congrArg List.length h
    rw [List.flatten_cons, List.length_append] at h2
    simp only [List.flatten_nil, List.length_nil] at h2
    omega
  | x :: a, [], ha, _, h => by
    have h1 := ha x (by simp)
    have h2 := congrArg List.length h
    rw [List.flatten_cons, List.length_append] at h2
    simp only [List.flatten_nil, List.length_nil] at h2
    omega
  | x :: a, y :: b, ha, hb, h => by
    rw [List.flatten_cons, List.flatten_cons] at h
    obtain ⟨h1, h2⟩ := List.append_inj h (by rw [ha x (by simp), hb y (by simp)])
    rw [h1, flatten_inj w hw a b (fun z hz => ha z (by simp [hz])) (fun z hz => hb z (by simp [hz])) h2]

/-- While a party has failed, nobody gets past the first barrier. -/
theorem exec_blocked (c : Env D) (tables : Nat → Bytes × List Row) (bad : Nat) (hb : bad < c.world)
    (hbad : checker c (tables bad).1 (tables bad).2 = none) (sched : List Call) :
    (sys c).exec sched (start c tables) = (start c tables, 0) := by
  have hstep : ∀ k, (sys c).step k (start c tables) = none := by
    intro k
    unfold Sys.step
    rw [if_neg]
    rintro ⟨hne, hall⟩
    have hk : k = .sync := by
      obtain ⟨t, ht⟩ := List.exists_mem_of_ne_nil _ hne
      have := hall t ht
      unfold start at this
      split at this
      · unfold run at this
        split at this
        · simp [Prog.atCall] at this
        · simpa [Prog.atCall] using (Eq.symm (of_decide_eq_true this))
      · simp [Prog.atCall] at this
    subst hk
    have := hall bad (mem_ranks.mpr hb)
    unfold start run at this
    rw [if_pos hb, hbad] at this
    simp [Prog.atCall] at this
  induction sched with
  | nil => rfl
  | cons k ks ih =>
    unfold Sys.exec
    rw [hstep k]
    exact ih

end Psi.Legacy
