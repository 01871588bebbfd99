import Verif.Progress.Model
import Mathlib.Tactic.Ring
import Mathlib.Tactic.Linarith

/-! # Progress reports: helper lemmas -/

namespace Psi.Progress

/-- A progress without parts. -/
def leaf (p : Nat) (d : Bool) (desc : String) : Prog := .node .single [] [] p d desc

/-- The progress of a run with given parts. -/
def flat (ls : List Prog) (p : Nat) (d : Bool) : Prog := .node .serial [15, 65, 20] ls p d ""

/-- The progress of a run with `n` buckets after `k` operations. -/
def stage (n k : Nat) : Prog :=
  if k = 0 then flat [] 0 false
  else if k = 1 then flat [leaf 0 false "Precheck"] 0 false
  else if k ≤ n + 2 then flat [leaf 100 true "Precheck", leaf (100 * (k - 2) / n) false "RunPsi"] 0 false
  else if k = n + 3 then
    flat [leaf 100 true "Precheck", leaf 100 true "RunPsi", leaf 0 false "ProduceOutput"] 0 false
  else flat [leaf 100 true "Precheck", leaf 100 true "RunPsi", leaf 100 true "ProduceOutput"] 100 true

/-- What is read of the parts. -/
def reads (n k : Nat) : List (Data × Bool) :=
  if k = 0 then []
  else if k = 1 then [(single "Precheck" 0, false)]
  else if k ≤ n + 2 then [(single "Precheck" 100, true), (single "RunPsi" (100 * (k - 2) / n), false)]
  else if k = n + 3 then
    [(single "Precheck" 100, true), (single "RunPsi" 100, true), (single "ProduceOutput" 0, false)]
  else [(single "Precheck" 100, true), (single "RunPsi" 100, true), (single "ProduceOutput" 100, true)]

theorem script_length (n : Nat) : (script n).length = n + 4 := by
  simp [script]

theorem script_at (n k : Nat) (h : k < n + 4) : (script n)[k]? = some
    (if k = 0 then .next "Precheck" else if k = 1 then .next "RunPsi"
      else if k < n + 2 then .update (100 * (k - 2 + 1) / n)
      else if k = n + 2 then .next "ProduceOutput" else .done) := by
  match k with
  | 0 => rfl
  | 1 => rfl
  | k + 2 =>
    have e : (script n)[k + 2]? =
        ((List.range n).map (fun b => Op.update (100 * (b + 1) / n)) ++ [Op.next "ProduceOutput", Op.done])[k]? := by
      simp [script]
    rw [e]
    by_cases hk : k < n
    · rw [List.getElem?_append_left (by simpa using hk)]
      have h1 : k + 2 < n + 2 := by omega
      simp [hk]
    · rw [List.getElem?_append_right (by simpa using Nat.le_of_not_lt hk)]
      have h3 : k = n ∨ k = n + 1 := by omega
      rcases h3 with h3 | h3 <;> subst h3 <;> simp

theorem pct_le {n b : Nat} (h : b ≤ n) : 100 * b / n ≤ 100 := by
  rcases Nat.eq_zero_or_pos n with h0 | h0
  · subst h0; simp
  · exact Nat.div_le_of_le_mul (by nlinarith)

theorem stage_step (n k : Nat) (o : Op) (h : (script n)[k]? = some o) : o.apply (stage n k) = stage n (k + 1) := by
  have hk : k < n + 4 := by
    by_contra hc
    rw [List.getElem?_eq_none (by rw [script_length]; omega)] at h
    cases h
  rw [script_at n k hk] at h
  cases h
  by_cases h0 : k = 0
  · subst h0
    simp [stage, Op.apply, Prog.next, flat, finishLast, Prog.make, leaf]
  by_cases h1 : k = 1
  · subst h1
    simp [stage, Op.apply, Prog.next, flat, finishLast, Prog.make, leaf, Prog.finish]
  by_cases h2 : k < n + 2
  · have e1 : k ≤ n + 2 := by omega
    have e2 : k - 2 + 1 = k + 1 - 2 := by omega
    have e3 : 100 * (k + 1 - 2) / n ≤ 100 := pct_le (by omega)
    simp only [h0, h1, h2, if_false, if_true, Op.apply, stage, e1, flat, Prog.updateLast]
    rw [if_neg (by omega), if_neg (by omega), if_pos (by omega), e2]
    simp [Prog.update, leaf]
    simpa using e3
  by_cases h3 : k = n + 2
  · subst h3
    simp [stage, Op.apply, Prog.next, flat, finishLast, Prog.make, leaf, Prog.finish]
  · have h4 : k = n + 3 := by omega
    subst h4
    simp [stage, Op.apply, flat, leaf, Prog.finish, finishAll]

theorem stage_zero (n : Nat) : stage n 0 = start := by
  simp [stage, flat, start, Prog.make, Prog.setWeights]

/-- The progress after `k` operations. -/
theorem foldl_stage (n k : Nat) (h : k ≤ n + 4) :
    ((script n).take k).foldl (fun p o => o.apply p) start = stage n k := by
  induction k with
  | zero => simp [stage_zero]
  | succ k ih =>
    have hk : k < (script n).length := by rw [script_length]; omega
    rw [List.take_add_one, List.foldl_append, ih (by omega)]
    obtain ⟨o, ho⟩ : ∃ o, (script n)[k]? = some o := ⟨_, List.getElem?_eq_getElem hk⟩
    rw [ho]
    exact stage_step n k o ho

theorem leaf_get (p : Nat) (d : Bool) (s : String) : (leaf p d s).get = .ok (single s p) := by
  simp [leaf, Prog.get]

theorem leaf_done (p : Nat) (d : Bool) (s : String) : (leaf p d s).isDone = d := rfl

theorem getAll_stage (n k : Nat) : getAll (stage n k).subs = .ok (reads n k) := by
  unfold stage reads
  split_ifs <;> simp [flat, Prog.subs, getAll, leaf_get, leaf_done]

theorem stage_get (n k : Nat) : (stage n k).get = combine .serial [15, 65, 20] "" (reads n k) := by
  have h := getAll_stage n k
  unfold stage at h ⊢
  split_ifs at h ⊢ <;> simp only [flat, Prog.subs, Prog.get] at h ⊢ <;> simp [h]

theorem stage_report (n k : Nat) (ds : List (Data × Bool)) :
    report (stage n k) ds = combine .serial [15, 65, 20] "" ds := by
  unfold stage
  split_ifs <;> rfl

theorem getAll_at : ∀ (ps : List Prog) (ds : List (Data × Bool)), getAll ps = .ok ds →
    ps.length = ds.length ∧ ∀ (i : Nat) (p : Prog), ps[i]? = some p → ∃ d, p.get = .ok d ∧ ds[i]? = some (d, p.isDone) := by
  intro ps
  induction ps with
  | nil =>
    intro ds h
    simp only [getAll] at h
    cases h
    simp
  | cons p ps ih =>
    intro ds h
    simp only [getAll] at h
    split at h
    · rename_i d ds' hd hds
      cases h
      obtain ⟨h1, h2⟩ := ih ds' hds
      refine ⟨by simp [h1], ?_⟩
      intro i q hi
      cases i with
      | zero => simp at hi; subst hi; exact ⟨d, hd, by simp⟩
      | succ i => simp at hi; simpa using h2 i q hi
    · cases h
    · cases h

/-- The two instants lie between the same two operations that take the lock. -/
def Same (n k' k : Nat) : Prop := k' = k ∨ (2 ≤ k' ∧ k' ≤ k ∧ k ≤ n + 2)

theorem reads_len_same {n k' k : Nat} (h : Same n k' k) : (reads n k').length = (reads n k).length := by
  rcases h with h | ⟨h1, h2, h3⟩
  · rw [h]
  · unfold reads
    rw [if_neg (by omega), if_neg (by omega), if_pos (by omega), if_neg (by omega), if_neg (by omega),
      if_pos (by omega)]
    rfl

theorem reads_take_same {n k' k : Nat} (h : Same n k' k) (i : Nat) (hi : i < (reads n k).length) :
    (reads n k').take i = (reads n k).take i := by
  rcases h with h | ⟨h1, h2, h3⟩
  · rw [h]
  · unfold reads at hi ⊢
    rw [if_neg (by omega), if_neg (by omega), if_pos (by omega)] at hi ⊢
    rw [if_neg (by omega), if_neg (by omega), if_pos (by omega)]
    simp only [List.length_cons, List.length_nil] at hi
    have : i = 0 ∨ i = 1 := by omega
    rcases this with h | h <;> subst h <;> rfl

/-- What is known of the two threads. -/
def Inv (n stop : Nat) (s : St) : Prop :=
  ∃ (k : Nat) (ks : List Nat),
    k ≤ ((script n).take stop).length ∧ s.ops = ((script n).take stop).drop k ∧ s.prog = stage n k ∧
    s.reports.reverse = ks.map (fun j => (stage n j).get) ∧ ks.Pairwise (· ≤ ·) ∧ (∀ j ∈ ks, j ≤ k) ∧
    ∀ ds, s.reading = some ds → ∃ k', (∀ j ∈ ks, j ≤ k') ∧ k' ≤ k ∧ Same n k' k ∧
      ds.length ≤ (reads n k).length ∧ ds = (reads n k').take ds.length

theorem inv_init (n stop : Nat) :
    Inv n stop { ops := (script n).take stop, prog := start, reading := none, reports := [] } :=
  ⟨0, [], by omega, by simp, (stage_zero n).symm, by simp, List.Pairwise.nil, by simp, by simp⟩

theorem inv_main {n stop : Nat} {s : St} (h : Inv n stop s) : Inv n stop s.main := by
  obtain ⟨k, ks, hk, hops, hp, hr, hs, hj, hd⟩ := h
  unfold St.main
  split
  · exact ⟨k, ks, hk, hops, hp, hr, hs, hj, hd⟩
  rename_i o os ho
  split_ifs with hl
  · exact ⟨k, ks, hk, hops, hp, hr, hs, hj, hd⟩
  rw [ho] at hops
  have hk1 : k < ((script n).take stop).length := by
    by_contra hc
    rw [List.drop_eq_nil_of_le (by omega)] at hops
    cases hops
  have he : ((script n).take stop)[k]? = some o := by
    have := congrArg List.head? hops
    rw [List.head?_drop] at this
    exact this.symm
  have ho' : (script n)[k]? = some o := by
    rw [List.length_take] at hk1
    rw [List.getElem?_take, if_pos (by omega)] at he
    exact he
  have htl : os = ((script n).take stop).drop (k + 1) := by
    have := congrArg List.tail hops
    simpa using this
  refine ⟨k + 1, ks, hk1, htl, ?_, hr, hs, fun j hm => by have := hj j hm; omega, ?_⟩
  · show o.apply s.prog = _
    rw [hp]
    exact stage_step n k o ho'
  · intro ds hds
    have hds' : s.reading = some ds := hds
    obtain ⟨k', h1, h2, h3, h4, h5⟩ := hd ds hds'
    have hlk : o.locks = false := by
      rw [hds'] at hl
      simpa using hl
    have hk4 : k < n + 4 := by
      rw [List.length_take, script_length] at hk1
      omega
    rw [script_at n k hk4] at ho'
    have hr2 : 2 ≤ k ∧ k < n + 2 := by
      by_contra hc
      split_ifs at ho' <;> first | omega | (cases ho'; cases hlk)
    have hS : Same n k' (k + 1) := by
      rcases h3 with h3 | h3
      · right; omega
      · right; omega
    refine ⟨k', h1, by omega, hS, ?_, h5⟩
    rw [← reads_len_same hS, reads_len_same h3]
    exact h4

theorem inv_loop {n stop : Nat} {s : St} (h : Inv n stop s) : Inv n stop s.loop := by
  obtain ⟨k, ks, hk, hops, hp, hr, hs, hj, hd⟩ := h
  obtain ⟨hlen, hget⟩ := getAll_at _ _ (getAll_stage n k)
  unfold St.loop
  split
  · exact ⟨k, ks, hk, hops, hp, hr, hs, hj, fun ds hds => by
      cases hds
      exact ⟨k, hj, le_refl _, Or.inl rfl, by simp, by simp⟩⟩
  rename_i ds hds
  obtain ⟨k', h1, h2, h3, h4, h5⟩ := hd ds hds
  rw [hp]
  split
  · rename_i hnone
    have hl : (reads n k).length ≤ ds.length := by
      rw [← hlen]
      exact List.getElem?_eq_none_iff.1 hnone
    have hds2 : ds = reads n k' := by
      rw [h5]
      apply List.take_of_length_le
      rw [reads_len_same h3]
      exact hl
    refine ⟨k, ks ++ [k'], hk, hops, rfl, ?_, ?_, ?_, by simp⟩
    · show (report (stage n k) ds :: s.reports).reverse = _
      rw [List.reverse_cons, hr, List.map_append, stage_report, hds2, List.map_singleton, stage_get]
    · rw [List.pairwise_append]
      exact ⟨hs, List.pairwise_singleton _ _, fun a ha b hb => by
        rw [List.mem_singleton.1 hb]; exact h1 a ha⟩
    · intro j hm
      rcases List.mem_append.1 hm with hm | hm
      · exact hj j hm
      · rw [List.mem_singleton.1 hm]; exact h2
  · rename_i p hsome
    obtain ⟨d, hd1, hd2⟩ := hget _ _ hsome
    rw [hd1]
    have hlt : ds.length < (reads n k).length := by
      by_contra hc
      rw [List.getElem?_eq_none (by omega)] at hd2
      cases hd2
    refine ⟨k, ks, hk, hops, rfl, hr, hs, hj, ?_⟩
    intro ds' hds'
    have e : ds' = ds ++ [(d, p.isDone)] := by
      have := Option.some.inj hds'
      exact this.symm
    subst e
    refine ⟨k, hj, le_refl _, Or.inl rfl, by simp; omega, ?_⟩
    have e2 : ds = (reads n k).take ds.length := by
      conv_lhs => rw [h5]
      exact reads_take_same h3 _ hlt
    rw [List.length_append, List.length_singleton, List.take_add_one, hd2, ← e2]
    rfl

theorem inv_exec {n stop : Nat} (bs : List Bool) (s : St) (h : Inv n stop s) : Inv n stop (exec bs s) := by
  induction bs generalizing s with
  | nil => exact h
  | cons b bs ih =>
    cases b
    · exact ih _ (inv_loop h)
    · exact ih _ (inv_main h)

end Psi.Progress
