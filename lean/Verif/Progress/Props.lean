import Verif.Progress.Lemmas

/-! # C108: what the progress reports of a run say -/

namespace Psi.Progress

/-- The progress after the first `k` operations of a run with `n` buckets. -/
def after (n k : Nat) : Prog := ((script n).take k).foldl (fun p o => o.apply p) start

/-- A run with `n` buckets that stops after `stop` operations (a run that does not fail does them all), its
reporting thread, and a schedule. -/
def runWith (n stop : Nat) (bs : List Bool) : St :=
  exec bs { ops := (script n).take stop, prog := start, reading := none, reports := [] }

/-- The numbers of a report, as far as they are defined. -/
def Good (r : Except Err Data) (q : Data → Prop) : Prop := ∃ d, r = .ok d ∧ q d

/-- Both reports are defined and the second is not behind the first. -/
def NotBehind (r r' : Except Err Data) : Prop :=
  ∃ d d', r = .ok d ∧ r' = .ok d' ∧ d.percentage ≤ d'.percentage ∧ d.finished ≤ d'.finished ∧ d.total = d'.total

private theorem zero_of_take {n k : Nat} (h : k ≤ n + 4) : after n k = stage n k := foldl_stage n k h

private theorem comb0 : combine .serial [15, 65, 20] "" [] = .ok ⟨3, 0, 0, 0, ""⟩ := by decide +kernel

private theorem comb1 : combine .serial [15, 65, 20] "" [(single "Precheck" 0, false)] =
    .ok ⟨3, 0, 0, 0, "Precheck, 0%"⟩ := by decide +kernel

private theorem comb2 (p : Nat) (hp : p ≤ 100) :
    combine .serial [15, 65, 20] "" [(single "Precheck" 100, true), (single "RunPsi" p, false)] =
      .ok ⟨3, if 100 ≤ p then 2 else 1, if 0 < p ∧ p < 100 then 1 else 0, (1500 + 65 * p) / 100,
        "RunPsi, " ++ toString p ++ "%"⟩ := by
  have e1 : (1500 + 65 * p) % 18446744073709551616 = 1500 + 65 * p := Nat.mod_eq_of_lt (by omega)
  have e2 : 1 + (if 100 ≤ p then 1 else 0) = if 100 ≤ p then 2 else 1 := by split_ifs <;> rfl
  simp [combine, single, countTotal, pick, e1, e2, String.append_assoc]

private theorem comb3 : combine .serial [15, 65, 20] ""
    [(single "Precheck" 100, true), (single "RunPsi" 100, true), (single "ProduceOutput" 0, false)] =
      .ok ⟨3, 2, 0, 80, "ProduceOutput, 0%"⟩ := by decide +kernel

private theorem comb4 : combine .serial [15, 65, 20] ""
    [(single "Precheck" 100, true), (single "RunPsi" 100, true), (single "ProduceOutput" 100, true)] =
      .ok ⟨3, 3, 0, 100, "ProduceOutput, 100%"⟩ := by decide +kernel

private theorem rep_val (n k : Nat) : ∃ d, (stage n k).get = .ok d ∧ d.total = 3 ∧
    d.percentage = (if k ≤ 1 then 0 else if k ≤ n + 2 then (1500 + 65 * (100 * (k - 2) / n)) / 100
      else if k = n + 3 then 80 else 100) ∧
    d.finished = (if k ≤ 1 then 0 else if k ≤ n + 2 then (if 100 ≤ 100 * (k - 2) / n then 2 else 1)
      else if k = n + 3 then 2 else 3) ∧
    d.description = (if k = 0 then "" else if k = 1 then "Precheck, 0%"
      else if k ≤ n + 2 then "RunPsi, " ++ toString (100 * (k - 2) / n) ++ "%"
      else if k = n + 3 then "ProduceOutput, 0%" else "ProduceOutput, 100%") := by
  rw [stage_get]
  unfold reads
  by_cases h0 : k = 0
  · rw [if_pos h0, comb0]
    subst h0
    exact ⟨_, rfl, rfl, rfl, rfl, rfl⟩
  by_cases h1 : k = 1
  · rw [if_neg h0, if_pos h1, comb1]
    subst h1
    exact ⟨_, rfl, rfl, rfl, rfl, rfl⟩
  have h1' : ¬ k ≤ 1 := by omega
  rw [if_neg h0, if_neg h1, if_neg h0, if_neg h1, if_neg h1', if_neg h1']
  by_cases h2 : k ≤ n + 2
  · have hp : 100 * (k - 2) / n ≤ 100 := pct_le (by omega)
    rw [if_pos h2, if_pos h2, if_pos h2, if_pos h2]
    generalize 100 * (k - 2) / n = p at hp ⊢
    rw [comb2 p hp]
    exact ⟨_, rfl, rfl, rfl, rfl, rfl⟩
  rw [if_neg h2, if_neg h2, if_neg h2, if_neg h2]
  by_cases h3 : k = n + 3
  · rw [if_pos h3, if_pos h3, if_pos h3, if_pos h3, comb3]
    exact ⟨_, rfl, rfl, rfl, rfl, rfl⟩
  · rw [if_neg h3, if_neg h3, if_neg h3, if_neg h3, comb4]
    exact ⟨_, rfl, rfl, rfl, rfl, rfl⟩

private theorem pct_mono {n a b : Nat} (h : a ≤ b) : 100 * (a - 2) / n ≤ 100 * (b - 2) / n :=
  Nat.div_le_div_right (by omega)

private theorem val_mono (n : Nat) {a b : Nat} (h : a ≤ b) : NotBehind (stage n a).get (stage n b).get := by
  obtain ⟨d, h1, h2, h3, h4, -⟩ := rep_val n a
  obtain ⟨d', h1', h2', h3', h4', -⟩ := rep_val n b
  have hm := pct_mono (n := n) h
  have hp : b ≤ n + 2 → 100 * (b - 2) / n ≤ 100 := fun hb => pct_le (by omega)
  have hp' : a ≤ n + 2 → 100 * (a - 2) / n ≤ 100 := fun hb => pct_le (by omega)
  refine ⟨d, d', h1, h1', ?_, ?_, by rw [h2, h2']⟩
  · rw [h3, h3']
    generalize 100 * (a - 2) / n = x at *
    generalize 100 * (b - 2) / n = y at *
    split_ifs <;> omega
  · rw [h4, h4']
    generalize 100 * (a - 2) / n = x at *
    generalize 100 * (b - 2) / n = y at *
    split_ifs <;> omega

private theorem ops_len (n stop k : Nat) (hk : k ≤ ((script n).take stop).length) : k ≤ n + 4 := by
  rw [List.length_take, script_length] at hk
  omega

/-- C108: however the two threads take turns, every report given equals the progress at one instant of the run
(`k` operations done), the instants follow each other in the order of the reports, and none lies in the future: the
number of operations done so far is `m`, and the last report, given at any time, is the progress at `m`. -/
theorem C108_reports_are_instants (n stop : Nat) (bs : List Bool) :
    ∃ (m : Nat) (ks : List Nat), (runWith n stop bs).ops = ((script n).take stop).drop m ∧ m ≤ min stop (n + 4) ∧
      (runWith n stop bs).last = (after n m).get ∧
      (runWith n stop bs).reports.reverse = ks.map (fun k => (after n k).get) ∧
      ks.Pairwise (· ≤ ·) ∧ ∀ k ∈ ks, k ≤ m := by
  obtain ⟨k, ks, h1, h2, h3, h4, h5, h6, -⟩ := inv_exec bs _ (inv_init n stop)
  have hk := ops_len n stop k h1
  have hl : ((script n).take stop).length = min stop (n + 4) := by rw [List.length_take, script_length]
  refine ⟨k, ks, h2, by omega, ?_, ?_, h5, h6⟩
  · show Prog.get (runWith n stop bs).prog = _
    rw [zero_of_take hk]
    exact congrArg Prog.get h3
  · show (runWith n stop bs).reports.reverse = _
    refine Eq.trans h4 (List.map_congr_left ?_)
    intro j hj
    have := h6 j hj
    show (stage n j).get = (after n j).get
    rw [zero_of_take (by omega)]

/-- C108: the reports of a run are never undefined and never go back, neither in the percentage nor in the number of
finished parts; they all speak of three parts. -/
theorem C108_in_order (n stop : Nat) (bs : List Bool) :
    ((runWith n stop bs).reports.reverse ++ [(runWith n stop bs).last]).Pairwise NotBehind := by
  obtain ⟨m, ks, -, hm, h2, h3, h4, h5⟩ := C108_reports_are_instants n stop bs
  rw [h3, h2]
  have e : ks.map (fun k => (after n k).get) ++ [(after n m).get] = (ks ++ [m]).map (fun k => (after n k).get) := by
    simp
  rw [e, List.pairwise_map]
  have hp : (ks ++ [m]).Pairwise (· ≤ ·) := by
    rw [List.pairwise_append]
    exact ⟨h4, List.pairwise_singleton _ _, fun a ha b hb => by rw [List.mem_singleton.1 hb]; exact h5 a ha⟩
  refine List.Pairwise.imp_of_mem ?_ hp
  intro a b ha hb hab
  have hb' : b ≤ m := by
    rcases List.mem_append.1 hb with h | h
    · exact h5 b h
    · rw [List.mem_singleton.1 h]
  rw [zero_of_take (by omega), zero_of_take (by omega)]
  exact val_mono n hab

/-- C108: each report names the phase the run was in and the percentage follows from the phase and from the part of
the buckets done: none before the first phase and in it, 15 and 65 hundredths of the buckets in the second, 80 in the third, 100 at
the end. -/
theorem C108_what_is_said (n stop : Nat) (bs : List Bool) (r : Except Err Data)
    (hr : r ∈ (runWith n stop bs).last :: (runWith n stop bs).reports) :
    Good r fun d => d.total = 3 ∧ d.percentage ≤ 100 ∧
      ((d.description = "" ∧ d.percentage = 0 ∧ d.finished = 0) ∨
       (d.description = "Precheck, 0%" ∧ d.percentage = 0 ∧ d.finished = 0) ∨
       (∃ b ≤ n, d.description = "RunPsi, " ++ toString (100 * b / n) ++ "%" ∧
          d.percentage = (1500 + 65 * (100 * b / n)) / 100 ∧ d.finished = if 0 < n ∧ b = n then 2 else 1) ∨
       (d.description = "ProduceOutput, 0%" ∧ d.percentage = 80 ∧ d.finished = 2) ∨
       (d.description = "ProduceOutput, 100%" ∧ d.percentage = 100 ∧ d.finished = 3)) := by
  obtain ⟨m, ks, -, hm, h2, h3, h4, h5⟩ := C108_reports_are_instants n stop bs
  obtain ⟨k, hk, rfl⟩ : ∃ k ≤ n + 4, r = (after n k).get := by
    rcases List.mem_cons.1 hr with h | h
    · exact ⟨m, by omega, by rw [h, h2]⟩
    · rw [← List.mem_reverse, h3] at h
      obtain ⟨k, hk, rfl⟩ := List.mem_map.1 h
      exact ⟨k, by have := h5 k hk; omega, rfl⟩
  rw [zero_of_take hk]
  obtain ⟨d, e1, e2, e3, e4, e5⟩ := rep_val n k
  have hp : k ≤ n + 2 → 100 * (k - 2) / n ≤ 100 := fun hb => pct_le (by omega)
  refine ⟨d, e1, e2, ?_, ?_⟩
  · rw [e3]
    generalize 100 * (k - 2) / n = x at *
    split_ifs <;> omega
  by_cases c0 : k = 0
  · subst c0; left; exact ⟨e5, e3, e4⟩
  by_cases c1 : k = 1
  · subst c1; right; left; exact ⟨e5, e3, e4⟩
  have c1' : ¬ k ≤ 1 := by omega
  by_cases c2 : k ≤ n + 2
  · right; right; left
    rw [if_neg c1', if_pos c2] at e3 e4
    rw [if_neg c0, if_neg c1, if_pos c2] at e5
    refine ⟨k - 2, by omega, e5, e3, ?_⟩
    rw [e4]
    congr 1
    apply propext
    rcases Nat.eq_zero_or_pos n with h0 | h0
    · subst h0; simp
    · constructor
      · intro h
        have := (Nat.le_div_iff_mul_le h0).1 h
        exact ⟨h0, by omega⟩
      · rintro ⟨-, h⟩
        rw [h]
        exact (Nat.le_div_iff_mul_le h0).2 (le_refl _)
  · rw [if_neg c1', if_neg c2] at e3 e4
    rw [if_neg c0, if_neg c1, if_neg c2] at e5
    by_cases c3 : k = n + 3
    · rw [if_pos c3] at e3 e4 e5
      right; right; right; left
      exact ⟨e5, e3, e4⟩
    · rw [if_neg c3] at e3 e4 e5
      right; right; right; right
      exact ⟨e5, e3, e4⟩

/-- C108: a run that did all it had to gives as its last report 100 per cent and three of three parts finished. -/
theorem C108_complete_run_ends_at_100 (n : Nat) (bs : List Bool) (h : (runWith n (n + 4) bs).ops = []) :
    Good (runWith n (n + 4) bs).last fun d => d.percentage = 100 ∧ d.finished = 3 ∧ d.total = 3 ∧
      d.description = "ProduceOutput, 100%" := by
  obtain ⟨m, ks, h1, hm, h2, -⟩ := C108_reports_are_instants n (n + 4) bs
  rw [h, List.take_of_length_le (by rw [script_length])] at h1
  have h4 : n + 4 ≤ m := by
    have := congrArg List.length h1
    rw [List.length_nil, List.length_drop, script_length] at this
    omega
  have h5 : m = n + 4 := by omega
  rw [h2, zero_of_take (by omega), h5]
  obtain ⟨d, e1, e2, e3, e4, e5⟩ := rep_val n (n + 4)
  simp at e3 e4 e5
  exact ⟨d, e1, e3, e4, e2, e5⟩

/-- C108: as long as the run has something left to do, and in a run that fails, no report speaks of more than 80 per
cent or of more than two finished parts. -/
theorem C108_100_only_at_the_end (n stop : Nat) (bs : List Bool) (r : Except Err Data)
    (hr : r ∈ (runWith n stop bs).last :: (runWith n stop bs).reports)
    (h : stop < n + 4 ∨ (runWith n stop bs).ops ≠ []) :
    Good r fun d => d.percentage ≤ 80 ∧ d.finished ≤ 2 := by
  obtain ⟨m, ks, h1, hm, h2, h3, h4, h5⟩ := C108_reports_are_instants n stop bs
  have hm' : m < n + 4 := by
    rcases h with h | h
    · omega
    · by_contra hc
      refine h ?_
      rw [h1, List.drop_eq_nil_of_le]
      rw [List.length_take, script_length]
      omega
  obtain ⟨k, hk, rfl⟩ : ∃ k ≤ m, r = (after n k).get := by
    rcases List.mem_cons.1 hr with h | h
    · exact ⟨m, le_refl _, by rw [h, h2]⟩
    · rw [← List.mem_reverse, h3] at h
      obtain ⟨k, hk, rfl⟩ := List.mem_map.1 h
      exact ⟨k, h5 k hk, rfl⟩
  rw [zero_of_take (by omega)]
  obtain ⟨d, e1, e2, e3, e4, -⟩ := rep_val n k
  have hp : k ≤ n + 2 → 100 * (k - 2) / n ≤ 100 := fun hb => pct_le (by omega)
  refine ⟨d, e1, ?_, ?_⟩
  · rw [e3]
    generalize 100 * (k - 2) / n = x at *
    split_ifs <;> omega
  · rw [e4]
    split_ifs <;> omega

/-- The schedule in which the reporting thread reads the first part, then the run ends its second bucket, then the
report is given, then the run ends: reports at 47 and 100 per cent. -/
example : ((runWith 2 6 ([true, true, false, true, false, false, false] ++ [true, true, true])).reports.map
      fun r => r.toOption.map (fun d => (d.percentage, d.finished, d.running, d.description))) =
    [some (47, 1, 1, "RunPsi, 50%")] ∧
    (runWith 2 6 ([true, true, false, true, false, false, false] ++ [true, true, true])).ops = [] := by
  decide +kernel

example := C108_complete_run_ends_at_100 2 ([true, true, false, true, false, false, false] ++ [true, true, true])
  (by decide +kernel)

/-- A report is begun, and the run waits with its next phase until the report is given. -/
example : (runWith 2 6 [true, false, true, true]).ops.length = 5 ∧
    (runWith 2 6 [true, false, true, true, false, false, true]).ops.length = 4 := by decide +kernel

example := C108_100_only_at_the_end 3 4 [true, true, true, false, false, false, false] _
  (List.mem_cons_self) (Or.inl (by omega))

/-! ## Any progress -/

mutual

/-- There are not more parts than weights, the percentages are percentages, and the weights can be added up. -/
def WF : Prog → Prop
  | .node m ws subs pct _ _ => pct ≤ 100 ∧ (m ≠ .single → subs.length ≤ ws.length ∧ 100 * ws.sum < 2 ^ 64) ∧ WFs subs

/-- The same of all parts. -/
def WFs : List Prog → Prop
  | [] => True
  | p :: ps => WF p ∧ WFs ps

end

private theorem zip_bound : ∀ (ws : List Nat) (ds : List (Data × Bool)), (∀ x ∈ ds, x.1.percentage ≤ 100) →
    (List.zipWith (fun w (x : Data × Bool) => w * x.1.percentage) ws ds).sum ≤ 100 * ws.sum
  | [], _, _ => by simp
  | _ :: _, [], _ => by simp
  | w :: ws, d :: ds, h => by
    have h1 := zip_bound ws ds (fun x hx => h x (List.mem_cons_of_mem _ hx))
    have h2 := h d List.mem_cons_self
    simp only [List.zipWith_cons_cons, List.sum_cons]
    have : w * d.1.percentage ≤ w * 100 := Nat.mul_le_mul_left _ h2
    omega

private theorem count_total : ∀ (ds : List Data) (n : Nat), ds.length ≤ n →
    countTotal n ds + ds.length = n + (ds.map (fun d => d.total)).sum
  | [], n, _ => by simp [countTotal]
  | d :: ds, n, h => by
    have h' : ds.length + 1 ≤ n := h
    have := count_total ds (n - 1 + d.total) (by omega)
    simp only [countTotal, List.foldl_cons, List.map_cons, List.sum_cons, List.length_cons] at this ⊢
    omega

private theorem sum_three : ∀ (ds : List (Data × Bool)), (∀ x ∈ ds, x.1.finished + x.1.running ≤ x.1.total) →
    (ds.map (fun x => x.1.finished)).sum + (ds.map (fun x => x.1.running)).sum ≤
      ((ds.map Prod.fst).map (fun d => d.total)).sum
  | [], _ => by simp
  | d :: ds, h => by
    have h1 := sum_three ds (fun x hx => h x (List.mem_cons_of_mem _ hx))
    have h2 := h d List.mem_cons_self
    simp only [List.map_cons, List.sum_cons] at h1 ⊢
    omega

private theorem single_bounds (s : String) {p : Nat} (h : p ≤ 100) :
    (single s p).percentage ≤ 100 ∧ (single s p).finished + (single s p).running ≤ (single s p).total := by
  refine ⟨h, ?_⟩
  unfold single
  simp only
  split_ifs <;> omega

private theorem combine_bounds {m : Mode} {ws : List Nat} {s : String} {ds : List (Data × Bool)}
    (hl : ds.length ≤ ws.length) (hw : 100 * ws.sum < 2 ^ 64)
    (h : ∀ x ∈ ds, x.1.percentage ≤ 100 ∧ x.1.finished + x.1.running ≤ x.1.total) :
    ∃ d, combine m ws s ds = .ok d ∧ d.percentage ≤ 100 ∧ d.finished + d.running ≤ d.total := by
  unfold combine
  rw [if_neg (by omega)]
  refine ⟨_, rfl, ?_, ?_⟩
  · have h1 := zip_bound ws ds (fun x hx => (h x hx).1)
    simp only
    rw [Nat.mod_eq_of_lt (a := ws.sum) (by omega), Nat.mod_eq_of_lt (by omega)]
    split_ifs with h0
    · rw [h0] at h1
      omega
    · refine Nat.div_le_of_le_mul ?_
      rw [Nat.mul_comm]
      exact h1
  · have h1 := sum_three ds (fun x hx => (h x hx).2)
    have h2 := count_total (ds.map Prod.fst) ws.length (by simpa using hl)
    simp only [List.length_map] at h2 ⊢
    omega

mutual

private theorem wf_get : ∀ p : Prog, WF p →
    ∃ d, p.get = .ok d ∧ d.percentage ≤ 100 ∧ d.finished + d.running ≤ d.total
  | .node m ws subs pct done desc, h => by
    simp only [WF] at h
    obtain ⟨h1, h2, h3⟩ := h
    simp only [Prog.get]
    by_cases hm : m = .single
    · rw [if_pos hm]
      exact ⟨_, rfl, single_bounds desc h1⟩
    · rw [if_neg hm]
      obtain ⟨ds, hd, hl, hb⟩ := wf_getAll subs h3
      rw [hd]
      obtain ⟨h4, h5⟩ := h2 hm
      exact combine_bounds (by omega) h5 hb

private theorem wf_getAll : ∀ ps : List Prog, WFs ps → ∃ ds, getAll ps = .ok ds ∧ ds.length = ps.length ∧
    ∀ x ∈ ds, x.1.percentage ≤ 100 ∧ x.1.finished + x.1.running ≤ x.1.total
  | [], _ => ⟨[], by simp [getAll], rfl, by simp⟩
  | p :: ps, h => by
    simp only [WFs] at h
    obtain ⟨d, hd, hb⟩ := wf_get p h.1
    obtain ⟨ds, hds, hl, hbs⟩ := wf_getAll ps h.2
    refine ⟨(d, p.isDone) :: ds, by simp [getAll, hd, hds], by simp [hl], ?_⟩
    intro x hx
    rcases List.mem_cons.1 hx with rfl | hx
    · exact hb
    · exact hbs x hx

end

/-- C108: whatever a progress is made of, serial or parallel, to any depth, with as many weights as parts or more: its
report is defined, its percentage is at most 100, and not more parts run or have ended than there are. -/
theorem C108_any_progress (p : Prog) (h : WF p) :
    Good p.get fun d => d.percentage ≤ 100 ∧ d.finished + d.running ≤ d.total := wf_get p h

mutual

/-- Each progress with parts has as many of them as weights, the weights are not all zero and can be added up, and what is
done is done in all its parts. -/
def Whole : Prog → Prop
  | .node m ws subs pct done _ =>
    (m = .single → done = true → pct = 100) ∧
    (m ≠ .single → ws.length = subs.length ∧ 0 < ws.sum ∧ 100 * ws.sum < 2 ^ 64 ∧
      (done = true → AllDone subs) ∧ Wholes subs)

/-- The same of all parts. -/
def Wholes : List Prog → Prop
  | [] => True
  | p :: ps => Whole p ∧ Wholes ps

/-- All parts are done. -/
def AllDone : List Prog → Prop
  | [] => True
  | p :: ps => p.isDone = true ∧ AllDone ps

end

private theorem zip_full : ∀ (ws : List Nat) (ds : List (Data × Bool)), ws.length = ds.length →
    (∀ x ∈ ds, x.1.percentage = 100) →
    (List.zipWith (fun w (x : Data × Bool) => w * x.1.percentage) ws ds).sum = 100 * ws.sum
  | [], _, _, _ => by simp
  | _ :: _, [], h, _ => by simp at h
  | w :: ws, d :: ds, hl, h => by
    have h1 := zip_full ws ds (by simpa using hl) (fun x hx => h x (List.mem_cons_of_mem _ hx))
    have h2 := h d List.mem_cons_self
    simp only [List.zipWith_cons_cons, List.sum_cons, h1, h2]
    ring

private theorem sums_full : ∀ (ds : List (Data × Bool)), (∀ x ∈ ds, x.1.finished = x.1.total ∧ x.1.running = 0) →
    (ds.map (fun x => x.1.finished)).sum = ((ds.map Prod.fst).map (fun d => d.total)).sum ∧
      (ds.map (fun x => x.1.running)).sum = 0
  | [], _ => by simp
  | d :: ds, h => by
    obtain ⟨h1, h1'⟩ := sums_full ds (fun x hx => h x (List.mem_cons_of_mem _ hx))
    obtain ⟨h2, h2'⟩ := h d List.mem_cons_self
    simp only [List.map_cons, List.sum_cons] at h1 h1' ⊢
    omega

mutual

private theorem whole_get : ∀ p : Prog, Whole p → p.isDone = true →
    ∃ d, p.get = .ok d ∧ d.percentage = 100 ∧ d.finished = d.total ∧ d.running = 0
  | .node m ws subs pct done desc, h, hd => by
    have hd' : done = true := hd
    simp only [Whole] at h
    obtain ⟨h1, h2⟩ := h
    simp only [Prog.get]
    by_cases hm : m = .single
    · rw [if_pos hm]
      have := h1 hm hd'
      subst this
      exact ⟨_, rfl, rfl, rfl, rfl⟩
    · rw [if_neg hm]
      obtain ⟨h3, h4, h5, h6, h7⟩ := h2 hm
      obtain ⟨ds, he, hl, hb⟩ := whole_getAll subs h7 (h6 hd')
      rw [he]
      simp only
      unfold combine
      rw [if_neg (by omega)]
      refine ⟨_, rfl, ?_, ?_, ?_⟩
      · have e := zip_full ws ds (by omega) (fun x hx => (hb x hx).1)
        simp only
        rw [e, Nat.mod_eq_of_lt (a := ws.sum) (by omega), Nat.mod_eq_of_lt h5, if_neg (by omega)]
        exact Nat.mul_div_cancel _ h4
      · have e := (sums_full ds (fun x hx => (hb x hx).2)).1
        have e2 := count_total (ds.map Prod.fst) ws.length (by simp; omega)
        simp only [List.length_map] at e2 ⊢
        omega
      · exact (sums_full ds (fun x hx => (hb x hx).2)).2

private theorem whole_getAll : ∀ ps : List Prog, Wholes ps → AllDone ps → ∃ ds, getAll ps = .ok ds ∧
    ds.length = ps.length ∧ ∀ x ∈ ds, x.1.percentage = 100 ∧ x.1.finished = x.1.total ∧ x.1.running = 0
  | [], _, _ => ⟨[], by simp [getAll], rfl, by simp⟩
  | p :: ps, h, ha => by
    simp only [Wholes] at h
    simp only [AllDone] at ha
    obtain ⟨d, hd, hb⟩ := whole_get p h.1 ha.1
    obtain ⟨ds, hds, hl, hbs⟩ := whole_getAll ps h.2 ha.2
    refine ⟨(d, p.isDone) :: ds, by simp [getAll, hd, hds], by simp [hl], ?_⟩
    intro x hx
    rcases List.mem_cons.1 hx with rfl | hx
    · exact hb
    · exact hbs x hx

end

mutual

private theorem whole_finish : ∀ p : Prog, Whole p → Whole p.finish ∧ p.finish.isDone = true
  | .node m ws subs pct done desc, h => by
    simp only [Prog.finish]
    by_cases hd : done = true
    · rw [if_pos hd]
      exact ⟨h, hd⟩
    · rw [if_neg hd]
      simp only [Whole] at h
      obtain ⟨h1, h2⟩ := h
      refine ⟨?_, rfl⟩
      simp only [Whole]
      refine ⟨fun _ _ => trivial, fun hm => ?_⟩
      obtain ⟨h3, h4, h5, -, h7⟩ := h2 hm
      rw [if_neg hm]
      obtain ⟨e1, e2, e3⟩ := wholes_finish subs h7
      exact ⟨by omega, h4, h5, fun _ => e2, e1⟩

private theorem wholes_finish : ∀ ps : List Prog, Wholes ps →
    Wholes (finishAll ps) ∧ AllDone (finishAll ps) ∧ (finishAll ps).length = ps.length
  | [], _ => by simp [finishAll, Wholes, AllDone]
  | p :: ps, h => by
    simp only [Wholes] at h
    obtain ⟨h1, h2⟩ := whole_finish p h.1
    obtain ⟨h3, h4, h5⟩ := wholes_finish ps h.2
    simp [finishAll, Wholes, AllDone, h1, h2, h3, h4, h5]

end

/-- C108: `Done` on a progress that has all its parts makes its report say 100 per cent, all parts finished, none
running, to any depth. -/
theorem C108_done_reports_100 (p : Prog) (h : Whole p) :
    Good p.finish.get fun d => d.percentage = 100 ∧ d.finished = d.total ∧ d.running = 0 := by
  obtain ⟨h1, h2⟩ := whole_finish p h
  exact whole_get _ h1 h2

/-- Two serial phases, the second of two parallel jobs. -/
def nested : Prog :=
  .node .serial [30, 70] [.node .single [] [] 40 false "load",
    .node .parallel [1, 1] [.node .single [] [] 10 false "", .node .single [] [] 100 true ""] 0 false "join"] 0 false
    "all"

example := C108_any_progress nested (by simp [nested, WF, WFs])
example := C108_done_reports_100 nested (by simp [nested, Whole, Wholes])

example : nested.get = .ok { total := 3, finished := 1, running := 2, percentage := 50, description := "all, load, 40%" } ∧
    nested.finish.get = .ok { total := 3, finished := 3, running := 0, percentage := 100,
                              description := "all, join, 0 jobs running (2 / 2)" } := by
  decide +kernel

/-! ## Limits -/

/-- C108: a progress with more parts than weights has no report that is defined: `Get` reads a weight behind the
end. -/
theorem C108_more_parts_than_weights (m : Mode) (ws : List Nat) (subs : List Prog) (p : Nat) (d : Bool) (s : String)
    (hm : m ≠ .single) (h : ws.length < subs.length) (hs : WFs subs) :
    (Prog.node m ws subs p d s).get = .error .undefined := by
  obtain ⟨ds, h1, h2, -⟩ := wf_getAll subs hs
  simp only [Prog.get, if_neg hm, h1, combine]
  rw [if_pos (by omega)]

/-- A job more than was announced. -/
example := C108_more_parts_than_weights .parallel [1] [Prog.make "a", Prog.make "b"] 0 false "" (by decide) (by decide)
  (by simp [WFs, WF, Prog.make])

example : ((((Prog.make "jobs").setCount 1).add "a").add "b").get = .error .undefined := by decide +kernel

/-- C108: the property "after `Done` the report is 100 per cent" needs all parts: a progress whose last phase, with a
weight of its own, was never begun stays below 100 after `Done`. -/
theorem C108_done_without_all_parts (ws : List Nat) (w : Nat) (s : String) (hw : 0 < w)
    (hs : 100 * (ws ++ [w]).sum < 2 ^ 64) :
    Good (Prog.node .serial (ws ++ [w]) (ws.map fun _ => Prog.make) 0 false s).finish.get fun d =>
      d.percentage < 100 ∧ d.finished < d.total := by
  have hf : ∀ l : List Nat, finishAll (l.map fun _ => Prog.make) = l.map fun _ => leaf 100 true "" := by
    intro l
    induction l with
    | nil => rfl
    | cons a l ih =>
      simp only [List.map_cons, finishAll, ih]
      rfl
  have hg : ∀ l : List Nat, getAll (l.map fun _ => leaf 100 true "") = .ok (l.map fun _ => (single "" 100, true)) := by
    intro l
    induction l with
    | nil => simp [getAll]
    | cons a l ih => simp only [List.map_cons, getAll, ih, leaf_get, leaf_done]
  have hz : ∀ l : List Nat, (List.zipWith (fun v (x : Data × Bool) => v * x.1.percentage) (l ++ [w])
      (l.map fun _ => (single "" 100, true))).sum = 100 * l.sum := by
    intro l
    induction l with
    | nil => simp
    | cons a l ih =>
      simp only [List.cons_append, List.map_cons, List.zipWith_cons_cons, List.sum_cons, ih]
      simp only [single]
      ring
  have hfin : ∀ l : List Nat, ((l.map fun _ => (single "" 100, true)).map (fun x => x.1.finished)).sum = l.length := by
    intro l
    induction l with
    | nil => rfl
    | cons a l ih =>
      simp only [List.map_cons, List.sum_cons, ih, List.length_cons]
      simp only [single]
      simp; omega
  have htot : ∀ l : List Nat, (((l.map fun _ => (single "" 100, true)).map Prod.fst).map (fun d => d.total)).sum = l.length := by
    intro l
    induction l with
    | nil => rfl
    | cons a l ih =>
      simp only [List.map_cons, List.sum_cons, ih, List.length_cons]
      simp only [single]
      omega
  simp only [Prog.finish, Prog.get, Bool.false_eq_true, if_false]
  rw [if_neg (by decide), if_neg (by decide), hf, hg]
  simp only [combine]
  rw [if_neg (by simp)]
  refine ⟨_, rfl, ?_, ?_⟩
  · simp only
    have e : (ws ++ [w]).sum = ws.sum + w := by simp
    rw [hz, Nat.mod_eq_of_lt (a := (ws ++ [w]).sum) (by omega), Nat.mod_eq_of_lt (by omega), if_neg (by omega), e]
    rw [Nat.div_lt_iff_lt_mul (by omega)]
    omega
  · simp only
    have h2 := count_total ((ws.map fun _ => (single "" 100, true)).map Prod.fst) (ws ++ [w]).length (by simp)
    rw [htot] at h2
    rw [hfin]
    simp only [List.length_map, List.length_append, List.length_singleton] at h2 ⊢
    omega

example := C108_done_without_all_parts [15, 65] 20 "" (by omega) (by decide)

/-- C108: `Update` after `Done` takes the report back, and `Done` cannot repair it. -/
theorem C108_update_after_done (s : String) (p : Nat) (h : p < 100) :
    Good ((Prog.make s).finish.update p).finish.get fun d => d.percentage = p ∧ d.finished = 0 := by
  simp only [Prog.make, Prog.finish, Prog.update, Prog.get, Bool.false_eq_true, if_false, if_true]
  refine ⟨_, rfl, ?_, ?_⟩
  · show min p 100 = p
    omega
  · show (if 100 ≤ min p 100 then 1 else 0) = 0
    rw [if_neg (by omega)]

example := C108_update_after_done "job" 30 (by omega)

/-- What a progress of `n` announced jobs reports, of which those named were begun and all are at `p` per cent. -/
theorem jobs_get (n p q : Nat) (dn b : Bool) (s : String) (names : List String) (h : names.length ≤ n) (hn : 0 < n)
    (hp : p ≤ 100) (hs : 100 * n < 2 ^ 64) :
    Good (Prog.node .parallel (List.replicate n 1) (names.map (leaf p dn)) q b s).get fun d =>
      d.total = n ∧ d.percentage = names.length * p / n ∧ d.finished = (if 100 ≤ p then names.length else 0) := by
  have hg : ∀ l : List String, getAll (l.map (leaf p dn)) = .ok (l.map fun x => (single x p, dn)) := by
    intro l
    induction l with
    | nil => simp [getAll]
    | cons a l ih => simp only [List.map_cons, getAll, ih, leaf_get, leaf_done]
  have hz : ∀ (l : List String) (m : Nat), l.length ≤ m → (List.zipWith (fun v (x : Data × Bool) => v * x.1.percentage)
      (List.replicate m 1) (l.map fun x => (single x p, dn))).sum = l.length * p := by
    intro l
    induction l with
    | nil => simp
    | cons a l ih =>
      intro m hm
      obtain ⟨m, rfl⟩ : ∃ k, m = k + 1 := ⟨m - 1, by simp at hm; omega⟩
      simp only [List.replicate_succ, List.map_cons, List.zipWith_cons_cons, List.sum_cons, List.length_cons]
      rw [ih m (by simpa using hm)]
      simp only [single]
      ring
  have hfin : ∀ l : List String, ((l.map fun x => (single x p, dn)).map (fun x => x.1.finished)).sum =
      if 100 ≤ p then l.length else 0 := by
    intro l
    induction l with
    | nil => simp
    | cons a l ih =>
      simp only [List.map_cons, List.sum_cons, ih, List.length_cons]
      simp only [single]
      split_ifs <;> omega
  have htot : ∀ l : List String, (((l.map fun x => (single x p, dn)).map Prod.fst).map (fun d => d.total)).sum = l.length := by
    intro l
    induction l with
    | nil => rfl
    | cons a l ih =>
      simp only [List.map_cons, List.sum_cons, ih, List.length_cons]
      simp only [single]
      omega
  have hone : ∀ m : Nat, (List.replicate m 1).sum = m := by
    intro m
    induction m with
    | zero => rfl
    | succ m ih => rw [List.replicate_succ, List.sum_cons, ih]; omega
  have hb : names.length * p ≤ n * 100 := Nat.mul_le_mul h hp
  simp only [Prog.get]
  rw [if_neg (by decide), hg]
  simp only [combine]
  rw [if_neg (by simpa using h)]
  refine ⟨_, rfl, ?_, ?_, ?_⟩
  · simp only
    have h2 := count_total ((names.map fun x => (single x p, dn)).map Prod.fst) (List.replicate n 1).length (by simpa using h)
    rw [htot] at h2
    simp only [List.length_map, List.length_replicate] at h2 ⊢
    omega
  · simp only
    rw [hz _ _ h, hone, Nat.mod_eq_of_lt (a := n) (by omega), Nat.mod_eq_of_lt (by omega),
      if_neg (by omega)]
  · exact hfin names

theorem add_all (n : Nat) (names : List String) (s : String) :
    names.foldl (fun p d => p.add d) ((Prog.make s).setCount n) =
      .node .parallel (List.replicate n 1) (names.map (leaf 0 false)) 0 false s := by
  have : ∀ (names : List String) (subs : List Prog), names.foldl (fun p d => p.add d)
      (Prog.node .parallel (List.replicate n 1) subs 0 false s) =
      .node .parallel (List.replicate n 1) (subs ++ names.map (leaf 0 false)) 0 false s := by
    intro names
    induction names with
    | nil => simp
    | cons a l ih =>
      intro subs
      rw [List.foldl_cons]
      refine (ih (subs ++ [Prog.make a])).trans ?_
      simp [Prog.make, leaf]
  have h := this names []
  simpa [Prog.make, Prog.setCount] using h

/-- C108: jobs side by side.  Of `n` announced jobs any number is begun, by name.  The report counts all `n`, at the
beginning none of them as finished; once the whole is done, it counts those that were begun. -/
theorem C108_jobs (n : Nat) (names : List String) (s : String) (h : names.length ≤ n) (hn : 0 < n) (hs : 100 * n < 2 ^ 64) :
    Good (names.foldl (fun p d => p.add d) ((Prog.make s).setCount n)).get
      (fun d => d.total = n ∧ d.percentage = 0 ∧ d.finished = 0) ∧
    Good (names.foldl (fun p d => p.add d) ((Prog.make s).setCount n)).finish.get
      (fun d => d.total = n ∧ d.percentage = names.length * 100 / n ∧ d.finished = names.length) := by
  rw [add_all]
  have hf : ∀ l : List String, finishAll (l.map (leaf 0 false)) = l.map (leaf 100 true) := by
    intro l
    induction l with
    | nil => rfl
    | cons a l ih =>
      simp only [List.map_cons, finishAll, ih]
      rfl
  constructor
  · obtain ⟨d, h1, h2, h3, h4⟩ := jobs_get n 0 0 false false s names h hn (by omega) hs
    exact ⟨d, h1, h2, by simpa using h3, by simpa using h4⟩
  · simp only [Prog.finish, Bool.false_eq_true, if_false]
    rw [if_neg (by decide), hf]
    obtain ⟨d, h1, h2, h3, h4⟩ := jobs_get n 100 100 true true s names h hn (by omega) hs
    exact ⟨d, h1, h2, h3, by simpa using h4⟩

/-- Two of four. -/
example := C108_jobs 4 ["a", "b"] "jobs" (by decide) (by decide) (by decide)

end Psi.Progress
