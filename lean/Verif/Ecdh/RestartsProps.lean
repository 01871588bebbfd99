import Verif.Ecdh.RestartsLemmas
import Verif.Ecdh.ResumeProps
import Mathlib.Tactic.IntervalCases
import Mathlib.Algebra.BigOperators.Group.Finset.Basic
import Mathlib.Algebra.Order.BigOperators.Group.Finset
import Mathlib.Algebra.BigOperators.Group.List.Basic

/-!
# ECDH-PSI with recovery: any number of restarts (C14)

`C14_any_restarts_partial` says what a task delivers that was stopped any number of times and then runs to the end,
`C14_any_exact_iff` when that is the right result.
-/

namespace Psi.Ecdh
open Psi.Bucket (Cache computeIndices itemsFrom Fits)
open Psi.Spec
variable {α P : Type}

/-- The runs of a party: the item each began with and how many items it has saved. -/
def runsOf (st : List Nat) (saved : List (List (Bytes × Nat))) : List (Nat × Nat) := st.zip (saved.map List.length)

theorem runsOf_dir [DecidableEq α] {c : Cfg α P} {r : Bool} {d : Bool → Folder} {runs : List (Nat × Nat)} {ps : List (α × Nat)} {m : Nat}
    (h : Dir c r d runs ps m) (ht : c.target.canTouch r = true) : runsOf (runs.map Prod.fst) (d r).selfRuns = runs := by
  rw [runsOf, h.self ht, List.map_map]
  have : ∀ l : List (Nat × Nat), (∀ q ∈ l, q.1 + q.2 ≤ (c.items r).length) →
      (l.map Prod.fst).zip (l.map (List.length ∘ fun q => (segment (c.items r) q).map fun x => (dual2 c r x.1, 0))) = l := by
    intro l
    induction l with
    | nil => intro _; rfl
    | cons q l ih =>
      intro hl
      rw [List.map_cons, List.map_cons, List.zip_cons_cons, ih fun q hq => hl q (List.mem_cons_of_mem _ hq)]
      congr 1
      have := hl q List.mem_cons_self
      refine Prod.ext rfl ?_
      simp only [Function.comp, List.length_map, segment, List.length_take, List.length_drop]
      omega
  exact this runs h.inside

/-- **C14**, any number of restarts: a task is started and stopped again and again, in any states, and its inputs come in batches
of equal size.  The next run does not fail when it skips the processed items.  When it is complete, every item is in one of the
runs, and the result consists of the lines of each run: for every common key it has saved the right duplicate count and the
position of the key *counted from the item the run began with*.  Missing: that these lines are the exact intersection, which is
false in general (`C14_any_exact_iff`). -/
theorem C14_any_restarts_partial [DecidableEq α] (c : Cfg α P) {L : Nat} (hc : c.Lawful L) (hx : Apart c)
    (hb : ∀ r, ∃ b, Chunked b (c.input r)) (st : Bool → List Nat) (d : Bool → Folder) (hd : Stopped c st d) (r : Bool)
    (hres : c.target = .all ∨ c.target = .rank r) (hash : List Char → Nat) (n : Nat) (hn : 0 < n)
    (hl : ∀ r, (c.items r).length ≤ 2 ^ 64) (hdup : ∀ r, ∀ x ∈ c.items r, x.2 < 2 ^ 32) :
    ∃ c', resumeAt c d = some c' ∧ c'.Lawful L ∧
      ∀ sched s, exec c' sched (init c') = some s → (s.party r).finished = true →
        ∃ w u v, computeIndices (storeOf hash n ((d r).selfRuns ++ [(s.party r).selfStore]))
            (storeOf hash n ((d r).peerRuns ++ [(s.party r).peerStore])) = some (w, u, v) ∧
          (∀ i, i < (c.items r).length → ∃ q ∈ runsOf (st r ++ [processedAt c.target d r]) ((d r).selfRuns ++ [(s.party r).selfStore]),
            q.1 ≤ i ∧ i < q.1 + q.2) ∧
          w.Perm ((runsOf (st r ++ [processedAt c.target d r]) ((d r).selfRuns ++ [(s.party r).selfStore])).flatMap fun q =>
            resultLines (((c.items r).drop q.1).take q.2) (c.items (!r))) := by
  have ht : c.target.canTouch r = true := by
    rcases hres with h | h <;> simp [h, Target.canTouch]
  have hdir := stopped_dir hc hb hl hdup hd
  obtain ⟨c', e1, e2, e3, e4, e5⟩ := resumeAt_eq c hc d fun r => by
    obtain ⟨runs, ps, m, hdir, -⟩ := hdir r
    exact hdir.start.1
  refine ⟨c', e1, e2, fun sched s hs fin => ?_⟩
  simp only [Party.finished, Bool.and_eq_true] at fin
  obtain ⟨⟨-, f2⟩, f3⟩ := fin
  obtain ⟨runs, ps, m, h1, h2⟩ := hdir r
  obtain ⟨b, hbr⟩ := hb r
  obtain ⟨a, ps1, m1, g1, g2, -⟩ := h1.next hbr (hl r) (hdup r) e2 e3 (e4 r) (e5 r) hs (sched1 := []) (s := s) rfl
  obtain ⟨runs', ps', m', h1', -⟩ := hdir (!r)
  obtain ⟨b', hbr'⟩ := hb (!r)
  obtain ⟨a', ps2, m2, k1, -, k2⟩ := h1'.next hbr' (hl (!r)) (hdup (!r)) e2 e3 (e4 (!r)) (e5 (!r)) hs (sched1 := []) (s := s) rfl
  have hfull := k2 (by rw [Bool.not_not]; exact ht) (by rw [Bool.not_not]; exact f2)
  have hcov := g2 ht f3
  have kp := k1.peer (by rw [Bool.not_not]; exact ht)
  have kf := k1.fits (by rw [Bool.not_not]; exact ht)
  have kfind := k1.find (by rw [Bool.not_not]; exact ht)
  rw [Bool.not_not] at kp kf
  rw [hfull, List.take_length] at kfind
  have hrun := runsOf_dir g1 ht
  have gs := g1.self ht
  rw [List.map_append, h2] at hrun
  have ea : (after d s s r).selfRuns = (d r).selfRuns ++ [(s.party r).selfStore] := rfl
  have eb : (after d s s r).peerRuns = (d r).peerRuns ++ [(s.party r).peerStore] := rfl
  rw [ea] at hrun gs
  rw [eb] at kp kf
  simp only [List.map_singleton] at hrun
  rw [hrun]
  generalize hall : runs ++ [(processedAt c.target d r, a)] = all at *
  have fself : ∀ ds ∈ (d r).selfRuns ++ [(s.party r).selfStore], Fits ds := by
    intro ds hds
    rw [gs] at hds
    obtain ⟨q, hq, rfl⟩ := List.mem_map.mp hds
    have := g1.inside q hq
    have := hl r
    refine ⟨?_, ?_⟩
    · rw [List.length_map, segment, List.length_take, List.length_drop]
      omega
    · intro x hx
      obtain ⟨y, _, rfl⟩ := List.mem_map.mp hx
      exact Nat.two_pow_pos 32
  obtain ⟨w, hw, hperm⟩ := Psi.Bucket.computeIndices_loads hash n hn _ _ _ _
    (storeOf_files hash n ((d r).selfRuns ++ [(s.party r).selfStore])).1
    (storeOf_files hash n ((d r).peerRuns ++ [(s.party r).peerStore])).1
    (fun b hb => load_storeOf hash n _ fself b hb) (fun b hb => load_storeOf hash n _ kf b hb)
  refine ⟨w, _, _, hw, ?_, hperm.trans (List.Perm.of_eq ?_)⟩
  · intro i hi
    by_cases hip : i < processedAt c.target d r
    · obtain ⟨q, hq, hh⟩ := h1.start.2.1 ht i hip
      exact ⟨q, by rw [← hall]; exact List.mem_append_left _ hq, hh⟩
    · refine ⟨(processedAt c.target d r, a), by rw [← hall]; simp, ?_, ?_⟩ <;> dsimp only <;> omega
  · have hkeys : ∀ y ∈ ps2, y.1 ∈ (c.items (!r)).map Prod.fst := by
      intro y hy
      by_contra hne
      have h3 := kfind y.1
      rw [find_none.mpr hne] at h3
      exact find_none.mp h3 (List.mem_map.mpr ⟨y, hy, rfl⟩)
    have look : ∀ x ∈ c.items r, ((((d r).peerRuns ++ [(s.party r).peerStore]).flatMap (itemsFrom 0)).find?
          (fun y => y.data64 == Psi.Text.base64 (dual2 c r x.1))).map (·.dup) =
        ((c.items (!r)).find? (fun y => y.1 = x.1)).map Prod.snd := by
      intro x hxm
      rw [find_runs, kp, find_dual_key c hx r x hxm _ hkeys, kfind, Option.map_map]
      rfl
    rw [gs, List.flatMap_map, List.filterMap_flatMap]
    refine List.flatMap_congr fun q hq => ?_
    exact lines_of_items _ _ (fun z => dual2 c r z) _ (fun x hx => look x (List.mem_of_mem_drop (List.mem_of_mem_take hx)))

/-- What a run adds to a sum over the common positions. -/
theorem sum_runs (K : Finset Nat) (runs : List (Nat × Nat)) (f : Nat → Nat → Nat) :
    (runs.map fun q => ∑ k ∈ K with q.1 ≤ k ∧ k < q.1 + q.2, f q.1 k).sum =
      ∑ k ∈ K, ((runs.filter fun q => q.1 ≤ k ∧ k < q.1 + q.2).map fun q => f q.1 k).sum := by
  induction runs with
  | nil => simp
  | cons q runs ih =>
    rw [List.map_cons, List.sum_cons, ih, Finset.sum_filter, ← Finset.sum_add_distrib]
    refine Finset.sum_congr rfl fun k _ => ?_
    by_cases hk : q.1 ≤ k ∧ k < q.1 + q.2
    · rw [if_pos hk, List.filter_cons_of_pos (by simpa using hk), List.map_cons, List.sum_cons]
    · rw [if_neg hk, List.filter_cons_of_neg (by simpa using hk), Nat.zero_add]

/-- **C14**, when the result of a task that was stopped any number of times is right: `w` are the lines it delivers, `runs` its
runs, which have every item.  They are the exact intersection if and only if every common key is in exactly one run, and that run
began with the first item. -/
theorem C14_any_exact_iff [DecidableEq α] (own peer : List (α × Nat)) (runs : List (Nat × Nat)) (hp : (peer.map Prod.fst).Nodup)
    (hcov : ∀ i, i < own.length → ∃ q ∈ runs, q.1 ≤ i ∧ i < q.1 + q.2) (w : List (Nat × Nat))
    (hw : w.Perm (runs.flatMap fun q => resultLines ((own.drop q.1).take q.2) peer)) :
    ExactIndex own peer w ↔ ∀ i x e, own[i]? = some (x, e) → x ∈ peer.map Prod.fst →
      ∃ a, (runs.filter fun q => q.1 ≤ i ∧ i < q.1 + q.2) = [(0, a)] := by
  have memR : ∀ q : Nat × Nat, ∀ i d, (i, d) ∈ resultLines ((own.drop q.1).take q.2) peer ↔
      i < q.2 ∧ ∃ x e, own[q.1 + i]? = some (x, e) ∧ (x, d) ∈ peer := by
    intro q i d
    rw [mem_resultLines _ _ hp]
    by_cases hi : i < q.2
    · simp [hi, List.getElem?_drop]
    · simp [hi]
  have inPeer : ∀ x, x ∈ peer.map Prod.fst ↔ ∃ d, (x, d) ∈ peer := by
    intro x
    simp [List.mem_map]
  classical
  let K : Finset Nat := (Finset.range own.length).filter fun i => ∃ x e, own[i]? = some (x, e) ∧ x ∈ peer.map Prod.fst
  have memK : ∀ i, i ∈ K ↔ ∃ x e, own[i]? = some (x, e) ∧ x ∈ peer.map Prod.fst := by
    intro i
    rw [Finset.mem_filter, Finset.mem_range]
    refine ⟨fun h => h.2, fun h => ⟨?_, h⟩⟩
    obtain ⟨x, e, hg, -⟩ := h
    exact (List.getElem?_eq_some_iff.mp hg).1
  constructor
  · intro hE
    -- sums over the result
    have sumw : ∀ f : Nat → Nat, ((w.map Prod.fst).map f).sum = ∑ k ∈ K, f k := by
      intro f
      have : (w.map Prod.fst).toFinset = K := by
        ext i
        rw [List.mem_toFinset, memK, List.mem_map]
        constructor
        · rintro ⟨⟨j, d⟩, hm, rfl⟩
          obtain ⟨x, e, hg, hd⟩ := (hE.mem j d).mp hm
          exact ⟨x, e, hg, (inPeer x).mpr ⟨d, hd⟩⟩
        · rintro ⟨x, e, hg, hx⟩
          obtain ⟨d, hd⟩ := (inPeer x).mp hx
          exact ⟨(i, d), (hE.mem i d).mpr ⟨x, e, hg, hd⟩, rfl⟩
      rw [← this, List.sum_toFinset _ hE.nodup]
    have sumq : ∀ (f : Nat → Nat) (q : Nat × Nat), (((resultLines ((own.drop q.1).take q.2) peer).map Prod.fst).map f).sum =
        ∑ k ∈ K with q.1 ≤ k ∧ k < q.1 + q.2, f (k - q.1) := by
      intro f q
      rw [← List.sum_toFinset _ (resultLines_nodup _ _)]
      refine Finset.sum_nbij' (fun i => q.1 + i) (fun k => k - q.1) ?_ ?_ ?_ ?_ ?_
      · intro i hi
        rw [List.mem_toFinset, List.mem_map] at hi
        obtain ⟨⟨j, d⟩, hm, rfl⟩ := hi
        obtain ⟨hlt, x, e, hg, hd⟩ := (memR q j d).mp hm
        rw [Finset.mem_filter, memK]
        exact ⟨⟨x, e, hg, (inPeer x).mpr ⟨d, hd⟩⟩, by dsimp only; omega, by dsimp only; omega⟩
      · intro k hk
        rw [Finset.mem_filter, memK] at hk
        obtain ⟨⟨x, e, hg, hx⟩, h1, h2⟩ := hk
        obtain ⟨d, hd⟩ := (inPeer x).mp hx
        rw [List.mem_toFinset, List.mem_map]
        exact ⟨(k - q.1, d), (memR q _ d).mpr ⟨by omega, x, e, by rw [Nat.add_sub_cancel' h1]; exact hg, hd⟩, rfl⟩
      · intro i _
        exact Nat.add_sub_cancel_left _ _
      · intro k hk
        exact Nat.add_sub_cancel' (Finset.mem_filter.mp hk).2.1
      · intro i _
        rw [Nat.add_sub_cancel_left]
    have sums : ∀ f : Nat → Nat, ∑ k ∈ K, f k =
        ∑ k ∈ K, ((runs.filter fun q => q.1 ≤ k ∧ k < q.1 + q.2).map fun q => f (k - q.1)).sum := by
      intro f
      rw [← sum_runs K runs fun p k => f (k - p), ← sumw f, ((hw.map Prod.fst).map f).sum_eq, List.map_flatMap, List.map_flatMap,
        List.flatMap_def, List.sum_flatten, List.map_map]
      refine congrArg List.sum (List.map_congr_left fun q _ => ?_)
      exact sumq f q
    have hne : ∀ k ∈ K, 1 ≤ (runs.filter fun q => q.1 ≤ k ∧ k < q.1 + q.2).length := by
      intro k hk
      obtain ⟨q, hq, hh⟩ := hcov k (Finset.mem_range.mp (Finset.mem_filter.mp hk).1)
      exact List.length_pos_of_mem (List.mem_filter.mpr ⟨hq, by simpa using hh⟩)
    have hone : ∀ k ∈ K, (runs.filter fun q => q.1 ≤ k ∧ k < q.1 + q.2).length = 1 := by
      have h1 := sums fun _ => 1
      have h2 : ∑ k ∈ K, 1 = ∑ k ∈ K, (runs.filter fun q => q.1 ≤ k ∧ k < q.1 + q.2).length := by
        rw [h1]
        refine Finset.sum_congr rfl fun k _ => ?_
        simp
      intro k hk
      exact ((Finset.sum_eq_sum_iff_of_le hne).mp h2 k hk).symm
    have hsing : ∀ k ∈ K, ∃ q, (runs.filter fun q => q.1 ≤ k ∧ k < q.1 + q.2) = [q] := fun k hk =>
      List.length_eq_one_iff.mp (hone k hk)
    have hz := (Finset.sum_eq_sum_iff_of_le (s := K)
      (f := fun k => ((runs.filter fun q => q.1 ≤ k ∧ k < q.1 + q.2).map fun q => k - q.1).sum) (g := fun k => k) (by
        intro k hk
        obtain ⟨q, hq⟩ := hsing k hk
        rw [hq]
        simp)).mp (sums fun k => k).symm
    intro i x e hg hx
    have hi : i ∈ K := (memK i).mpr ⟨x, e, hg, hx⟩
    obtain ⟨⟨p, a⟩, hq⟩ := hsing i hi
    have h3 := hz i hi
    rw [hq] at h3
    have h4 : (p, a) ∈ runs.filter fun q => q.1 ≤ i ∧ i < q.1 + q.2 := by rw [hq]; exact List.mem_singleton_self _
    have h5 := (List.mem_filter.mp h4).2
    simp at h3 h5
    refine ⟨a, ?_⟩
    rw [hq]
    have : p = 0 := by omega
    rw [this]
  · intro h
    have start : ∀ q ∈ runs, ∀ i d, (i, d) ∈ resultLines ((own.drop q.1).take q.2) peer → q.1 = 0 := by
      intro q hq i d hm
      obtain ⟨hlt, x, e, hg, hd⟩ := (memR q i d).mp hm
      obtain ⟨a, ha⟩ := h _ x e hg ((inPeer x).mpr ⟨d, hd⟩)
      have : q ∈ runs.filter fun q' => q'.1 ≤ q.1 + i ∧ q.1 + i < q'.1 + q'.2 :=
        List.mem_filter.mpr ⟨hq, by simp; omega⟩
      rw [ha, List.mem_singleton] at this
      rw [this]
    refine ⟨?_, ?_⟩
    · rw [(hw.map Prod.fst).nodup_iff, List.map_flatMap, List.nodup_flatMap]
      refine ⟨fun q _ => resultLines_nodup _ _, List.pairwise_iff_forall_sublist.mpr ?_⟩
      intro q q' hsub i hi hi'
      rw [List.mem_map] at hi hi'
      obtain ⟨⟨j, d⟩, hm, rfl⟩ := hi
      obtain ⟨⟨j', d'⟩, hm', hj⟩ := hi'
      obtain rfl : j' = j := hj
      have z1 := start q (hsub.subset (by simp)) _ _ hm
      have z2 := start q' (hsub.subset (by simp)) _ _ hm'
      obtain ⟨hlt, x, e, hg, hd⟩ := (memR q _ d).mp hm
      obtain ⟨hlt', -⟩ := (memR q' _ d').mp hm'
      obtain ⟨a, ha⟩ := h _ x e hg ((inPeer x).mpr ⟨d, hd⟩)
      have hs := hsub.filter fun q'' => decide (q''.1 ≤ q.1 + j' ∧ q.1 + j' < q''.1 + q''.2)
      have hle := hs.length_le
      rw [ha] at hle
      rw [List.filter_cons_of_pos (by simp; omega), List.filter_cons_of_pos (by simp; omega)] at hle
      simp at hle
    · intro i d
      rw [hw.mem_iff, List.mem_flatMap]
      constructor
      · rintro ⟨q, hq, hm⟩
        have z := start q hq i d hm
        obtain ⟨-, x, e, hg, hd⟩ := (memR q i d).mp hm
        rw [z, Nat.zero_add] at hg
        exact ⟨x, e, hg, hd⟩
      · rintro ⟨x, e, hg, hd⟩
        obtain ⟨a, ha⟩ := h i x e hg ((inPeer x).mpr ⟨d, hd⟩)
        have hm : (0, a) ∈ runs.filter fun q => q.1 ≤ i ∧ i < q.1 + q.2 := by rw [ha]; exact List.mem_singleton_self _
        obtain ⟨h1, h2⟩ := List.mem_filter.mp hm
        simp at h2
        exact ⟨(0, a), h1, (memR (0, a) i d).mpr ⟨h2, x, e, by rw [Nat.zero_add]; exact hg, hd⟩⟩

/-- **C14** does not hold, third reason: a task with the keys `2, 3` against the single key `3` is stopped after its first item,
and stopped again after the second run has saved the second item.  The counts of the first run are replaced by those of the second
one, which is smaller than what was saved in total, and the third run saves the second item once more: the result has the same
line twice. -/
theorem C14_same_line_twice : ∃ st d, Stopped Ex.rcfg st d ∧ st true = [0, 1] ∧ (d true).selfRuns.map List.length = [1, 1] ∧
    processedAt .all d true = 1 ∧ ∃ c' s u v, resumeAt Ex.rcfg d = some c' ∧ exec c' Ex.sched2 (init c') = some s ∧
      (s.party true).finished = true ∧ (s.party false).finished = true ∧
      computeIndices (storeOf List.length 3 ((d true).selfRuns ++ [(s.party true).selfStore]))
        (storeOf List.length 3 ((d true).peerRuns ++ [(s.party true).peerStore])) = some ([(0, 4), (0, 4)], u, v) := by
  have hd : Stopped Ex.rcfg _ _ := Stopped.stop (sched0 := Ex.sched1) (sched1 := [])
    (Stopped.stop (sched0 := Ex.sched1) (sched1 := []) Stopped.new rfl rfl rfl) rfl rfl rfl
  obtain ⟨c', hc', -, h⟩ := C14_any_restarts_partial Ex.rcfg Ex.rlawful Ex.rcrypto.apart (fun r => ⟨1, by cases r <;> decide⟩) _ _ hd true
    (Or.inl rfl) List.length 3 (by decide) (by intro r; cases r <;> decide) (by intro r; cases r <;> decide)
  have hc2 : c' = { Ex.rcfg with input := fun r => if r then [[(3, 0)]] else [[(3, 4)]] } := (Option.some.inj hc').symm
  subst hc2
  obtain ⟨w, u, v, hw, -, hp⟩ := h Ex.sched2 _ rfl rfl
  have hp' : w.Perm (List.replicate 2 (0, 4)) := hp.trans (List.Perm.of_eq rfl)
  have hw1 : w = [(0, 4), (0, 4)] := List.perm_replicate.mp hp'
  subst hw1
  exact ⟨_, _, hd, rfl, rfl, rfl, _, _, u, v, hc', rfl, rfl, rfl, hw⟩

/-- A task whose first run was stopped after everything was saved, and whose second run was stopped at once: the result is right. -/
example : ∀ w : List (Nat × Nat), w.Perm ([(0, 2), (2, 0), (2, 0)].flatMap fun q =>
      resultLines (((Ex.rcfg.items true).drop q.1).take q.2) (Ex.rcfg.items false)) →
    ExactIndex (Ex.rcfg.items true) (Ex.rcfg.items false) w := fun w hw =>
  (C14_any_exact_iff (Ex.rcfg.items true) (Ex.rcfg.items false) [(0, 2), (2, 0), (2, 0)] (by decide)
    (fun i hi => ⟨(0, 2), by simp, Nat.zero_le _, hi⟩) w hw).mpr (by
      intro i x e h _
      have hi : i < 2 := (List.getElem?_eq_some_iff.mp h).1
      refine ⟨2, ?_⟩
      interval_cases i <;> rfl)

end Psi.Ecdh
