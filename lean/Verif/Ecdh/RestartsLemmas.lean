import Verif.Ecdh.Restarts
import Verif.Ecdh.ResumeLemmas
import Mathlib.Data.List.Induction

/-! # ECDH-PSI with any number of restarts: lemmas -/

namespace Psi.Ecdh
open Psi.Bucket (Cache Item itemsFrom fileOf Fits)
open Psi.Text (base64)
open Psi.Spec
variable {α P : Type}

/-! ### Stores -/

theorem storeOf_files (hash : List Char → Nat) (n : Nat) (runs : List (List (Bytes × Nat))) :
    (storeOf hash n runs).files.length = n ∧ ∀ b, b < n → (storeOf hash n runs).files[b]?
      = some (fileOf ((runs.flatMap (itemsFrom 0)).filter fun x => hash x.data64 % n = b)) := by
  induction runs using List.reverseRecOn with
  | nil =>
    refine ⟨by simp [storeOf, Cache.fresh, Cache.openDir], fun b hb => ?_⟩
    simp only [storeOf, Cache.fresh, Cache.openDir, List.foldl_nil, List.flatMap_nil, List.filter_nil]
    rw [List.getElem?_replicate, if_pos hb]
    rfl
  | append_singleton runs ds ih =>
    obtain ⟨h1, h2⟩ := ih
    have e : storeOf hash n (runs ++ [ds]) = (Cache.openDir (storeOf hash n runs).files).writeAll hash ds := by
      rw [storeOf, List.foldl_append]
      rfl
    obtain ⟨h3, -, h4⟩ := Psi.Bucket.writeAll_files hash ds (Cache.openDir (storeOf hash n runs).files)
    rw [e]
    refine ⟨h3.trans h1, fun b hb => ?_⟩
    have hb' : b < (Cache.openDir (storeOf hash n runs).files).files.length := by
      simp only [Cache.openDir]; rw [h1]; exact hb
    rw [h4 b hb']
    have h5 := h2 b hb
    have h6 : (Cache.openDir (storeOf hash n runs).files).files[b]
        = fileOf ((runs.flatMap (itemsFrom 0)).filter fun x => hash x.data64 % n = b) := by
      have := List.getElem?_eq_getElem hb'
      simp only [Cache.openDir] at this ⊢
      rw [h5] at this
      exact (Option.some.inj this).symm
    rw [h6, ← Psi.Bucket.fileOf_append]
    simp only [Cache.openDir, h1]
    rw [← List.filter_append, List.flatMap_append, List.flatMap_singleton]

theorem load_storeOf (hash : List Char → Nat) (n : Nat) (runs : List (List (Bytes × Nat))) (hf : ∀ ds ∈ runs, Fits ds) (b : Nat)
    (hb : b < n) : (storeOf hash n runs).load b
      = some ((runs.flatMap (itemsFrom 0)).filter fun x => hash x.data64 % n = b) := by
  unfold Cache.load
  rw [(storeOf_files hash n runs).2 b hb]
  dsimp only
  apply Psi.Bucket.load_fileOf
  intro x hx
  obtain ⟨ds, hds, hx'⟩ := List.mem_flatMap.mp (List.mem_filter.mp hx).1
  exact Psi.Bucket.itemsFrom_ok ds (hf ds hds) x hx'

theorem find_runs (runs : List (List (Bytes × Nat))) (d : Bytes) :
    ((runs.flatMap (itemsFrom 0)).find? (fun y => y.data64 == base64 d)).map (·.dup)
      = (runs.flatten.find? fun p => p.1 = d).map Prod.snd := by
  induction runs with
  | nil => rfl
  | cons ds runs ih =>
    rw [List.flatMap_cons, List.flatten_cons, List.find?_append, List.find?_append, Option.map_or, Option.map_or, ih,
      Psi.Bucket.itemsFrom_find 0 ds d]

/-! ### Skipping -/

theorem rest_keys (p : Nat) (b : List (α × Nat)) : (rest p b).map Prod.fst = (b.drop p).map Prod.fst := by
  rw [rest, List.map_map]
  have : ∀ (l : List α) (k : Nat) (f : Nat → Nat),
      (l.zipIdx k).map (Prod.fst ∘ fun x => (x.1, f x.2)) = l := by
    intro l
    induction l with
    | nil => intros; rfl
    | cons x l ih => intro k f; rw [List.zipIdx_cons, List.map_cons, ih]; rfl
  exact this _ 0 _

theorem rest_length (p : Nat) (b : List (α × Nat)) : (rest p b).length = b.length - p := by
  simp [rest]

theorem rest_count {p : Nat} {b : List (α × Nat)} {m : Nat} (hb : ∀ x ∈ b, x.2 < m) : ∀ x ∈ rest p b, x.2 < m := by
  intro x hx
  obtain ⟨y, hy, rfl⟩ := List.mem_map.mp hx
  obtain ⟨i, hi, he⟩ := List.getElem_of_mem hy
  rw [List.length_zipIdx, List.length_map, List.length_drop] at hi
  have h2 : y.2 = i := by rw [← he]; simp
  rw [h2, dupMap_lookup b i (by omega)]
  exact hb (b[i]'(by omega)) (List.getElem_mem _)

theorem skip_any (bs : List (List (α × Nat))) (p : Nat) (hp : p ≤ bs.flatten.length) :
    ∃ bs', skip p bs = some bs' ∧ bs'.flatten.map Prod.fst = (bs.flatten.drop p).map Prod.fst ∧
      (∀ m, (∀ b ∈ bs, b.length < m) → ∀ b ∈ bs', b.length < m) ∧ ((∀ b ∈ bs, b ≠ []) → ∀ b ∈ bs', b ≠ []) ∧
      (∀ m, (∀ x ∈ bs.flatten, x.2 < m) → ∀ x ∈ bs'.flatten, x.2 < m) := by
  induction bs generalizing p with
  | nil =>
    have : p = 0 := by simpa using hp
    subst this
    exact ⟨[], rfl, rfl, fun _ h => h, fun h => h, fun _ h => h⟩
  | cons b bs ih =>
    by_cases h0 : p = 0
    · subst h0
      exact ⟨b :: bs, rfl, rfl, fun _ h => h, fun h => h, fun _ h => h⟩
    · by_cases hb : b.length ≤ p
      · obtain ⟨bs', e1, e2, e3, e4, e5⟩ := ih (p - b.length) (by rw [List.flatten_cons, List.length_append] at hp; omega)
        refine ⟨bs', by rw [skip, if_neg h0, if_pos hb, e1], ?_, fun m h => e3 m fun x hx => h x (List.mem_cons_of_mem _ hx),
          fun h => e4 fun x hx => h x (List.mem_cons_of_mem _ hx), fun m h => e5 m fun x hx => h x ?_⟩
        · rw [e2, List.flatten_cons, List.drop_append, List.drop_eq_nil_of_le hb, List.nil_append]
        · rw [List.flatten_cons]
          exact List.mem_append_right _ hx
      · refine ⟨rest p b :: bs, by rw [skip, if_neg h0, if_neg hb], ?_, ?_, ?_, ?_⟩
        · rw [List.flatten_cons, List.map_append, rest_keys, List.flatten_cons, List.drop_append,
            Nat.sub_eq_zero_of_le (by omega), List.drop_zero, List.map_append]
        · intro m h x hx
          rcases List.mem_cons.mp hx with rfl | hx
          · rw [rest_length]
            exact Nat.lt_of_le_of_lt (Nat.sub_le _ _) (h b List.mem_cons_self)
          · exact h x (List.mem_cons_of_mem _ hx)
        · intro h x hx
          rcases List.mem_cons.mp hx with rfl | hx
          · rw [← List.length_pos_iff, rest_length]
            omega
          · exact h x (List.mem_cons_of_mem _ hx)
        · intro m h x hx
          rw [List.flatten_cons] at hx h
          rcases List.mem_append.mp hx with hx | hx
          · exact rest_count (fun y hy => h y (List.mem_append_left _ hy)) x hx
          · exact h x (List.mem_append_right _ hx)

/-! ### Batches of one size -/

theorem take_chunked {b : Nat} {bs : List (List (α × Nat))} (h : Chunked b bs) (j : Nat) :
    (bs.take j).flatten.length = min (j * b) bs.flatten.length := by
  induction bs generalizing j with
  | nil => simp
  | cons x bs ih =>
    cases j with
    | zero => simp
    | succ j =>
      rw [List.take_succ_cons, List.flatten_cons, List.length_append, List.flatten_cons, List.length_append]
      rcases bs with _ | ⟨y, bs⟩
      · have : x.length ≤ b := h.2 x (by simp)
        rw [List.take_nil, List.flatten_nil, List.length_nil, Nat.add_zero, Nat.succ_mul]
        rw [Nat.min_eq_right]
        exact Nat.le_trans this (Nat.le_add_left _ _)
      · have hx : x.length = b := h.1 x (by simp)
        have hc : Chunked b (y :: bs) := by
          refine ⟨fun z hz => h.1 z ?_, fun z hz => h.2 z ?_⟩
          · rw [List.dropLast_cons_of_ne_nil (List.cons_ne_nil _ _)]
            exact List.mem_cons_of_mem _ hz
          · rwa [List.getLast?_cons_cons]
        rw [ih hc j, hx, Nat.succ_mul, Nat.add_comm (j * b) b]
        omega

/-- The number of items at the end of some batch. -/
def Bound (c : Cfg α P) (r : Bool) (p : Nat) : Prop := ∃ j, p = upTo c r j

/-! ### One run -/

/-- A run in which the items of party `r` are sent from number `p` on. -/
structure Part (c c' : Cfg α P) (r : Bool) (p : Nat) : Prop where
  le : p ≤ (c.items r).length
  keys : (c'.items r).map Prod.fst = ((c.items r).drop p).map Prod.fst
  counts : ∀ m, (∀ x ∈ c.items r, x.2 < m) → ∀ x ∈ c'.items r, x.2 < m
  exact : Bound c r p → c'.items r = (c.items r).drop p ∧ ∀ k, Bound c r (p + upTo c' r k)

theorem resumeAt_eq (c : Cfg α P) {L : Nat} (hc : c.Lawful L) (d : Bool → Folder)
    (hd : ∀ r, processedAt c.target d r ≤ (c.items r).length) :
    ∃ c', resumeAt c d = some c' ∧ c'.Lawful L ∧ c'.target = c.target ∧ (∀ r x, dual2 c' r x = dual2 c r x) ∧
      ∀ r, Part c c' r (processedAt c.target d r) := by
  have hs : ∀ r, ∃ bs', skip (processedAt c.target d r) (c.input r) = some bs' ∧ (∀ b ∈ bs', b ≠ []) ∧ (∀ b ∈ bs', b.length < 2 ^ 32) ∧
      bs'.flatten.map Prod.fst = ((c.input r).flatten.drop (processedAt c.target d r)).map Prod.fst ∧
      (∀ m, (∀ x ∈ (c.input r).flatten, x.2 < m) → ∀ x ∈ bs'.flatten, x.2 < m) ∧
      (Bound c r (processedAt c.target d r) → ∃ j, processedAt c.target d r = upTo c r j ∧ bs' = (c.input r).drop j) := by
    intro r
    obtain ⟨bs', e1, e2, e3, e4, e5⟩ := skip_any (c.input r) _ (hd r)
    refine ⟨bs', e1, e4 (hc.nonempty r), e3 _ (hc.small r), e2, e5, ?_⟩
    rintro ⟨j, hj⟩
    refine ⟨j, hj, ?_⟩
    have := skip_boundary (c.input r) (hc.nonempty r) j
    rw [show ((c.input r).take j).flatten.length = processedAt c.target d r from hj.symm, e1] at this
    exact Option.some.inj this
  obtain ⟨f, hf⟩ := Classical.skolem.mp hs
  refine ⟨{ c with input := fun r => if r then f true else f false }, by simp [resumeAt, (hf _).1], ?_, rfl, fun _ _ => rfl, ?_⟩
  · constructor
    · exact hc.serLen
    · exact hc.round
    · exact hc.dualLe
    · exact hc.window
    · intro r b hb
      cases r
      · exact (hf false).2.1 b hb
      · exact (hf true).2.1 b hb
    · intro r b hb
      cases r
      · exact (hf false).2.2.1 b hb
      · exact (hf true).2.2.1 b hb
  · intro r
    have hin : ({ c with input := fun r => if r then f true else f false } : Cfg α P).input r = f r := by cases r <;> rfl
    obtain ⟨-, -, -, e4, e5, e6⟩ := hf r
    refine ⟨hd r, ?_, ?_, ?_⟩
    · rw [Cfg.items, hin]; exact e4
    · intro m; rw [Cfg.items, Cfg.items, hin]; exact e5 m
    · intro hb
      obtain ⟨j, hj, hfj⟩ := e6 hb
      refine ⟨?_, ?_⟩
      · rw [Cfg.items, hin, hfj, hj]; exact drop_items c r j
      · intro k
        refine ⟨j + k, ?_⟩
        have : upTo { c with input := fun r => if r then f true else f false } r k = (((c.input r).drop j).take k).flatten.length := by
          rw [upTo, hin, hfj]
        rw [this, hj, upTo, upTo, List.take_add, List.flatten_append, List.length_append]

/-- What a run has saved, in terms of the items it has sent. -/
theorem saved (c : Cfg α P) {L : Nat} (hc : c.Lawful L) (sched : List (Task × Bool)) (s : State α)
    (h : exec c sched (init c) = some s) (r : Bool) :
    ∃ j k, (c.target.canTouch r = true → j ≤ k ∧
        (s.party r).selfStore = ((c.items r).take (upTo c r j)).map fun x => (dual2 c r x.1, 0)) ∧
      (c.target.canTouch (!r) = true →
        (s.party (!r)).peerStore = ((c.items r).take (upTo c r k)).map fun x => (dual2 c r x.1, x.2)) ∧
      (c.target.canTouch r = true → (s.party r).recvDone = true → upTo c r j = (c.items r).length) ∧
      (c.target.canTouch (!r) = true → (s.party (!r)).peerDone = true → upTo c r k = (c.items r).length) := by
  obtain ⟨n, k, j, hi, -⟩ := good_reach c hc sched s h
  have hall : ∀ m, m = (allBatches c r).length → upTo c r m = (c.items r).length := by
    intro m hm
    rw [upTo, Cfg.items, List.take_of_length_le]
    rw [hm, allBatches, List.length_append]
    omega
  refine ⟨j r, k r, fun ht => ?_, fun ht => ?_, fun ht hf => ?_, fun ht hf => ?_⟩
  · have := (hi r).yes ht
    refine ⟨this.1, ?_⟩
    have h5 := this.2.2.2.2
    rw [allBatches_take] at h5
    exact h5
  · have := (hi r).peerStore
    rw [if_pos ht, allBatches_take] at this
    exact this
  · have := ((hi r).yes ht).2.2.2.1
    simp only [view, hf] at this
    exact hall _ (of_decide_eq_true this.symm)
  · have := (hi r).peerDone
    simp only [view, hf] at this
    exact hall _ (of_decide_eq_true this.symm)

theorem upTo_mono (c : Cfg α P) (r : Bool) {i j : Nat} (h : i ≤ j) : upTo c r i ≤ upTo c r j := by
  rw [upTo, upTo]
  have : (c.input r).take j = (c.input r).take i ++ ((c.input r).drop i).take (j - i) := by
    rw [← List.take_add]
    congr 1
    omega
  rw [this, List.flatten_append, List.length_append]
  omega

theorem map_keys {β : Type} {l l' : List (α × Nat)} (f : α → β) (h : l.map Prod.fst = l'.map Prod.fst) :
    (l.map fun x => f x.1) = l'.map fun x => f x.1 := by
  have := congrArg (List.map f) h
  rwa [List.map_map, List.map_map] at this

theorem find_none [DecidableEq α] {l : List (α × Nat)} {x : α} : (l.find? fun y => y.1 = x) = none ↔ x ∉ l.map Prod.fst := by
  simp only [List.find?_eq_none, decide_eq_true_eq, List.mem_map, not_exists, not_and]

theorem find_cover' [DecidableEq α] (l : List (α × Nat)) (p m e : Nat) (h : p ≤ m) (x : α) :
    (l.take m ++ (l.drop p).take e).find? (fun y => y.1 = x) = (l.take (max m (p + e))).find? fun y => y.1 = x := by
  rcases Nat.le_total (p + e) m with hm | hm
  · rw [Nat.max_eq_left hm, List.find?_append]
    cases hf : (l.take m).find? fun y => decide (y.1 = x) with
    | some z => rfl
    | none =>
      rw [Option.none_or, find_none]
      rw [find_none] at hf
      intro hx
      obtain ⟨y, hy, rfl⟩ := List.mem_map.mp hx
      refine hf (List.mem_map.mpr ⟨y, ?_, rfl⟩)
      have h2 : (l.drop p).take e = (l.take (p + e)).drop p := by rw [List.drop_take]; congr 1; omega
      rw [h2] at hy
      exact (List.take_subset_take_left l hm) (List.mem_of_mem_drop hy)
  · rw [Nat.max_eq_right hm]
    have h1 : l.take m = (l.take (p + e)).take m := by rw [List.take_take, Nat.min_eq_left hm]
    have h2 : (l.drop p).take e = (l.take (p + e)).drop p := by rw [List.drop_take]; congr 1; omega
    rw [h1, h2, find_cover _ _ _ h]

theorem bound_of {c : Cfg α P} {r : Bool} {b : Nat} (hb : Chunked b (c.input r)) {p e : Nat} (hp : Bound c r p)
    (hpe : Bound c r (p + e)) (he : ¬ Bound c r e) : p + e = (c.items r).length := by
  obtain ⟨i, hi⟩ := hp
  obtain ⟨j, hj⟩ := hpe
  have hu : ∀ k, upTo c r k = min (k * b) (c.items r).length := fun k => take_chunked hb k
  by_contra hne
  refine he ⟨j - i, ?_⟩
  rw [hu] at hi hj ⊢
  rw [Nat.sub_mul]
  omega

/-! ### Any number of runs -/

/-- Every number below `m` is in one of the runs, each given by its first number and how many it has saved. -/
def Covers (runs : List (Nat × Nat)) (m : Nat) : Prop := ∀ i, i < m → ∃ q ∈ runs, q.1 ≤ i ∧ i < q.1 + q.2

/-- What a run has saved of the own items. -/
def segment (l : List (α × Nat)) (q : Nat × Nat) : List (α × Nat) := (l.drop q.1).take q.2

/-- What the folders have of the items of party `r`. -/
structure Dir [DecidableEq α] (c : Cfg α P) (r : Bool) (d : Bool → Folder) (runs : List (Nat × Nat)) (ps : List (α × Nat)) (m : Nat) :
    Prop where
  le : m ≤ (c.items r).length
  inside : ∀ q ∈ runs, q.1 + q.2 ≤ (c.items r).length
  self : c.target.canTouch r = true →
    (d r).selfRuns = runs.map fun q => (segment (c.items r) q).map fun x => (dual2 c r x.1, 0)
  covers : c.target.canTouch r = true → Covers runs (d r).selfCount ∧ (d r).selfCount ≤ (c.items r).length
  peer : c.target.canTouch (!r) = true → (d (!r)).peerRuns.flatten = ps.map fun x => (dual2 c r x.1, x.2)
  fits : c.target.canTouch (!r) = true → ∀ ds ∈ (d (!r)).peerRuns, Fits ds
  find : c.target.canTouch (!r) = true → ∀ x, (ps.find? fun y => y.1 = x) = ((c.items r).take m).find? fun y => y.1 = x
  count : c.target.canTouch (!r) = true → (d (!r)).peerCount ≤ m
  full : c.target.canTouch (!r) = true →
    ¬ Bound c r (d (!r)).peerCount ∨ (c.target.canTouch r = true ∧ ¬ Bound c r (d r).selfCount) → m = (c.items r).length

theorem bound_zero (c : Cfg α P) (r : Bool) : Bound c r 0 := ⟨0, by simp [upTo]⟩

theorem dir_new [DecidableEq α] (c : Cfg α P) (r : Bool) : Dir c r (fun _ => Folder.new) [] [] 0 where
  le := Nat.zero_le _
  inside := fun q hq => absurd hq List.not_mem_nil
  self := fun _ => rfl
  covers := fun _ => ⟨fun i hi => absurd hi (Nat.not_lt_zero i), Nat.zero_le _⟩
  peer := fun _ => rfl
  fits := fun _ ds hds => absurd hds List.not_mem_nil
  find := fun _ x => by rw [List.take_zero]
  count := fun _ => Nat.le_refl _
  full := fun _ h => by
    rcases h with h | h
    · exact absurd (bound_zero c r) h
    · exact absurd (bound_zero c r) h.2

theorem canTouch_or (t : Target) (r : Bool) : t.canTouch r = true ∨ t.canTouch (!r) = true := by
  cases t with
  | all => exact Or.inl rfl
  | rank q => cases q <;> cases r <;> simp [Target.canTouch]

section
variable [DecidableEq α] {c : Cfg α P} {r : Bool} {d : Bool → Folder} {runs : List (Nat × Nat)} {ps : List (α × Nat)} {m : Nat}

theorem Dir.start (h : Dir c r d runs ps m) :
    processedAt c.target d r ≤ (c.items r).length ∧
    (c.target.canTouch r = true → Covers runs (processedAt c.target d r)) ∧
    (c.target.canTouch (!r) = true → processedAt c.target d r ≤ m ∧ (¬ Bound c r (processedAt c.target d r) → m = (c.items r).length)) := by
  rw [processedAt]
  have hor := canTouch_or c.target r
  cases ht : c.target.canTouch r <;> cases ht' : c.target.canTouch (!r)
  · rw [ht, ht'] at hor
    rcases hor with h | h <;> cases h
  · have h1 := h.count ht'
    have h2 := h.le
    simp only [Bool.and_true, Bool.false_eq_true, if_false]
    exact ⟨by omega, fun h => h.elim, fun _ => ⟨h1, fun hb => h.full ht' (Or.inl hb)⟩⟩
  · obtain ⟨h1, h2⟩ := h.covers ht
    simp only [Bool.and_false, Bool.false_eq_true, if_false, if_true]
    exact ⟨h2, fun _ => h1, fun h => by cases h⟩
  · obtain ⟨h1, h2⟩ := h.covers ht
    have h3 := h.count ht'
    have h4 := h.le
    simp only [Bool.and_true, if_true]
    refine ⟨by omega, fun _ i hi => h1 i (by omega), fun _ => ⟨by omega, fun hb => ?_⟩⟩
    rcases Nat.le_total (d (!r)).peerCount (d r).selfCount with hle | hle
    · rw [Nat.min_eq_left hle] at hb
      exact h.full ht' (Or.inl hb)
    · rw [Nat.min_eq_right hle] at hb
      exact h.full ht' (Or.inr ⟨ht, hb⟩)

theorem newCount_cases (old saved : Nat) : newCount old saved = old ∨ newCount old saved = saved := by
  rw [newCount]
  split
  · exact Or.inl rfl
  · exact Or.inr rfl

/-- One more run. -/
theorem Dir.next {L b : Nat} (hb : Chunked b (c.input r)) (h : Dir c r d runs ps m)
    (hl : (c.items r).length ≤ 2 ^ 64) (hdup : ∀ x ∈ c.items r, x.2 < 2 ^ 32) {c' : Cfg α P} (hc : c'.Lawful L)
    (ht : c'.target = c.target) (hdual : ∀ x, dual2 c' r x = dual2 c r x) (hp : Part c c' r (processedAt c.target d r))
    {sched0 sched1 : List (Task × Bool)} {s0 s : State α} (h0 : exec c' sched0 (init c') = some s0) (h1 : exec c' sched1 s0 = some s) :
    ∃ a ps' m', Dir c r (after d s0 s) (runs ++ [(processedAt c.target d r, a)]) ps' m' ∧
      (c.target.canTouch r = true → (s.party r).recvDone = true → processedAt c.target d r + a = (c.items r).length) ∧
      (c.target.canTouch (!r) = true → (s.party (!r)).peerDone = true → m' = (c.items r).length) := by
  obtain ⟨st1, st2, st3⟩ := h.start
  have hle := h.le
  obtain ⟨j0, k0, e1, e2, -⟩ := saved c' hc sched0 s0 h0 r
  obtain ⟨j, k, f1, f2, f3, f4⟩ := saved c' hc (sched0 ++ sched1) s (exec_append c' sched0 sched1 _ _ _ h0 h1) r
  rw [ht] at e1 e2 f1 f2 f3 f4
  have hkeys := hp.keys
  generalize processedAt c.target d r = p at *
  have hn : (c'.items r).length = (c.items r).length - p := by
    have := congrArg List.length hkeys
    simpa using this
  have hup : ∀ i, upTo c' r i ≤ (c.items r).length - p := fun i => by rw [← hn]; exact upTo_le c' r i
  have hself0 : c.target.canTouch r = true → (s0.party r).selfStore.length = upTo c' r j0 := fun t => by
    rw [(e1 t).2, length_take_upTo]
  have hself : c.target.canTouch r = true → (s.party r).selfStore.length = upTo c' r j := fun t => by
    rw [(f1 t).2, length_take_upTo]
  have hpeer0 : c.target.canTouch (!r) = true → (s0.party (!r)).peerStore.length = upTo c' r k0 := fun t => by
    rw [e2 t, length_take_upTo]
  have hpeer : c.target.canTouch (!r) = true → (s.party (!r)).peerStore.length = upTo c' r k := fun t => by
    rw [f2 t, length_take_upTo]
  have ha : c.target.canTouch r = true → upTo c' r j0 ≤ upTo c' r j := fun t => by
    rw [← hself0 t, ← hself t]; exact (exec_grow c' sched1 s0 s h1 r).1
  have he : c.target.canTouch (!r) = true → upTo c' r k0 ≤ upTo c' r k := fun t => by
    rw [← hpeer0 t, ← hpeer t]; exact (exec_grow c' sched1 s0 s h1 (!r)).2
  have hae : c.target.canTouch r = true → upTo c' r j ≤ upTo c' r k := fun t => upTo_mono c' r (f1 t).1
  have hcount0 : ∀ x ∈ c'.items r, x.2 < 2 ^ 32 := hp.counts _ hdup
  classical
  refine ⟨upTo c' r j, ps ++ (c'.items r).take (upTo c' r k), if Bound c r p then max m (p + upTo c' r k) else m, ?_, ?_, ?_⟩
  · refine ⟨?_, ?_, ?_, ?_, ?_, ?_, ?_, ?_, ?_⟩
    · have := hup k
      split <;> omega
    · intro q hq
      rcases List.mem_append.mp hq with hq | hq
      · exact h.inside q hq
      · rw [List.mem_singleton] at hq
        subst hq
        have := hup j
        dsimp only
        omega
    · intro t
      have : (after d s0 s r).selfRuns = (d r).selfRuns ++ [(s.party r).selfStore] := rfl
      rw [this, h.self t, List.map_append, List.map_singleton, (f1 t).2]
      congr 2
      rw [segment]
      dsimp only
      have hk : ((c'.items r).take (upTo c' r j)).map Prod.fst = (((c.items r).drop p).take (upTo c' r j)).map Prod.fst := by
        rw [List.map_take, List.map_take, hkeys]
      have := map_keys (fun x => (dual2 c r x, 0)) hk
      simp only [hdual]
      exact this
    · intro t
      obtain ⟨g1, g2⟩ := h.covers t
      have : (after d s0 s r).selfCount = newCount (d r).selfCount (s0.party r).selfStore.length := rfl
      rw [this, hself0 t]
      have h5 := ha t
      have h6 := hup j
      rcases newCount_cases (d r).selfCount (upTo c' r j0) with hcs | hcs <;> rw [hcs]
      · exact ⟨fun i hi => by
          obtain ⟨q, hq, hh⟩ := g1 i hi
          exact ⟨q, List.mem_append_left _ hq, hh⟩, g2⟩
      · refine ⟨fun i hi => ?_, by omega⟩
        by_cases hip : i < p
        · obtain ⟨q, hq, hh⟩ := st2 t i hip
          exact ⟨q, List.mem_append_left _ hq, hh⟩
        · exact ⟨_, List.mem_append_right _ (List.mem_singleton_self _), by dsimp only; omega, by dsimp only; omega⟩
    · intro t
      have : (after d s0 s (!r)).peerRuns = (d (!r)).peerRuns ++ [(s.party (!r)).peerStore] := rfl
      rw [this, List.flatten_append, h.peer t, List.flatten_singleton, f2 t, List.map_append]
      simp only [hdual]
    · intro t ds hds
      have : (after d s0 s (!r)).peerRuns = (d (!r)).peerRuns ++ [(s.party (!r)).peerStore] := rfl
      rw [this] at hds
      rcases List.mem_append.mp hds with hds | hds
      · exact h.fits t ds hds
      · rw [List.mem_singleton] at hds
        subst hds
        refine ⟨?_, ?_⟩
        · rw [hpeer t]
          have := hup k
          omega
        · rw [f2 t]
          intro x hx
          obtain ⟨y, hy, rfl⟩ := List.mem_map.mp hx
          exact hcount0 y (List.mem_of_mem_take hy)
    · intro t x
      obtain ⟨g1, g2⟩ := st3 t
      by_cases hbp : Bound c r p
      · rw [if_pos hbp, ← find_cover' _ _ _ _ g1, List.find?_append, List.find?_append, h.find t x, (hp.exact hbp).1]
      · rw [if_neg hbp, List.find?_append, h.find t x, g2 hbp, List.take_length]
        cases hf : (c.items r).find? fun y => decide (y.1 = x) with
        | some z => rfl
        | none =>
          rw [Option.none_or, find_none]
          rw [find_none] at hf
          intro hx
          rw [List.map_take, hkeys] at hx
          have := List.mem_of_mem_take hx
          rw [List.map_drop] at this
          exact hf (List.mem_of_mem_drop this)
    · intro t
      obtain ⟨g1, g2⟩ := st3 t
      have h7 := h.count t
      have : (after d s0 s (!r)).peerCount = newCount (d (!r)).peerCount (s0.party (!r)).peerStore.length := rfl
      rw [this, hpeer0 t]
      have h5 := he t
      have h6 := hup k
      by_cases hbp : Bound c r p
      · rw [if_pos hbp]
        rcases newCount_cases (d (!r)).peerCount (upTo c' r k0) with hcs | hcs <;> rw [hcs] <;> omega
      · rw [if_neg hbp]
        have := g2 hbp
        rcases newCount_cases (d (!r)).peerCount (upTo c' r k0) with hcs | hcs <;> rw [hcs] <;> omega
    · intro t hnb
      obtain ⟨g1, g2⟩ := st3 t
      have h6 := hup k
      by_cases hbp : Bound c r p
      · rw [if_pos hbp]
        have key : (m = (c.items r).length) ∨ p + upTo c' r k = (c.items r).length := by
          rcases hnb with hnb | ⟨t1, hnb⟩
          · have e : (after d s0 s (!r)).peerCount = newCount (d (!r)).peerCount (s0.party (!r)).peerStore.length := rfl
            rw [e, hpeer0 t] at hnb
            rcases newCount_cases (d (!r)).peerCount (upTo c' r k0) with hcs | hcs <;> rw [hcs] at hnb
            · exact Or.inl (h.full t (Or.inl hnb))
            · have := bound_of hb hbp ((hp.exact hbp).2 k0) hnb
              have := he t
              omega
          · have e : (after d s0 s r).selfCount = newCount (d r).selfCount (s0.party r).selfStore.length := rfl
            rw [e, hself0 t1] at hnb
            rcases newCount_cases (d r).selfCount (upTo c' r j0) with hcs | hcs <;> rw [hcs] at hnb
            · exact Or.inl (h.full t (Or.inr ⟨t1, hnb⟩))
            · have := bound_of hb hbp ((hp.exact hbp).2 j0) hnb
              have := ha t1
              have := hae t1
              omega
        omega
      · rw [if_neg hbp]
        exact g2 hbp
  · intro t hf
    have := f3 t hf
    rw [hn] at this
    omega
  · intro t hf
    have := f4 t hf
    obtain ⟨g1, g2⟩ := st3 t
    by_cases hbp : Bound c r p
    · rw [if_pos hbp]
      omega
    · rw [if_neg hbp]
      exact g2 hbp

end

/-- The folders of a task that was stopped any number of times. -/
theorem stopped_dir [DecidableEq α] {c : Cfg α P} {L : Nat} (hc : c.Lawful L) (hb : ∀ r, ∃ b, Chunked b (c.input r))
    (hl : ∀ r, (c.items r).length ≤ 2 ^ 64) (hdup : ∀ r, ∀ x ∈ c.items r, x.2 < 2 ^ 32) {st : Bool → List Nat} {d : Bool → Folder}
    (hd : Stopped c st d) : ∀ r, ∃ runs ps m, Dir c r d runs ps m ∧ runs.map Prod.fst = st r := by
  induction hd with
  | new => exact fun r => ⟨[], [], 0, dir_new c r, rfl⟩
  | @stop st d c' sched0 sched1 s0 s hd hr h0 h1 ih =>
    intro r
    obtain ⟨c'', e1, e2, e3, e4, e5⟩ := resumeAt_eq c hc d fun r => by
      obtain ⟨runs, ps, m, hdir, -⟩ := ih r
      exact hdir.start.1
    rw [hr] at e1
    obtain rfl := Option.some.inj e1
    obtain ⟨runs, ps, m, hdir, hst⟩ := ih r
    obtain ⟨b, hb⟩ := hb r
    obtain ⟨a, ps', m', hdir', -⟩ := hdir.next hb (hl r) (hdup r) e2 e3 (e4 r) (e5 r) h0 h1
    exact ⟨_, _, _, hdir', by rw [List.map_append, hst]; rfl⟩

theorem find_dual_key [DecidableEq α] (c : Cfg α P) (hx : Apart c) (r : Bool) (x : α × Nat) (hxm : x ∈ c.items r)
    (l : List (α × Nat)) (hl : ∀ y ∈ l, y.1 ∈ (c.items (!r)).map Prod.fst) :
    (l.map (fun y => (dual2 c (!r) y.1, y.2))).find? (fun p => p.1 = dual2 c r x.1) =
      (l.find? (fun y => y.1 = x.1)).map (fun y => (dual2 c (!r) y.1, y.2)) := by
  induction l with
  | nil => rfl
  | cons y l ih =>
    obtain ⟨z, hz, hzy⟩ := List.mem_map.mp (hl y List.mem_cons_self)
    have h1 := dual2_apart_iff c hx r z x hz hxm
    rw [hzy] at h1
    have ih := ih (fun z hz => hl z (List.mem_cons_of_mem _ hz))
    by_cases hy : y.1 = x.1
    · have := h1.mpr hy
      simp [hy, ← this]
    · have : ¬ dual2 c (!r) y.1 = dual2 c r x.1 := fun he => hy (h1.mp he)
      rw [List.map_cons, List.find?_cons, List.find?_cons]
      simp only [this, hy, decide_false]
      exact ih

end Psi.Ecdh
