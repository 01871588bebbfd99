import Verif.Legacy.RunLemmas

/-!
# The bucket interface for any number of parties: properties

* C53 the tree of two-party intersections is exact
* C54 `BucketPsi` from the table to the output file
* C55 `CsvChecker` and the digest shortcut
* C56 `FilterFileByIndices`
* C57 `MemoryPsi` and `BroadcastResult`
-/

namespace Psi.Legacy
open Psi.Coll (Prog Sys)
open Psi.Std (Bytes)

variable {D : Type}

/-! ## C53 -/

/-- With any number of parties, whatever the order of the calls: every call finds its partners, and in the end the
master has the sorted list of its items that all parties have, the others have nothing. -/
theorem C53_nparty_exact {c : Env D} {good : List Bytes → Prop} (hc : Lawful c good) (I : Nat → List Bytes)
    (hg : ∀ r, r < c.world → good (I r)) :
    Ends c (fun r => npartyRun c r (I r)) []
      (fun r => if r = c.master then Std.sort ((I r).filter fun x => InAll c I x) else []) :=
  let ⟨_, h⟩ := plays_nparty hc I hg
  h.ends []

/-- Five parties, any items, ECDH. -/
def five : Env Bytes where
  world := 5
  master := 3
  broadcast := false
  nparty := true
  psi2 := fun a b => a.filter (· ∈ b)
  direct := fun a bs => a.filter fun x => ∀ b ∈ bs, x ∈ b
  bucketSize := 1000000
  hash := fun s => s.length
  sha := id
  sep := 44
  precheck := true
  needSort := true
  multiKeySort := Std.sort

theorem five_lawful : Lawful five (fun _ => True) :=
  ⟨by decide, by decide, fun _ _ _ _ => trivial, fun _ _ _ _ => List.Perm.refl _, fun _ _ _ _ => List.Perm.refl _⟩

example (I : Nat → List Bytes) : Ends five (fun r => npartyRun five r (I r)) []
    (fun r => if r = 3 then Std.sort ((I r).filter fun x => InAll five I x) else []) :=
  C53_nparty_exact five_lawful I fun _ _ => trivial

/-! ## C54 -/

variable [DecidableEq D]

/-- All parties run `BucketPsi` and every input check passes.  Then every run finishes, and every party that is to
have the result has written exactly its rows whose key all parties have, in the order of its file (or sorted), and
reports their number. -/
theorem C54_bucket_exact_partial {c : Env D} {good : List Bytes → Prop} (hc : Lawful c good) (tables : Nat → Bytes × List Row)
    (hk : ∀ r, r < c.world → checker c (tables r).1 (tables r).2 ≠ none)
    (hg : ∀ r, r < c.world → good ((keysOf c tables r).map data))
    (hd : c.broadcast = true → c.precheck = true ∨ (keysOf c tables c.master).Nodup) (hs : 0 < c.bucketSize)
    (hf : ∀ r, r < c.world → (tables r).2.length + c.bucketSize < 2 ^ 64)
    (hsha : SameDigest c (keysOf c tables) → ∀ r, r < c.world → ∀ k ∈ keysOf c tables r, Common c (keysOf c tables) k) :
    Ends c (fun r => run c r (tables r).1 (tables r).2) ⟨0, none, none⟩ (expected c tables) :=
  let ⟨_, h⟩ := plays_run hc tables hk hg hd hs hf hsha
  h.ends _

/-- Keys of one width, a digest without collisions. -/
theorem C54_fixed_width {c : Env D} {good : List Bytes → Prop} (hc : Lawful c good) (tables : Nat → Bytes × List Row)
    (hk : ∀ r, r < c.world → checker c (tables r).1 (tables r).2 ≠ none)
    (hg : ∀ r, r < c.world → good ((keysOf c tables r).map data))
    (hd : c.broadcast = true → c.precheck = true ∨ (keysOf c tables c.master).Nodup) (hs : 0 < c.bucketSize)
    (hf : ∀ r, r < c.world → (tables r).2.length + c.bucketSize < 2 ^ 64)
    (hsha : Function.Injective c.sha) (w : Nat) (hw : 0 < w)
    (hwidth : ∀ r, r < c.world → ∀ k ∈ keysOf c tables r, k.length = w) :
    Ends c (fun r => run c r (tables r).1 (tables r).2) ⟨0, none, none⟩ (expected c tables) := by
  refine C54_bucket_exact_partial hc tables hk hg hd hs hf ?_
  intro he r hr k hkr u hu
  have h0 : ∀ t, t < c.world → keysOf c tables t = keysOf c tables 0 := fun t ht =>
    flatten_inj w hw _ _ (hwidth t ht) (hwidth 0 (by have := hc.two; omega)) (hsha (he t ht))
  rw [h0 u hu, ← h0 r hr]
  exact hkr

/-- A row with one column. -/
def row (s : Bytes) : Row := ⟨s, [s]⟩

/-- Five tables with keys of two bytes. -/
def fiveTables (r : Nat) : Bytes × List Row := ([105, 100], [row [65, 65], row [66, UInt8.ofNat (66 + r)], row [67, 67]])

example : Ends five (fun r => run five r (fiveTables r).1 (fiveTables r).2) ⟨0, none, none⟩ (expected five fiveTables) := by
  have hkeys : ∀ r, keysOf five fiveTables r = [[65, 65], [66, UInt8.ofNat (66 + r)], [67, 67]] := fun r => by
    simp [keysOf, fiveTables, row, Row.key, List.intercalate]
  refine C54_fixed_width five_lawful fiveTables ?_ (fun _ _ => trivial) (by intro h; cases h) (by decide) ?_
    (fun _ _ h => h) 2 (by decide) ?_
  · intro r _ hn
    have hd : duplicates ((fiveTables r).2.map (Row.key five.sep)) = [] := by
      apply duplicates_of_nodup
      · rw [show (fiveTables r).2.map (Row.key five.sep) = keysOf five fiveTables r from rfl, hkeys]
        simp
      · rw [show (fiveTables r).2.map (Row.key five.sep) = keysOf five fiveTables r from rfl, hkeys]
        have hr : r < 5 := ‹_›
        interval_cases r <;> decide
    unfold checker at hn
    rw [if_neg (by simp [hasBom, fiveTables]), if_neg (by simp [fiveTables, row]), if_neg (by simp [hd])] at hn
    cases hn
  · intro r _
    show 3 + 1000000 < 2 ^ 64
    decide
  · intro r _ k hk
    rw [hkeys] at hk
    simp only [List.mem_cons, List.not_mem_nil, or_false] at hk
    rcases hk with rfl | rfl | rfl <;> rfl

/-! ### With duplicate keys -/

/-- Two parties, the receiver broadcasts, no input check. -/
def two : Env Bytes where
  world := 2
  master := 0
  broadcast := true
  nparty := false
  psi2 := fun a b => a.filter (· ∈ b)
  direct := fun a bs => a.filter fun x => ∀ b ∈ bs, x ∈ b
  bucketSize := 10
  hash := fun _ => 0
  sha := id
  sep := 44
  precheck := false
  needSort := false
  multiKeySort := id

theorem two_lawful : Lawful two (fun _ => True) :=
  ⟨by decide, by decide, fun _ _ _ _ => trivial, fun _ _ _ _ => List.Perm.refl _, fun _ _ _ _ => List.Perm.refl _⟩

/-- The receiver has `x` twice; the other party has `x` and `y`. -/
def twiceTables (r : Nat) : Bytes × List Row :=
  ([105], if r = 0 then [row [120], row [120]] else [row [120], row [121]])

/-- Without the distinctness assumption `C54_bucket_exact_partial` is false: `GetResultIndices` takes a result as long as
its own list for its whole list.  The receiver has `x` twice and broadcasts two items; the other party, with `x` and
`y`, then writes `y` although the receiver does not have it. -/
theorem C54_duplicates_wrong :
    Ends two (fun r => run two r (twiceTables r).1 (twiceTables r).2) ⟨0, none, none⟩
      (fun r => reportOf two twiceTables r (twiceTables r).2) ∧
    row [121] ∈ (twiceTables 1).2 ∧ row [121] ∉ commonRows two twiceTables 1 := by
  refine ⟨?_, by decide, by decide⟩
  have hkeys : ∀ r, keysOf two twiceTables r = if r = 0 then [[120], [120]] else [[120], [121]] := by
    intro r
    unfold keysOf twiceTables
    by_cases h : r = 0 <;> simp [h, row, Row.key, List.intercalate]
  have hnd : ¬ SameDigest two (keysOf two twiceTables) := by decide
  have hbc : ∀ r, r = two.master ∨ two.broadcast = true := fun _ => Or.inr (by decide)
  have hn : bucketsOf two (keysOf two twiceTables) = 1 := by decide
  obtain ⟨l, hp⟩ := plays_nonempty (c := two) (by decide) (keysOf two twiceTables) (by decide)
    (by intro r hr; rw [hkeys]; split <;> decide) (by
      rintro ⟨u, -, h⟩
      rw [hkeys] at h
      split at h <;> cases h) (fun _ _ => [0, 1]) (by
      intro b hb
      rw [hn] at hb ⊢
      have hb0 : b = 0 := by omega
      subst hb0
      obtain ⟨l, v, hp, hv⟩ := plays_memory two_lawful
        (fun r => (bucketItems two.hash 1 0 (keysOf two twiceTables r)).map fun x => bytes x.data64) (fun _ _ => trivial)
      refine ⟨l, v, hp, ?_⟩
      intro r hr
      have hvr := hv r hr
      rw [if_pos (hbc r)] at hvr
      have h2 : (v r).length = 2 := by
        rw [hvr.length_eq]
        decide
      have hi : (bucketItems two.hash 1 0 (keysOf two twiceTables r)).map (·.index) = [0, 1] := by
        rw [hkeys]
        split <;> decide
      unfold resultIndices
      have hne : v r ≠ [] := by
        intro e
        rw [e] at h2
        cases h2
      rw [if_neg hne, if_pos, hi]
      rw [h2, ← List.length_map (f := (·.index)), hi]
      rfl)
  rw [hn] at hp
  obtain ⟨l', hp'⟩ := plays_rest (c := two) (by decide) twiceTables (by
      intro r hr
      unfold checker twiceTables
      by_cases h : r = 0 <;> simp [h, hasBom, row, two])
    (by intro r _; unfold twiceTables; split <;> decide) (fun _ => true) l _
    (hp.congr (fun r _ => by simp [hnd]) (fun _ _ => rfl)) (by
      intro r hr
      rw [if_pos (hbc r), hkeys]
      split <;> decide)
  exact (hp'.congr (fun _ _ => rfl) (fun r _ => by rw [List.filter_eq_self.mpr (by simp)])).ends _

/-! ## C55 -/

omit [DecidableEq D] in
/-- A table that passes the check: no byte order mark, no empty token, and with `precheck` all keys distinct. -/
theorem C55_passed (c : Env D) (header : Bytes) (rows : List Row) (h : checker c header rows ≠ none) :
    ¬ [0xEF, 0xBB, 0xBF] <+: header ∧ (∀ r ∈ rows, ∀ t ∈ r.tokens, t ≠ []) ∧
    (c.precheck = true → (rows.map (Row.key c.sep)).Nodup) := by
  refine ⟨?_, ?_, checker_nodup c header rows h⟩
  · rintro ⟨t, rfl⟩
    apply h
    unfold checker
    rw [if_pos (by simp [hasBom])]
  · intro r hr t ht he
    apply h
    unfold checker
    split
    · rfl
    · rw [if_pos]
      rw [List.any_eq_true]
      exact ⟨r, hr, List.any_eq_true.mpr ⟨t, ht, by simp [he]⟩⟩

omit [DecidableEq D] in
/-- A table without these faults, and with `precheck` without newlines in keys, passes; the count and the digest are
those of its rows. -/
theorem C55_accepts_partial (c : Env D) (header : Bytes) (rows : List Row) (h1 : ¬ [0xEF, 0xBB, 0xBF] <+: header)
    (h2 : ∀ r ∈ rows, ∀ t ∈ r.tokens, t ≠ [])
    (h3 : c.precheck = true → (rows.map (Row.key c.sep)).Nodup ∧ ∀ r ∈ rows, 10 ∉ r.key c.sep) :
    checker c header rows = some (rows.length, c.sha (rows.map (Row.key c.sep)).flatten) := by
  apply checker_some
  unfold checker
  rw [if_neg, if_neg, if_neg]
  · simp
  · intro h
    rw [Bool.and_eq_true] at h
    obtain ⟨h4, h5⟩ := h3 h.1
    rw [duplicates_of_nodup _ h4 (by simpa using h5)] at h
    simp at h
  · intro h
    obtain ⟨r, hr, h⟩ := List.any_eq_true.mp h
    obtain ⟨t, ht, h⟩ := List.any_eq_true.mp h
    exact h2 r hr t ht (by simpa using h)
  · intro h
    apply h1
    match header, h with
    | [], h => simp [hasBom] at h
    | [_], h => simp [hasBom] at h
    | [_, _], h => simp [hasBom] at h
    | a :: b :: d :: t, h =>
      simp [hasBom] at h
      exact ⟨t, by simp [h]⟩

example : checker five [105] [row [65], row [66]] = some (2, [65, 66]) :=
  C55_accepts_partial five [105] [row [65], row [66]] (by decide) (by decide) (fun _ => by decide)

example := C55_passed five [105] [row [65], row [66]]
  (by rw [C55_accepts_partial five [105] [row [65], row [66]] (by decide) (by decide) (fun _ => by decide)]; simp)

/-- With a newline in a key the check can refuse distinct keys: `a⏎b` and `b` look like the lines `a`, `b`, `b`. -/
theorem C55_newline_refused : ([[97, 10, 98], [98]] : List Bytes).Nodup ∧
    checker five [105] [row [97, 10, 98], row [98]] = none := by
  refine ⟨by decide, ?_⟩
  unfold checker
  rw [if_neg (by decide), if_neg (by decide), if_pos]
  have hk : ([row [97, 10, 98], row [98]] : List Row).map (Row.key five.sep) = [[97, 10, 98], [98]] := by decide
  rw [hk]
  have hne : duplicates [[97, 10, 98], [98]] ≠ [] := by
    unfold duplicates
    rw [ne_eq, uniqD_nil_iff _ (Std.sort_sorted _), (Std.sort_perm _).nodup_iff]
    decide
  cases hd : duplicates [[97, 10, 98], [98]] with
  | nil => exact absurd hd hne
  | cons _ _ => rfl

/-- If the digests of all parties are equal, no intersection is computed and every receiver reports all its rows. -/
theorem C55_same_digest {c : Env D} (h2 : 2 ≤ c.world) (tables : Nat → Bytes × List Row)
    (hk : ∀ r, r < c.world → checker c (tables r).1 (tables r).2 ≠ none)
    (hf : ∀ r, r < c.world → (tables r).2.length + 1 < 2 ^ 64) (he : SameDigest c (keysOf c tables)) :
    Ends c (fun r => run c r (tables r).1 (tables r).2) ⟨0, none, none⟩ (fun r => reportOf c tables r (tables r).2) :=
  let ⟨_, h⟩ := plays_same h2 tables hk hf he
  h.ends _

/-- `ab`, `c` and `a`, `bc`. -/
def gluedTables (r : Nat) : Bytes × List Row :=
  ([105], if r = 0 then [row [97, 98], row [99]] else [row [97], row [98, 99]])

/-- The digest is taken over the keys written one after the other without a separator.  Parties with the keys `ab`,
`c` and `a`, `bc` have equal digests, whatever the hash function, and both report all their rows as the
intersection, which is empty. -/
theorem C55_glued_wrong (c : Env D) (h2 : c.world = 2) :
    Ends c (fun r => run c r (gluedTables r).1 (gluedTables r).2) ⟨0, none, none⟩
      (fun r => reportOf c gluedTables r (gluedTables r).2) ∧
    (∀ r, r < 2 → (gluedTables r).2.length = 2 ∧ commonRows c gluedTables r = []) := by
  have hkeys : ∀ r, keysOf c gluedTables r = if r = 0 then [[97, 98], [99]] else [[97], [98, 99]] := by
    intro r
    unfold keysOf gluedTables
    by_cases h : r = 0 <;> simp [h, row, Row.key, List.intercalate]
  refine ⟨C55_same_digest (by omega) gluedTables ?_ ?_ ?_, ?_⟩
  · intro r _
    rw [C55_accepts_partial c _ _ (by simp [gluedTables]) (by unfold gluedTables; split <;> simp [row])]
    · simp
    · intro _
      constructor
      · rw [show (gluedTables r).2.map (Row.key c.sep) = keysOf c gluedTables r from rfl, hkeys]
        split <;> simp
      · intro x hx
        have : x.key c.sep ∈ keysOf c gluedTables r := List.mem_map.mpr ⟨x, hx, rfl⟩
        rw [hkeys] at this
        split at this <;> simp at this <;> rcases this with h | h <;> rw [h] <;> decide
  · intro r _
    unfold gluedTables
    split <;> decide
  · intro u _
    rw [hkeys, hkeys]
    split <;> rfl
  · intro r hr
    refine ⟨by unfold gluedTables; split <;> rfl, ?_⟩
    unfold commonRows
    rw [List.filter_eq_nil_iff]
    intro x hx hcx
    have hx' : x.key c.sep ∈ keysOf c gluedTables r := List.mem_map.mpr ⟨x, hx, rfl⟩
    have h0 := (of_decide_eq_true hcx) 0 (by omega)
    have h1 := (of_decide_eq_true hcx) 1 (by omega)
    rw [hkeys] at h0 h1
    simp at h0 h1
    rcases h0 with h0 | h0 <;> rw [h0] at h1 <;> simp at h1

example := C55_glued_wrong { five with world := 2, master := 0 } rfl

/-- If the check of one party fails, no party gets past the barrier after the check, in whatever order the calls are
tried: nobody returns a result. -/
theorem C55_failed_check_blocks (c : Env D) (tables : Nat → Bytes × List Row) (bad : Nat) (hb : bad < c.world)
    (hbad : checker c (tables bad).1 (tables bad).2 = none) (sched : List Call) (r : Nat) (hr : r < c.world) :
    ((sys c).exec sched (start c tables)).2 = 0 ∧ ∀ x, ((sys c).exec sched (start c tables)).1 r ≠ .ret x := by
  rw [exec_blocked c tables bad hb hbad sched]
  refine ⟨rfl, ?_⟩
  intro x
  show start c tables r ≠ .ret x
  unfold start run
  rw [if_pos hr]
  split <;> simp

/-- The newline table of above at rank 2, good tables elsewhere. -/
example (sched : List Call) :=
  C55_failed_check_blocks five (fun r => if r = 2 then ([105], [row [97, 10, 98], row [98]]) else fiveTables r) 2 (by decide)
    C55_newline_refused.2 sched 0 (by decide)

/-! ## C56 -/

omit [DecidableEq D]

/-- `FilterFileByIndices`, for intersection and for difference: it returns normally exactly if the indices increase
strictly and are positions of data lines.  Then it has written the header and exactly the data lines at (not at) the
indices, in order, and returns the number of indices. -/
theorem C56_filter_exact (diff : Bool) (H ls : List Bytes) (ind : List Nat) (hl : H.length + ls.length < 2 ^ 64)
    (hi : ind.length < 2 ^ 64) :
    filterFile H.length diff (H ++ ls) ind =
      if Inc 0 ls.length ind then some (H ++ pick diff 0 ls ind, ind.length) else none :=
  filterFile_eq diff H ls ind hl hi

/-- The version that reads the indices from a file does the same. -/
theorem C56_versions_agree (diff : Bool) (H ls : List Bytes) (ind : List Nat) (hl : H.length + ls.length < 2 ^ 64)
    (hi : ind.length < 2 ^ 64) :
    filterFileByFile H.length diff (H ++ ls) ind = filterFile H.length diff (H ++ ls) ind :=
  filterFileByFile_eq diff H ls ind hl hi

example : filterFile 1 true ([[104]] ++ [[1], [2], [3]]) [0, 2] = some ([[104], [2]], 2) :=
  (C56_filter_exact true [[104]] [[1], [2], [3]] [0, 2] (by decide) (by decide)).trans (by decide)

example : filterFile 1 false ([[104]] ++ [[1], [2], [3]]) [2, 0] = none :=
  (C56_filter_exact false [[104]] [[1], [2], [3]] [2, 0] (by decide) (by decide)).trans (by decide)

example := C56_versions_agree true [[104]] [[1], [2], [3]] [0, 2] (by decide) (by decide)

/-! ## C57 -/

/-- `MemoryPsi::Run`, for every protocol: the parties that are to have the result end with the master's items that
all parties have, in some order; the others with nothing. -/
theorem C57_memory_exact {c : Env D} {good : List Bytes → Prop} (hc : Lawful c good) (I : Nat → List Bytes)
    (hg : ∀ r, r < c.world → good (I r)) :
    ∃ v, Ends c (fun r => memoryRun c r (I r)) [] v ∧
      ∀ r, r < c.world → if r = c.master ∨ c.broadcast = true
        then (v r).Perm ((I c.master).filter fun x => InAll c I x) else v r = [] :=
  let ⟨_, v, h, hv⟩ := plays_memory hc I hg
  ⟨v, h.ends [], hv⟩

example (I : Nat → List Bytes) := C57_memory_exact five_lawful I fun _ _ => trivial

example (I : Nat → List Bytes) := C57_memory_exact two_lawful I fun _ _ => trivial

/-- KKRT wants distinct items. -/
example (I : Nat → List Bytes) (h : ∀ r, r < 5 → (I r).Nodup) :=
  C57_memory_exact (good := List.Nodup) (c := five) ⟨by decide, by decide,
    fun _ _ h hb => by obtain ⟨l, hp, hs⟩ := h; exact hp.nodup_iff.mp (hs.nodup hb),
    fun _ _ _ _ => List.Perm.refl _, fun _ _ _ _ => List.Perm.refl _⟩ I h

/-- `BroadcastResult`: if only the master has a result, everybody has it afterwards. -/
theorem C57_broadcast_one_partial {c : Env D} (h2 : 2 ≤ c.world) (hm : c.master < c.world) (v : Nat → List Bytes)
    (hv : ∀ r, r ≠ c.master → v r = []) : Ends c (fun r => broadcastResult c (v r)) [] (fun _ => v c.master) :=
  let ⟨_, h⟩ := plays_broadcast h2 hm v hv
  h.ends []

example := C57_broadcast_one_partial (c := five) (by decide) (by decide) (fun r => if r = 3 then [[1], [2]] else [])
  (fun r hr => if_neg hr)

/-- The check in `BroadcastResult` that only one party has a result does not see rank 0: if rank 0 and one other party
have results, nobody throws and they keep different results. -/
theorem C57_rank_zero_missed (c : Env D) (h2 : c.world = 2) (a b : Bytes) :
    Ends c (fun r => broadcastResult c [if r = 0 then a else b]) [] (fun r => [if r = 0 then a else b]) := by
  have hr : c.ranks = [0, 1] := by rw [Env.ranks, h2]; rfl
  have hb := plays_world (c := c) (by omega) (.bcast 1) rfl (fun r => [.items [if r = 0 then a else b]])
    (fun r (l : Msg D) => .ret (if [if r = 0 then a else b] = [] then (l.headD .empty).toItems else [if r = 0 then a else b])) []
    (fun r => [if r = 0 then a else b]) ((Plays.ret c _).congr (fun r _ => by simp) (fun _ _ => rfl))
    (fun r _ => by
      simp only [answer]
      exact masked_world c _ rfl _ (by omega))
  have hg := plays_gather (c := c) (by omega) (fun r => [if r = 0 then a else b].length)
  refine (Plays.bind (f := fun r sizes => match bcastRank sizes 0 0 with
    | none => .fail
    | some root =>
      if sizes.foldl max [if r = 0 then a else b].length = 0 then .ret [if r = 0 then a else b]
      else .call (.bcast root) [.items [if r = 0 then a else b]] fun l =>
        .ret (if [if r = 0 then a else b] = [] then (l.headD .empty).toItems else [if r = 0 then a else b])) hg
    (hb.congr ?_ (fun _ _ => rfl))).ends []
  intro r _
  rw [hr]
  simp [bcastRank]

example := C57_rank_zero_missed { five with world := 2, master := 0 } rfl [1] [2]

end Psi.Legacy
