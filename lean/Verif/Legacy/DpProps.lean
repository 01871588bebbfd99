import Verif.Legacy.DpLemmas
import Verif.Legacy.Props

/-!
# The bucket interface with `DP_PSI_2PC`: properties

* C125 what `BucketPsi` reports with `DP_PSI_2PC`, and what it gives away
-/

namespace Psi.Legacy
open Psi.Coll (Prog Sys)
open Psi.Std (Bytes)
open Psi.Text (base64)

variable {D Pt : Type}

/-! ## What is reported -/

/-- The item `y` of the receiver is reported for bucket `b`: the other party has keys in the bucket, and `y` is among the items that
the protocol picks. -/
def ChosenIn (c : Env D) (draw : List Bytes → List Bytes → Coins) (n : Nat) (mine theirs : List Bytes) (b : Nat) (y : Bytes) : Prop :=
  bucketData c n b theirs ≠ [] ∧
  ∃ i ∈ reported (bucketData c n b theirs) (bucketData c n b mine) (draw (bucketData c n b mine) (bucketData c n b theirs)),
    (bucketData c n b mine)[i]? = some y

instance (c : Env D) (draw : List Bytes → List Bytes → Coins) (n : Nat) (mine theirs : List Bytes) (b : Nat) (y : Bytes) :
    Decidable (ChosenIn c draw n mine theirs b y) := by
  unfold ChosenIn
  infer_instance

/-- The key `k` of the receiver is reported. -/
abbrev Chosen (c : Env D) (draw : List Bytes → List Bytes → Coins) (n : Nat) (mine theirs : List Bytes) (k : Bytes) : Prop :=
  ChosenIn c draw n mine theirs (c.hash (base64 k) % n) (data k)

/-- The rows of the receiver whose key is reported. -/
def chosenRows (c : Env D) (draw : List Bytes → List Bytes → Coins) (n : Nat) (tables : Nat → Bytes × List Row) : List Row :=
  (tables c.master).2.filter fun x =>
    decide (Chosen c draw n (keysOf c tables c.master) (keysOf c tables (1 - c.master)) (x.key c.sep))

theorem ranks_two (c : Env D) (g : DpPsi.Cfg Bytes Pt) (draw : List Bytes → List Bytes → Coins) : (dpEnv c g draw).ranks = [0, 1] := rfl

theorem others_two {c : Env D} (hm : c.master < 2) (g : DpPsi.Cfg Bytes Pt) (draw : List Bytes → List Bytes → Coins) :
    (dpEnv c g draw).ranks.filter (· ≠ (dpEnv c g draw).master) = [1 - c.master] := by
  rw [ranks_two]
  show [0, 1].filter (fun x => decide (x ≠ c.master)) = _
  have : c.master = 0 ∨ c.master = 1 := by omega
  rcases this with h | h <;> rw [h] <;> rfl

theorem directOf_two {c : Env D} (hm : c.master < 2) (g : DpPsi.Cfg Bytes Pt) (draw : List Bytes → List Bytes → Coins)
    (I : Nat → List Bytes) : directOf (dpEnv c g draw) I =
      dpOnRun g (draw (I c.master) (I (1 - c.master))) (I c.master) (I (1 - c.master)) := by
  unfold directOf
  rw [others_two hm]
  rfl

theorem empty_two {c : Env D} (hm : c.master < 2) (g : DpPsi.Cfg Bytes Pt) (draw : List Bytes → List Bytes → Coins)
    (I : Nat → List Bytes) : (∃ u ∈ (dpEnv c g draw).ranks, I u = []) ↔ I c.master = [] ∨ I (1 - c.master) = [] := by
  rw [ranks_two]
  have : c.master = 0 ∨ c.master = 1 := by omega
  rcases this with h | h <;> rw [h] <;> simp [or_comm]

/-- One bucket at the receiver. -/
theorem bucket_indices {c : Env D} {g : DpPsi.Cfg Bytes Pt} (hc : DpPsi.Laws g) (draw : List Bytes → List Bytes → Coins)
    (n b : Nat) (mine theirs : List Bytes) (hn : DpPsi.NoClash g (theirs.map data) (mine.map data)) (hl : mine.length ≤ 2 ^ 64)
    (hf : Fits (bucketData c n b theirs) (bucketData c n b mine) (draw (bucketData c n b mine) (bucketData c n b theirs))) :
    resultIndices (bucketItems c.hash n b mine) (if bucketData c n b mine = [] ∨ bucketData c n b theirs = [] then []
      else dpOnRun g (draw (bucketData c n b mine) (bucketData c n b theirs)) (bucketData c n b mine) (bucketData c n b theirs)) =
    ((bucketItems c.hash n b mine).filter fun x => decide (ChosenIn c draw n mine theirs b (bytes x.data64))).map (·.index) := by
  have hmem : ∀ x ∈ bucketItems c.hash n b mine, bytes x.data64 ∈ bucketData c n b mine := fun x hx => by
    rw [← bucketData_eq]
    exact List.mem_map.2 ⟨x, hx, rfl⟩
  have hlen : (bucketItems c.hash n b mine).length = (bucketData c n b mine).length := by
    rw [← bucketData_eq, List.length_map]
  have hsub : ∀ keys : List Bytes, (bucketData c n b keys).Sublist (keys.map data) := fun keys => List.filter_sublist.map _
  by_cases he : bucketData c n b mine = [] ∨ bucketData c n b theirs = []
  · rw [if_pos he]
    apply resultIndices_eq _ _ fun y => decide (ChosenIn c draw n mine theirs b y)
    · intro x hx
      rw [decide_eq_true_iff]
      constructor
      · intro h
        simp at h
      · rintro ⟨h, -⟩
        rcases he with he | he
        · have := hmem x hx
          rw [he] at this
          simp at this
        · exact absurd he h
    · intro h x hx
      have := List.length_pos_of_mem hx
      rw [← h] at this
      simp at this
  · rw [if_neg he]
    rw [not_or] at he
    have hn' : DpPsi.NoClash g (bucketData c n b theirs) (bucketData c n b mine) := fun x hx y hy h =>
      hn x ((hsub mine).subset hx) y ((hsub theirs).subset hy) h
    have hlb : (bucketData c n b mine).length ≤ 2 ^ 64 := by
      have := (hsub mine).length_le
      simp at this
      omega
    obtain ⟨R, h1, h2, h3⟩ := dpOnRun_eq hc hn' hlb hf
    have hlt : ∀ i ∈ R, i < (bucketData c n b mine).length := fun i hi => reported_lt hf i (h2.mem_iff.1 hi)
    rw [h1]
    have hiff : ∀ y ∈ bucketData c n b mine, y ∈ R.map (fun i => (bucketData c n b mine).getD i []) ↔
        decide (ChosenIn c draw n mine theirs b y) = true := by
      intro y hy
      rw [decide_eq_true_iff, List.mem_map]
      constructor
      · rintro ⟨i, hi, rfl⟩
        exact ⟨he.2, i, h2.mem_iff.1 hi, by simp [hlt i hi]⟩
      · rintro ⟨-, i, hi, e⟩
        exact ⟨i, h2.mem_iff.2 hi, by simp [List.getD_eq_getElem?_getD, e]⟩
    apply resultIndices_eq _ _ fun y => decide (ChosenIn c draw n mine theirs b y)
    · exact fun x hx => hiff _ (hmem x hx)
    · intro hl x hx
      rw [List.length_map, hlen] at hl
      exact (hiff _ (hmem x hx)).1 (all_of_length h3 hlt hl _ (hmem x hx))

variable [DecidableEq D]

/-- **C125 (partial).**  `BucketPsi` with `DP_PSI_2PC`, result for the receiver alone, all input checks passed, digests different.
In whatever order the calls happen every run finishes, and the receiver has written, in the order of its file (or sorted), exactly
its rows whose key the protocol picked in its bucket; the other party has nothing. -/
theorem C125_report_partial {c : Env D} (hm : c.master < 2) (hbc : c.broadcast = false) {g : DpPsi.Cfg Bytes Pt} (hc : DpPsi.Laws g)
    (draw : List Bytes → List Bytes → Coins) (hfit : ∀ B A, Fits A B (draw B A)) (tables : Nat → Bytes × List Row)
    (hk : ∀ r, r < 2 → checker c (tables r).1 (tables r).2 ≠ none) (hs : 0 < c.bucketSize)
    (hf : ∀ r, r < 2 → (tables r).2.length + c.bucketSize < 2 ^ 64)
    (hn : DpPsi.NoClash g ((keysOf c tables (1 - c.master)).map data) ((keysOf c tables c.master).map data))
    (hd : ¬ SameDigest (dpEnv c g draw) (keysOf c tables)) :
    Ends (dpEnv c g draw) (fun r => run (dpEnv c g draw) r (tables r).1 (tables r).2) ⟨0, none, none⟩
      (fun r => if r = c.master
        then reportOf (dpEnv c g draw) tables r (chosenRows c draw (bucketsOf (dpEnv c g draw) (keysOf c tables)) tables)
        else ⟨(tables r).2.length, none, none⟩) := by
  have hw : 2 ≤ (dpEnv c g draw).world := Nat.le_refl 2
  set e := dpEnv c g draw with he
  set K := keysOf c tables with hK
  have hKe : keysOf e tables = K := rfl
  set n := bucketsOf e K with hnn
  have hf' : ∀ r, r < e.world → (tables r).2.length + 1 < 2 ^ 64 := fun r hr => by have := hf r hr; omega
  have hfK : ∀ r, r < e.world → (K r).length + e.bucketSize ≤ 2 ^ 64 := fun r hr => by
    have := hf r hr
    have h1 : (K r).length = (tables r).2.length := by simp [hK, keysOf]
    have h2 : e.bucketSize = c.bucketSize := rfl
    omega
  have key : ∃ l v, Plays e l (fun r => runBucketPsi e r (K r)) v ∧
      (v c.master).Perm (positions (K c.master) fun k => decide (Chosen c draw n (K c.master) (K (1 - c.master)) k)) := by
    by_cases hemp : ∃ u ∈ e.ranks, K u = []
    · refine ⟨[gatherEvent e.ranks fun t => (K t).length] ++ [], fun _ => [], ?_, ?_⟩
      · refine Plays.bind (plays_gather hw fun t => (K t).length) ((Plays.ret e fun _ => []).congr ?_ (fun _ _ => rfl))
        intro r hr
        simp only
        rw [bucketNum_eq e K r hr, if_pos hemp, if_pos rfl]
      · rw [empty_two hm g draw] at hemp
        rcases hemp with h | h
        · rw [h]
          exact .refl _
        · unfold positions
          rw [List.filter_eq_nil_iff.mpr]
          · exact .refl _
          · intro x _ hx
            have := (of_decide_eq_true hx).1
            rw [h] at this
            exact this rfl
    · have hpos := bucketsOf_pos e K hw hs hfK hemp
      obtain ⟨l, h⟩ := plays_nonempty (c := e) hw K hs hfK hemp
        (fun b r => if r = c.master then ((bucketItems c.hash n b (K r)).filter fun x =>
          decide (ChosenIn c draw n (K c.master) (K (1 - c.master)) b (bytes x.data64))).map (·.index) else []) (by
          intro b hb
          obtain ⟨l, h⟩ := plays_memory_direct (c := e) hw hm rfl
            (fun r => (bucketItems e.hash n b (K r)).map fun x => bytes x.data64)
          refine ⟨l, _, h, ?_⟩
          intro r hr
          have hbe : e.broadcast = false := hbc
          rw [directOf_two hm g draw]
          simp only [hbe, Bool.false_eq_true, or_false]
          have hbd : ∀ r, ((bucketItems e.hash n b (K r)).map fun x => bytes x.data64) = bucketData c n b (K r) :=
            fun r => bucketData_eq c n b (K r)
          simp only [hbd]
          have hE : (∃ u ∈ e.ranks, bucketData c n b (K u) = []) ↔ _ := empty_two hm g draw fun r => bucketData c n b (K r)
          rw [if_congr hE rfl rfl]
          by_cases hrm : r = c.master
          · subst hrm
            rw [if_pos rfl]
            have := bucket_indices (c := c) hc draw n b (K c.master) (K (1 - c.master)) hn
              (by have := hfK c.master hm; omega) (hfit _ _)
            rw [← this, if_pos (show c.master = e.master from rfl)]
            rfl
          · rw [if_neg (show ¬ r = e.master from hrm), if_neg hrm, ite_self]
            rfl)
      refine ⟨l, _, h, ?_⟩
      simp only [if_true]
      exact out_perm_of c (K c.master) n hpos fun b y => decide (ChosenIn c draw n (K c.master) (K (1 - c.master)) b y)
  obtain ⟨l, v, hpl, hv⟩ := key
  obtain ⟨l', hpl'⟩ := plays_rest (c := e) hw tables (fun r hr => hk r hr) hf'
    (fun k => decide (Chosen c draw n (K c.master) (K (1 - c.master)) k)) l v
    (hpl.congr (fun r _ => by rw [hKe]; simp [hd]) (fun _ _ => rfl)) (by
      intro r hr
      split
      · rename_i h
        have hbe : e.broadcast = false := hbc
        rw [hbe] at h
        simp only [Bool.false_eq_true, or_false] at h
        rw [hKe, h]
        exact hv
      · trivial)
  refine (hpl'.congr (fun _ _ => rfl) ?_).ends _
  intro r hr
  by_cases hrm : r = c.master
  · rw [if_pos hrm]
    subst hrm
    rfl
  · rw [if_neg hrm]
    unfold reportOf
    rw [if_neg]
    rintro (h | h)
    · exact hrm h
    · have hbe : e.broadcast = false := hbc
      rw [hbe] at h
      cases h

/-! ## What is given away -/

/-- Coins with which nothing is sampled. -/
def noCoins (B _A : List Bytes) : Coins := ⟨List.range B.length, List.replicate B.length false, [], []⟩

theorem noCoins_sample (B A : List Bytes) : DpPsi.bobSample (noCoins B A).shuf (noCoins B A).bob = [] := by
  unfold DpPsi.bobSample DpPsi.bernoulli noCoins
  rw [List.map_eq_nil_iff, List.filter_eq_nil_iff]
  rintro ⟨i, b⟩ h
  have := List.of_mem_zip h
  simp only [List.mem_replicate] at this
  simp [this.2.2]

theorem noCoins_fits (B A : List Bytes) : Fits A B (noCoins B A) := by
  refine ⟨.refl _, ?_, ?_⟩ <;> rw [noCoins_sample] <;> rfl

theorem noCoins_reported (B A : List Bytes) : reported A B (noCoins B A) = [] := by
  unfold reported
  rw [noCoins_sample, if_pos]
  simp [DpPsi.sampled]

/-- **C125, negation.**  Not differentially private for any `ε`.  If the digests of the two parties are equal, the receiver reports all
its rows, whatever the coins.  If the other party has any table with another digest, there are coins with which the same receiver
reports none of its rows. -/
theorem C125_not_private {c : Env D} (hm : c.master < 2) (hbc : c.broadcast = false) {g : DpPsi.Cfg Bytes Pt} (hc : DpPsi.Laws g)
    (tables tables' : Nat → Bytes × List Row) (hsame : tables' c.master = tables c.master) (hne : (tables' c.master).2 ≠ [])
    (hk : ∀ r, r < 2 → checker c (tables r).1 (tables r).2 ≠ none) (hk' : ∀ r, r < 2 → checker c (tables' r).1 (tables' r).2 ≠ none)
    (hs : 0 < c.bucketSize) (hf : ∀ r, r < 2 → (tables r).2.length + c.bucketSize < 2 ^ 64)
    (hf' : ∀ r, r < 2 → (tables' r).2.length + c.bucketSize < 2 ^ 64)
    (hn : DpPsi.NoClash g ((keysOf c tables' (1 - c.master)).map data) ((keysOf c tables' c.master).map data))
    (hd : c.sha (keysOf c tables (1 - c.master)).flatten = c.sha (keysOf c tables c.master).flatten)
    (hd' : c.sha (keysOf c tables' (1 - c.master)).flatten ≠ c.sha (keysOf c tables' c.master).flatten) :
    (∀ draw, ∃ v, Ends (dpEnv c g draw) (fun r => run (dpEnv c g draw) r (tables r).1 (tables r).2) ⟨0, none, none⟩ v ∧
      (v c.master).intersection = some (tables c.master).2.length ∧ (tables c.master).2.length ≠ 0) ∧
    ∃ draw, (∀ B A, Fits A B (draw B A)) ∧
      ∃ v, Ends (dpEnv c g draw) (fun r => run (dpEnv c g draw) r (tables' r).1 (tables' r).2) ⟨0, none, none⟩ v ∧
        (v c.master).intersection = some 0 := by
  have hcase : c.master = 0 ∨ c.master = 1 := by omega
  refine ⟨fun draw => ?_, noCoins, noCoins_fits, ?_⟩
  · have he : SameDigest (dpEnv c g draw) (keysOf c tables) := by
      intro u hu
      have hu : u < 2 := hu
      show c.sha _ = c.sha _
      rcases hcase with h | h <;> rw [h] at hd <;> interval_cases u <;> first | rfl | exact hd | exact hd.symm
    obtain ⟨l, h⟩ := plays_same (c := dpEnv c g draw) (by show 2 ≤ 2; omega) tables (fun r hr => hk r hr)
      (fun r hr => by have := hf r hr; omega) he
    refine ⟨_, h.ends _, ?_⟩
    unfold reportOf
    rw [if_pos (show c.master = (dpEnv c g draw).master ∨ _ from Or.inl rfl)]
    exact ⟨rfl, fun h => hne (by rw [hsame]; exact List.eq_nil_of_length_eq_zero h)⟩
  · have he : ¬ SameDigest (dpEnv c g noCoins) (keysOf c tables') := by
      intro h
      have h1 := h 1 (by show 1 < 2; omega)
      rcases hcase with hh | hh <;> rw [hh] at hd'
      · exact hd' h1
      · exact hd' h1.symm
    refine ⟨_, C125_report_partial hm hbc hc noCoins noCoins_fits tables' hk' hs hf' hn he, ?_⟩
    rw [if_pos rfl]
    unfold reportOf
    rw [if_pos (show c.master = (dpEnv c g noCoins).master ∨ _ from Or.inl rfl)]
    have : chosenRows c noCoins (bucketsOf (dpEnv c g noCoins) (keysOf c tables')) tables' = [] := by
      unfold chosenRows
      rw [List.filter_eq_nil_iff]
      intro x _ hx
      obtain ⟨-, i, hi, -⟩ := of_decide_eq_true hx
      rw [noCoins_reported] at hi
      simp at hi
    rw [this]
    rfl

/-- Coins with which only the item at `i` is sampled, and joins. -/
def oneCoin (i : Nat) (B _A : List Bytes) : Coins := ⟨List.range B.length, (List.range B.length).map (decide <| · = i), [], [true]⟩

omit [DecidableEq D] in
/-- **C125, negation.**  With `broadcast_result` the other party is told the items that were picked in clear.  For every item of the
receiver that the other party does not have there are coins with which the other party gets that item. -/
theorem C125_broadcast_reveals {c : Env D} (hm : c.master < 2) (hbc : c.broadcast = true) {g : DpPsi.Cfg Bytes Pt} (hc : DpPsi.Laws g)
    (I : Nat → List Bytes) (hn : DpPsi.NoClash g (I (1 - c.master)) (I c.master)) (hl : (I c.master).length ≤ 2 ^ 64)
    (hne : I (1 - c.master) ≠ []) {x : Bytes} (hx : x ∈ I c.master) (hx' : x ∉ I (1 - c.master)) :
    ∃ draw, Fits (I (1 - c.master)) (I c.master) (draw (I c.master) (I (1 - c.master))) ∧
      Ends (dpEnv c g draw) (fun r => memoryRun (dpEnv c g draw) r (I r)) [] (fun _ => [x]) := by
  obtain ⟨i, hi, rfl⟩ := List.getElem_of_mem hx
  have hsamp : DpPsi.bobSample (List.range (I c.master).length) ((List.range (I c.master).length).map (decide <| · = i)) = [i] := by
    unfold DpPsi.bobSample DpPsi.bernoulli
    rw [List.zip_map_right, List.filter_map, List.map_map]
    have : ∀ l : List Nat, ((l.zip l).filter ((fun x : Nat × Bool => x.2) ∘ Prod.map id (decide <| · = i))).map
        ((fun x : Nat × Bool => x.1) ∘ Prod.map id (decide <| · = i)) = l.filter (· = i) := by
      intro l
      induction l with
      | nil => rfl
      | cons a l ih =>
        simp only [List.zip_cons_cons, List.filter_cons]
        by_cases h : a = i <;> simp [h, ih]
    rw [this]
    have hp : ((List.range (I c.master).length).filter (· = i)).Perm [i] := by
      rw [List.perm_ext_iff_of_nodup (List.nodup_range.filter _) (by simp)]
      intro a
      simp only [List.mem_filter, List.mem_range, decide_eq_true_eq, List.mem_singleton]
      constructor
      · exact fun h => h.2
      · rintro rfl; exact ⟨hi, rfl⟩
    exact List.perm_singleton.1 hp
  have hs : DpPsi.sampled (I (1 - c.master)) (I c.master) [i] = [(i, false)] := by
    unfold DpPsi.sampled
    simp [hi, hx']
  have hfit : Fits (I (1 - c.master)) (I c.master) (oneCoin i (I c.master) (I (1 - c.master))) := by
    refine ⟨.refl _, ?_, ?_⟩ <;> (unfold oneCoin; simp only; rw [hsamp, hs]; rfl)
  refine ⟨oneCoin i, hfit, ?_⟩
  have hrep : reported (I (1 - c.master)) (I c.master) (oneCoin i (I c.master) (I (1 - c.master))) = [i] := by
    unfold reported oneCoin
    simp only
    rw [hsamp, hs, if_neg (by simp)]
    rfl
  obtain ⟨R, h1, h2, -⟩ := dpOnRun_eq hc hn hl hfit
  rw [hrep] at h2
  rw [List.perm_singleton.1 h2] at h1
  obtain ⟨l, h⟩ := plays_memory_direct (c := dpEnv c g (oneCoin i)) (by show 2 ≤ 2; omega) hm rfl I
  refine (h.congr (fun _ _ => rfl) ?_).ends _
  intro r _
  rw [directOf_two hm, h1, if_neg, if_pos (show r = _ ∨ (dpEnv c g (oneCoin i)).broadcast = true from Or.inr hbc)]
  · simp [hi]
  · rw [empty_two hm]
    rintro (h | h)
    · rw [h] at hi; simp at hi
    · exact hne h

/-- The receiver has the key `a`, the other party the key `b`. -/
def pairTables (m : Nat) (a b : Bytes) (r : Nat) : Bytes × List Row := ([105], [row (if r = m then a else b)])

omit [DecidableEq D] in
theorem pair_checked {c : Env D} (m : Nat) {a b : Bytes} (ha : a ≠ []) (hb : b ≠ []) (ha' : 10 ∉ a) (hb' : 10 ∉ b) (r : Nat) :
    checker c (pairTables m a b r).1 (pairTables m a b r).2 ≠ none := by
  rw [C55_accepts_partial c _ _ (by simp [pairTables])]
  · simp
  · simp only [pairTables, List.mem_singleton]
    rintro x rfl t ht
    simp only [row, List.mem_singleton] at ht
    subst ht
    split <;> assumption
  · intro _
    refine ⟨by simp [pairTables], ?_⟩
    simp only [pairTables, List.mem_singleton]
    rintro x rfl
    simp only [row, Row.key, List.intercalate_singleton]
    split <;> assumption

omit [DecidableEq D] in
theorem pair_keys (c : Env D) (m : Nat) (a b : Bytes) (r : Nat) : keysOf c (pairTables m a b) r = [if r = m then a else b] := by
  simp [keysOf, pairTables, row, Row.key, List.intercalate_singleton]

/-- **C125, negation.**  With `broadcast_result` the other party reports a row that the receiver does not have and that was not picked:
`GetResultIndices` takes a result as long as its own list for its whole list.  The receiver has the key `a`, the other party `b`; with
the coins that let `a` join, both report all their rows, though no key is common. -/
theorem C125_broadcast_wrong {c : Env D} (hm : c.master < 2) (hbc : c.broadcast = true) {g : DpPsi.Cfg Bytes Pt} (hc : DpPsi.Laws g)
    {a b : Bytes} (ha : a ≠ []) (hb : b ≠ []) (ha' : 10 ∉ a) (hb' : 10 ∉ b) (hab : a ≠ b) (hsha : c.sha a ≠ c.sha b)
    (hn : DpPsi.NoClash g [data b] [data a]) (hs : 0 < c.bucketSize) (hs' : c.bucketSize + 1 < 2 ^ 64) :
    ∃ draw, Fits [data b] [data a] (draw [data a] [data b]) ∧
      Ends (dpEnv c g draw) (fun r => run (dpEnv c g draw) r (pairTables c.master a b r).1 (pairTables c.master a b r).2) ⟨0, none, none⟩
        (fun r => reportOf (dpEnv c g draw) (pairTables c.master a b) r (pairTables c.master a b r).2) ∧
      ∀ r, r < 2 → (pairTables c.master a b r).2.length = 1 ∧ commonRows (dpEnv c g draw) (pairTables c.master a b) r = [] := by
  have hmo : ¬ (1 - c.master = c.master) := by omega
  set tables := pairTables c.master a b with ht
  have hkeys : ∀ r, keysOf c tables r = [if r = c.master then a else b] := pair_keys c c.master a b
  have hx' : data a ∉ [data b] := by
    rw [List.mem_singleton]
    exact fun h => hab (data_injective h)
  have hfit : Fits [data b] [data a] (oneCoin 0 [data a] [data b]) := by
    have h1 : DpPsi.sampled [data b] [data a] (DpPsi.bobSample (oneCoin 0 [data a] [data b]).shuf (oneCoin 0 [data a] [data b]).bob) =
        [(0, false)] := by
      show DpPsi.sampled [data b] [data a] [0] = _
      unfold DpPsi.sampled
      simpa using hx'
    refine ⟨.refl _, ?_, ?_⟩ <;> rw [h1] <;> rfl
  refine ⟨oneCoin 0, hfit, ?_, ?_⟩
  · set e := dpEnv c g (oneCoin 0) with he
    have hrep : reported [data b] [data a] (oneCoin 0 [data a] [data b]) = [0] := by
      have h1 : DpPsi.sampled [data b] [data a] (DpPsi.bobSample (oneCoin 0 [data a] [data b]).shuf (oneCoin 0 [data a] [data b]).bob) =
          [(0, false)] := by
        show DpPsi.sampled [data b] [data a] [0] = _
        unfold DpPsi.sampled
        simpa using hx'
      unfold reported
      rw [h1, if_neg (by simp)]
      rfl
    obtain ⟨R, h1, h2, -⟩ := dpOnRun_eq hc hn (by simp) hfit
    rw [hrep] at h2
    rw [List.perm_singleton.1 h2] at h1
    have hcase : c.master = 0 ∨ c.master = 1 := by omega
    have hd : ¬ SameDigest e (keysOf e tables) := by
      intro h
      have h1 : c.sha (keysOf c tables 1).flatten = c.sha (keysOf c tables 0).flatten := h 1 (by show 1 < 2; omega)
      rw [hkeys, hkeys] at h1
      rcases hcase with hh | hh <;> rw [hh] at h1 <;> simp at h1
      · exact hsha h1.symm
      · exact hsha h1
    have hne : ¬ ∃ u ∈ e.ranks, keysOf c tables u = [] := by
      rintro ⟨u, -, h⟩
      rw [hkeys] at h
      cases h
    have hbn : bucketsOf e (keysOf c tables) = 1 := by
      unfold bucketsOf
      rw [show e.ranks = [0, 1] from rfl]
      simp only [hkeys, List.map_cons, List.map_nil, List.length_singleton, List.foldl_cons, List.foldl_nil]
      have : (1 + e.bucketSize - 1) % 2 ^ 64 / e.bucketSize = 1 := by
        have hs1 : 0 < e.bucketSize := hs
        have hs2 : e.bucketSize + 1 < 2 ^ 64 := hs'
        rw [show 1 + e.bucketSize - 1 = e.bucketSize by omega, Nat.mod_eq_of_lt (by omega), Nat.div_self hs1]
      rw [this]
      rfl
    have hitems : ∀ r, bucketItems e.hash 1 0 (keysOf c tables r) = [⟨0, 0, base64 (if r = c.master then a else b)⟩] := by
      intro r
      rw [hkeys]
      unfold bucketItems
      simp [Bucket.itemsFrom, Nat.mod_one]
    obtain ⟨l, hp⟩ := plays_nonempty (c := e) (by show 2 ≤ 2; omega) (keysOf c tables) hs
      (by intro r hr; rw [hkeys]; show 1 + c.bucketSize ≤ _; omega) hne (fun _ _ => [0]) (by
        intro k hk
        rw [hbn] at hk ⊢
        obtain rfl : k = 0 := by omega
        obtain ⟨l, h⟩ := plays_memory_direct (c := e) (by show 2 ≤ 2; omega) hm rfl
          (fun r => (bucketItems e.hash 1 0 (keysOf c tables r)).map fun x => bytes x.data64)
        refine ⟨l, _, h, ?_⟩
        intro r _
        rw [directOf_two hm]
        have hE : ¬ ∃ u ∈ e.ranks, ((bucketItems e.hash 1 0 (keysOf c tables u)).map fun x => bytes x.data64) = [] := by
          rintro ⟨u, -, h⟩
          rw [hitems] at h
          cases h
        simp only [if_neg hE, if_pos (show r = e.master ∨ e.broadcast = true from Or.inr hbc)]
        simp only [hitems, List.map_cons, List.map_nil, if_true, hmo, if_false]
        rw [show dpOnRun g (oneCoin 0 [bytes (base64 a)] [bytes (base64 b)]) [bytes (base64 a)] [bytes (base64 b)] = _ from h1]
        rfl)
    rw [hbn] at hp
    obtain ⟨l', hp'⟩ := plays_rest (c := e) (by show 2 ≤ 2; omega) tables
      (fun r _ => pair_checked (c := e) c.master ha hb ha' hb' r) (by intro r _; show 1 + 1 < 2 ^ 64; omega) (fun _ => true) l _
      (hp.congr (fun r _ => by simp only [hd, decide_false, Bool.false_eq_true, if_false]; rfl) (fun _ _ => rfl)) (by
        intro r hr
        rw [if_pos (show r = _ ∨ e.broadcast = true from Or.inr hbc)]
        show List.Perm _ (positions (keysOf c tables r) _)
        rw [hkeys]
        exact .refl _)
    exact (hp'.congr (fun _ _ => rfl) (fun r _ => by rw [List.filter_eq_self.mpr (by simp)])).ends _
  · intro r hr
    refine ⟨rfl, ?_⟩
    unfold commonRows
    rw [List.filter_eq_nil_iff]
    intro x _ hcx
    have h0 := (of_decide_eq_true hcx) c.master hm
    have h1 := (of_decide_eq_true hcx) (1 - c.master) (by show 1 - c.master < 2; omega)
    have h0' : x.key c.sep ∈ keysOf c tables c.master := h0
    have h1' : x.key c.sep ∈ keysOf c tables (1 - c.master) := h1
    rw [hkeys] at h0' h1'
    simp only [if_true, hmo, if_false, List.mem_singleton] at h0' h1'
    exact hab (h0'.symm.trans h1')

omit [DecidableEq D] in
/-- **C125, negation.**  `MemoryPsi` sends the number of keys in each bucket in clear.  If the other party has `k'` in place of `k`, and
the two keys fall in different buckets, the receiver sees different sizes for the bucket of `k`, whatever the coins. -/
theorem C125_bucket_sizes (c : Env D) (hm : c.master < 2) (g : DpPsi.Cfg Bytes Pt) (draw : List Bytes → List Bytes → Coins) (n : Nat)
    (mine pre post : List Bytes) (k k' : Bytes) (hk : c.hash (base64 k') % n ≠ c.hash (base64 k) % n) :
    let I := fun (x : Bytes) r => bucketData c n (c.hash (base64 k) % n) (if r = c.master then mine else pre ++ x :: post)
    ∃ (call : Call) (f : Bytes → Nat → Msg D → P D (List Bytes)) (pay : Bytes → Nat → Msg D),
      (∀ x r, memoryRun (dpEnv c g draw) r (I x r) = .call call (pay x r) (f x r)) ∧
      answer (dpEnv c g draw) call (pay k) c.master ≠ answer (dpEnv c g draw) call (pay k') c.master := by
  intro I
  refine ⟨.gather (dpEnv c g draw).ranks, _, fun x r => [.size (I x r).length], fun x r => rfl, ?_⟩
  intro h
  have hm' : ¬ (1 - c.master = c.master) := by omega
  simp only [answer] at h
  have h1 := List.map_inj_left.1 h (1 - c.master) (mem_ranks.2 (show 1 - c.master < 2 by omega))
  simp only [List.headD_cons, Part.size.injEq, I, if_neg hm'] at h1
  unfold bucketData at h1
  simp only [List.length_map, List.filter_append, List.length_append, List.filter_cons, decide_true, if_true, decide_eq_true_eq,
    if_neg hk, List.length_cons] at h1
  omega

/-! ## What remains private -/

omit [DecidableEq D]

theorem mean_mono {p : ℝ} (h0 : 0 ≤ p) (h1 : p ≤ 1) : ∀ {n : Nat} {f h : List Bool → ℝ}, (∀ l, f l ≤ h l) →
    DpPsi.mean p n f ≤ DpPsi.mean p n h
  | 0, _, _, hf => hf []
  | n + 1, _, _, hf => by
    unfold DpPsi.mean
    exact add_le_add (mul_le_mul_of_nonneg_left (mean_mono h0 h1 fun l => hf _) h0)
      (mul_le_mul_of_nonneg_left (mean_mono h0 h1 fun l => hf _) (by linarith))

theorem view_mono (g : DpPsi.Cfg Bytes Pt) (ε : ℝ) (A Y : List Bytes) {f h : List DpPsi.Msg → ℝ} (hf : ∀ m, f m ≤ h m) :
    DpPsi.view g ε A Y f ≤ DpPsi.view g ε A Y h := by
  obtain ⟨h1, h2, h3, h4, -⟩ := DpPsi.probs ε
  exact mean_mono h1.le (by linarith) fun c1 => mean_mono h2.le (by linarith) fun c2 => hf _

theorem view_scale (g : DpPsi.Cfg Bytes Pt) (ε a : ℝ) (A Y : List Bytes) (f : List DpPsi.Msg → ℝ) :
    DpPsi.view g ε A Y (fun m => a * f m) = a * DpPsi.view g ε A Y f := by
  have key : ∀ (p : ℝ) (n : Nat) (f : List Bool → ℝ), DpPsi.mean p n (fun l => a * f l) = a * DpPsi.mean p n f := fun p n f => by
    have := DpPsi.mean_linear (p := p) a 0 (n := n) (f := f) (g := f)
    simpa using this
  unfold DpPsi.view
  rw [← key]
  refine DpPsi.mean_congr fun c1 _ => ?_
  rw [← key]

theorem view_nonneg (g : DpPsi.Cfg Bytes Pt) (ε : ℝ) (A Y : List Bytes) {f : List DpPsi.Msg → ℝ} (hf : ∀ m, 0 ≤ f m) :
    0 ≤ DpPsi.view g ε A Y f := by
  have h1 := view_mono g ε A Y (f := fun m => 0 * f m) (h := f) (fun m => by simpa using hf m)
  rw [view_scale] at h1
  simpa using h1

/-- The mean of a function of all messages that the other party sends, bucket by bucket, over its coins.  `A b`, `Y b`: its items and
the sampled items of the receiver in bucket `b`. -/
noncomputable def viewAll (g : DpPsi.Cfg Bytes Pt) (ε : ℝ) (A Y : Nat → List Bytes) : List Nat → (List (List DpPsi.Msg) → ℝ) → ℝ
  | [], f => f []
  | b :: bs, f => DpPsi.view g ε (A b) (Y b) fun m => viewAll g ε A Y bs fun ms => f (m :: ms)

theorem viewAll_nonneg (g : DpPsi.Cfg Bytes Pt) (ε : ℝ) (A Y : Nat → List Bytes) : ∀ (bs : List Nat) (f : List (List DpPsi.Msg) → ℝ),
    (∀ m, 0 ≤ f m) → 0 ≤ viewAll g ε A Y bs f
  | [], _, hf => hf []
  | _ :: bs, _, hf => view_nonneg g ε _ _ fun _ => viewAll_nonneg g ε A Y bs _ fun _ => hf _

/-- **C125 (partial).**  The messages of all buckets together, as long as in every bucket a key was sampled that the other party does
not have, with either of two tables of its: the probability of every set of messages — indeed the mean of every non-negative function
of them — changes at most by `e ^ ε` for each sampled key, in any bucket, whose membership changes. -/
theorem C125_all_buckets_partial {g : DpPsi.Cfg Bytes Pt} (hc : DpPsi.Laws g) {ε : ℝ} (hε : 0 ≤ ε) (A A' Y : Nat → List Bytes) :
    ∀ (bs : List Nat), (∀ b ∈ bs, DpPsi.NoClash g (A b) (Y b) ∧ DpPsi.NoClash g (A' b) (Y b) ∧ (∃ y ∈ Y b, y ∉ A b) ∧
      ∃ y ∈ Y b, y ∉ A' b) → ∀ f : List (List DpPsi.Msg) → ℝ, (∀ m, 0 ≤ f m) →
    viewAll g ε A Y bs f ≤ Real.exp ε ^ (bs.map fun b => DpPsi.diff (A b) (A' b) (Y b)).sum * viewAll g ε A' Y bs f
  | [], _, f, _ => by simp [viewAll]
  | b :: bs, h, f, hf => by
    obtain ⟨h1, h2, h3, h4⟩ := h b (by simp)
    unfold viewAll
    have e1 := DpPsi.private_group_partial hc h1 h2 hε h3 h4 (fun m => viewAll g ε A Y bs fun ms => f (m :: ms))
      fun m => viewAll_nonneg g ε A Y bs _ fun _ => hf _
    have e2 := view_mono g ε (A' b) (Y b) fun m => C125_all_buckets_partial hc hε A A' Y bs (fun x hx => h x (by simp [hx]))
      (fun ms => f (m :: ms)) fun _ => hf _
    rw [view_scale] at e2
    refine e1.trans ((mul_le_mul_of_nonneg_left e2 (by positivity)).trans (le_of_eq ?_))
    rw [List.map_cons, List.sum_cons, pow_add]
    ring

/-- **C125 (partial).**  The other party has `k'` in place of `k`, and both keys fall in the same bucket.  As long as the receiver's keys
are distinct and in every bucket a key was sampled that the other party does not have, the messages of all buckets together change by
at most `e ^ (2 ε)`. -/
theorem C125_replace_partial {c : Env D} {g : DpPsi.Cfg Bytes Pt} (hc : DpPsi.Laws g) {ε : ℝ} (hε : 0 ≤ ε) (n : Nat)
    (pre post : List Bytes) (k k' : Bytes) (hk : c.hash (base64 k') % n = c.hash (base64 k) % n) (Y : Nat → List Bytes)
    (hY : ∀ b, (Y b).Nodup) (bs : List Nat) (hbs : bs.Nodup)
    (h : ∀ b ∈ bs, ∀ x ∈ [k, k'], DpPsi.NoClash g (bucketData c n b (pre ++ x :: post)) (Y b) ∧
      ∃ y ∈ Y b, y ∉ bucketData c n b (pre ++ x :: post)) (f : List (List DpPsi.Msg) → ℝ) (hf : ∀ m, 0 ≤ f m) :
    viewAll g ε (fun b => bucketData c n b (pre ++ k :: post)) Y bs f ≤
      Real.exp (2 * ε) * viewAll g ε (fun b => bucketData c n b (pre ++ k' :: post)) Y bs f := by
  refine (C125_all_buckets_partial hc hε _ _ Y bs (fun b hb => ?_) f hf).trans
    (mul_le_mul_of_nonneg_right ?_ (viewAll_nonneg g ε _ Y bs f hf))
  · have h1 := h b hb k (by simp)
    have h2 := h b hb k' (by simp)
    exact ⟨h1.1, h2.1, h1.2, h2.2⟩
  · rw [show Real.exp (2 * ε) = Real.exp ε ^ 2 by rw [← Real.exp_nat_mul]; norm_num]
    refine pow_le_pow_right₀ (Real.one_le_exp hε) ?_
    have hone : ∀ b, DpPsi.diff (bucketData c n b (pre ++ k :: post)) (bucketData c n b (pre ++ k' :: post)) (Y b) ≤
        if b = c.hash (base64 k) % n then 2 else 0 := by
      intro b
      unfold DpPsi.diff
      by_cases hb : b = c.hash (base64 k) % n
      · rw [if_pos hb, List.countP_eq_length_filter]
        have := (((hY b).filter fun y => decide (¬ (y ∈ bucketData c n b (pre ++ k :: post) ↔
          y ∈ bucketData c n b (pre ++ k' :: post)))).subperm (l₂ := [data k, data k']) fun y hy => ?_).length_le
        · simpa using this
        · have hd := of_decide_eq_true (List.mem_filter.1 hy).2
          by_contra hne
          apply hd
          simp only [List.mem_cons, List.not_mem_nil, or_false, not_or] at hne
          unfold bucketData
          simp only [List.filter_append, List.filter_cons, hb, hk, decide_true, if_true, List.map_append, List.map_cons,
            List.mem_append, List.mem_cons, hne.1, hne.2, false_or]
      · rw [if_neg hb]
        have : bucketData c n b (pre ++ k :: post) = bucketData c n b (pre ++ k' :: post) := by
          unfold bucketData
          simp only [List.filter_append, List.filter_cons, hk, Ne.symm hb, decide_false, Bool.false_eq_true, if_false]
        rw [this]
        simp
    clear h
    induction bs with
    | nil => simp
    | cons b bs ih =>
      rw [List.map_cons, List.sum_cons]
      rw [List.nodup_cons] at hbs
      by_cases hb : b = c.hash (base64 k) % n
      · have h0 : (bs.map fun b => DpPsi.diff (bucketData c n b (pre ++ k :: post)) (bucketData c n b (pre ++ k' :: post)) (Y b)).sum = 0 := by
          rw [List.sum_eq_zero_iff]
          intro d hd
          obtain ⟨b', hb', rfl⟩ := List.mem_map.1 hd
          have := hone b'
          rw [if_neg (by rintro rfl; exact hbs.1 (hb ▸ hb'))] at this
          omega
        have := hone b
        rw [if_pos hb] at this
        omega
      · have := hone b
        rw [if_neg hb] at this
        have := ih hbs.2
        omega

/-! ## Examples -/

/-- A toy curve: shifted bytes. -/
def shifted : DpPsi.Cfg Bytes Bytes where
  hash x := x
  maskA p := p.map (· + 3)
  maskB p := p.map (· + 4)
  ser p := p
  deser b := b
  dualSize := 1000

theorem shifted_laws : DpPsi.Laws shifted := ⟨fun _ => rfl, fun p => by
  show (p.map (· + 4)).map (· + 3) = (p.map (· + 3)).map (· + 4)
  rw [List.map_map, List.map_map]
  apply List.map_congr_left
  intro x _
  show x + 4 + 3 = x + 3 + 4
  rw [UInt8.add_assoc, UInt8.add_assoc]
  rfl⟩

theorem shifted_noClash {A B : List Bytes} (hA : ∀ x ∈ A, x.length ≤ 1000) (hB : ∀ x ∈ B, x.length ≤ 1000) :
    DpPsi.NoClash shifted A B := by
  intro x hx y hy h
  have h1 := hB x hx
  have h2 := hA y hy
  rw [DpPsi.dual_eq shifted_laws] at h
  have e : ∀ z : Bytes, z.length ≤ 1000 → shifted.dualB z = z.map (· + 7) := by
    intro z hz
    show Ecdh3.tail 1000 ((z.map (· + 3)).map (· + 4)) = _
    unfold Ecdh3.tail
    rw [List.map_map, List.length_map, Nat.sub_eq_zero_of_le hz, List.drop_zero]
    apply List.map_congr_left
    intro w _
    show w + 3 + 4 = w + 7
    rw [UInt8.add_assoc]
    rfl
  rw [e x h1, e y h2] at h
  exact (List.map_injective_iff.2 fun a b h => by simpa using h) h

/-- Everything is sampled, what is common stays, and nothing joins. -/
def exactCoins (B A : List Bytes) : Coins :=
  let m := (DpPsi.sampled A B (DpPsi.bobSample (List.range B.length).reverse (List.replicate B.length true))).map Prod.snd
  ⟨(List.range B.length).reverse, List.replicate B.length true, List.replicate (m.count true) true, List.replicate (m.count false) false⟩

theorem exactCoins_fits (B A : List Bytes) : Fits A B (exactCoins B A) :=
  ⟨List.reverse_perm _, List.length_replicate, List.length_replicate⟩

/-- Two parties, two items to a bucket on average, result for rank 1 alone. -/
def quiet : Env Bytes := { two with master := 1, broadcast := false, bucketSize := 2, hash := fun s => (s.map Char.toNat).sum }

/-- The receiver has `A`, `B`, `C`, `D`, the other party has `B`, `E`, `C`. -/
def quietTables (r : Nat) : Bytes × List Row :=
  ([105], if r = 1 then [row [65], row [66], row [67], row [68]] else [row [66], row [69], row [67]])

/-- The same receiver, and another party with the same keys. -/
def equalTables (_ : Nat) : Bytes × List Row := ([105], [row [65], row [66], row [67], row [68]])

theorem quiet_checked (r : Nat) (_ : r < 2) : checker quiet (quietTables r).1 (quietTables r).2 ≠ none := by
  interval_cases r <;> decide

theorem quiet_noClash :
    DpPsi.NoClash shifted ((keysOf quiet quietTables (1 - quiet.master)).map data) ((keysOf quiet quietTables quiet.master).map data) :=
  shifted_noClash (by decide) (by decide)

example := C125_report_partial (c := quiet) (by decide) rfl shifted_laws exactCoins exactCoins_fits quietTables quiet_checked (by decide)
  (by decide) quiet_noClash (by decide)

/-- With two buckets and these coins the report is the intersection. -/
example : bucketsOf (dpEnv quiet shifted exactCoins) (keysOf quiet quietTables) = 2 ∧
    chosenRows quiet exactCoins 2 quietTables = [row [66], row [67]] := by decide

example := C125_not_private (c := quiet) (by decide) rfl shifted_laws equalTables quietTables rfl (by decide) (by decide) quiet_checked
  (by decide) (by decide) (by decide) quiet_noClash rfl (by decide)

example := C125_broadcast_reveals (c := two) (by decide) rfl shifted_laws (fun r => if r = 0 then [[1], [2], [3]] else [[2], [4]])
  (shifted_noClash (by decide) (by decide)) (by decide) (by decide) (x := [3]) (by decide) (by decide)

example := C125_broadcast_wrong (c := two) (by decide) rfl shifted_laws (a := [65]) (b := [66]) (by decide) (by decide) (by decide)
  (by decide) (by decide) (by decide) (shifted_noClash (by decide) (by decide)) (by decide) (by decide)

/-- `E` in place of `B`. -/
example := C125_bucket_sizes quiet (by decide) shifted exactCoins 2 [[65], [66]] [[67]] [[68]] [66] [69] (by decide)

/-- `H` in place of `B`: the same bucket. -/
example (f : List (List DpPsi.Msg) → ℝ) (hf : ∀ m, 0 ≤ f m) := C125_replace_partial (c := quiet) shifted_laws (ε := 3) (by norm_num) 2
  [[67], [69]] [] [66] [72] (by decide) (fun b => if b < 2 then bucketData quiet 2 b [[65], [66], [67], [68], [70], [71]] else [])
  (by
    intro b
    by_cases h : b < 2
    · interval_cases b <;> decide
    · simp [h])
  [0, 1] (by decide)
  (by
    intro b hb x hx
    simp only [List.mem_cons, List.not_mem_nil, or_false] at hb hx
    rcases hb with rfl | rfl <;> rcases hx with rfl | rfl <;>
      exact ⟨shifted_noClash (by decide) (by decide), by decide⟩) f hf

example := C125_all_buckets_partial shifted_laws (ε := 1) (by norm_num) (fun b => [[UInt8.ofNat b]]) (fun _ => [[7]]) (fun b => [[UInt8.ofNat b], [9]])
  [0, 1] (by
    intro b hb
    simp only [List.mem_cons, List.not_mem_nil, or_false] at hb
    rcases hb with rfl | rfl <;>
      exact ⟨shifted_noClash (by decide) (by decide), shifted_noClash (by decide) (by decide), by decide, by decide⟩)
  (fun _ => 1) (fun _ => zero_le_one)

end Psi.Legacy
