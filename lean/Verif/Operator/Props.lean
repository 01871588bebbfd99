import Verif.Operator.Lemmas

/-!
# The operators: property theorems (C122)

The demand is the same for every protocol: a party that may see the result of a bucket is handed exactly the positions of the
common items, each once, with the count of the peer.
-/

namespace Psi.Operator
open Psi.Spec
open Psi.Ecdh (Bytes Cfg Task State exec init Apart dual2)

variable {α P : Type}

/-! ## ECDH -/

theorem ecdhItems (c : Cfg α P) (inputs : Bool → List (Items α)) (r : Bool) :
    (ecdhCfg c inputs).items r = (inputs r).flatten.map fun x => (x.1, if 1 < x.2 then x.2 - 1 else 0) := by
  show ((inputs r).map wrap).flatten = _
  rw [List.map_flatten]
  rfl

/-- **C122** (ECDH) Under every schedule, when the tasks of a party that may see the result have returned, `OnEnd` hands it
exactly the common items with the counts of the peer, with stores of both kinds. -/
theorem C122_ecdh [DecidableEq α] (c : Cfg α P) (inputs : Bool → List (Items α)) {L : Nat} (hc : (ecdhCfg c inputs).Lawful L)
    (hx : Apart (ecdhCfg c inputs)) (sched : List (Task × Bool)) (s : State α)
    (h : exec (ecdhCfg c inputs) sched (init (ecdhCfg c inputs)) = some s) (r : Bool) (fin : (s.party r).finished = true)
    (hres : c.target = .all ∨ c.target = .rank r) (hin : WellFormed fun r => (inputs r).flatten) (recovery : Bool)
    (binSize nbins : Nat) (bh : List Char → Nat) (hn : 0 < nbins) (hrec : recovery = false ∨ binSize > 1)
    (hl : ∀ r, (inputs r).flatten.length ≤ 2 ^ 32) (hcnt : ∀ r, ∀ x ∈ (inputs r).flatten, x.2 < 2 ^ 32) :
    ∃ w, ecdhEnd recovery binSize nbins bh (s.party r).selfStore (s.party r).peerStore = some w ∧
      ExactIndex (inputs r).flatten (inputs (!r)).flatten w := by
  have hd : ∀ r, (((ecdhCfg c inputs).items r).map Prod.fst).Nodup := by
    intro r
    rw [ecdhItems, List.map_map]
    exact hin.distinct r
  have hback : ∀ x ∈ (inputs (!r)).flatten, (fun d => d + 1) (if 1 < x.2 then x.2 - 1 else 0) = x.2 := by
    intro x hx
    have : 0 < x.2 := hin.positive (!r) x hx
    dsimp only
    split <;> omega
  unfold ecdhEnd initStore
  by_cases hb : binSize > 1
  · obtain ⟨w, hw, he⟩ := Ecdh.C10_exact_intersection (ecdhCfg c inputs) hc hx sched s h r fin hres hd bh nbins hn
      (by intro r; rw [ecdhItems, List.length_map]; exact (hl r).trans (by decide))
      (by
        intro r x hx
        rw [ecdhItems] at hx
        obtain ⟨y, hy, rfl⟩ := List.mem_map.1 hx
        have : y.2 < 2 ^ 32 := hcnt r y hy
        dsimp only
        split <;> omega)
    rw [ecdhItems, ecdhItems] at he
    refine ⟨_, ?_, exact_map (fun n => if 1 < n then n - 1 else 0) (fun n => if 1 < n then n - 1 else 0) (fun d => d + 1) hback he⟩
    have hi : (if recovery = true then Store.buckets else if binSize > 1 then Store.buckets else Store.memory) = Store.buckets := by
      rw [if_pos hb]
      split <;> rfl
    rw [hi, decide_eq_true hb]
    dsimp only
    unfold Bucket.computeIndices at hw
    split at hw
    · rename_i hlen
      rw [if_pos hlen, endBuckets_eq, hw]
      rfl
    · cases hw
  · have hr : recovery = false := hrec.resolve_right hb
    subst hr
    rw [if_neg (by decide), if_neg hb, decide_eq_false hb]
    dsimp only
    have ht : (ecdhCfg c inputs).target.canTouch r = true := by
      have : (ecdhCfg c inputs).target = c.target := rfl
      rw [this]
      rcases hres with h | h <;> simp [h, Ecdh.Target.canTouch]
    obtain ⟨h1, h2⟩ := Ecdh.stores_final (ecdhCfg c inputs) hc sched s h r fin ht
    refine ⟨_, rfl, ?_⟩
    rw [endMemory_eq]
    have e0 : ExactIndex ((ecdhCfg c inputs).items r) ((ecdhCfg c inputs).items (!r))
        ((s.party r).selfStore.zipIdx.filterMap fun x =>
          (((s.party r).peerStore.find? fun y => y.1 = x.1.1).map Prod.snd).map fun d => (x.2, d)) := by
      refine ⟨nodup_lines _ (fun x : Bytes × Nat => ((s.party r).peerStore.find? fun y => y.1 = x.1).map Prod.snd),
        fun i d => ?_⟩
      rw [mem_lines _ (fun x : Bytes × Nat => ((s.party r).peerStore.find? fun y => y.1 = x.1).map Prod.snd)]
      rw [h1, h2]
      constructor
      · rintro ⟨x, hxi, hf⟩
        rw [List.getElem?_map] at hxi
        obtain ⟨y, hy, rfl⟩ := Option.map_eq_some_iff.1 hxi
        rw [Ecdh.find_dual2 _ hx r _ (List.mem_of_getElem? hy) _ (fun y hy => hy), Option.map_map] at hf
        exact ⟨y.1, y.2, hy, (find_unique _ (hd (!r)) _ _).1 hf⟩
      · rintro ⟨x, e, hy, hm⟩
        refine ⟨(dual2 (ecdhCfg c inputs) r x, 0), by rw [List.getElem?_map, hy]; rfl, ?_⟩
        have := Ecdh.find_dual2 _ hx r _ (List.mem_of_getElem? hy) _ (fun y hy => hy)
        dsimp only at this ⊢
        rw [this, Option.map_map]
        exact (find_unique _ (hd (!r)) _ _).2 hm
    rw [ecdhItems, ecdhItems] at e0
    have := exact_map (fun n => if 1 < n then n - 1 else 0) (fun n => if 1 < n then n - 1 else 0) (fun d => d + 1) hback e0
    rw [List.map_filterMap] at this
    refine (congrArg (ExactIndex _ _) (List.filterMap_congr fun x _ => ?_)).mp this
    rw [Option.map_map, Option.map_map, Option.map_map]
    rfl

namespace Ex

/-- Three items at each party, in two and three batches; two are common. -/
def inputs (r : Bool) : List (Items UInt8) :=
  if r then [[(1, 1), (2, 6)], [(3, 2)]] else [[(3, 1)], [(4, 3)], [(1, 2)]]

theorem same (t : Ecdh.Target) : ecdhCfg (Ecdh.Ex.cfg t) inputs = Ecdh.Ex.cfg t := by
  unfold ecdhCfg Ecdh.Ex.cfg
  congr 1
  funext r
  cases r <;> rfl

theorem wellFormed : WellFormed fun r => (inputs r).flatten :=
  ⟨fun r => by cases r <;> decide, fun r => by cases r <;> decide⟩

end Ex

example (recovery : Bool) : ∃ s, exec (ecdhCfg (Ecdh.Ex.cfg .all) Ex.inputs) Ecdh.Ex.sched
      (init (ecdhCfg (Ecdh.Ex.cfg .all) Ex.inputs)) = some s ∧
    (∃ w, ecdhEnd recovery 64 3 List.length (s.party true).selfStore (s.party true).peerStore = some w ∧
      ExactIndex [((1 : UInt8), 1), (2, 6), (3, 2)] [(3, 1), (4, 3), (1, 2)] w) ∧
    ∃ w, ecdhEnd false 1 3 List.length (s.party true).selfStore (s.party true).peerStore = some w ∧
      ExactIndex [((1 : UInt8), 1), (2, 6), (3, 2)] [(3, 1), (4, 3), (1, 2)] w := by
  have he := Ex.same .all
  obtain ⟨s, h, h1, h2⟩ := Ecdh.Ex.sched_ok
  rw [← he] at h
  have key := fun recovery binSize hrec => C122_ecdh (Ecdh.Ex.cfg .all) Ex.inputs (he ▸ Ecdh.Ex.lawful .all)
    (he ▸ (Ecdh.Ex.crypto .all).apart) _ s h true h2 (Or.inl rfl) Ex.wellFormed recovery binSize 3 List.length (by decide) hrec
    (fun r => by cases r <;> decide) (fun r => by cases r <;> decide)
  exact ⟨s, h, key recovery 64 (Or.inr (by decide)), key false 1 (Or.inl rfl)⟩

example : endMemory [([5], 0), ([6], 0), ([7], 0)] [([7], 4), ([9], 1), ([5], 0)] = [(0, 1), (2, 5)] := by decide

/-- A party that may not see the result gets no line. -/
theorem C122_ecdh_others (c : Cfg α P) (inputs : Bool → List (Items α)) {L : Nat} (hc : (ecdhCfg c inputs).Lawful L)
    (sched : List (Task × Bool)) (s : State α) (h : exec (ecdhCfg c inputs) sched (init (ecdhCfg c inputs)) = some s) (r : Bool)
    (hres : c.target = .rank (!r)) (recovery : Bool) (binSize nbins : Nat) (bh : List Char → Nat) (hn : 0 < nbins) (w : Lines)
    (hw : ecdhEnd recovery binSize nbins bh (s.party r).selfStore (s.party r).peerStore = some w) : w = [] := by
  obtain ⟨-, h1, h2, -⟩ := Ecdh.C12_no_result_for_others (ecdhCfg c inputs) hc sched s h r hres
  rw [h1, h2] at hw
  unfold ecdhEnd at hw
  split at hw
  · obtain ⟨w', hw', -, hm⟩ := Bucket.C09_bucket_intersection_exact bh nbins hn [] [] ⟨by simp, by simp⟩ ⟨by simp, by simp⟩
    have h0 : w' = [] := List.eq_nil_iff_forall_not_mem.2 fun l hl => by
      obtain ⟨hi, -⟩ := (hm l.1 l.2).1 hl
      exact Nat.not_lt_zero _ hi
    unfold Bucket.computeIndices at hw'
    split at hw'
    · rename_i hlen
      dsimp only at hw
      rw [if_pos hlen, endBuckets_eq, hw', h0] at hw
      cases hw
      rfl
    · cases hw'
  · cases hw
    rfl
  · cases hw

example : ∃ s, exec (ecdhCfg (Ecdh.Ex.cfg (.rank true)) Ex.inputs) [(.maskSelf, true), (.maskSelf, false), (.maskPeer, false)]
      (init (ecdhCfg (Ecdh.Ex.cfg (.rank true)) Ex.inputs)) = some s ∧
    ∀ w, ecdhEnd false 64 3 List.length (s.party false).selfStore (s.party false).peerStore = some w → w = [] := by
  have he := Ex.same (.rank true)
  refine ⟨_, rfl, fun w hw => C122_ecdh_others (Ecdh.Ex.cfg (.rank true)) Ex.inputs (he ▸ Ecdh.Ex.lawful _)
    [(.maskSelf, true), (.maskSelf, false), (.maskPeer, false)] _ rfl false rfl false 64 3 List.length (by decide) w hw⟩

/-- With recovery and a bin size of at most one the run ends in an exception: `OnInit` makes stores with buckets, `OnEnd`
expects stores in memory. -/
theorem C122_ecdh_recovery_one_bin (binSize nbins : Nat) (bh : List Char → Nat) (self peer : List (Bytes × Nat))
    (h : binSize ≤ 1) : ecdhEnd true binSize nbins bh self peer = none := by
  unfold ecdhEnd initStore
  rw [if_pos rfl, decide_eq_false (by omega)]

example : ecdhEnd true 0 64 List.length [([5], 0)] [([5], 2)] = none := C122_ecdh_recovery_one_bin _ _ _ _ _ (by decide)

/-! ## The broadcast -/

/-- **C122** (broadcast) If one party has the right positions and the other has nothing, the other gets exactly the common
items with the counts of the first, which keeps what it has. -/
theorem C122_broadcast [DecidableEq α] (input : Bool → Items α) (hin : WellFormed input) (inter : Bool → Lines) (rank : Bool)
    (hw : Positions (input rank) (input (!rank)) (inter rank)) (he : inter (!rank) = []) :
    ∃ W, broadcast input inter = some W ∧ W rank = inter rank ∧ ExactIndex (input (!rank)) (input rank) (W (!rank)) := by
  obtain ⟨xs, ha, hlen, hnd, hmem⟩ := announce_spec hw (hin.distinct rank)
  have hb : announce (input (!rank)) (inter (!rank)) = some ([], []) := by rw [he]; rfl
  have hpos : ∀ x ∈ xs, 0 < x.2 := fun x hx => hin.positive rank x ((hmem x).1 hx).1
  -- what is adopted is exact
  have hex : ExactIndex (input (!rank)) (input rank) (adopt (input (!rank)) (xs.map Prod.fst)
      (xs.zipIdx.filterMap fun x => if 1 < x.1.2 then some (x.2, x.1.2) else none)) := by
    have e := adopt_exact (input (!rank)) xs hnd hpos
    refine ⟨e.nodup, fun i d => (e.mem i d).trans ⟨?_, ?_⟩⟩
    · rintro ⟨x, k, h1, h2⟩
      exact ⟨x, k, h1, ((hmem _).1 h2).1⟩
    · rintro ⟨x, k, h1, h2⟩
      exact ⟨x, k, h1, (hmem _).2 ⟨h2, List.mem_map.2 ⟨_, List.mem_of_getElem? h1, rfl⟩⟩⟩
  have hnil : inter rank = [] → ExactIndex (input (!rank)) (input rank) [] := by
    intro h0
    have hx0 : xs = [] := List.eq_nil_of_length_eq_zero (by rw [hlen, h0]; rfl)
    subst hx0
    refine ⟨List.nodup_nil, fun i d => ⟨fun h => absurd h List.not_mem_nil, ?_⟩⟩
    rintro ⟨x, k, h1, h2⟩
    exact absurd ((hmem (x, d)).2 ⟨h2, List.mem_map.2 ⟨_, List.mem_of_getElem? h1, rfl⟩⟩) List.not_mem_nil
  have hne : xs.length ≠ 0 → inter rank ≠ [] := by
    intro h0 h1
    rw [hlen, h1] at h0
    exact h0 rfl
  unfold broadcast
  cases rank with
  | false =>
    rw [ha, show announce (input true) (inter true) = some ([], []) from hb]
    simp only [List.length_map, List.length_nil]
    by_cases h0 : xs.length = 0
    · have hi : inter false = [] := List.eq_nil_of_length_eq_zero (hlen ▸ h0)
      have : Legacy.bcastRank [xs.length, 0] 0 0 = some 0 := by rw [h0]; rfl
      rw [this]
      simp only [h0, Nat.max_self, if_true]
      refine ⟨_, rfl, rfl, ?_⟩
      rw [he]
      exact hnil hi
    · have hroot : Legacy.bcastRank [xs.length, 0] 0 0 = some 0 := by
        unfold Legacy.bcastRank
        rw [if_pos (by omega), if_pos rfl]
        rfl
      rw [hroot]
      simp only [Nat.max_zero, if_neg h0, if_true]
      refine ⟨_, rfl, ?_, ?_⟩
      · exact if_neg (hne h0)
      · rw [if_pos he]
        exact hex
  | true =>
    rw [ha, show announce (input false) (inter false) = some ([], []) from hb]
    simp only [List.length_map, List.length_nil]
    by_cases h0 : xs.length = 0
    · have hi : inter true = [] := List.eq_nil_of_length_eq_zero (hlen ▸ h0)
      have : Legacy.bcastRank [0, xs.length] 0 0 = some 0 := by rw [h0]; rfl
      rw [this]
      simp only [h0, Nat.max_self, if_true]
      refine ⟨_, rfl, rfl, ?_⟩
      rw [he]
      exact hnil hi
    · have hroot : Legacy.bcastRank [0, xs.length] 0 0 = some 1 := by
        unfold Legacy.bcastRank
        rw [if_neg (by omega)]
        unfold Legacy.bcastRank
        rw [if_pos (by omega), if_pos rfl]
        rfl
      rw [hroot]
      simp only [Nat.zero_max, if_neg h0, Nat.one_ne_zero, if_false]
      refine ⟨_, rfl, ?_, ?_⟩
      · exact if_neg (hne h0)
      · rw [if_pos he]
        exact hex

/-- Three items of one party, three of the other; the second party has the positions, with counts that are not used. -/
def exInput (r : Bool) : Items Nat := if r then [(7, 1), (8, 4), (9, 2)] else [(9, 3), (5, 1), (7, 6)]

theorem exInput_wf : WellFormed exInput := ⟨fun r => by cases r <;> decide, fun r => by cases r <;> decide⟩

theorem exPositions : Positions (exInput true) (exInput false) [(2, 0), (0, 0)] := by
  refine ⟨by decide, fun i => ⟨fun h => ?_, ?_⟩⟩
  · have : i = 2 ∨ i = 0 := by simpa using h
    rcases this with rfl | rfl
    · exact ⟨9, 2, rfl, by decide⟩
    · exact ⟨7, 1, rfl, by decide⟩
  · rintro ⟨x, e, h1, h2⟩
    have hi : i < 3 := (List.getElem?_eq_some_iff.1 h1).1
    match i, hi with
    | 0, _ => decide
    | 1, _ =>
      cases h1
      exact absurd h2 (by decide)
    | 2, _ => decide

example := C122_broadcast exInput exInput_wf (fun r => if r then [(2, 0), (0, 0)] else []) true exPositions rfl

example : (broadcast exInput fun r => if r then [(2, 0), (0, 0)] else []).map (fun W => (W false, W true)) =
    some ([(0, 2), (2, 1)], [(2, 0), (0, 0)]) := by decide

/-! ## KKRT -/

/-- **C122** (KKRT, in part) On a bucket that is empty at neither party, if the cuckoo table of the receiver can be built and
neither hashes nor encodings collide: the receiver gets exactly the common items, and counts above one are those of the sender;
the other party gets exactly the common items with the counts of the receiver if the result is broadcast, and nothing else.
What is missing: counts of one are delivered as zero to the receiver, see `C122_kkrt_count_zero`. -/
theorem C122_kkrt_partial [DecidableEq α] (p : Kkrt.Params) (blake : α → Nat) (rank bcast : Bool) (k : KkrtRun)
    (input : Bool → Items α) (hin : WellFormed input) (hblake : ∀ r r', ∀ x ∈ input r, ∀ y ∈ input r', blake x.1 = blake y.1 → x.1 = y.1) (t : Cuckoo.Table)
    (hx : (input rank).length ≤ 2 ^ 56) (hne : ∀ r, input r ≠ []) (hb : 0 < p.batch) (hnb : 0 < p.numBinsOf (input rank).length)
    (ht : Cuckoo.insertAll (p.options (input rank).length) [(input rank).map fun x => blake x.1] = .ok t)
    (hperm : ((List.range (input (!rank)).length).map k.perm).Perm (List.range (input (!rank)).length))
    (hF : ∀ b x, (p.F b x).length = p.size)
    (hfill : ∀ pos h, pos < (input (!rank)).length → h < 3 → (k.fill pos h).length = p.size)
    (hc : Kkrt.Spec.NoCollision p.F (p.numBinsOf (input rank).length) ((input rank).map fun x => blake x.1)
      ((input (!rank)).map fun y => (blake y.1, y.2 - 1)) k.fill) :
    ∃ W, kkrtBucket p blake rank bcast k input = some W ∧
      ExactIndex (input rank) ((input (!rank)).map fun y => (y.1, if 1 < y.2 then y.2 else 0)) (W rank) ∧
      (bcast = true → ExactIndex (input (!rank)) (input rank) (W (!rank))) ∧ (bcast = false → W (!rank) = []) := by
  have hnr : (!rank) ≠ rank := by cases rank <;> decide
  set ys := (input (!rank)).map fun y => (blake y.1, y.2 - 1) with hys
  have hyl : ys.length = (input (!rank)).length := List.length_map _
  have hxl : ((input rank).map fun x => blake x.1).length = (input rank).length := List.length_map _
  have hinj : ∀ r, ((input r).map fun x => blake x.1).Nodup := by
    intro r
    refine (List.Nodup.of_map _ (hin.distinct r)).map_on fun x hx y hy he => ?_
    exact List.inj_on_of_nodup_map (hin.distinct r) hx hy (hblake r r x hx y hy he)
  have hxn := hinj rank
  have hyn : (ys.map Prod.fst).Nodup := by
    rw [hys, List.map_map]
    exact hinj (!rank)
  have hrun := Kkrt.recvIndices_send p ((input rank).map fun x => blake x.1) ys k.step k.perm k.fill k.rs t hxn
    (hxl.trans_le hx) (lt_of_lt_of_eq (List.length_pos_iff.2 (hne _)) hyl.symm) hb (by rw [hxl]; exact hnb)
    (by rw [hxl]; exact ht) (by rw [hyl]; exact hperm) hF (by rw [hyl]; exact hfill) (by rw [hxl]; exact hc)
  have hlines := Kkrt.lines_exact ((input rank).map fun x => blake x.1) ys k.perm hxn hyn (by rw [hyl]; exact hperm)
  rw [List.map_map] at hlines
  have hex := exact_recount (own := input rank) (peer := input (!rank)) blake (fun _ => 0) (fun n => n - 1)
    (fun d => if 1 < d + 1 then d + 1 else 0) (hblake rank (!rank)) hlines
  have hcnt : ((input (!rank)).map fun x => (x.1, (fun d => if 1 < d + 1 then d + 1 else 0) (x.2 - 1))) =
      (input (!rank)).map fun y => (y.1, if 1 < y.2 then y.2 else 0) := by
    apply List.map_congr_left
    intro x hx
    have : 0 < x.2 := hin.positive _ x hx
    rw [Prod.mk.injEq]
    refine ⟨rfl, ?_⟩
    dsimp only
    rw [show x.2 - 1 + 1 = x.2 by omega]
  rw [hcnt, List.map_filterMap] at hex
  have hsame : ((List.range ys.length).filterMap fun q =>
      ((Kkrt.posOf ((input rank).map fun x => blake x.1) (ys.getD (k.perm q) (0, 0)).1).map
        fun i => (i, (ys.getD (k.perm q) (0, 0)).2)).map fun l : Nat × Nat => (l.1, if 1 < l.2 + 1 then l.2 + 1 else 0)) =
      (List.range ys.length).filterMap fun q => (Kkrt.posOf ((input rank).map fun x => blake x.1) (ys.getD (k.perm q) (0, 0)).1).map
        fun i => (i, if 1 < (ys.getD (k.perm q) (0, 0)).2 + 1 then (ys.getD (k.perm q) (0, 0)).2 + 1 else 0) := by
    apply List.filterMap_congr
    intro q _
    rw [Option.map_map]
    rfl
  rw [hsame] at hex
  set w := (List.range ys.length).filterMap fun q => (Kkrt.posOf ((input rank).map fun x => blake x.1)
    (ys.getD (k.perm q) (0, 0)).1).map
        fun i => (i, if 1 < (ys.getD (k.perm q) (0, 0)).2 + 1 then (ys.getD (k.perm q) (0, 0)).2 + 1 else 0) with hwdef
  have hon : kkrtOnRun p blake rank k input = some fun r => if r = rank then w else [] := by
    unfold kkrtOnRun
    rw [if_neg (by rintro (h | h) <;> exact hne _ h)]
    dsimp only
    rw [← hys, hrun]
    rfl
  have hposw : Positions (input rank) (input (!rank)) w := by
    have := positions_of_exact hex
    refine ⟨this.nodup, fun i => (this.mem i).trans ?_⟩
    rw [List.map_map]
    rfl
  unfold kkrtBucket
  rw [hon]
  show ∃ W, seqBucket bcast _ input _ = some W ∧ _
  unfold seqBucket
  cases bcast with
  | false =>
    refine ⟨_, rfl, ?_, fun h => absurd h (by decide), fun _ => ?_⟩
    · simpa using hex
    · simp
  | true =>
    obtain ⟨W, h1, h2, h3⟩ := C122_broadcast input hin (fun r => if r = rank then w else []) rank (by simpa using hposw)
      (by simp)
    rw [if_pos rfl, h1]
    refine ⟨_, rfl, ?_, fun _ => ?_, fun h => absurd h (by decide)⟩
    · simp only [Bool.or_true, if_true]
      rw [h2, if_pos rfl]
      exact hex
    · simp only [Bool.or_true, if_true]
      exact h3

/-- The input of the example of KKRT-PSI: six items at the receiver, three at the sender. -/
def exKkrt (r : Bool) : Items Nat :=
  if r then [(796031015877463607, 1), (12345678901234567, 2), (751741364423228969, 5)] else Kkrt.exXs.map fun x => (x, 2)

def exRun : KkrtRun := ⟨2, Kkrt.exPerm, Kkrt.exFill, [3, 5, 5]⟩

theorem exKkrt_run (bcast : Bool) : ∃ W, kkrtBucket Kkrt.exP (fun x => x) false bcast exRun exKkrt = some W ∧
    ExactIndex (exKkrt false) ((exKkrt true).map fun y => (y.1, if 1 < y.2 then y.2 else 0)) (W false) ∧
    (bcast = true → ExactIndex (exKkrt true) (exKkrt false) (W true)) ∧ (bcast = false → W true = []) := by
  have h : (Cuckoo.insertAll (Kkrt.exP.options Kkrt.exXs.length) [Kkrt.exXs]).toBool = true := by decide +kernel
  obtain ⟨t, ht⟩ : ∃ t, Cuckoo.insertAll (Kkrt.exP.options Kkrt.exXs.length) [Kkrt.exXs] = .ok t := by
    cases he : Cuckoo.insertAll (Kkrt.exP.options Kkrt.exXs.length) [Kkrt.exXs] with
    | error e => rw [he] at h; cases h
    | ok t => exact ⟨t, rfl⟩
  refine C122_kkrt_partial Kkrt.exP (fun x => x) false bcast exRun exKkrt
    ⟨fun r => by cases r <;> decide, fun r => by cases r <;> decide⟩ (fun _ _ _ _ _ _ he => he) t (by decide)
    (fun r => by cases r <;> decide) (by decide) (by decide) ht (by decide) (fun _ _ => rfl) (fun _ _ _ _ => rfl) ⟨?_, ?_⟩
  · have key : ∀ b, b < 9 → ∀ b', b' < 9 → ∀ x ∈ Kkrt.exXs, ∀ y ∈ Kkrt.exXs ++ Kkrt.exYs.map Prod.fst,
        Kkrt.exP.F b x = Kkrt.exP.F b' y → b = b' ∧ x = y := by decide +kernel
    exact fun b b' x y h1 h2 h3 h4 => key b h1 b' h2 x h3 y h4
  · intro pos h b x _ _ hb _ he
    have h9 : b < 9 := hb
    simp only [exRun, Kkrt.exFill, Kkrt.exP, List.cons.injEq] at he
    have := congrArg UInt8.toNat he.1
    rw [UInt8.toNat_ofNat', Nat.mod_eq_of_lt (by omega)] at this
    simp at this
    omega

/-- What is missing in `C122_kkrt_partial`: a common item that the sender has once is handed to the receiver with a count of
zero, in a run in which nothing collides. -/
theorem C122_kkrt_count_zero : ∃ W, kkrtBucket Kkrt.exP (fun x => x) false true exRun exKkrt = some W ∧
    (∃ x, (exKkrt false)[2]? = some x ∧ (x.1, 1) ∈ exKkrt true) ∧ (2, 0) ∈ W false ∧
    ¬ ExactIndex (exKkrt false) (exKkrt true) (W false) := by
  obtain ⟨W, h1, h2, -, -⟩ := exKkrt_run true
  have hm : (2, 0) ∈ W false := (h2.mem 2 0).2 ⟨796031015877463607, 2, rfl, by decide⟩
  refine ⟨W, h1, ⟨(796031015877463607, 2), rfl, by decide⟩, hm, fun h => ?_⟩
  obtain ⟨x, e, -, h4⟩ := (h.mem 2 0).1 hm
  have : ∀ y ∈ exKkrt true, 0 < y.2 := by decide
  exact absurd (this _ h4) (Nat.lt_irrefl 0)

/-- A bucket that is empty at one of the parties makes the whole run fail, at whatever place it is. -/
theorem C122_kkrt_empty_bucket [DecidableEq α] (p : Kkrt.Params) (blake : α → Nat) (rank bcast : Bool)
    (bs : List (KkrtRun × (Bool → Items α))) (b : KkrtRun × (Bool → Items α)) (hb : b ∈ bs) (r : Bool) (he : b.2 r = []) :
    kkrtRun p blake rank bcast bs = none := by
  induction bs with
  | nil => exact absurd hb List.not_mem_nil
  | cons b' bs ih =>
    unfold kkrtRun
    rcases List.mem_cons.1 hb with rfl | hb
    · have : kkrtBucket p blake rank bcast b.1 b.2 = none := by
        unfold kkrtBucket kkrtOnRun
        rw [if_pos]
        · rfl
        · cases rank <;> cases r <;> simp_all
      rw [this]
      rfl
    · rw [ih hb]
      cases kkrtBucket p blake rank bcast b'.1 b'.2 <;> rfl

example := C122_kkrt_empty_bucket Kkrt.exP (fun x => x) false true
  [(exRun, exKkrt), (exRun, fun r => if r then [] else [(5, 1)])] _ (List.mem_cons_of_mem _ (List.mem_singleton.2 rfl)) true rfl

/-! ## RR22 -/

/-- **C122** (RR22) If the values of the parties agree exactly on equal items and none of a common item vanishes: the receiver
gets exactly the common items with the counts of the sender, and the sender exactly the common items with the counts of the
receiver if the result is broadcast, and nothing else; a bucket that is empty at one of the parties gives an empty result. -/
theorem C122_rr22 [DecidableEq α] (vR vS : α → Nat) (m : Nat) (hm : 0 < m) (hm' : m ≤ 16) (rank bcast : Bool)
    (input : Bool → Items α) (hin : WellFormed input) (g : Rr22.Good m vR vS (input rank) (input (!rank)))
    (hl : ∀ r, (input r).length ≤ 2 ^ 32) (chunks : List (List Nat))
    (hc : chunks.flatten.Perm (List.range (input (!rank)).length)) :
    ∃ W, rr22Bucket vR vS m chunks rank bcast input = some W ∧ ExactIndex (input rank) (input (!rank)) (W rank) ∧
      (bcast = true → ExactIndex (input (!rank)) (input rank) (W (!rank))) ∧ (bcast = false → W (!rank) = []) := by
  have hnr : (!rank) ≠ rank := by cases rank <;> decide
  have hnil : ∀ i : Items α, preProcess i = [] ↔ i = [] := by
    intro i
    rw [← List.length_eq_zero_iff, preProcess_length, List.length_eq_zero_iff]
  have hcanon : ∀ r, ∀ x ∈ input r, (fun d => d + 1) (x.2 - 1) = x.2 := by
    intro r x hx
    have : 0 < x.2 := hin.positive r x hx
    show x.2 - 1 + 1 = x.2
    omega
  unfold rr22Bucket
  dsimp only
  by_cases h0 : input rank = [] ∨ input (!rank) = []
  · rw [if_pos (h0.imp (hnil _).2 (hnil _).2)]
    refine ⟨_, rfl, ?_, fun _ => ?_, fun _ => rfl⟩
    · rcases h0 with h | h <;> rw [h]
      · exact exact_nil_left _
      · exact exact_nil_right _
    · rcases h0 with h | h <;> rw [h]
      · exact exact_nil_right _
      · exact exact_nil_left _
  · rw [if_neg fun h => h0 (h.imp (hnil _).1 (hnil _).1)]
    have g' : Rr22.Good m vR vS ((input rank).map fun x => (x.1, x.2 - 1)) ((input (!rank)).map fun x => (x.1, x.2 - 1)) := by
      refine ⟨?_, ?_, ?_, ?_⟩
      · intro x hx
        obtain ⟨y, hy, rfl⟩ := List.mem_map.1 hx
        exact g.ltR y hy
      · intro x hx
        obtain ⟨y, hy, rfl⟩ := List.mem_map.1 hx
        exact g.ltS y hy
      · intro x hx x' hx'
        obtain ⟨y, hy, rfl⟩ := List.mem_map.1 hx
        obtain ⟨y', hy', rfl⟩ := List.mem_map.1 hx'
        exact g.agree y hy y' hy'
      · intro x hx x' hx'
        obtain ⟨y, hy, rfl⟩ := List.mem_map.1 hx
        obtain ⟨y', hy', rfl⟩ := List.mem_map.1 hx'
        exact g.nonzero y hy y' hy'
    obtain ⟨w, h1, h2, h3, h4⟩ := Rr22.C24_intersection_exact_partial hm hm' g'
      (by rw [List.map_map]; exact hin.distinct _) (by rw [List.map_map]; exact hin.distinct _)
      (by rw [List.length_map]; exact hl _) (by rw [List.length_map]; exact hl _) chunks (by rw [List.length_map]; exact hc)
    have hrun : Rr22.receive m (preProcess (input (!rank))).length ((preProcess (input rank)).map fun x => vR x.2.2)
        ((preProcess (input rank)).map fun x => x.2.1) chunks (Rr22.sendBuf m ((preProcess (input (!rank))).map fun y => vS y.2.2))
        (Rr22.cntMap ((preProcess (input (!rank))).map fun y => y.2.1)) = some w := by
      rw [preProcess_length, preProcess_map _ (fun x => vR x.2), preProcess_map _ (fun x => x.1),
        preProcess_map _ (fun x => vS x.2), preProcess_map _ (fun x => x.1)]
      rw [List.length_map, List.map_map, List.map_map, List.map_map, List.map_map] at h1
      exact h1
    rw [hrun]
    have hb1 : ∀ l ∈ Rr22.receiverLines w, l.1 < (input rank).length := by
      have := exact_bound h2
      rwa [List.length_map] at this
    have hb2 : ∀ l ∈ Rr22.senderLines bcast w, l.1 < (input (!rank)).length := by
      cases bcast with
      | false =>
        rw [h4]
        intro l hl
        exact absurd hl List.not_mem_nil
      | true =>
        have := exact_bound h3
        rwa [List.length_map] at this
    show ∃ W, ((postProcess (preProcess (input rank)) (Rr22.receiverLines w)).bind fun a =>
      (postProcess (preProcess (input (!rank))) (Rr22.senderLines bcast w)).map fun b => fun r => if r = rank then a else b) = some W ∧ _
    rw [postProcess_eq _ _ hb1, postProcess_eq _ _ hb2]
    refine ⟨_, rfl, ?_, ?_, ?_⟩
    · beta_reduce
      rw [if_pos rfl]
      exact exact_map (fun n => n - 1) (fun n => n - 1) (fun d => d + 1) (hcanon _) h2
    · rintro rfl
      beta_reduce
      rw [if_neg hnr]
      exact exact_map (fun n => n - 1) (fun n => n - 1) (fun d => d + 1) (hcanon _) h3
    · rintro rfl
      beta_reduce
      rw [if_neg hnr, h4]
      rfl

example := C122_rr22 (fun x : Nat => 1000 * x + 7) (fun x => 1000 * x + 7) 2 (by decide) (by decide) true true exInput exInput_wf
  ⟨by decide, by decide, by decide, by decide⟩ (fun r => by cases r <;> decide) [[2], [0, 1]] (by decide)

example : (rr22Bucket (fun x : Nat => 1000 * x + 7) (fun x => 1000 * x + 7) 2 [[2], [0, 1]] true true exInput).map
    (fun W => (W true, W false)) = some ([(0, 6), (2, 3)], [(2, 1), (0, 2)]) := by decide

/-- **C122** (threads) Without a checkpoint and with at least one thread, every bucket is run by exactly one thread, once. -/
theorem C122_parallel_once (n par : Nat) (hp : 0 < par) : (parallelRun 0 n par).flatten.Perm (List.range n) := by
  unfold parallelRun
  split
  · rw [List.flatten_cons, List.flatten_nil, List.append_nil, Nat.sub_zero, List.range_eq_range']
  · rw [List.perm_ext_iff_of_nodup _ List.nodup_range]
    · intro j
      rw [List.mem_flatten]
      constructor
      · rintro ⟨l, hl, hj⟩
        obtain ⟨t, -, rfl⟩ := List.mem_map.1 hl
        exact (List.mem_filter.1 hj).1
      · intro hj
        exact ⟨_, List.mem_map.2 ⟨j % par, List.mem_range.2 (Nat.mod_lt _ hp), rfl⟩, List.mem_filter.2 ⟨hj, by simp⟩⟩
    · rw [List.nodup_flatten]
      refine ⟨?_, ?_⟩
      · intro l hl
        obtain ⟨t, -, rfl⟩ := List.mem_map.1 hl
        exact List.nodup_range.filter _
      · rw [List.pairwise_map]
        refine List.nodup_range.imp ?_
        intro t t' hne j hj hj'
        have h1 := (List.mem_filter.1 hj).2
        have h2 := (List.mem_filter.1 hj').2
        simp only [decide_eq_true_eq] at h1 h2
        exact hne (h1.symm.trans h2)

example : parallelRun 0 8 3 = [[0, 3, 6], [1, 4, 7], [2, 5]] := by decide

example := C122_parallel_once 8 3 (by decide)

/-- With more buckets than threads the buckets below the checkpoint are run again. -/
theorem C122_parallel_ignores_start (start n par : Nat) (hp : 0 < par) (hn : par < n) :
    (parallelRun start n par).flatten.Perm (List.range n) := by
  have := C122_parallel_once n par hp
  unfold parallelRun at this ⊢
  rw [if_neg (by omega)] at this ⊢
  exact this

example : parallelRun 7 8 3 = [[0, 3, 6], [1, 4, 7], [2, 5]] := by decide

example := C122_parallel_ignores_start 7 8 3 (by decide) (by decide)

/-- With no more buckets than threads, exactly those from the checkpoint on are run, by one thread and in order. -/
theorem C122_parallel_few (start n par : Nat) (hn : n ≤ par) :
    parallelRun start n par = [(List.range n).filter fun j => start ≤ j] := by
  unfold parallelRun
  rw [if_pos hn]
  congr 1
  clear hn
  induction n with
  | zero => simp
  | succ n ih =>
    rw [List.range_succ, List.filter_append, ← ih]
    by_cases h : start ≤ n
    · rw [show n + 1 - start = (n - start) + 1 by omega, List.range'_concat]
      simp [h]
    · rw [show n + 1 - start = 0 by omega, show n - start = 0 by omega]
      simp [h]

example : parallelRun 2 5 6 = [[2, 3, 4]] := C122_parallel_few 2 5 6 (by decide)

/-- With a level of zero no bucket is run, and no error is reported. -/
theorem C122_parallel_zero (start n : Nat) (hn : 0 < n) : parallelRun start n 0 = [] := by
  unfold parallelRun
  rw [if_neg (by omega)]
  rfl

example : parallelRun 0 8 0 = [] := C122_parallel_zero 0 8 (by decide)

/-- The second bucket on the links of the first thread is the one whose number is the level: parties with different levels
compare different buckets. -/
theorem C122_levels_differ (start n par : Nat) (hp : 0 < par) (hn : par < n) :
    ∃ l, (parallelRun start n par)[0]? = some l ∧ l[1]? = some par := by
  unfold parallelRun
  rw [if_neg (by omega)]
  refine ⟨threadBuckets n par 0, ?_, ?_⟩
  · rw [List.getElem?_map, List.getElem?_range hp]
    rfl
  · unfold threadBuckets
    obtain ⟨k, rfl⟩ : ∃ k, n = par + (k + 1) := ⟨n - par - 1, by omega⟩
    obtain ⟨q, rfl⟩ : ∃ q, par = q + 1 := ⟨par - 1, by omega⟩
    rw [List.range_eq_range', ← List.range'_append_1, List.filter_append, Nat.zero_add]
    have h1 : (List.range' 0 (q + 1)).filter (fun j => decide (j % (q + 1) = 0)) = [0] := by
      rw [List.range'_succ, List.filter_cons_of_pos (by simp), List.filter_eq_nil_iff.2]
      intro j hj
      rw [List.mem_range'_1] at hj
      rw [Nat.mod_eq_of_lt (by omega)]
      simp
      omega
    rw [h1, List.range'_succ, List.filter_cons_of_pos (by simp)]
    rfl

example : ∃ l l', (parallelRun 0 8 3)[0]? = some l ∧ (parallelRun 0 8 5)[0]? = some l' ∧ l[1]? = some 3 ∧ l'[1]? = some 5 := by
  obtain ⟨l, h1, h2⟩ := C122_levels_differ 0 8 3 (by decide) (by decide)
  obtain ⟨l', h3, h4⟩ := C122_levels_differ 0 8 5 (by decide) (by decide)
  exact ⟨l, l', h1, h3, h2, h4⟩

end Psi.Operator
