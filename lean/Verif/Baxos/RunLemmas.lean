import Verif.Baxos.Lemmas

/-! # Encoding and decoding by many threads -/

namespace Psi.Baxos
open Psi.Okvs

variable {V : Type}

/-- The keys and values of a bin, in the order of the input. -/
def binItems (c : Cfg) (hs : List Nat) (X : Nat → V) (bin : Nat) : List (Nat × V) :=
  inBin c.nBins bin (allItems hs X hs.length)

theorem binIdx_lt {n h : Nat} (hn : 0 < n) : binIdx n h < n := Nat.mod_lt _ hn

theorem inBin_flatMap (nBins bin : Nat) (f : Nat → List (Nat × V)) (l : List Nat) :
    inBin nBins bin (l.flatMap f) = l.flatMap (fun i => inBin nBins bin (f i)) := by
  unfold inBin
  rw [List.filter_flatMap]

/-- What is known of a bin after it was encoded into `a`. -/
def BinOk (c : Cfg) (enc : List Row → (Nat → V) → Except Okvs.Err (Nat → V)) (hs : List Nat) (X : Nat → V) (bin : Nat)
    (a : Nat → V) : Prop :=
  ∃ p Y, enc (rowsOf c.w c.S ((binItems c hs X bin).map Prod.fst)) Y = .ok p ∧
    (∀ j (h : j < (binItems c hs X bin).length), Y j = (binItems c hs X bin)[j].2) ∧ ∀ k < c.size, a (c.size * bin + k) = p k

theorem scan_done {T : Nat} {hs : List Nat} {s : Nat → Scan} (h : scanDone T hs s = true) {i : Nat} (hi : i < T) :
    first hs.length T (i + 1) - first hs.length T i ≤ (s i).pos := by
  unfold scanDone at h
  rw [List.all_eq_true] at h
  simpa using h i (List.mem_range.mpr hi)

theorem encodeBinAt_ok {c : Cfg} {enc : List Row → (Nat → V) → Except Okvs.Err (Nat → V)} {T : Nat} (hT : 0 < T)
    (hw : c.w ≤ c.S) (hS : c.S < 2 ^ 62) {hs : List Nat} {X : Nat → V} {s : (Nat → Scan) × (Nat → Nat × V)}
    (hinv : ∀ i < T, ScanInv c T hs X i (s.1 i) s.2) (hdone : scanDone T hs s.1 = true) {bin : Nat}
    {ws : List (Nat × V)} (h : encodeBinAt c enc T (fun i => (s.1 i).sizes) s.2 bin = .ok ws) :
    ∃ p Y, enc (rowsOf c.w c.S ((binItems c hs X bin).map Prod.fst)) Y = .ok p ∧
      (∀ j (h : j < (binItems c hs X bin).length), Y j = (binItems c hs X bin)[j].2) ∧
      ws = (List.range c.size).map (fun k => (c.size * bin + k, p k)) := by
  have hpos : ∀ i < T, (s.1 i).pos = first hs.length T (i + 1) - first hs.length T i :=
    fun i hi => Nat.le_antisymm (hinv i hi).pos (scan_done hdone hi)
  have hall : (List.range T).flatMap (fun i => inBin c.nBins bin (slice hs X T i (s.1 i).pos)) = binItems c hs X bin := by
    unfold binItems
    have := slices hs X T T
    rw [first_last hT] at this
    rw [← this, inBin_flatMap]
    apply List.flatMap_congr
    intro i hi
    rw [hpos i (List.mem_range.mp hi)]
  obtain ⟨r, hr, hr2⟩ := merge_eq (c := c) (bin := bin) (sizes := fun i => (s.1 i).sizes) (hash := fun k => (s.2 k).1)
    (val := fun k => (s.2 k).2) (Ls := fun i => inBin c.nBins bin (slice hs X T i (s.1 i).pos)) hT
    (fun i hi => (hinv i hi).sizes bin) (fun i hi => (hinv i hi).cap bin)
    (fun i hi j hj => by
      have := (hinv i hi).mem bin j hj
      exact ⟨congrArg Prod.fst this, congrArg Prod.snd this⟩)
  have hn : ((List.range T).map (fun i => (s.1 i).sizes bin)).sum = (binItems c hs X bin).length := by
    rw [← hall, List.length_flatMap]
    congr 1
    apply List.map_congr_left
    intro i hi
    exact (hinv i (List.mem_range.mp hi)).sizes bin
  simp only [hall] at hr2
  unfold encodeBinAt at h
  simp only [bind, Except.bind] at h
  split at h
  · cases h
  · split at h
    · cases h
    · rw [hr] at h
      simp only [hn] at h
      have hhash : (List.range (binItems c hs X bin).length).map (fun j => r.2.1 (c.perThread T * T * bin + j)) =
          (binItems c hs X bin).map Prod.fst := by
        apply List.ext_getElem
        · simp
        · intro j h1 h2
          simp at h1
          simp only [List.getElem_map, List.getElem_range]
          exact (hr2 j h1).1
      rw [hhash] at h
      have hrows : (if c.w = 3 then rows32 c.avx2 c.w c.S ((binItems c hs X bin).map Prod.fst)
          else rowsOf c.w c.S ((binItems c hs X bin).map Prod.fst)) = rowsOf c.w c.S ((binItems c hs X bin).map Prod.fst) := by
        rw [rows32_eq c.avx2 hw hS]
        split <;> rfl
      rw [hrows] at h
      split at h
      · rename_i p hp
        cases h
        exact ⟨p, _, hp, fun j hj => (hr2 j hj).2, rfl⟩
      · cases h

theorem out_owner {size T i k j : Nat} (hi : i < T) (hj : j < size) : (size * (i + k * T) + j) / size % T = i := by
  rw [Nat.mul_add_div (by omega), Nat.div_eq_of_lt hj, Nat.add_zero, Nat.add_mul_mod_self_right, Nat.mod_eq_of_lt hi]

theorem bin_step {c : Cfg} {enc : List Row → (Nat → V) → Except Okvs.Err (Nat → V)} {T : Nat} (hT : 0 < T)
    (hw : c.w ≤ c.S) (hS : c.S < 2 ^ 62) {hs : List Nat} {X : Nat → V} {s : (Nat → Scan) × (Nat → Nat × V)}
    (hinv : ∀ i < T, ScanInv c T hs X i (s.1 i) s.2) (hdone : scanDone T hs s.1 = true) {i : Nat} (hi : i < T)
    {k k' : Nat} {a : Nat → V} {ws : List (Nat × V)} (h0 : ∀ j < k, i + j * T < c.nBins → BinOk c enc hs X (i + j * T) a)
    (h : binStep c enc T (fun i => (s.1 i).sizes) s.2 i k = .ok (k', ws)) :
    (∀ j < k', i + j * T < c.nBins → BinOk c enc hs X (i + j * T) (Threads.write a ws)) ∧
      ∀ w ∈ ws, c.size ≠ 0 ∧ w.1 / c.size % T = i := by
  unfold binStep at h
  simp only [bind, Except.bind] at h
  split at h
  · rename_i hlt
    split at h
    · cases h
    · rename_i ws' hws
      cases h
      obtain ⟨p, Y, h1, h2, rfl⟩ := encodeBinAt_ok hT hw hS hinv hdone hws
      have hwr : ∀ x, (∀ j < c.size, x ≠ c.size * (i + k * T) + j) →
          Threads.write a ((List.range c.size).map (fun j => (c.size * (i + k * T) + j, p j))) x = a x := by
        intro x hx
        apply Threads.write_of_not_mem
        intro w hw e
        rw [List.mem_map] at hw
        obtain ⟨j, hj, rfl⟩ := hw
        exact hx j (List.mem_range.mp hj) e.symm
      refine ⟨?_, ?_⟩
      · intro j hj hlt'
        by_cases hjk : j = k
        · subst hjk
          refine ⟨p, Y, h1, h2, fun x hx => ?_⟩
          have := (Threads.write_of_fun (a := a) (F := fun y => p (y - c.size * (i + j * T)))
            (ws := (List.range c.size).map (fun x => (c.size * (i + j * T) + x, p x))) (by
              intro w hw
              rw [List.mem_map] at hw
              obtain ⟨y, _, rfl⟩ := hw
              simp only
              congr 1
              omega) (c.size * (i + j * T) + x)).1 (by
                rw [List.map_map, List.mem_map]
                exact ⟨x, List.mem_range.mpr hx, rfl⟩)
          rw [this]
          congr 1
          omega
        · obtain ⟨q, Z, h3, h4, h5⟩ := h0 j (by omega) hlt'
          refine ⟨q, Z, h3, h4, fun x hx => ?_⟩
          rw [hwr _ ?_, h5 x hx]
          intro y hy e
          have e1 : (c.size * (i + j * T) + x) / c.size = (c.size * (i + k * T) + y) / c.size := by rw [e]
          rw [Nat.mul_add_div (by omega), Nat.mul_add_div (by omega), Nat.div_eq_of_lt hx, Nat.div_eq_of_lt hy] at e1
          have e2 : j * T = k * T := by omega
          exact hjk (Nat.eq_of_mul_eq_mul_right hT e2)
      · intro w hw
        rw [List.mem_map] at hw
        obtain ⟨j, hj, rfl⟩ := hw
        rw [List.mem_range] at hj
        exact ⟨by omega, out_owner hi hj⟩
  · cases h
    exact ⟨h0, fun w hw => by cases hw⟩

theorem bins_done {c : Cfg} {T : Nat} {s : Nat → Nat} (h : binsDone c T s = true) {i : Nat} (hi : i < T) :
    c.nBins ≤ i + s i * T := by
  unfold binsDone at h
  rw [List.all_eq_true] at h
  simpa using h i (List.mem_range.mpr hi)

/-- Every bin is encoded. -/
theorem solve_bins [Zero V] {c : Cfg} {enc : List Row → (Nat → V) → Except Okvs.Err (Nat → V)} {threads : Nat}
    (hw : c.w ≤ c.S) (hS : c.S < 2 ^ 62) (hn : c.nBins ≠ 1) {s1 s2 : List Nat} (h1 : ∀ i ∈ s1, i < max 1 threads)
    (h2 : ∀ i ∈ s2, i < max 1 threads) {hs : List Nat} {X out0 out : Nat → V}
    (h : solve c enc threads s1 s2 hs X out0 = .ok out) (bin : Nat) (hb : bin < c.nBins) : BinOk c enc hs X bin out := by
  unfold solve at h
  simp only [bind, Except.bind, if_neg hn] at h
  generalize hT : max 1 threads = T at h h1 h2
  have hT0 : 0 < T := by omega
  split at h
  · cases h
  · split at h
    · cases h
    · rename_i a ha
      split at h
      · cases h
      · rename_i hsd
        split at h
        · cases h
        · rename_i b hbr
          split at h
          · cases h
          · rename_i hbd
            cases h
            have hinv := scan_run h1 ha
            have hsd' : scanDone T hs a.1 = true := by simpa using hsd
            have hbd' : binsDone c T b.1 = true := by simpa using hbd
            have hres := Threads.run_inv T
              (fun i k m => i < T → ∀ j < k, i + j * T < c.nBins → BinOk c enc hs X (i + j * T) m)
              (fun i x => c.size ≠ 0 ∧ x / c.size % T = i) (fun i j k _ _ e1 e2 => by rw [← e1.2, ← e2.2])
              (fun i l m m' e1 e2 hi j hj hlt => by
                obtain ⟨p, Y, h3, h4, h5⟩ := e2 hi j hj hlt
                refine ⟨p, Y, h3, h4, fun x hx => ?_⟩
                rw [← e1 _ ⟨by omega, out_owner hi hx⟩, h5 x hx])
              (fun i l m l' ws hi e1 e2 => by
                have := bin_step hT0 hw hS hinv hsd' hi (e1 hi) e2
                exact ⟨fun _ => this.1, this.2⟩)
              h2 (fun i _ _ j hj => by simp at hj) hbr
            have hi : bin % T < T := Nat.mod_lt _ hT0
            have hdm := Nat.div_add_mod bin T
            have e : bin % T + bin / T * T = bin := by rw [Nat.mul_comm (bin / T)]; omega
            have hd := bins_done hbd' hi
            have hlt : bin / T < b.1 (bin % T) := by
              by_contra hc
              have := Nat.mul_le_mul_right T (Nat.le_of_not_lt hc)
              omega
            have := hres _ hi hi _ hlt (by omega)
            rwa [e] at this

/-! ## Decoding -/

/-- The decoders of a bin and their common value. -/
structure DecOk (c : Cfg) (dec1 : (Nat → V) → (Nat → Nat) → Nat → Except Okvs.Err V)
    (dec32 : (Nat → V) → (Nat → Nat) → (Nat → Nat) → (Nat → V) → Except Okvs.Err (Nat → V)) (dec : (Nat → V) → Row → V) : Prop where
  one : ∀ p row d, dec1 p row d = .ok (dec p ⟨(List.range c.w).map row, d⟩)
  many : ∀ p rows dense v, ∃ u, dec32 p rows dense v = .ok u ∧ ∀ l < 32,
      u l = dec p ⟨(List.range c.w).map (fun j => rows (c.w * l + j)), dense l⟩

/-- The value of key `h`. -/
def valueAt (c : Cfg) (dec : (Nat → V) → Row → V) (pp : Nat → V) (h : Nat) : V :=
  dec (fun k => pp (binIdx c.nBins h * c.size + k)) ⟨buildRow c.w c.S h, h⟩

structure DecInv (c : Cfg) (dec : (Nat → V) → Row → V) (T : Nat) (hs : List Nat) (pp : Nat → V) (i : Nat) (l : Dec)
    (a : Nat → V) : Prop where
  pos : l.pos ≤ first hs.length T (i + 1) - first hs.length T i
  early : l.pos < first hs.length T (i + 1) - first hs.length T i → l.flushed = 0
  buf : ∀ bin, ∀ x ∈ l.buf bin, x.2 < l.pos ∧ x.1 = hs.getD (first hs.length T i + x.2) 0 ∧ binIdx c.nBins x.1 = bin
  done : ∀ x < l.pos,
    (l.flushed ≤ binIdx c.nBins (hs.getD (first hs.length T i + x) 0) ∧
      (hs.getD (first hs.length T i + x) 0, x) ∈ l.buf (binIdx c.nBins (hs.getD (first hs.length T i + x) 0))) ∨
    a (first hs.length T i + x) = valueAt c dec pp (hs.getD (first hs.length T i + x) 0)

theorem decodeBin_ok {c : Cfg} {dec1 : (Nat → V) → (Nat → Nat) → Nat → Except Okvs.Err V}
    {dec32 : (Nat → V) → (Nat → Nat) → (Nat → Nat) → (Nat → V) → Except Okvs.Err (Nat → V)} {dec : (Nat → V) → Row → V}
    (hd : DecOk c dec1 dec32 dec) (hw : c.w ≤ c.S) (hS : c.S < 2 ^ 62) (hw20 : c.w ≤ 20) (p v0 : Nat → V)
    (items : List (Nat × Nat)) : decodeBin c dec1 dec32 p v0 items =
      .ok (items.map (fun x => (x.2, dec p ⟨buildRow c.w c.S x.1, x.1⟩))) := by
  unfold decodeBin
  rw [if_neg (by omega), decodeList_eq (dec p) hw hS (hd.one p) (hd.many p)]
  simp only
  congr 1
  rw [List.map_map, List.zip_map']
  rfl

theorem dec_step {c : Cfg} {dec1 : (Nat → V) → (Nat → Nat) → Nat → Except Okvs.Err V}
    {dec32 : (Nat → V) → (Nat → Nat) → (Nat → Nat) → (Nat → V) → Except Okvs.Err (Nat → V)} {dec : (Nat → V) → Row → V}
    (hd : DecOk c dec1 dec32 dec) (hw : c.w ≤ c.S) (hS : c.S < 2 ^ 62) (hw20 : c.w ≤ 20) {T : Nat} {hs : List Nat}
    {pp v0 : Nat → V} {i : Nat} {l l' : Dec} {a : Nat → V} {ws : List (Nat × V)} (hinv : DecInv c dec T hs pp i l a)
    (h : decStep c dec1 dec32 T hs pp v0 i l = .ok (l', ws)) :
    DecInv c dec T hs pp i l' (Threads.write a ws) ∧ ∀ w ∈ ws, first hs.length T i ≤ w.1 ∧ w.1 < first hs.length T (i + 1) := by
  -- the effect of flushing some items
  have hflush : ∀ bin (items : List (Nat × Nat)), (∀ x ∈ items, x.2 < first hs.length T (i + 1) - first hs.length T i ∧
      x.1 = hs.getD (first hs.length T i + x.2) 0 ∧ binIdx c.nBins x.1 = bin) →
      (∀ x, (hs.getD (first hs.length T i + x) 0, x) ∈ items →
        Threads.write a ((items.map (fun x => (x.2, dec (fun k => pp (bin * c.size + k)) ⟨buildRow c.w c.S x.1, x.1⟩))).map
          (fun w => (first hs.length T i + w.1, w.2))) (first hs.length T i + x) =
          valueAt c dec pp (hs.getD (first hs.length T i + x) 0)) ∧
      (∀ x, a (first hs.length T i + x) = valueAt c dec pp (hs.getD (first hs.length T i + x) 0) →
        Threads.write a ((items.map (fun x => (x.2, dec (fun k => pp (bin * c.size + k)) ⟨buildRow c.w c.S x.1, x.1⟩))).map
          (fun w => (first hs.length T i + w.1, w.2))) (first hs.length T i + x) =
          valueAt c dec pp (hs.getD (first hs.length T i + x) 0)) ∧
      ∀ w ∈ (items.map (fun x => (x.2, dec (fun k => pp (bin * c.size + k)) ⟨buildRow c.w c.S x.1, x.1⟩))).map
          (fun w => (first hs.length T i + w.1, w.2)), first hs.length T i ≤ w.1 ∧ w.1 < first hs.length T (i + 1) := by
    intro bin items hit
    have hF : ∀ w ∈ (items.map (fun x => (x.2, dec (fun k => pp (bin * c.size + k)) ⟨buildRow c.w c.S x.1, x.1⟩))).map
          (fun w => (first hs.length T i + w.1, w.2)), w.2 = valueAt c dec pp (hs.getD w.1 0) := by
      intro w hw
      rw [List.map_map, List.mem_map] at hw
      obtain ⟨x, hx, rfl⟩ := hw
      obtain ⟨_, h2, h3⟩ := hit x hx
      simp only [Function.comp]
      rw [← h2]
      unfold valueAt
      rw [h3]
    refine ⟨fun x hx => ?_, fun x hx => ?_, ?_⟩
    · exact (Threads.write_of_fun (F := fun y => valueAt c dec pp (hs.getD y 0)) hF (first hs.length T i + x)).1 (by
        rw [List.map_map, List.map_map, List.mem_map]
        exact ⟨_, hx, rfl⟩)
    · by_cases hm : first hs.length T i + x ∈ ((items.map (fun x => (x.2, dec (fun k => pp (bin * c.size + k))
          ⟨buildRow c.w c.S x.1, x.1⟩))).map (fun w => (first hs.length T i + w.1, w.2))).map Prod.fst
      · exact (Threads.write_of_fun (F := fun y => valueAt c dec pp (hs.getD y 0)) hF (first hs.length T i + x)).1 hm
      · rw [(Threads.write_of_fun (F := fun y => valueAt c dec pp (hs.getD y 0)) hF (first hs.length T i + x)).2 hm, hx]
    · intro w hw
      rw [List.map_map, List.mem_map] at hw
      obtain ⟨x, hx, rfl⟩ := hw
      have := (hit x hx).1
      simp only [Function.comp]
      omega
  unfold decStep at h
  simp only [bind, Except.bind, decodeBin_ok hd hw hS hw20] at h
  split at h
  · rename_i hpos
    have hfl := hinv.early hpos
    have hitems : ∀ x ∈ l.buf (binIdx c.nBins (hs.getD (first hs.length T i + l.pos) 0)) ++
        [(hs.getD (first hs.length T i + l.pos) 0, l.pos)], x.2 < l.pos + 1 ∧
        x.1 = hs.getD (first hs.length T i + x.2) 0 ∧ binIdx c.nBins x.1 = binIdx c.nBins (hs.getD (first hs.length T i + l.pos) 0) := by
      intro x hx
      rw [List.mem_append, List.mem_singleton] at hx
      rcases hx with hx | rfl
      · obtain ⟨e1, e2, e3⟩ := hinv.buf _ x hx
        exact ⟨by omega, e2, e3⟩
      · exact ⟨Nat.lt_succ_self _, rfl, rfl⟩
    split at h
    · cases h
      obtain ⟨f1, f2, f3⟩ := hflush _ _ (fun x hx => ⟨by have := (hitems x hx).1; omega, (hitems x hx).2⟩)
      refine ⟨⟨hpos, fun _ => hfl, ?_, ?_⟩, f3⟩
      · intro bin x hx
        simp only at hx ⊢
        by_cases hb : bin = binIdx c.nBins (hs.getD (first hs.length T i + l.pos) 0)
        · subst hb
          rw [Function.update_self] at hx
          cases hx
        · rw [Function.update_of_ne hb] at hx
          obtain ⟨e1, e2, e3⟩ := hinv.buf _ x hx
          exact ⟨by omega, e2, e3⟩
      · intro x hx
        simp only at hx ⊢
        by_cases hxp : x = l.pos
        · subst hxp
          right
          exact f1 _ (by simp)
        · rcases hinv.done x (by omega) with ⟨e1, e2⟩ | e
          · by_cases hb : binIdx c.nBins (hs.getD (first hs.length T i + x) 0) = binIdx c.nBins (hs.getD (first hs.length T i + l.pos) 0)
            · right
              rw [hb] at e2
              exact f1 _ (List.mem_append_left _ e2)
            · left
              rw [Function.update_of_ne hb]
              exact ⟨e1, e2⟩
          · right
            exact f2 x e
    · cases h
      refine ⟨⟨hpos, fun _ => hfl, ?_, ?_⟩, fun w hw => by cases hw⟩
      · intro bin x hx
        simp only at hx ⊢
        by_cases hb : bin = binIdx c.nBins (hs.getD (first hs.length T i + l.pos) 0)
        · subst hb
          rw [Function.update_self] at hx
          exact hitems x hx
        · rw [Function.update_of_ne hb] at hx
          obtain ⟨e1, e2, e3⟩ := hinv.buf _ x hx
          exact ⟨by omega, e2, e3⟩
      · intro x hx
        simp only at hx ⊢
        by_cases hxp : x = l.pos
        · subst hxp
          left
          rw [Function.update_self]
          exact ⟨by omega, by simp⟩
        · rcases hinv.done x (by omega) with ⟨e1, e2⟩ | e
          · left
            refine ⟨e1, ?_⟩
            by_cases hb : binIdx c.nBins (hs.getD (first hs.length T i + x) 0) = binIdx c.nBins (hs.getD (first hs.length T i + l.pos) 0)
            · rw [hb, Function.update_self]
              rw [hb] at e2
              exact List.mem_append_left _ e2
            · rw [Function.update_of_ne hb]
              exact e2
          · right
            exact e
  · rename_i hpos
    split at h
    · rename_i hfl
      split at h
      · rename_i hemp
        cases h
        refine ⟨⟨hinv.pos, fun hp => absurd hp hpos, hinv.buf, ?_⟩, fun w hw => by cases hw⟩
        intro x hx
        rcases hinv.done x hx with ⟨e1, e2⟩ | e
        · left
          refine ⟨?_, e2⟩
          by_contra hc
          simp only at hc
          have : binIdx c.nBins (hs.getD (first hs.length T i + x) 0) = l.flushed := by omega
          rw [this, hemp] at e2
          cases e2
        · right
          exact e
      · cases h
        obtain ⟨f1, f2, f3⟩ := hflush l.flushed (l.buf l.flushed) (fun x hx => by
          have := hinv.buf _ x hx
          have := hinv.pos
          exact ⟨by omega, by tauto⟩)
        refine ⟨⟨hinv.pos, fun hp => absurd hp hpos, hinv.buf, ?_⟩, f3⟩
        intro x hx
        rcases hinv.done x hx with ⟨e1, e2⟩ | e
        · by_cases hb : binIdx c.nBins (hs.getD (first hs.length T i + x) 0) = l.flushed
          · right
            rw [hb] at e2
            exact f1 _ e2
          · left
            exact ⟨by simp only; omega, e2⟩
        · right
          exact f2 x e
    · cases h
      exact ⟨hinv, fun w hw => by cases hw⟩

theorem dec_run {c : Cfg} {dec1 : (Nat → V) → (Nat → Nat) → Nat → Except Okvs.Err V}
    {dec32 : (Nat → V) → (Nat → Nat) → (Nat → Nat) → (Nat → V) → Except Okvs.Err (Nat → V)} {dec : (Nat → V) → Row → V}
    (hd : DecOk c dec1 dec32 dec) (hw : c.w ≤ c.S) (hS : c.S < 2 ^ 62) (hw20 : c.w ≤ 20) {T : Nat} {hs : List Nat}
    {pp v0 : Nat → V} {sched : List Nat} (hsched : ∀ i ∈ sched, i < T) {s : (Nat → Dec) × (Nat → V)}
    (h : Threads.run (decStep c dec1 dec32 T hs pp v0) sched (fun _ => ⟨0, fun _ => [], 0⟩, v0) = .ok s) :
    ∀ i < T, DecInv c dec T hs pp i (s.1 i) s.2 :=
  Threads.run_inv T (fun i l a => DecInv c dec T hs pp i l a)
    (fun i x => first hs.length T i ≤ x ∧ x < first hs.length T (i + 1))
    (fun i j k hi hj h1 h2 => by
      rcases Nat.lt_trichotomy i j with hij | rfl | hij
      · have := first_mono hs.length T (show i + 1 ≤ j by omega)
        omega
      · rfl
      · have := first_mono hs.length T (show j + 1 ≤ i by omega)
        omega)
    (fun i l a a' h1 h2 => ⟨h2.pos, h2.early, h2.buf, fun x hx => by
      rcases h2.done x hx with e | e
      · exact .inl e
      · refine .inr ?_
        rw [← h1 _ ⟨by omega, by have := h2.pos; omega⟩, e]⟩)
    (fun i l a l' ws _ h1 h2 => dec_step hd hw hS hw20 h1 h2)
    hsched (fun i _ => ⟨Nat.zero_le _, fun _ => rfl, fun _ x hx => (by cases hx), fun x hx => (by simp at hx)⟩) h

theorem exists_thread {n T : Nat} (hT : 0 < T) {x : Nat} (hx : x < n) : ∃ i < T, first n T i ≤ x ∧ x < first n T (i + 1) := by
  have h : ∀ m ≤ T, x < first n T m → ∃ i < m, first n T i ≤ x ∧ x < first n T (i + 1) := by
    intro m
    induction m with
    | zero => intro _ h; rw [first_zero] at h; omega
    | succ m ih =>
      intro hm h
      by_cases hc : first n T m ≤ x
      · exact ⟨m, by omega, hc, h⟩
      · obtain ⟨i, h1, h2⟩ := ih (by omega) (by omega)
        exact ⟨i, by omega, h2⟩
  exact h T (Nat.le_refl _) (by rw [first_last hT]; exact hx)

/-- Every key gets its value, whatever the number of threads and the schedule. -/
theorem decodeAll_ok {c : Cfg} {dec1 : (Nat → V) → (Nat → Nat) → Nat → Except Okvs.Err V}
    {dec32 : (Nat → V) → (Nat → Nat) → (Nat → Nat) → (Nat → V) → Except Okvs.Err (Nat → V)} {dec : (Nat → V) → Row → V}
    (hd : DecOk c dec1 dec32 dec) (hw : c.w ≤ c.S) (hS : c.S < 2 ^ 62) (hw20 : c.w ≤ 20) (hn : 0 < c.nBins) {threads : Nat}
    {hs : List Nat} {pp v0 v : Nat → V} {sched : List Nat} (hsched : ∀ i ∈ sched, i < max 1 threads)
    (h : decodeAll c dec1 dec32 threads sched hs pp v0 = .ok v) (x : Nat) (hx : x < hs.length) :
    v x = valueAt c dec pp hs[x] := by
  unfold decodeAll at h
  simp only [bind, Except.bind] at h
  split at h
  · rename_i h1
    split at h
    · cases h
    · rw [decodeList_eq (dec pp) hw hS (hd.one pp) (hd.many pp)] at h
      cases h
      simp only
      rw [if_pos hx, List.getD_eq_getElem _ _ (by simpa using hx), List.getElem_map]
      unfold valueAt binIdx
      rw [h1, Nat.mod_one]
      simp
  · split at h
    · cases h
    · generalize hT : max 1 threads = T at h hsched
      have hT0 : 0 < T := by omega
      split at h
      · cases h
      · rename_i a ha
        split at h
        · cases h
        · rename_i hdn
          cases h
          obtain ⟨i, hi, h1, h2⟩ := exists_thread hT0 hx
          have hinv := dec_run hd hw hS hw20 hsched ha i hi
          have hdn' : decDone c T hs a.1 = true := by simpa using hdn
          unfold decDone at hdn'
          rw [List.all_eq_true] at hdn'
          have hdi := hdn' i (List.mem_range.mpr hi)
          simp only [Bool.and_eq_true, decide_eq_true_eq] at hdi
          have e : first hs.length T i + (x - first hs.length T i) = x := by omega
          rcases hinv.done (x - first hs.length T i) (by omega) with ⟨e1, _⟩ | e1
          · have := binIdx_lt (h := hs.getD (first hs.length T i + (x - first hs.length T i)) 0) hn
            omega
          · rw [e, List.getD_eq_getElem _ _ hx] at e1
            exact e1

/-- Decoding does not fail. -/
theorem decodeAll_total {c : Cfg} {dec1 : (Nat → V) → (Nat → Nat) → Nat → Except Okvs.Err V}
    {dec32 : (Nat → V) → (Nat → Nat) → (Nat → Nat) → (Nat → V) → Except Okvs.Err (Nat → V)} {dec : (Nat → V) → Row → V}
    (hd : DecOk c dec1 dec32 dec) (hw : c.w ≤ c.S) (hS : c.S < 2 ^ 62) (hw20 : c.w ≤ 20) (hp : paxosInitOk c 1 = true) (threads : Nat)
    (hs : List Nat) (pp v0 : Nat → V) (sched : List Nat) :
    (∃ v, decodeAll c dec1 dec32 threads sched hs pp v0 = .ok v) ∨
      decodeAll c dec1 dec32 threads sched hs pp v0 = .error .unfinished := by
  unfold decodeAll
  simp only [bind, Except.bind, hp, not_true, if_false, decodeList_eq (dec pp) hw hS (hd.one pp) (hd.many pp)]
  split
  · exact .inl ⟨_, rfl⟩
  · obtain ⟨s, hs'⟩ := Threads.run_ok (step := decStep c dec1 dec32 (max 1 threads) hs pp v0) (by
      intro i l
      unfold decStep
      simp only [bind, Except.bind, decodeBin_ok hd hw hS hw20]
      (repeat' split) <;> exact ⟨_, rfl⟩) sched (fun _ => ⟨0, fun _ => [], 0⟩, v0)
    rw [hs']
    simp only
    split
    · exact .inr rfl
    · exact .inl ⟨_, rfl⟩

/-! ## Schedules that let every thread finish -/

/-- Every thread takes enough steps for its items and all bins. -/
def Fair (c : Cfg) (T n : Nat) (sched : List Nat) : Prop :=
  ∀ i < T, first n T (i + 1) - first n T i + c.nBins ≤ sched.count i

theorem decode_measure {c : Cfg} {dec1 : (Nat → V) → (Nat → Nat) → Nat → Except Okvs.Err V}
    {dec32 : (Nat → V) → (Nat → Nat) → (Nat → Nat) → (Nat → V) → Except Okvs.Err (Nat → V)} {T : Nat} {hs : List Nat}
    {pp v0 : Nat → V} {i : Nat} (l l' : Dec) (ws : List (Nat × V)) (h : decStep c dec1 dec32 T hs pp v0 i l = .ok (l', ws)) :
    (first hs.length T (i + 1) - first hs.length T i - l'.pos) + (c.nBins - l'.flushed) =
      (first hs.length T (i + 1) - first hs.length T i - l.pos) + (c.nBins - l.flushed) - 1 := by
  unfold decStep at h
  simp only [bind, Except.bind] at h
  split at h
  · split at h
    · split at h
      · cases h
      · rename_i hx
        cases h
        simp only
        omega
    · cases h
      simp only
      omega
  · split at h
    · split at h
      · cases h
        simp only
        omega
      · split at h
        · cases h
        · cases h
          simp only
          omega
    · cases h
      omega

theorem decodeBin_ne {c : Cfg} {dec1 : (Nat → V) → (Nat → Nat) → Nat → Except Okvs.Err V}
    {dec32 : (Nat → V) → (Nat → Nat) → (Nat → Nat) → (Nat → V) → Except Okvs.Err (Nat → V)} {p v0 : Nat → V} {items : List (Nat × Nat)} :
    decodeBin c dec1 dec32 p v0 items ≠ .error .unfinished := by
  unfold decodeBin
  (repeat' split) <;> exact fun h => by cases h

theorem decStep_ne {c : Cfg} {dec1 : (Nat → V) → (Nat → Nat) → Nat → Except Okvs.Err V}
    {dec32 : (Nat → V) → (Nat → Nat) → (Nat → Nat) → (Nat → V) → Except Okvs.Err (Nat → V)} {T : Nat} {hs : List Nat}
    {pp v0 : Nat → V} (i : Nat) (l : Dec) : decStep c dec1 dec32 T hs pp v0 i l ≠ .error .unfinished := by
  unfold decStep
  simp only [bind, Except.bind]
  intro h
  split at h
  · split at h
    · generalize hq : decodeBin c dec1 dec32 _ v0 _ = q at h
      cases q with
      | error e => cases h; exact decodeBin_ne hq
      | ok _ => cases h
    · cases h
  · split at h
    · split at h
      · cases h
      · generalize hq : decodeBin c dec1 dec32 _ v0 _ = q at h
        cases q with
        | error e => cases h; exact decodeBin_ne hq
        | ok _ => cases h
    · cases h

/-- A fair schedule decodes everything. -/
theorem decodeAll_fair {c : Cfg} {dec1 : (Nat → V) → (Nat → Nat) → Nat → Except Okvs.Err V}
    {dec32 : (Nat → V) → (Nat → Nat) → (Nat → Nat) → (Nat → V) → Except Okvs.Err (Nat → V)} {threads : Nat} {sched hs : List Nat}
    {pp v0 : Nat → V} (hf : Fair c (max 1 threads) hs.length sched) :
    decodeAll c dec1 dec32 threads sched hs pp v0 ≠ .error .unfinished := by
  unfold decodeAll
  simp only [bind, Except.bind]
  generalize hT : max 1 threads = T at hf
  intro h
  split at h
  · split at h
    · cases h
    · split at h <;> cases h
  · split at h
    · cases h
    · split at h
      · rename_i e he
        cases h
        exact Threads.run_ne_error decStep_ne _ _ he
      · rename_i a ha
        split at h
        · rename_i hd
          apply hd
          unfold decDone
          rw [List.all_eq_true]
          intro i hi
          have := Threads.run_measure (i := i)
            (fun l : Dec => (first hs.length T (i + 1) - first hs.length T i - l.pos) + (c.nBins - l.flushed))
            (fun l l' ws h => Nat.le_of_eq (decode_measure l l' ws h)) ha
          have hfi := hf i (List.mem_range.mp hi)
          simp only [Nat.sub_zero] at this
          simp only [Bool.and_eq_true, decide_eq_true_eq]
          omega
        · cases h

theorem scan_measure {c : Cfg} {T : Nat} {hs : List Nat} {X : Nat → V} {i : Nat} (l l' : Scan) (ws : List (Nat × Nat × V))
    (h : scanStep c T hs X i l = .ok (l', ws)) : first hs.length T (i + 1) - first hs.length T i - l'.pos =
      first hs.length T (i + 1) - first hs.length T i - l.pos - 1 := by
  unfold scanStep at h
  simp only at h
  split at h
  · split at h
    · cases h
      simp only
      omega
    · cases h
  · cases h
    omega

theorem bin_measure {c : Cfg} {enc : List Row → (Nat → V) → Except Okvs.Err (Nat → V)} {T : Nat} {sizes : Nat → Nat → Nat}
    {mem : Nat → Nat × V} {i : Nat} (k k' : Nat) (ws : List (Nat × V)) (h : binStep c enc T sizes mem i k = .ok (k', ws)) :
    (if c.nBins ≤ i + k' * T then 0 else c.nBins - k') ≤ (if c.nBins ≤ i + k * T then 0 else c.nBins - k) - 1 := by
  unfold binStep at h
  simp only [bind, Except.bind] at h
  split at h
  · split at h
    · cases h
    · cases h
      split <;> split <;> omega
  · cases h
    rw [if_pos (by omega)]

theorem scanStep_ne {c : Cfg} {T : Nat} {hs : List Nat} {X : Nat → V} (i : Nat) (l : Scan) :
    scanStep c T hs X i l ≠ .error .unfinished := by
  unfold scanStep
  simp only
  (repeat' split) <;> exact fun h => by cases h

theorem mergeBin_ne {c : Cfg} {T : Nat} {sizes : Nat → Nat → Nat} {bin : Nat} {hash : Nat → Nat} {val : Nat → V} :
    mergeBin c T sizes bin hash val ≠ .error .unfinished := by
  unfold mergeBin
  simp only
  split
  · exact fun h => by cases h
  · generalize (sizes 0 bin, hash, val) = s
    generalize List.range' 1 (T - 1) = l
    induction l generalizing s with
    | nil => exact fun h => by cases h
    | cons a l ih =>
      simp only [List.foldlM_cons, bind, Except.bind]
      split
      · rename_i e he
        intro h
        cases h
        split at he <;> cases he
      · exact ih _

theorem binStep_ne {c : Cfg} {enc : List Row → (Nat → V) → Except Okvs.Err (Nat → V)} {T : Nat} {sizes : Nat → Nat → Nat}
    {mem : Nat → Nat × V} (i k : Nat) : binStep c enc T sizes mem i k ≠ .error .unfinished := by
  unfold binStep encodeBinAt
  simp only [bind, Except.bind]
  intro h
  split at h
  · split at h
    · rename_i e he
      cases h
      split at he
      · cases he
      · split at he
        · cases he
        · split at he
          · rename_i e2 he2
            cases he
            exact mergeBin_ne he2
          · split at he <;> cases he
    · cases h
  · cases h

/-- With fair schedules `solve` has an outcome of the program. -/
theorem solve_fair [Zero V] {c : Cfg} {enc : List Row → (Nat → V) → Except Okvs.Err (Nat → V)} {threads : Nat}
    {s1 s2 : List Nat} {hs : List Nat} {X out0 : Nat → V} (h1 : Fair c (max 1 threads) hs.length s1)
    (h2 : Fair c (max 1 threads) hs.length s2) : solve c enc threads s1 s2 hs X out0 ≠ .error .unfinished := by
  unfold solve
  simp only [bind, Except.bind]
  generalize hT : max 1 threads = T at h1 h2
  have hT0 : 0 < T := by omega
  intro h
  split at h
  · cases h
  · split at h
    · split at h
      · cases h
      · split at h
        · cases h
        · split at h <;> cases h
    · split at h
      · rename_i e he
        cases h
        exact Threads.run_ne_error scanStep_ne _ _ he
      · rename_i a ha
        split at h
        · rename_i hd
          apply hd
          unfold scanDone
          rw [List.all_eq_true]
          intro i hi
          have := Threads.run_measure (i := i)
            (fun l : Scan => first hs.length T (i + 1) - first hs.length T i - l.pos)
            (fun l l' ws h => Nat.le_of_eq (scan_measure l l' ws h)) ha
          have hfi := h1 i (List.mem_range.mp hi)
          simp only [Nat.sub_zero] at this
          rw [decide_eq_true_eq]
          omega
        · split at h
          · rename_i e he
            cases h
            exact Threads.run_ne_error binStep_ne _ _ he
          · rename_i b hb
            split at h
            · rename_i hd
              apply hd
              unfold binsDone
              rw [List.all_eq_true]
              intro i hi
              have := Threads.run_measure (i := i)
                (fun k : Nat => if c.nBins ≤ i + k * T then 0 else c.nBins - k) bin_measure hb
              have hfi := h2 i (List.mem_range.mp hi)
              rw [decide_eq_true_eq]
              simp only at this
              by_contra hc
              rw [if_neg hc] at this
              have hk : b.1 i ≤ b.1 i * T := Nat.le_mul_of_pos_right _ hT0
              split at this <;> omega
            · cases h

end Psi.Baxos
