import Verif.Baxos.Model
import Verif.Okvs.DecodeLemmas

/-! # Lemmas about the binned key-value store -/

namespace Psi.Baxos
open Psi.Okvs

/-! ## Ranges of the threads -/

theorem first_zero (n T : Nat) : first n T 0 = 0 := by simp [first]

theorem first_last {n T : Nat} (hT : 0 < T) : first n T T = n := by simp [first, Nat.mul_div_cancel _ hT]

theorem first_mono (n T : Nat) {i j : Nat} (h : i ≤ j) : first n T i ≤ first n T j :=
  Nat.div_le_div_right (Nat.mul_le_mul_left _ h)

theorem first_le {n T i : Nat} (hT : 0 < T) (hi : i ≤ T) : first n T i ≤ n := by
  have := first_mono n T hi
  rwa [first_last hT] at this

variable {V : Type}

/-- The items in the range of thread `i`, up to position `pos`. -/
def slice (hs : List Nat) (X : Nat → V) (T i pos : Nat) : List (Nat × V) :=
  (List.range pos).map (fun j => (hs.getD (first hs.length T i + j) 0, X (first hs.length T i + j)))

/-- The items of a bin. -/
def inBin (nBins bin : Nat) (l : List (Nat × V)) : List (Nat × V) := l.filter (fun x => binIdx nBins x.1 = bin)

def allItems (hs : List Nat) (X : Nat → V) (n : Nat) : List (Nat × V) := (List.range n).map (fun j => (hs.getD j 0, X j))

theorem slices (hs : List Nat) (X : Nat → V) (T : Nat) (m : Nat) :
    (List.range m).flatMap (fun i => slice hs X T i (first hs.length T (i + 1) - first hs.length T i)) =
      allItems hs X (first hs.length T m) := by
  induction m with
  | zero => simp [allItems, first_zero]
  | succ m ih =>
    rw [List.range_succ, List.flatMap_append, ih]
    unfold allItems slice
    have h : first hs.length T m ≤ first hs.length T (m + 1) := first_mono hs.length T (Nat.le_succ m)
    have e : first hs.length T (m + 1) = first hs.length T m + (first hs.length T (m + 1) - first hs.length T m) := by omega
    conv_rhs => rw [e, List.range_add, List.map_append, List.map_map]
    simp [Function.comp_def]

/-! ## First phase -/

/-- What is known about thread `i` in the first phase. -/
structure ScanInv (c : Cfg) (T : Nat) (hs : List Nat) (X : Nat → V) (i : Nat) (l : Scan) (a : Nat → Nat × V) : Prop where
  pos : l.pos ≤ first hs.length T (i + 1) - first hs.length T i
  sizes : ∀ bin, l.sizes bin = (inBin c.nBins bin (slice hs X T i l.pos)).length
  cap : ∀ bin, l.sizes bin ≤ c.perThread T
  mem : ∀ bin j (h : j < (inBin c.nBins bin (slice hs X T i l.pos)).length),
    a (c.perThread T * T * bin + c.perThread T * i + j) = (inBin c.nBins bin (slice hs X T i l.pos))[j]

theorem cell_owner {per T bin i j : Nat} (hi : i < T) (hj : j < per) : (per * T * bin + per * i + j) / per % T = i := by
  have h1 : per * T * bin + per * i + j = per * (T * bin + i) + j := by rw [Nat.mul_add, Nat.mul_assoc]
  rw [h1, Nat.mul_add_div (by omega), Nat.div_eq_of_lt hj, Nat.add_zero, Nat.mul_add_mod, Nat.mod_eq_of_lt hi]

theorem cell_inj {per T bin bin' i j j' : Nat} (hT : i < T) (hj : j < per) (hj' : j' < per)
    (h : per * T * bin + per * i + j = per * T * bin' + per * i + j') : bin = bin' ∧ j = j' := by
  have h1 : per * T * bin + per * i + j = per * (T * bin + i) + j := by rw [Nat.mul_add, Nat.mul_assoc]
  have h2 : per * T * bin' + per * i + j' = per * (T * bin' + i) + j' := by rw [Nat.mul_add, Nat.mul_assoc]
  rw [h1, h2] at h
  have h3 : (per * (T * bin + i) + j) / per = (per * (T * bin' + i) + j') / per := by rw [h]
  rw [Nat.mul_add_div (by omega), Nat.mul_add_div (by omega), Nat.div_eq_of_lt hj, Nat.div_eq_of_lt hj'] at h3
  have h4 : T * bin = T * bin' := by omega
  have h5 := Nat.eq_of_mul_eq_mul_left (by omega) h4
  subst h5
  omega

theorem slice_succ (hs : List Nat) (X : Nat → V) (T i pos : Nat) :
    slice hs X T i (pos + 1) = slice hs X T i pos ++ [(hs.getD (first hs.length T i + pos) 0, X (first hs.length T i + pos))] := by
  unfold slice
  rw [List.range_succ, List.map_append]
  rfl

theorem inBin_snoc (nBins bin : Nat) (l : List (Nat × V)) (x : Nat × V) :
    inBin nBins bin (l ++ [x]) = if binIdx nBins x.1 = bin then inBin nBins bin l ++ [x] else inBin nBins bin l := by
  unfold inBin
  rw [List.filter_append]
  by_cases h : binIdx nBins x.1 = bin
  · rw [if_pos h, List.filter_cons_of_pos (by simpa using h), List.filter_nil]
  · rw [if_neg h, List.filter_cons_of_neg (by simpa using h), List.filter_nil, List.append_nil]

theorem scan_step {c : Cfg} {T : Nat} {hs : List Nat} {X : Nat → V} {i : Nat} (hi : i < T) {l l' : Scan} {a : Nat → Nat × V}
    {ws : List (Nat × (Nat × V))} (hinv : ScanInv c T hs X i l a) (h : scanStep c T hs X i l = .ok (l', ws)) :
    ScanInv c T hs X i l' (Threads.write a ws) ∧ ∀ w ∈ ws, w.1 / c.perThread T % T = i := by
  unfold scanStep at h
  simp only at h
  split at h
  · rename_i hpos
    split at h
    · rename_i hcap
      cases h
      have hsl := slice_succ hs X T i l.pos
      have hinv' := hinv
      obtain ⟨_, hsz, hcp, hmem⟩ := hinv
      generalize (hs.getD (first hs.length T i + l.pos) 0) = H at *
      generalize X (first hs.length T i + l.pos) = y at *
      generalize hL : slice hs X T i l.pos = L at *
      have hbin : ∀ bin, inBin c.nBins bin (slice hs X T i (l.pos + 1)) =
          if binIdx c.nBins H = bin then inBin c.nBins bin L ++ [(H, y)] else inBin c.nBins bin L := by
        intro bin
        rw [hsl, inBin_snoc]
      refine ⟨⟨hpos, ?_, ?_, ?_⟩, ?_⟩
      · intro bin
        simp only
        rw [hbin]
        by_cases hb : binIdx c.nBins H = bin
        · subst hb
          rw [Function.update_self, hsz, if_pos rfl, List.length_append]
          rfl
        · rw [Function.update_of_ne (Ne.symm hb), hsz, if_neg hb]
      · intro bin
        simp only
        by_cases hb : bin = binIdx c.nBins H
        · subst hb
          rw [Function.update_self]
          omega
        · rw [Function.update_of_ne hb]
          exact hcp bin
      · intro bin j hj
        have hw : ∀ k, Threads.write a [(c.perThread T * T * binIdx c.nBins H + c.perThread T * i +
            l.sizes (binIdx c.nBins H), H, y)] k =
            Function.update a (c.perThread T * T * binIdx c.nBins H + c.perThread T * i + l.sizes (binIdx c.nBins H)) (H, y) k :=
          fun k => rfl
        rw [hw]
        simp only [hbin] at hj ⊢
        by_cases hb : binIdx c.nBins H = bin
        · subst hb
          simp only [if_true] at hj ⊢
          by_cases hlt : j < (inBin c.nBins (binIdx c.nBins H) L).length
          · rw [List.getElem_append_left hlt, Function.update_of_ne]
            · exact hmem _ j hlt
            · have := hsz (binIdx c.nBins H)
              omega
          · rw [List.length_append] at hj
            simp only [List.length_cons, List.length_nil] at hj
            have hj2 : j = (inBin c.nBins (binIdx c.nBins H) L).length := by omega
            rw [hsz, ← hj2, Function.update_self, List.getElem_append_right (by omega)]
            simp
        · simp only [if_neg hb] at hj ⊢
          rw [Function.update_of_ne]
          · exact hmem bin j hj
          · intro e
            have hc := hcp bin
            have hs' := hsz bin
            exact hb (cell_inj hi (by omega) hcap e).1.symm
      · intro w hw
        rw [List.mem_singleton] at hw
        subst hw
        exact cell_owner hi hcap
    · cases h
  · cases h
    exact ⟨hinv, fun w hw => by cases hw⟩

theorem scan_init (c : Cfg) (T : Nat) (hs : List Nat) (X : Nat → V) (i : Nat) (a : Nat → Nat × V) :
    ScanInv c T hs X i ⟨0, fun _ => 0⟩ a :=
  ⟨Nat.zero_le _, fun _ => by simp [slice, inBin], fun _ => Nat.zero_le _, fun _ _ h => by simp [slice, inBin] at h⟩

theorem scan_local {c : Cfg} {T : Nat} {hs : List Nat} {X : Nat → V} {i : Nat} (hi : i < T) {l : Scan} {a a' : Nat → Nat × V}
    (h : ∀ k, k / c.perThread T % T = i → a k = a' k) (hinv : ScanInv c T hs X i l a) : ScanInv c T hs X i l a' := by
  refine ⟨hinv.pos, hinv.sizes, hinv.cap, fun bin j hj => ?_⟩
  rw [← hinv.mem bin j hj]
  refine (h _ (cell_owner hi ?_)).symm
  have := hinv.cap bin
  have := hinv.sizes bin
  omega

theorem scan_run {c : Cfg} {T : Nat} {hs : List Nat} {X : Nat → V} {sched : List Nat} (hsched : ∀ i ∈ sched, i < T)
    {m0 : Nat → Nat × V} {s : (Nat → Scan) × (Nat → Nat × V)}
    (h : Threads.run (scanStep c T hs X) sched (fun _ => ⟨0, fun _ => 0⟩, m0) = .ok s) :
    ∀ i < T, ScanInv c T hs X i (s.1 i) s.2 :=
  Threads.run_inv T (fun i l a => i < T → ScanInv c T hs X i l a) (fun i k => k / c.perThread T % T = i)
    (fun i j k _ _ h1 h2 => by rw [← h1, ← h2])
    (fun i l a a' h1 h2 hi => scan_local hi h1 (h2 hi))
    (fun i l a l' ws hi h1 h2 => ⟨fun _ => (scan_step hi (h1 hi) h2).1, (scan_step hi (h1 hi) h2).2⟩)
    hsched (fun i _ _ => scan_init c T hs X i _) h |> fun h i hi => h i hi hi

/-! ## Merging -/

theorem copyLoop_eq (a : Nat → V) {dst src : Nat} (h : dst ≤ src) (n k : Nat) :
    copyLoop a dst src n k = if dst ≤ k ∧ k < dst + n then a (src + (k - dst)) else a k := by
  unfold copyLoop
  induction n generalizing k with
  | zero => rw [if_neg (by omega)]; rfl
  | succ n ih =>
    rw [List.range_succ, List.foldl_append, List.foldl_cons, List.foldl_nil]
    by_cases hk : k = dst + n
    · subst hk
      rw [Function.update_self, ih, if_neg (by omega), if_pos (by omega)]
      congr 1
      omega
    · rw [Function.update_of_ne hk, ih]
      by_cases h2 : dst ≤ k ∧ k < dst + n
      · rw [if_pos h2, if_pos (by omega)]
      · rw [if_neg h2, if_neg (by omega)]

theorem moveBlock_eq (a : Nat → Nat) (dst src n k : Nat) :
    moveBlock a dst src n k = if dst ≤ k ∧ k < dst + n then a (src + (k - dst)) else a k := rfl

/-- The items of the first `m` threads are at the beginning of the bin. -/
theorem merge_fold {c : Cfg} {T : Nat} {bin : Nat} {sizes : Nat → Nat → Nat} {hash : Nat → Nat} {val : Nat → V}
    {Ls : Nat → List (Nat × V)} (hlen : ∀ i < T, sizes i bin = (Ls i).length) (hcap : ∀ i < T, sizes i bin ≤ c.perThread T)
    (hmem : ∀ i < T, ∀ j (h : j < (Ls i).length), hash (c.perThread T * T * bin + c.perThread T * i + j) = (Ls i)[j].1 ∧
      val (c.perThread T * T * bin + c.perThread T * i + j) = (Ls i)[j].2) (m : Nat) (hm : m + 1 ≤ T) :
    ∃ r, (List.range' 1 m).foldlM (fun (s : Nat × (Nat → Nat) × (Nat → V)) i =>
        if c.perThread T < sizes i bin then (.error .check : Except Err _)
        else .ok (s.1 + sizes i bin, moveBlock s.2.1 (c.perThread T * T * bin + s.1) (c.perThread T * T * bin + c.perThread T * i) (sizes i bin),
          copyLoop s.2.2 (c.perThread T * T * bin + s.1) (c.perThread T * T * bin + c.perThread T * i) (sizes i bin)))
        (sizes 0 bin, hash, val) = .ok r ∧
      r.1 = ((List.range (m + 1)).flatMap Ls).length ∧ r.1 ≤ c.perThread T * (m + 1) ∧
      (∀ j (h : j < ((List.range (m + 1)).flatMap Ls).length),
        r.2.1 (c.perThread T * T * bin + j) = ((List.range (m + 1)).flatMap Ls)[j].1 ∧
        r.2.2 (c.perThread T * T * bin + j) = ((List.range (m + 1)).flatMap Ls)[j].2) ∧
      ∀ k, c.perThread T * T * bin + c.perThread T * (m + 1) ≤ k → r.2.1 k = hash k ∧ r.2.2 k = val k := by
  induction m with
  | zero =>
    refine ⟨_, rfl, ?_, ?_, ?_, ?_⟩
    · simp [hlen 0 (by omega)]
    · simpa using hcap 0 (by omega)
    · intro j hj
      simp only [Nat.zero_add, List.range_one, List.flatMap_cons, List.flatMap_nil, List.append_nil] at hj ⊢
      have := hmem 0 (by omega) j hj
      simpa using this
    · intro k _
      exact ⟨rfl, rfl⟩
  | succ m ih =>
    obtain ⟨r, h1, h2, h3, h4, h5⟩ := ih (by omega)
    have hr : List.range' 1 (m + 1) = List.range' 1 m ++ [m + 1] := by rw [List.range'_concat]; simp [Nat.add_comm]
    rw [hr, List.foldlM_append, h1]
    have hc := hcap (m + 1) (by omega)
    have hl := hlen (m + 1) (by omega)
    have hstep : c.perThread T * (m + 1 + 1) = c.perThread T * (m + 1) + c.perThread T := Nat.mul_succ _ _
    refine ⟨(r.1 + sizes (m + 1) bin, moveBlock r.2.1 (c.perThread T * T * bin + r.1) (c.perThread T * T * bin + c.perThread T * (m + 1)) (sizes (m + 1) bin),
          copyLoop r.2.2 (c.perThread T * T * bin + r.1) (c.perThread T * T * bin + c.perThread T * (m + 1)) (sizes (m + 1) bin)), ?_, ?_, ?_, ?_, ?_⟩
    · simp only [bind, Except.bind, List.foldlM_cons, List.foldlM_nil]
      rw [if_neg (by omega)]
      rfl
    · simp only
      rw [List.range_succ, List.flatMap_append, List.length_append, h2, hl]
      simp
    · simp only
      omega
    · intro j hj
      have hlist : (List.range (m + 1 + 1)).flatMap Ls = (List.range (m + 1)).flatMap Ls ++ Ls (m + 1) := by
        rw [List.range_succ (n := m + 1), List.flatMap_append]
        simp
      simp only [hlist] at hj ⊢
      rw [moveBlock_eq, copyLoop_eq _ (by omega)]
      by_cases hjl : j < ((List.range (m + 1)).flatMap Ls).length
      · rw [List.getElem_append_left hjl, if_neg (by omega), if_neg (by omega)]
        exact h4 j hjl
      · rw [List.length_append] at hj
        rw [List.getElem_append_right (by omega), if_pos (by omega), if_pos (by omega)]
        have e : c.perThread T * T * bin + j - (c.perThread T * T * bin + r.1) = j - ((List.range (m + 1)).flatMap Ls).length := by
          omega
        rw [e, (h5 _ (by omega)).1, (h5 _ (by omega)).2]
        exact hmem (m + 1) (by omega) _ (by omega)
    · intro k hk
      simp only
      rw [moveBlock_eq, copyLoop_eq _ (by omega), if_neg (by omega), if_neg (by omega)]
      exact h5 k (by omega)

theorem merge_eq {c : Cfg} {T : Nat} (hT : 0 < T) {bin : Nat} {sizes : Nat → Nat → Nat} {hash : Nat → Nat} {val : Nat → V}
    {Ls : Nat → List (Nat × V)} (hlen : ∀ i < T, sizes i bin = (Ls i).length) (hcap : ∀ i < T, sizes i bin ≤ c.perThread T)
    (hmem : ∀ i < T, ∀ j (h : j < (Ls i).length), hash (c.perThread T * T * bin + c.perThread T * i + j) = (Ls i)[j].1 ∧
      val (c.perThread T * T * bin + c.perThread T * i + j) = (Ls i)[j].2) :
    ∃ r, mergeBin c T sizes bin hash val = .ok r ∧
      ∀ j (h : j < ((List.range T).flatMap Ls).length),
        r.2.1 (c.perThread T * T * bin + j) = ((List.range T).flatMap Ls)[j].1 ∧
        r.2.2 (c.perThread T * T * bin + j) = ((List.range T).flatMap Ls)[j].2 := by
  obtain ⟨m, rfl⟩ : ∃ m, T = m + 1 := ⟨T - 1, by omega⟩
  obtain ⟨r, h1, _, _, h4, _⟩ := merge_fold hlen hcap hmem m (Nat.le_refl _)
  refine ⟨r, ?_, h4⟩
  unfold mergeBin
  simp only
  have := hcap 0 (by omega)
  rw [if_neg (by omega), Nat.add_sub_cancel]
  exact h1

/-! ## Rows -/

theorem rows32_eq (avx2 : Bool) {w S : Nat} (hw : w ≤ S) (hS : S < 2 ^ 62) (hs : List Nat) :
    rows32 avx2 w S hs = rowsOf w S hs := by
  unfold rows32 rowsOf
  have hsplit : hs = hs.take (hs.length / 32 * 32) ++ hs.drop (hs.length / 32 * 32) := (List.take_append_drop _ _).symm
  conv_rhs => rw [hsplit, List.map_append]
  congr 1
  have hrow : ∀ (f : Nat → Nat) k, k < 32 → ((buildRow32 avx2 w S f).drop (w * k)).take w = buildRow w S (f k) := by
    intro f k hk
    rw [← row32_getD avx2 hw hS f hk]
    have hlen : (buildRow32 avx2 w S f).length = w * 32 := by
      rw [buildRow32_eq avx2 hw hS]
      generalize (32 : Nat) = m
      induction m with
      | zero => simp
      | succ m ih =>
        rw [List.range_succ, List.flatMap_append, List.length_append, ih]
        simp [(buildRow_spec hw (f m)).2.1, Nat.mul_add]
    have hle : w * k + w ≤ w * 32 := by
      rw [← Nat.mul_succ]
      exact Nat.mul_le_mul_left _ hk
    apply List.ext_getElem
    · simp [hlen]; omega
    · intro n h1 h2
      simp at h1
      simp only [List.getElem_take, List.getElem_drop, List.getElem_map, List.getElem_range]
      rw [List.getD_eq_getElem _ _ (by omega)]
  have hgen : ∀ n, 32 * n ≤ hs.length → ((List.range n).flatMap fun c => (List.range 32).map fun k =>
      (⟨((buildRow32 avx2 w S (fun k => hs.getD (32 * c + k) 0)).drop (w * k)).take w, hs.getD (32 * c + k) 0⟩ : Row)) =
      (hs.take (n * 32)).map (fun h => ⟨buildRow w S h, h⟩) := by
    intro n hn
    induction n with
    | zero => simp
    | succ n ih =>
      rw [List.range_succ (n := n), List.flatMap_append, ih (by omega),
        show (n + 1) * 32 = n * 32 + 32 by omega, List.take_add, List.map_append]
      congr 1
      simp only [List.flatMap_cons, List.flatMap_nil, List.append_nil]
      apply List.ext_getElem
      · simp; omega
      · intro i h1 h2
        simp only [List.getElem_map, List.getElem_range, List.getElem_take, List.getElem_drop]
        simp at h1
        rw [hrow _ i h1, List.getD_eq_getElem _ _ (by omega)]
        simp only [Nat.mul_comm 32 n]
  exact hgen _ (by omega)

end Psi.Baxos
