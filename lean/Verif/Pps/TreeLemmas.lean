import Verif.Pps.Model
import Mathlib.Data.Nat.Bitwise
import Mathlib.Data.List.GetD
import Mathlib.Data.List.Dedup
import Mathlib.Data.List.Sort
import Mathlib.Tactic.Ring

/-! # The tree, sets and punctured keys -/

namespace Psi.Pps

open Psi.Spiral (Res mapRes w64)

/-! ### Sets -/

theorem mem_setInsert {x y : Nat} : ∀ {l : List Nat}, y ∈ setInsert x l ↔ y = x ∨ y ∈ l
  | [] => by simp [setInsert]
  | z :: r => by
    rw [setInsert]
    split_ifs with h1 h2
    · simp
    · subst h2; simp
    · rw [List.mem_cons, mem_setInsert, List.mem_cons]; tauto

theorem sorted_setInsert {x : Nat} : ∀ {l : List Nat}, l.Pairwise (· < ·) → (setInsert x l).Pairwise (· < ·)
  | [], _ => by simp [setInsert]
  | z :: r, h => by
    rw [setInsert]
    rw [List.pairwise_cons] at h
    split_ifs with h1 h2
    · refine List.pairwise_cons.mpr ⟨?_, List.pairwise_cons.mpr h⟩
      intro y hy
      rcases List.mem_cons.mp hy with rfl | hy
      · exact h1
      · exact lt_trans h1 (h.1 y hy)
    · exact List.pairwise_cons.mpr h
    · refine List.pairwise_cons.mpr ⟨?_, sorted_setInsert h.2⟩
      intro y hy
      rcases mem_setInsert.mp hy with rfl | hy
      · omega
      · exact h.1 y hy

theorem mem_foldl_setInsert {y : Nat} : ∀ (xs l : List Nat), y ∈ xs.foldl (fun l x => setInsert x l) l ↔ y ∈ xs ∨ y ∈ l
  | [], l => by simp
  | x :: xs, l => by rw [List.foldl_cons, mem_foldl_setInsert, mem_setInsert, List.mem_cons]; tauto

theorem sorted_foldl_setInsert : ∀ (xs : List Nat) {l : List Nat}, l.Pairwise (· < ·) →
    (xs.foldl (fun l x => setInsert x l) l).Pairwise (· < ·)
  | [], _, h => h
  | x :: xs, l, h => by rw [List.foldl_cons]; exact sorted_foldl_setInsert xs (sorted_setInsert h)

theorem sorted_ext {l m : List Nat} (hl : l.Pairwise (· < ·)) (hm : m.Pairwise (· < ·)) (h : ∀ x, x ∈ l ↔ x ∈ m) : l = m :=
  List.Perm.eq_of_pairwise (fun _ _ _ _ h1 h2 => absurd h1 (lt_asymm h2)) hl hm
    ((List.perm_ext_iff_of_nodup (hl.imp fun h => ne_of_lt h) (hm.imp fun h => ne_of_lt h)).mpr h)

/-- A sorted list is the set of its elements. -/
theorem foldl_setInsert_sorted {l : List Nat} (h : l.Pairwise (· < ·)) : l.foldl (fun l x => setInsert x l) [] = l :=
  sorted_ext (sorted_foldl_setInsert l List.Pairwise.nil) h fun x => by rw [mem_foldl_setInsert]; simp

theorem foldl_setInsert_length {l : List Nat} : (l.foldl (fun l x => setInsert x l) []).length = l.length ↔ l.Nodup := by
  have hn : (l.foldl (fun l x => setInsert x l) []).Nodup :=
    (sorted_foldl_setInsert l List.Pairwise.nil).imp fun h => ne_of_lt h
  have hm : ∀ x, x ∈ l.foldl (fun l x => setInsert x l) [] ↔ x ∈ l.dedup := by
    intro x; rw [mem_foldl_setInsert, List.mem_dedup]; simp
  have hp := ((List.perm_ext_iff_of_nodup hn (List.nodup_dedup l)).mpr hm).length_eq
  rw [hp]
  constructor
  · intro h
    have := (List.dedup_sublist l).eq_of_length h
    rw [← this]
    exact List.nodup_dedup l
  · intro h
    rw [List.Nodup.dedup h]

/-! ### The map -/

theorem foldl_emplace : ∀ (ps m : List (Nat × Nat)), (ps.foldl emplace m).length ≤ m.length + ps.length ∧
    ((ps.foldl emplace m).length = m.length + ps.length → (m.map Prod.fst).Nodup →
      ps.foldl emplace m = m ++ ps ∧ ((m ++ ps).map Prod.fst).Nodup)
  | [], m => by simp
  | e :: r, m => by
    rw [List.foldl_cons, emplace]
    split_ifs with h
    · have := (foldl_emplace r m).1
      refine ⟨by simp only [List.length_cons]; omega, fun he => ?_⟩
      simp only [List.length_cons] at he
      omega
    · obtain ⟨h1, h2⟩ := foldl_emplace r (m ++ [e])
      simp only [List.length_append, List.length_cons, List.length_nil] at h1 h2 ⊢
      refine ⟨by omega, fun he hn => ?_⟩
      have := h2 (by omega) (by
        rw [List.map_append, List.map_cons, List.map_nil, List.nodup_append]
        exact ⟨hn, by simp, by
          intro a ha b hb hab
          rw [List.mem_singleton] at hb
          exact h (hb ▸ hab ▸ ha)⟩)
      rw [List.append_assoc, List.singleton_append] at this
      exact this

theorem foldl_emplace_nodup : ∀ (ps m : List (Nat × Nat)), ((m ++ ps).map Prod.fst).Nodup →
    ps.foldl emplace m = m ++ ps
  | [], m, _ => by simp
  | e :: r, m, h => by
    rw [List.foldl_cons, emplace, if_neg, foldl_emplace_nodup r]
    · simp
    · simpa using h
    · intro he
      rw [List.map_append, List.nodup_append] at h
      exact h.2.2 _ he _ (by simp) rfl

section Tree

variable (prg : Nat → Nat × Nat)

/-- The value at a node of the tree: level `d`, place `j`. -/
def node (root : Nat) : Nat → Nat → Nat
  | 0, _ => root
  | d + 1, j => if j % 2 = 0 then (prg (node root d (j / 2))).1 else (prg (node root d (j / 2))).2

theorem foldl_set2_length (f : Nat → Nat × Nat) : ∀ (count : Nat) (leaf : List Nat),
    ((List.range count).foldl (fun l i => (l.set (2 * i) (f i).1).set (2 * i + 1) (f i).2) leaf).length = leaf.length
  | 0, _ => rfl
  | c + 1, leaf => by
    rw [List.range_succ, List.foldl_append, List.foldl_cons, List.foldl_nil, List.length_set, List.length_set,
      foldl_set2_length f c]

theorem foldl_set2 (f : Nat → Nat × Nat) : ∀ (count : Nat) (leaf : List Nat), 2 * count ≤ leaf.length → ∀ j < 2 * count,
    ((List.range count).foldl (fun l i => (l.set (2 * i) (f i).1).set (2 * i + 1) (f i).2) leaf).getD j 0
      = if j % 2 = 0 then (f (j / 2)).1 else (f (j / 2)).2
  | 0, _, _, j, hj => by omega
  | c + 1, leaf, hl, j, hj => by
    rw [List.range_succ, List.foldl_append, List.foldl_cons, List.foldl_nil]
    have hlen := foldl_set2_length f c leaf
    have ih := foldl_set2 f c leaf (by omega)
    generalize (List.range c).foldl (fun l i => (l.set (2 * i) (f i).1).set (2 * i + 1) (f i).2) leaf = L at hlen ih
    rw [List.getD_eq_getElem _ _ (by simp only [List.length_set]; omega), List.getElem_set, List.getElem_set]
    by_cases h1 : 2 * c + 1 = j
    · subst h1
      rw [if_pos rfl, if_neg (by omega)]
      congr 2
      omega
    · rw [if_neg h1]
      by_cases h2 : 2 * c = j
      · subst h2
        rw [if_pos rfl, if_pos (by omega)]
        congr 2
        omega
      · rw [if_neg h2, ← List.getD_eq_getElem _ 0, ih j (by omega)]

theorem genTree_level (root height : Nat) : ∀ d ≤ height,
    ((List.range d).foldl (fun leaf d => expand prg leaf leaf (2 ^ d)) ((List.replicate (2 ^ height) 0).set 0 root)).length
      = 2 ^ height ∧
    ∀ j < 2 ^ d, ((List.range d).foldl (fun leaf d => expand prg leaf leaf (2 ^ d))
      ((List.replicate (2 ^ height) 0).set 0 root)).getD j 0 = node prg root d j
  | 0, _ => by
    refine ⟨by simp, fun j hj => ?_⟩
    obtain rfl : j = 0 := by simpa using hj
    rw [List.range_zero, List.foldl_nil, List.getD_eq_getElem _ _ (by simp), List.getElem_set, if_pos rfl, node]
  | d + 1, hd => by
    obtain ⟨hl, ih⟩ := genTree_level root height d (by omega)
    rw [List.range_succ, List.foldl_append, List.foldl_cons, List.foldl_nil]
    generalize (List.range d).foldl (fun leaf d => expand prg leaf leaf (2 ^ d))
      ((List.replicate (2 ^ height) 0).set 0 root) = L at hl ih
    have hp : 2 * 2 ^ d ≤ 2 ^ height := by
      rw [← pow_succ']; exact Nat.pow_le_pow_right (by decide) hd
    refine ⟨?_, fun j hj => ?_⟩
    · rw [expand, foldl_set2_length (fun i => prg (L.getD i 0)), hl]
    · rw [expand, foldl_set2 (fun i => prg (L.getD i 0)) _ _ (by omega) j (by rw [← pow_succ']; exact hj), node]
      rw [ih (j / 2) (by rw [pow_succ] at hj; omega)]

theorem genTree_get (root height : Nat) {j : Nat} (hj : j < 2 ^ height) :
    (genTree prg root height).getD j 0 = node prg root height j := (genTree_level prg root height height le_rfl).2 j hj

theorem le_pow_depth (s : Nat) : s ≤ 2 ^ depth s := Nat.le_pow_clog (by decide) s

/-- The element at a place of the set. -/
def element (n s k i : Nat) : Nat := lemire (node prg k (depth s) i) n

theorem elements_eq (n s k : Nat) : elements prg n s k = (List.range s).map (element prg n s k) := by
  unfold elements
  apply List.map_congr_left
  intro i hi
  rw [genTree_get prg k _ (lt_of_lt_of_le (List.mem_range.mp hi) (le_pow_depth s)), element]

theorem elements_length (n s k : Nat) : (elements prg n s k).length = s := by simp [elements]

theorem elements_getD (n s k : Nat) {i : Nat} (hi : i < s) : (elements prg n s k).getD i 0 = element prg n s k i := by
  rw [elements_eq, List.getD_eq_getElem _ _ (by simpa using hi), List.getElem_map, List.getElem_range]

theorem mem_elements {n s k x : Nat} : x ∈ elements prg n s k ↔ ∃ i < s, element prg n s k i = x := by
  rw [elements_eq]; simp

theorem nodup_elements_iff {n s k : Nat} : (elements prg n s k).Nodup ↔
    ∀ i < s, ∀ j < s, element prg n s k i = element prg n s k j → i = j := by
  rw [elements_eq]
  constructor
  · intro h i hi j hj he
    have := List.inj_on_of_nodup_map h (List.mem_range.mpr hi) (List.mem_range.mpr hj) he
    exact this
  · intro h
    apply List.Nodup.map_on _ List.nodup_range
    intro i hi j hj he
    exact h i (List.mem_range.mp hi) j (List.mem_range.mp hj) he

theorem evalMap_fold (n s k : Nat) :
    evalMap prg n s k = ((List.range s).map fun i => ((elements prg n s k).getD i 0, i)).foldl emplace [] := by
  rw [evalMap, List.foldl_map]

theorem map_fst_pairs (n s k : Nat) :
    ((List.range s).map fun i => ((elements prg n s k).getD i 0, i)).map Prod.fst = elements prg n s k := by
  rw [List.map_map, elements_eq]
  apply List.map_congr_left
  intro i hi
  change ((List.range s).map (element prg n s k)).getD i 0 = _
  rw [← elements_eq, elements_getD prg n s k (List.mem_range.mp hi)]

/-- The pairs of the map of a key without collision. -/
theorem evalMap_eq {n s k : Nat} (h : (elements prg n s k).Nodup) :
    evalMap prg n s k = (List.range s).map fun i => (element prg n s k i, i) := by
  rw [evalMap_fold, foldl_emplace_nodup _ _ (by rw [List.nil_append, map_fst_pairs]; exact h), List.nil_append]
  apply List.map_congr_left
  intro i hi
  rw [elements_getD prg n s k (List.mem_range.mp hi)]

theorem evalMap_length {n s k : Nat} : (evalMap prg n s k).length = s ↔ (elements prg n s k).Nodup := by
  constructor
  · intro h
    rw [evalMap_fold] at h
    have := (foldl_emplace ((List.range s).map fun i => ((elements prg n s k).getD i 0, i)) []).2
      (by rw [h]; simp) (by simp)
    rw [List.nil_append, map_fst_pairs] at this
    exact this.2
  · intro h
    rw [evalMap_eq prg h]
    simp

theorem eval_sorted (n s k : Nat) : (eval prg n s k).Pairwise (· < ·) :=
  sorted_foldl_setInsert _ List.Pairwise.nil

theorem mem_eval {n s k x : Nat} : x ∈ eval prg n s k ↔ ∃ i < s, element prg n s k i = x := by
  rw [eval, mem_foldl_setInsert, mem_elements]; simp

theorem eval_length {n s k : Nat} : (eval prg n s k).length = s ↔ (elements prg n s k).Nodup := by
  have := @foldl_setInsert_length (elements prg n s k)
  rw [elements_length] at this
  exact this

theorem map_fst_evalMap {n s k : Nat} (h : (elements prg n s k).Nodup) :
    (evalMap prg n s k).map Prod.fst = elements prg n s k := by
  rw [evalMap_eq prg h, elements_eq, List.map_map]
  rfl

theorem evalMap_find {n s k i : Nat} (h : (elements prg n s k).Nodup) (hi : i < s) :
    (evalMap prg n s k).find? (fun e => e.1 = element prg n s k i) = some (element prg n s k i, i) := by
  rw [evalMap_eq prg h]
  cases hf : ((List.range s).map fun i => (element prg n s k i, i)).find? (fun e => e.1 = element prg n s k i) with
  | none =>
    rw [List.find?_eq_none] at hf
    have := hf (element prg n s k i, i) (List.mem_map.mpr ⟨i, List.mem_range.mpr hi, rfl⟩)
    simp at this
  | some e =>
    have h1 := List.mem_of_find?_eq_some hf
    have h2 := List.find?_some hf
    obtain ⟨j, hj, rfl⟩ := List.mem_map.mp h1
    rw [decide_eq_true_eq] at h2
    rw [(nodup_elements_iff prg).mp h j (List.mem_range.mp hj) i hi h2]

/-! ### Punctured keys -/

theorem xor_one_div (p : Nat) : (p ^^^ 1) / 2 = p / 2 := by
  rcases Nat.even_or_odd p with h | h
  · rw [Nat.xor_one_of_even h]; obtain ⟨q, rfl⟩ := h; omega
  · rw [Nat.xor_one_of_odd h]; obtain ⟨q, rfl⟩ := h; omega

theorem xor_one_mod (p : Nat) : (p ^^^ 1) % 2 = 1 - p % 2 := by
  rcases Nat.even_or_odd p with h | h
  · rw [Nat.xor_one_of_even h]; obtain ⟨q, rfl⟩ := h; omega
  · rw [Nat.xor_one_of_odd h]; obtain ⟨q, rfl⟩ := h; omega

theorem xor_one_ne (p : Nat) : p ^^^ 1 ≠ p := by
  intro h
  have := xor_one_mod p
  rw [h] at this
  omega

/-- The value the punctured key has for a level. -/
def sibling (k h p t : Nat) : Nat := node prg k (t + 1) (p / 2 ^ (h - 1 - t) ^^^ 1)

theorem puncFold (k h p : Nat) (hp : p < 2 ^ h) (old : List Nat) : ∀ t ≤ h,
    (List.range t).foldl (fun st t => puncStep prg (p.testBit (h - 1 - t)) st) (k, old)
      = (node prg k t (p / 2 ^ (h - t)), old ++ (List.range t).map (sibling prg k h p))
  | 0, _ => by simp [node]
  | t + 1, ht => by
    rw [List.range_succ, List.foldl_append, List.foldl_cons, List.foldl_nil, puncFold k h p hp old t (by omega), puncStep]
    have hdiv : p / 2 ^ (h - 1 - t) / 2 = p / 2 ^ (h - t) := by
      rw [Nat.div_div_eq_div_mul, ← pow_succ]
      congr 2
      omega
    have hidx : h - (t + 1) = h - 1 - t := by omega
    have hs : sibling prg k h p t = if p / 2 ^ (h - 1 - t) % 2 = 0 then (prg (node prg k t (p / 2 ^ (h - t)))).2
        else (prg (node prg k t (p / 2 ^ (h - t)))).1 := by
      rw [sibling, node, xor_one_div, hdiv, xor_one_mod]
      split_ifs <;> first | rfl | omega
    rw [List.map_append, List.map_cons, List.map_nil, hs, hidx]
    have hbit : p.testBit (h - 1 - t) = decide (p / 2 ^ (h - 1 - t) % 2 = 1) := Nat.testBit_eq_decide_div_mod_eq
    rw [hbit]
    have hn : node prg k (t + 1) (p / 2 ^ (h - 1 - t)) = if p / 2 ^ (h - 1 - t) % 2 = 0
        then (prg (node prg k t (p / 2 ^ (h - t)))).1 else (prg (node prg k t (p / 2 ^ (h - t)))).2 := by
      rw [node, hdiv]
    rw [hn]
    by_cases h0 : p / 2 ^ (h - 1 - t) % 2 = 0
    · rw [if_neg (by rw [decide_eq_true_eq]; omega), if_pos h0, if_pos h0, List.append_assoc]
    · rw [if_pos (by rw [decide_eq_true_eq]; omega), if_neg h0, if_neg h0, List.append_assoc]

/-- The inner nodes of the tree are not zero (`Eval` of a punctured key takes zero for a node it does not know). -/
def NoZero (k h : Nat) : Prop := ∀ d, 0 < d → d < h → ∀ j < 2 ^ d, node prg k d j ≠ 0

/-- One node of a level becomes two: with the test for zero. -/
def childrenOf (v : Nat) : Nat × Nat := if v ≠ 0 then prg v else (0, 0)

theorem expandPunc_eq (temp leaf : List Nat) (count : Nat) : expandPunc prg temp leaf count =
    (List.range count).foldl (fun l i => (l.set (2 * i) (childrenOf prg (temp.getD i 0)).1).set (2 * i + 1)
      (childrenOf prg (temp.getD i 0)).2) leaf := by
  unfold expandPunc
  congr 1
  funext l i
  unfold childrenOf
  split_ifs <;> rfl

theorem puncTree_level {k h p : Nat} (hp : p < 2 ^ h) (hz : NoZero prg k h) {sk : PuncKey} (hpos : sk.pos = p)
    (hk : ∀ t < h, sk.k.getD t 0 = sibling prg k h p t) : ∀ d ≤ h,
    ((List.range d).foldl (fun leaf d => (expandPunc prg leaf leaf (2 ^ d)).set (sk.pos / 2 ^ (h - 1 - d) ^^^ 1)
      (sk.k.getD d 0)) (List.replicate (2 ^ h) 0)).length = 2 ^ h ∧
    (((List.range d).foldl (fun leaf d => (expandPunc prg leaf leaf (2 ^ d)).set (sk.pos / 2 ^ (h - 1 - d) ^^^ 1)
      (sk.k.getD d 0)) (List.replicate (2 ^ h) 0)).getD (p / 2 ^ (h - d)) 0 = 0) ∧
    ∀ j < 2 ^ d, j ≠ p / 2 ^ (h - d) → ((List.range d).foldl (fun leaf d => (expandPunc prg leaf leaf (2 ^ d)).set
      (sk.pos / 2 ^ (h - 1 - d) ^^^ 1) (sk.k.getD d 0)) (List.replicate (2 ^ h) 0)).getD j 0 = node prg k d j
  | 0, _ => by
    have h0 : p / 2 ^ h = 0 := Nat.div_eq_of_lt hp
    refine ⟨by simp, ?_, fun j hj hne => ?_⟩
    · rw [Nat.sub_zero, h0, List.range_zero, List.foldl_nil, List.getD_eq_getElem _ _ (by simp), List.getElem_replicate]
    · rw [Nat.sub_zero, h0] at hne
      simp only [pow_zero] at hj
      omega
  | d + 1, hd => by
    obtain ⟨hl, h0, ih⟩ := puncTree_level hp hz hpos hk d (by omega)
    rw [List.range_succ, List.foldl_append, List.foldl_cons, List.foldl_nil]
    generalize (List.range d).foldl (fun leaf d => (expandPunc prg leaf leaf (2 ^ d)).set (sk.pos / 2 ^ (h - 1 - d) ^^^ 1)
      (sk.k.getD d 0)) (List.replicate (2 ^ h) 0) = L at hl h0 ih
    have hpw : 2 * 2 ^ d ≤ 2 ^ h := by
      rw [← pow_succ']; exact Nat.pow_le_pow_right (by decide) hd
    have hidx : h - (d + 1) = h - 1 - d := by omega
    have hdiv : p / 2 ^ (h - 1 - d) / 2 = p / 2 ^ (h - d) := by
      rw [Nat.div_div_eq_div_mul, ← pow_succ]
      congr 2
      omega
    have hlt : p / 2 ^ (h - 1 - d) < 2 ^ (d + 1) := by
      rw [Nat.div_lt_iff_lt_mul (Nat.pow_pos (by decide)), ← pow_add]
      refine lt_of_lt_of_le hp (Nat.pow_le_pow_right (by decide) (by omega))
    have hlen : (expandPunc prg L L (2 ^ d)).length = 2 ^ h := by
      rw [expandPunc_eq, foldl_set2_length (fun i => childrenOf prg (L.getD i 0)), hl]
    have hx : ∀ j < 2 ^ (d + 1), (expandPunc prg L L (2 ^ d)).getD j 0
        = if j % 2 = 0 then (childrenOf prg (L.getD (j / 2) 0)).1 else (childrenOf prg (L.getD (j / 2) 0)).2 := by
      intro j hj
      rw [expandPunc_eq, foldl_set2 (fun i => childrenOf prg (L.getD i 0)) _ _ (by omega) j (by rw [← pow_succ']; exact hj)]
    rw [hpos, hk d (by omega), hidx]
    have hget : ∀ j < 2 ^ (d + 1), ((expandPunc prg L L (2 ^ d)).set (p / 2 ^ (h - 1 - d) ^^^ 1) (sibling prg k h p d)).getD j 0
        = if p / 2 ^ (h - 1 - d) ^^^ 1 = j then sibling prg k h p d else (expandPunc prg L L (2 ^ d)).getD j 0 := by
      intro j hj
      have : 2 ^ (d + 1) ≤ 2 ^ h := Nat.pow_le_pow_right (by decide) hd
      rw [List.getD_eq_getElem _ _ (by rw [List.length_set]; omega), List.getElem_set]
      split_ifs
      · rfl
      · rw [List.getD_eq_getElem _ _ (by omega)]
    refine ⟨by rw [List.length_set, hlen], ?_, fun j hj hne => ?_⟩
    · rw [hget _ hlt, if_neg (xor_one_ne _), hx _ hlt, hdiv, h0]
      simp [childrenOf]
    · rw [hget j hj]
      by_cases hs : p / 2 ^ (h - 1 - d) ^^^ 1 = j
      · rw [if_pos hs, sibling, hs]
      · rw [if_neg hs, hx j hj]
        have hne2 : j / 2 ≠ p / 2 ^ (h - d) := by
          intro he
          rw [← hdiv] at he
          have h1 := xor_one_div (p / 2 ^ (h - 1 - d))
          have h2 := xor_one_mod (p / 2 ^ (h - 1 - d))
          omega
        have hj2 : j / 2 < 2 ^ d := by rw [pow_succ] at hj; omega
        have hv := ih (j / 2) hj2 hne2
        have hd0 : 0 < d := by
          by_contra hd0
          have hd00 : d = 0 := by omega
          subst hd00
          have : p / 2 ^ (h - 0) = 0 := by rw [Nat.sub_zero]; exact Nat.div_eq_of_lt hp
          simp only [pow_zero] at hj2
          omega
        have hnz : node prg k d (j / 2) ≠ 0 := hz d hd0 (by omega) (j / 2) hj2
        rw [hv, childrenOf, if_pos hnz, node]

theorem puncTree_get {k h p : Nat} (hp : p < 2 ^ h) (hz : NoZero prg k h) {sk : PuncKey} (hpos : sk.pos = p)
    (hk : ∀ t < h, sk.k.getD t 0 = sibling prg k h p t) {j : Nat} (hj : j < 2 ^ h) (hne : j ≠ p) :
    (puncTree prg h sk).getD j 0 = node prg k h j :=
  (puncTree_level prg hp hz hpos hk h le_rfl).2.2 j hj (by simpa using hne)

/-- A punctured key of an element, made from an empty one. -/
theorem punc_ok {n s k p : Nat} (h : (elements prg n s k).Nodup) (hp : p < s) (delta : Nat) :
    punc prg s (evalMap prg n s k) (element prg n s k p) k ⟨[], 0, delta⟩
      = .ok ⟨(List.range (depth s)).map (sibling prg k (depth s) p), p, delta⟩ := by
  rw [punc, evalMap_find prg h hp]
  dsimp only
  rw [puncFold prg k (depth s) p (lt_of_lt_of_le hp (le_pow_depth s)) [] (depth s) le_rfl, List.nil_append]

theorem evalPunc_ok {n s k p : Nat} (h : (elements prg n s k).Nodup) (hp : p < s) (hz : NoZero prg k (depth s))
    (delta : Nat) : evalPunc prg n s ⟨(List.range (depth s)).map (sibling prg k (depth s) p), p, delta⟩
      = .ok ((eval prg n s k).filter fun x => x ≠ element prg n s k p) := by
  have hps := lt_of_lt_of_le hp (le_pow_depth s)
  rw [evalPunc, if_neg (by simp only [List.length_map, List.length_range]; omega)]
  congr 1
  apply sorted_ext (sorted_foldl_setInsert _ List.Pairwise.nil) ((eval_sorted prg n s k).filter _)
  intro x
  rw [mem_foldl_setInsert, List.mem_filter, mem_eval, List.mem_map]
  simp only [List.mem_filter, List.mem_range, ne_eq, List.not_mem_nil, or_false, decide_not,
    Bool.not_eq_eq_eq_not, Bool.not_true, decide_eq_false_iff_not]
  have hval : ∀ i < s, i ≠ p → lemire ((puncTree prg (depth s)
      ⟨(List.range (depth s)).map (sibling prg k (depth s) p), p, delta⟩).getD i 0) n = element prg n s k i := by
    intro i hi hne
    rw [puncTree_get prg hps hz rfl _ (lt_of_lt_of_le hi (le_pow_depth s)) hne, element]
    intro t ht
    rw [List.getD_eq_getElem _ _ (by simpa using ht), List.getElem_map, List.getElem_range]
  constructor
  · rintro ⟨i, ⟨hi, hne⟩, rfl⟩
    rw [hval i hi hne]
    refine ⟨⟨i, hi, rfl⟩, fun he => hne ?_⟩
    exact (nodup_elements_iff prg).mp h i hi p hp he
  · rintro ⟨⟨i, hi, rfl⟩, hne⟩
    refine ⟨i, ⟨hi, fun he => hne (he ▸ rfl)⟩, hval i hi fun he => hne (he ▸ rfl)⟩

end Tree

end Psi.Pps
