import Verif.Bucket.Model
import Verif.Text.Lemmas
import Mathlib.Data.List.Nodup
import Mathlib.Data.List.Enum
import Mathlib.Algebra.BigOperators.Group.List.Basic

namespace Psi.Bucket
open Psi.Text

theorem comma_dec (n : Nat) : ',' ∉ dec n := dec_not_mem n ',' (by decide)
theorem nl_dec (n : Nat) : '\n' ∉ dec n := dec_not_mem n '\n' (by decide)

theorem deserialize_serialize (i : Item) (h1 : i.index < 2 ^ 64) (h2 : i.dup < 2 ^ 32)
    (h3 : ',' ∉ i.data64) : Item.deserialize i.serialize = some i := by
  unfold Item.deserialize Item.serialize
  rw [split_cons _ _ _ (comma_dec _), split_cons _ _ _ (comma_dec _), split_no _ _ h3]
  simp only [simpleAtoi_dec _ _ h1, simpleAtoi_dec _ _ h2]

theorem serialize_no_nl (i : Item) (h : '\n' ∉ i.data64) : '\n' ∉ i.serialize := by
  unfold Item.serialize
  simp only [List.mem_append, List.mem_cons, not_or]
  exact ⟨nl_dec _, by decide, nl_dec _, by decide, h⟩

/-- The items stored for the data `ds`, numbered from `k`. -/
def itemsFrom (k : Nat) : List (List UInt8 × Nat) → List Item
  | [] => []
  | d :: ds => ⟨k, d.2, base64 d.1⟩ :: itemsFrom (k + 1) ds

theorem itemsFrom_length (k : Nat) (ds) : (itemsFrom k ds).length = ds.length := by
  induction ds generalizing k with
  | nil => rfl
  | cons d ds ih => simp [itemsFrom, ih]

theorem mem_itemsFrom (k : Nat) (ds : List (List UInt8 × Nat)) (x : Item) :
    x ∈ itemsFrom k ds ↔
      ∃ j, ∃ h : j < ds.length, x = ⟨k + j, ds[j].2, base64 ds[j].1⟩ := by
  induction ds generalizing k with
  | nil => simp [itemsFrom]
  | cons d ds ih =>
    simp only [itemsFrom, List.mem_cons, ih]
    constructor
    · rintro (rfl | ⟨j, hj, rfl⟩)
      · exact ⟨0, by simp, by simp⟩
      · exact ⟨j + 1, by simpa using hj, by simp; omega⟩
    · rintro ⟨j, hj, rfl⟩
      cases j with
      | zero => left; simp
      | succ j => right; exact ⟨j, by simpa using hj, by simp; omega⟩

/-- Text of the bucket file holding the items `l`. -/
def fileOf (l : List Item) : List Char := (l.map Item.serialize).flatMap (fun s => s ++ ['\n'])

theorem fileOf_append (a b : List Item) : fileOf (a ++ b) = fileOf a ++ fileOf b := by
  simp [fileOf, List.flatMap_append]

theorem load_fileOf (l : List Item) (h : ∀ x ∈ l, x.index < 2 ^ 64 ∧ x.dup < 2 ^ 32 ∧
    ',' ∉ x.data64 ∧ '\n' ∉ x.data64) : (lines (fileOf l)).mapM Item.deserialize = some l := by
  unfold fileOf
  rw [lines_flatMap]
  · induction l with
    | nil => rfl
    | cons x l ih =>
      obtain ⟨h1, h2, h3, _⟩ := h x (by simp)
      rw [List.map_cons, List.mapM_cons, deserialize_serialize x h1 h2 h3,
        ih (fun y hy => h y (by simp [hy]))]
      rfl
  · intro s hs
    obtain ⟨x, hx, rfl⟩ := List.mem_map.mp hs
    exact serialize_no_nl x (h x hx).2.2.2

theorem writeAll_files (hash : List Char → Nat) (ds : List (List UInt8 × Nat)) (c : Cache) :
    (c.writeAll hash ds).files.length = c.files.length ∧
    (c.writeAll hash ds).itemIndex = c.itemIndex + ds.length ∧
    ∀ b (hb : b < c.files.length), (c.writeAll hash ds).files[b]? =
      some (c.files[b] ++ fileOf ((itemsFrom c.itemIndex ds).filter
        (fun x => hash x.data64 % c.files.length = b))) := by
  induction ds generalizing c with
  | nil =>
    refine ⟨rfl, rfl, fun b hb => ?_⟩
    simp [Cache.writeAll, itemsFrom, fileOf, hb]
  | cons d ds ih =>
    have hstep : c.writeAll hash (d :: ds) = (c.writeItem hash d.1 d.2).writeAll hash ds := rfl
    obtain ⟨h1, h2, h3⟩ := ih (c.writeItem hash d.1 d.2)
    have hlen : (c.writeItem hash d.1 d.2).files.length = c.files.length := by
      simp [Cache.writeItem]
    have hidx : (c.writeItem hash d.1 d.2).itemIndex = c.itemIndex + 1 := rfl
    rw [hstep]
    refine ⟨h1.trans hlen, by rw [h2, hidx, List.length_cons]; omega, fun b hb => ?_⟩
    rw [h3 b (by rw [hlen]; exact hb)]
    simp only [hlen, hidx]
    congr 1
    have hf : (c.writeItem hash d.1 d.2).files[b]'(by rw [hlen]; exact hb) =
        c.files[b] ++ (if hash (base64 d.1) % c.files.length = b then
          fileOf [⟨c.itemIndex, d.2, base64 d.1⟩] else []) := by
      simp only [Cache.writeItem, List.getElem_modify]
      split <;> simp [fileOf]
    rw [hf, List.append_assoc]
    congr 1
    rw [itemsFrom, List.filter_cons]
    split
    · rename_i h
      rw [if_pos (by simpa using h), ← fileOf_append, List.singleton_append]
    · rename_i h
      rw [if_neg (by simpa using h)]; rfl

/-- Bounds under which the machine integers do not overflow. -/
def Fits (ds : List (List UInt8 × Nat)) : Prop :=
  ds.length ≤ 2 ^ 64 ∧ ∀ d ∈ ds, d.2 < 2 ^ 32

theorem itemsFrom_ok (ds : List (List UInt8 × Nat)) (h : Fits ds) (x : Item)
    (hx : x ∈ itemsFrom 0 ds) :
    x.index < 2 ^ 64 ∧ x.dup < 2 ^ 32 ∧ ',' ∉ x.data64 ∧ '\n' ∉ x.data64 := by
  obtain ⟨j, hj, rfl⟩ := (mem_itemsFrom 0 ds x).mp hx
  refine ⟨?_, h.2 _ (List.getElem_mem hj), ?_, ?_⟩
  · have := h.1; simp only; omega
  · intro hm; exact (base64_chars _ _ hm).1 rfl
  · intro hm; exact (base64_chars _ _ hm).2 rfl

/-- What is loaded from bucket `b`. -/
theorem load_fresh (hash : List Char → Nat) (n : Nat) (ds : List (List UInt8 × Nat)) (h : Fits ds)
    (b : Nat) (hb : b < n) :
    ((Cache.fresh n).writeAll hash ds).load b =
      some ((itemsFrom 0 ds).filter (fun x => hash x.data64 % n = b)) := by
  obtain ⟨_, _, h3⟩ := writeAll_files hash ds (Cache.fresh n)
  have hl : (Cache.fresh n).files.length = n := by simp [Cache.fresh, Cache.openDir]
  have := h3 b (by rw [hl]; exact hb)
  have hz : (Cache.fresh n).files[b]'(by rw [hl]; exact hb) = [] := by
    simp [Cache.fresh, Cache.openDir]
  unfold Cache.load
  rw [this, hz, List.nil_append]
  simp only [hl]
  apply load_fileOf
  intro x hx
  exact itemsFrom_ok ds h x (List.mem_filter.mp hx).1

/-! The peer set -/

theorem mkSet_find (l : List Item) (k : List Char) :
    (mkSet l).find? (fun y => y.data64 == k) = l.find? (fun y => y.data64 == k) := by
  unfold mkSet
  have : ∀ (l s : List Item),
      (l.foldl (fun s x => if s.any (fun y => y.data64 == x.data64) then s else s ++ [x]) s).find?
        (fun y => y.data64 == k) = (s ++ l).find? (fun y => y.data64 == k) := by
    intro l
    induction l with
    | nil => simp
    | cons x l ih =>
      intro s
      rw [List.foldl_cons, ih]
      split
      · rename_i h
        rw [List.find?_append, List.find?_append, List.find?_cons]
        by_cases hx : (x.data64 == k) = true
        · simp only [List.any_eq_true, beq_iff_eq] at h hx
          obtain ⟨y, hy, hyx⟩ := h
          cases hf : s.find? (fun y => y.data64 == k) with
          | none =>
            rw [List.find?_eq_none] at hf
            exact absurd (by simp [hyx, hx]) (hf y hy)
          | some z => simp
        · simp [hx]
      · simp
  simpa using this l []

theorem matchBucket_eq (s p : List Item) :
    matchBucket (mkSet p) s =
      (s.filterMap (fun x => (p.find? (fun y => y.data64 == x.data64)).map
          (fun y => (x.index, y.dup))),
       (s.map (fun x => ((p.find? (fun y => y.data64 == x.data64)).map
          (fun y => y.dup + 1)).getD 0)).sum) := by
  induction s with
  | nil => rfl
  | cons x s ih =>
    simp only [matchBucket, ih, mkSet_find]
    cases h : p.find? (fun y => y.data64 == x.data64) with
    | none => simp [h]
    | some y => simp [h, Nat.add_comm]

theorem binLoop_eq (self peer : Cache) (S P : Nat → List Item) (n : Nat) :
    ∀ b, (∀ i, b ≤ i → i < b + n → self.load i = some (S i) ∧ peer.load i = some (P i)) →
    binLoop self peer b n =
      some ((List.range' b n).flatMap (fun i => (matchBucket (mkSet (P i)) (S i)).1),
        ((List.range' b n).map (fun i => ((P i).map (fun x => x.dup + 1)).sum)).sum,
        ((List.range' b n).map (fun i => (matchBucket (mkSet (P i)) (S i)).2)).sum) := by
  induction n with
  | zero => intro b _; rfl
  | succ n ih =>
    intro b h
    obtain ⟨h1, h2⟩ := h b (by omega) (by omega)
    rw [binLoop, h1, h2, ih (b + 1) (fun i hi hi' => h i (by omega) (by omega))]
    simp [List.range'_succ]

/-- Splitting a list by a function into `range n` keeps its elements. -/
theorem split_perm {α : Type} (n : Nat) (f : α → Nat) (l : List α) (h : ∀ x ∈ l, f x < n) :
    ((List.range n).flatMap (fun i => l.filter (fun x => f x = i))).Perm l := by
  classical
  rw [List.perm_iff_count]
  intro a
  rw [List.count_flatMap]
  by_cases ha : a ∈ l
  · have hlt := h a ha
    have hfun : ((List.count a) ∘ fun i => l.filter (fun x => decide (f x = i))) =
        fun i => if f a = i then l.count a else 0 := by
      funext i
      simp only [Function.comp]
      split
      · rename_i he
        rw [List.count_filter (by simpa using he)]
      · rename_i he
        rw [List.count_eq_zero]
        simp [he]
    rw [hfun]
    have : ∀ m, ((List.range m).map (fun i => if f a = i then l.count a else 0)).sum =
        if f a < m then l.count a else 0 := by
      intro m
      induction m with
      | zero => simp
      | succ m ih =>
        rw [List.range_succ, List.map_append, List.sum_append, ih]
        simp only [List.map_cons, List.map_nil, List.sum_cons, List.sum_nil, Nat.add_zero]
        by_cases h1 : f a < m
        · have : ¬ f a = m := by omega
          simp [h1, this, Nat.lt_succ_of_lt h1]
        · by_cases h2 : f a = m
          · simp [h2]
          · have : ¬ f a < m + 1 := by omega
            simp [h1, h2, this]
    rw [this, if_pos hlt]
  · have h0 : l.count a = 0 := List.count_eq_zero.mpr ha
    have hfun : ((List.count a) ∘ fun i => l.filter (fun x => decide (f x = i))) = fun _ => 0 := by
      funext i
      simp only [Function.comp]
      rw [List.count_eq_zero]
      intro hm
      exact ha (List.mem_filter.mp hm).1
    rw [hfun, h0]
    simp

theorem find?_filter_bucket (f : List Char → Nat) (l : List Item) (k : List Char) (i : Nat)
    (hi : f k = i) :
    (l.filter (fun x => f x.data64 = i)).find? (fun y => y.data64 == k) =
      l.find? (fun y => y.data64 == k) := by
  induction l with
  | nil => rfl
  | cons x l ih =>
    rw [List.filter_cons]
    by_cases hk : x.data64 = k
    · have : f x.data64 = i := by rw [hk]; exact hi
      rw [if_pos (by simpa using this)]
      simp [hk]
    · split
      · simp [hk, ih]
      · simp [hk, ih]

theorem itemsFrom_index_nodup (k : Nat) (ds : List (List UInt8 × Nat)) :
    ((itemsFrom k ds).map (·.index)).Nodup := by
  have : (itemsFrom k ds).map (·.index) = List.range' k ds.length := by
    induction ds generalizing k with
    | nil => rfl
    | cons d ds ih => simp [itemsFrom, ih, List.range'_succ]
  rw [this]
  exact List.nodup_range'

theorem itemsFrom_find (k : Nat) (ds : List (List UInt8 × Nat)) (d : List UInt8) :
    ((itemsFrom k ds).find? (fun y => y.data64 == base64 d)).map (·.dup) =
      (ds.find? (fun p => p.1 = d)).map Prod.snd := by
  induction ds generalizing k with
  | nil => rfl
  | cons e ds ih =>
    rw [itemsFrom, List.find?_cons, List.find?_cons]
    by_cases h : e.1 = d
    · simp [h]
    · have h' : base64 e.1 ≠ base64 d := fun he => h (base64_injective he)
      simp only [beq_eq_false_iff_ne.mpr h', decide_eq_false h]
      exact ih (k + 1)

theorem sum_flatMap_range {α : Type} (n : Nat) (f : α → Nat) (g : α → Nat) (l : List α)
    (h : ∀ x ∈ l, f x < n) :
    ((List.range n).map (fun i => ((l.filter (fun x => f x = i)).map g).sum)).sum = (l.map g).sum := by
  rw [← ((split_perm n f l h).map g).sum_eq, List.map_flatMap]
  generalize List.range n = r
  induction r with
  | nil => rfl
  | cons a r ih => simp [ih]

/-- The result of the per-bucket intersection of two stores, by what is loaded from them. -/
theorem computeIndices_loads (hash : List Char → Nat) (n : Nat) (hn : 0 < n) (self peer : Cache)
    (ls lp : List Item) (hls : self.files.length = n) (hlp : peer.files.length = n)
    (hs : ∀ b, b < n → self.load b = some (ls.filter (fun x => hash x.data64 % n = b)))
    (hp : ∀ b, b < n → peer.load b = some (lp.filter (fun x => hash x.data64 % n = b))) :
    ∃ w, computeIndices self peer =
      some (w, (lp.map (fun p => p.dup + 1)).sum,
        (ls.map (fun s => ((lp.find? (fun y => y.data64 == s.data64)).map
          (fun p => p.dup + 1)).getD 0)).sum) ∧
      w.Perm (ls.filterMap (fun x =>
        (lp.find? (fun y => y.data64 == x.data64)).map (fun y => (x.index, y.dup)))) := by
  unfold computeIndices
  rw [hls, hlp, if_pos rfl]
  rw [binLoop_eq _ _ (fun b => ls.filter (fun x => hash x.data64 % n = b))
    (fun b => lp.filter (fun x => hash x.data64 % n = b)) n 0
    (fun i _ hi => ⟨hs i (by omega), hp i (by omega)⟩)]
  have hlt : ∀ l : List Item, ∀ x ∈ l, hash x.data64 % n < n := fun l x _ => Nat.mod_lt _ hn
  have hfind : ∀ i, ∀ x ∈ ls.filter (fun x => hash x.data64 % n = i),
      (lp.filter (fun x => hash x.data64 % n = i)).find?
        (fun y => y.data64 == x.data64) =
      lp.find? (fun y => y.data64 == x.data64) := by
    intro i x hx
    apply find?_filter_bucket (fun k => hash k % n)
    simpa using (List.mem_filter.mp hx).2
  rw [← List.range_eq_range']
  refine ⟨((List.range n).flatMap fun i => (matchBucket
    (mkSet (lp.filter (fun x => hash x.data64 % n = i)))
    (ls.filter (fun x => hash x.data64 % n = i))).1), ?_, ?_⟩
  · refine congrArg some (Prod.ext rfl (Prod.ext ?_ ?_)) <;> dsimp only
    · rw [sum_flatMap_range n (fun x : Item => hash x.data64 % n) (fun x => x.dup + 1) _ (hlt _)]
    · simp only [matchBucket_eq]
      have : ((List.range n).map fun i =>
          ((ls.filter (fun x => hash x.data64 % n = i)).map (fun x =>
            (((lp.filter (fun x => hash x.data64 % n = i)).find?
              (fun y => y.data64 == x.data64)).map (fun y => y.dup + 1)).getD 0)).sum) =
          ((List.range n).map fun i =>
          ((ls.filter (fun x => hash x.data64 % n = i)).map (fun x =>
            ((lp.find?
              (fun y => y.data64 == x.data64)).map (fun y => y.dup + 1)).getD 0)).sum) := by
        apply List.map_congr_left
        intro i _
        congr 1
        apply List.map_congr_left
        intro x hx
        rw [hfind i x hx]
      rw [this, sum_flatMap_range n (fun x : Item => hash x.data64 % n) _ _ (hlt _)]
  · simp only [matchBucket_eq]
    have : ((List.range n).flatMap fun i =>
        (ls.filter (fun x => hash x.data64 % n = i)).filterMap (fun x =>
          ((lp.filter (fun x => hash x.data64 % n = i)).find?
            (fun y => y.data64 == x.data64)).map (fun y => (x.index, y.dup)))) =
        ((List.range n).flatMap fun i =>
          (ls.filter (fun x => hash x.data64 % n = i))).filterMap (fun x =>
            (lp.find? (fun y => y.data64 == x.data64)).map
              (fun y => (x.index, y.dup))) := by
      rw [List.filterMap_flatMap]
      apply List.flatMap_congr
      intro i _
      apply List.filterMap_congr
      intro x hx
      rw [hfind i x hx]
    rw [this]
    exact (split_perm n _ _ (hlt _)).filterMap _

theorem fresh_files (hash : List Char → Nat) (n : Nat) (ds : List (List UInt8 × Nat)) :
    ((Cache.fresh n).writeAll hash ds).files.length = n := by
  rw [(writeAll_files hash ds (Cache.fresh n)).1]
  simp [Cache.fresh, Cache.openDir]

theorem itemsFrom_dups (k : Nat) (ds : List (List UInt8 × Nat)) :
    (itemsFrom k ds).map (fun x => x.dup + 1) = ds.map (fun p => p.2 + 1) := by
  induction ds generalizing k with
  | nil => rfl
  | cons d ds ih => simp [itemsFrom, ih]

/-- The result of the per-bucket intersection of two fresh stores. -/
theorem computeIndices_fresh (hash : List Char → Nat) (n : Nat) (hn : 0 < n)
    (self peer : List (List UInt8 × Nat)) (hs : Fits self) (hp : Fits peer) :
    ∃ w, computeIndices ((Cache.fresh n).writeAll hash self) ((Cache.fresh n).writeAll hash peer) =
      some (w, (peer.map (fun p => p.2 + 1)).sum,
        (self.map (fun s => ((peer.find? (fun p => p.1 = s.1)).map (fun p => p.2 + 1)).getD 0)).sum) ∧
      w.Perm ((itemsFrom 0 self).filterMap (fun x =>
        ((itemsFrom 0 peer).find? (fun y => y.data64 == x.data64)).map (fun y => (x.index, y.dup)))) := by
  obtain ⟨w, h1, h2⟩ := computeIndices_loads hash n hn _ _ (itemsFrom 0 self) (itemsFrom 0 peer)
    (fresh_files hash n self) (fresh_files hash n peer)
    (fun b hb => load_fresh hash n self hs b hb) (fun b hb => load_fresh hash n peer hp b hb)
  refine ⟨w, ?_, h2⟩
  rw [h1]
  refine congrArg some (Prod.ext rfl (Prod.ext ?_ ?_)) <;> dsimp only
  · rw [itemsFrom_dups]
  · have : ∀ k (ds : List (List UInt8 × Nat)),
        (itemsFrom k ds).map (fun x =>
          (((itemsFrom 0 peer).find? (fun y => y.data64 == x.data64)).map
            (fun y => y.dup + 1)).getD 0) =
        ds.map (fun s =>
          ((peer.find? (fun p => p.1 = s.1)).map (fun p => p.2 + 1)).getD 0) := by
      intro k ds
      induction ds generalizing k with
      | nil => rfl
      | cons d ds ih =>
        have h1 := congrArg (Option.map (· + 1)) (itemsFrom_find 0 peer d.1)
        simp only [Option.map_map, Function.comp_def] at h1
        simp only [itemsFrom, List.map_cons, h1]
        rw [ih]
    rw [this]

/-- What is loaded from bucket `b` of a store that was closed, opened again on the same files and
written to again: the index restarts at 0. -/
theorem load_reopened (hash : List Char → Nat) (n : Nat) (ds ds' : List (List UInt8 × Nat))
    (h : Fits ds) (h' : Fits ds') (b : Nat) (hb : b < n) :
    ((Cache.openDir ((Cache.fresh n).writeAll hash ds).files).writeAll hash ds').files.length = n ∧
    ((Cache.openDir ((Cache.fresh n).writeAll hash ds).files).writeAll hash ds').load b =
      some ((itemsFrom 0 ds ++ itemsFrom 0 ds').filter (fun x => hash x.data64 % n = b)) := by
  obtain ⟨_, _, h3⟩ := writeAll_files hash ds (Cache.fresh n)
  have hl : (Cache.fresh n).files.length = n := by simp [Cache.fresh, Cache.openDir]
  have hl1 := fresh_files hash n ds
  obtain ⟨h4, _, h5⟩ := writeAll_files hash ds' (Cache.openDir ((Cache.fresh n).writeAll hash ds).files)
  have e1 := h3 b (by rw [hl]; exact hb)
  have hz : (Cache.fresh n).files[b]'(by rw [hl]; exact hb) = [] := by
    simp [Cache.fresh, Cache.openDir]
  rw [hz, List.nil_append] at e1
  simp only [hl] at e1
  refine ⟨h4.trans hl1, ?_⟩
  have e2 := h5 b (by simp only [Cache.openDir]; rw [hl1]; exact hb)
  unfold Cache.load
  rw [e2]
  simp only [Cache.openDir, hl1]
  have e3 : ((Cache.fresh n).writeAll hash ds).files[b]'(by rw [hl1]; exact hb) =
      fileOf ((itemsFrom 0 ds).filter (fun x => hash x.data64 % n = b)) := by
    have := List.getElem?_eq_getElem (l := ((Cache.fresh n).writeAll hash ds).files) (i := b)
      (by rw [hl1]; exact hb)
    rw [this] at e1
    exact Option.some.inj e1
  rw [e3, ← fileOf_append, ← List.filter_append]
  apply load_fileOf
  intro x hx
  rcases List.mem_append.mp (List.mem_filter.mp hx).1 with hx | hx
  · exact itemsFrom_ok ds h x hx
  · exact itemsFrom_ok ds' h' x hx

end Psi.Bucket
