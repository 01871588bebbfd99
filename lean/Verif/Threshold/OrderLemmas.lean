import Verif.Threshold.FoundLemmas
import Verif.Ecdh.Lemmas

/-! # What the sender's shuffling and the receiver's stores hold after each batch -/

namespace Psi.Threshold
open Psi.Ecdh

variable {α P : Type}

/-- What the parameters must satisfy: the curve operations and batches are those of a lawful ECDH run, a
shuffle is a permutation of its batch, all counters fit `uint32_t`, the stores are new and have a bucket. -/
structure Run.Lawful (r : Run α P) (L : Nat) : Prop where
  base : r.base.Lawful L
  perm : ∀ i n, (r.perm i n).Perm (List.range n)
  few : (r.base.input true).flatten.length < 2 ^ 32
  fewPeer : (r.base.input false).flatten.length ≤ 2 ^ 32
  dup : ∀ x ∈ (r.base.input false).flatten, x.2 < 2 ^ 32
  threshold : r.threshold < 2 ^ 32
  fresh : ∃ n, 0 < n ∧ r.oldSelf = List.replicate n [] ∧ r.oldPeer = List.replicate n []

theorem Run.Lawful.cfg {r : Run α P} {L : Nat} (h : r.Lawful L) : r.cfg.Lawful L :=
  ⟨h.base.serLen, h.base.round, h.base.dualLe, h.base.window, h.base.nonempty, h.base.small⟩

def Run.items (r : Run α P) (p : Bool) : List (α × Nat) := (r.base.input p).flatten

/-- Batch `k` of the receiver, `[]` from the end on. -/
def bat (r : Run α P) (k : Nat) : List (α × Nat) := ((r.base.input true)[k]?).getD []

def cnt (r : Run α P) (k : Nat) : Nat := ((r.base.input true).take k).flatten.length

def ordAt (r : Run α P) (k : Nat) : List Nat := (r.perm k (bat r k).length).map (cnt r k + ·)

def ordTo (r : Run α P) (k : Nat) : List Nat := (List.range k).flatMap (ordAt r)

/-- Original positions of the receiver's items in the order in which they come back. -/
def order (r : Run α P) : List Nat := ordTo r (r.base.input true).length

/-- The receiver's doubly masked item. -/
def dualAt (r : Run α P) (j : Nat) : Bytes := ((r.items true)[j]?.map (fun x => dual2 r.cfg true x.1)).getD []

def dupOf (r : Run α P) (j : Nat) : Nat :=
  if r.broadcast then ((r.items true)[j]?.map Prod.snd).getD 0 else 0

def entryAt (r : Run α P) (x : Nat × Nat) : Entry := ⟨x.2, x.1, dupOf r x.2⟩

def cacheTo (r : Run α P) (k : Nat) : List Entry := (ordTo r k).zipIdx.map (entryAt r)

theorem cnt_succ (r : Run α P) (k : Nat) : cnt r (k + 1) = cnt r k + (bat r k).length := by
  unfold cnt bat
  by_cases h : k < (r.base.input true).length
  · rw [List.take_succ_eq_append_getElem h]; simp [h]
  · have h' := Nat.le_of_not_lt h
    rw [List.take_of_length_le h', List.take_of_length_le (by omega), List.getElem?_eq_none h']
    simp

theorem cnt_le (r : Run α P) (k : Nat) : cnt r k ≤ (r.items true).length := by
  unfold cnt Run.items
  conv_rhs => rw [← List.take_append_drop k (r.base.input true)]
  rw [List.flatten_append, List.length_append]
  omega

theorem cnt_end (r : Run α P) : cnt r (r.base.input true).length = (r.items true).length := by
  simp [cnt, Run.items]

theorem items_bat (r : Run α P) (k p : Nat) (h : p < (bat r k).length) :
    (r.items true)[cnt r k + p]? = some ((bat r k)[p]) := by
  unfold bat at h ⊢
  by_cases hk : k < (r.base.input true).length
  · simp only [List.getElem?_eq_getElem hk, Option.getD_some] at h ⊢
    unfold Run.items cnt
    have e : (r.base.input true).flatten = ((r.base.input true).take k).flatten ++
        ((r.base.input true)[k] ++ ((r.base.input true).drop (k + 1)).flatten) := by
      conv_lhs => rw [← List.take_append_drop k (r.base.input true)]
      rw [List.flatten_append, List.drop_eq_getElem_cons hk, List.flatten_cons]
    rw [e, List.getElem?_append_right (by omega), Nat.add_sub_cancel_left, List.getElem?_append_left h,
      List.getElem?_eq_getElem h]
  · rw [List.getElem?_eq_none (Nat.le_of_not_lt hk)] at h
    simp at h

theorem ordTo_succ (r : Run α P) (k : Nat) : ordTo r (k + 1) = ordTo r k ++ ordAt r k := by
  simp [ordTo, List.range_succ]

section lawful
variable {r : Run α P} {L : Nat}

theorem perm_length (h : r.Lawful L) (i n : Nat) : (r.perm i n).length = n := by
  rw [(h.perm i n).length_eq, List.length_range]

theorem perm_lt (h : r.Lawful L) {i n j : Nat} (hj : j ∈ r.perm i n) : j < n :=
  List.mem_range.mp ((h.perm i n).mem_iff.mp hj)

theorem ordTo_perm (h : r.Lawful L) (k : Nat) : (ordTo r k).Perm (List.range (cnt r k)) := by
  induction k with
  | zero => simp [ordTo, cnt]
  | succ k ih =>
    rw [ordTo_succ, cnt_succ, List.range_add]
    exact ih.append ((h.perm k _).map _)

theorem ordTo_length (h : r.Lawful L) (k : Nat) : (ordTo r k).length = cnt r k := by
  rw [(ordTo_perm h k).length_eq, List.length_range]

theorem order_perm (h : r.Lawful L) : (order r).Perm (List.range (r.items true).length) := by
  rw [← cnt_end]; exact ordTo_perm h _

theorem order_length (h : r.Lawful L) : (order r).length = (r.items true).length := by
  rw [(order_perm h).length_eq, List.length_range]

theorem order_nodup (h : r.Lawful L) : (order r).Nodup :=
  (order_perm h).nodup_iff.mpr List.nodup_range

theorem order_lt (h : r.Lawful L) {p a : Nat} (hp : (order r)[p]? = some a) : a < (r.items true).length :=
  List.mem_range.mp ((order_perm h).mem_iff.mp (List.mem_of_getElem? hp))

theorem cacheTo_succ (h : r.Lawful L) (k : Nat) : cacheTo r (k + 1) = cacheTo r k ++
    (r.perm k (bat r k).length).zipIdx.map
      (fun x => entryAt r (cnt r k + x.1, cnt r k + x.2)) := by
  unfold cacheTo
  rw [ordTo_succ, List.zipIdx_append, List.map_append, ordTo_length h]
  congr 1
  unfold ordAt
  have key : ∀ (l : List Nat) (s a b : Nat), ((l.map (a + ·)).zipIdx (b + s)).map (entryAt r) =
      (l.zipIdx s).map (fun x => entryAt r (a + x.1, b + x.2)) := by
    intro l
    induction l with
    | nil => intros; rfl
    | cons x l ih =>
      intro s a b
      simp only [List.map_cons, List.zipIdx_cons]
      rw [← ih (s + 1) a b, Nat.add_assoc]
  have := key (r.perm k (bat r k).length) 0 (cnt r k) (cnt r k)
  simpa using this

end lawful

theorem bat_eq (r : Run α P) (k : Nat) (h : k < (allBatches r.cfg true).length) :
    bat r k = (allBatches r.cfg true)[k] := by
  rw [allBatches_get]
  unfold bat
  show _ = ((r.base.input true).drop k).headD []
  rw [List.headD_eq_head?_getD, List.head?_drop]

theorem dupMap_key {b : List (α × Nat)} {d : Nat × Nat} (h : d ∈ dupMap b) : d.1 < b.length := by
  unfold dupMap at h
  obtain ⟨x, hx, he⟩ := List.mem_filterMap.mp h
  split at he
  · simp only [Option.some.injEq] at he
    subst he
    have := List.snd_lt_of_mem_zipIdx hx
    simpa using this
  · cases he

/-- One batch of `MaskAndShufflePeer`. -/
theorem shuffleBatch_eq {r : Run α P} {L : Nat} (h : r.Lawful L) (k : Nat) :
    shuffleBatch r k (cnt r k) ((bat r k).map (fun x => r.cfg.ser (r.cfg.mask true (r.cfg.hash x.1))))
      (if (bat r k).isEmpty then [] else if r.cfg.target.canTouch false then dupMap (bat r k) else []) =
    some ((ordAt r k).map (dualAt r), (r.perm k (bat r k).length).zipIdx.map
      (fun x => entryAt r (cnt r k + x.1, cnt r k + x.2))) := by
  unfold shuffleBatch
  by_cases he : (bat r k).isEmpty = true
  · have h0 : bat r k = [] := List.isEmpty_iff.mp he
    have hp : r.perm k 0 = [] := List.length_eq_zero_iff.mp (perm_length h k 0)
    simp [h0, ordAt, hp]
  · have he' : (bat r k).isEmpty = false := by simpa using he
    simp only [List.isEmpty_map, he', Bool.false_eq_true, if_false, List.length_map, List.map_map]
    have hall : (if r.cfg.target.canTouch false then dupMap (bat r k) else []).all
        (fun d => decide (d.1 < (bat r k).length)) = true := by
      rw [List.all_eq_true]
      intro d hd
      split at hd
      · simpa using dupMap_key hd
      · cases hd
    unfold dupVec
    rw [if_pos hall]
    simp only [Option.some.injEq, Prod.mk.injEq]
    constructor
    · unfold ordAt
      rw [List.map_map]
      refine List.map_congr_left (fun j hj => ?_)
      have hj' := perm_lt h hj
      simp only [Function.comp, dualAt, items_bat r k j hj', Option.map_some, Option.getD_some]
      rw [List.getD_eq_getElem?_getD, List.getElem?_eq_getElem (by simpa using hj'), Option.getD_some]
      simp [dual2, h.base.round, show r.cfg.deser = r.base.deser from rfl, show r.cfg.ser = r.base.ser from rfl]
    · refine List.map_congr_left (fun x hx => ?_)
      have hx1 : x.1 < (bat r k).length := perm_lt h (List.fst_mem_of_mem_zipIdx hx)
      have hx2 : x.2 < (bat r k).length := by
        have := List.snd_lt_of_mem_zipIdx hx
        rwa [perm_length h, Nat.add_zero] at this
      have hle := cnt_le r (k + 1)
      rw [cnt_succ] at hle
      have hfew : (r.items true).length < 2 ^ 32 := h.few
      unfold entryAt
      simp only [Entry.mk.injEq]
      refine ⟨Nat.mod_eq_of_lt (by omega), Nat.mod_eq_of_lt (by omega), ?_⟩
      rw [List.getD_eq_getElem?_getD, List.getElem?_eq_getElem (by simpa using hx2), Option.getD_some]
      simp only [List.getElem_map, List.getElem_range, dupOf, items_bat r k x.2 hx2, Option.map_some,
        Option.getD_some]
      have : r.cfg.target.canTouch false = r.broadcast := by
        unfold Run.cfg; cases r.broadcast <;> rfl
      rw [this]
      cases r.broadcast
      · simp [dupAt]
      · simp only [if_true]; exact dupMap_lookup _ _ hx2

/-! ## Restoring the positions -/

theorem lookup_iff {β : Type} (l : List (Nat × β)) (hnd : (l.map Prod.fst).Nodup) (k : Nat) (v : β) :
    l.lookup k = some v ↔ (k, v) ∈ l := by
  induction l with
  | nil => simp
  | cons x l ih =>
    obtain ⟨a, b⟩ := x
    rw [List.map_cons, List.nodup_cons] at hnd
    rw [List.lookup_cons]
    by_cases h : k = a
    · subst h
      simp only [beq_self_eq_true, Option.some.injEq, List.mem_cons, Prod.mk.injEq, true_and]
      constructor
      · intro h; exact Or.inl h.symm
      · rintro (h | h)
        · exact h.symm
        · exact absurd (List.mem_map.mpr ⟨_, h, rfl⟩) hnd.1
    · rw [beq_eq_false_iff_ne.mpr h]
      simp only [List.mem_cons, Prod.mk.injEq, h, false_and, false_or]
      exact ih hnd.2

theorem indexMap_lookup (l : List Nat) (hnd : l.Nodup) (k i : Nat) :
    (indexMap l).lookup k = some i ↔ l[i]? = some k := by
  unfold indexMap
  rw [lookup_iff, List.mem_reverse, List.mem_zipIdx_iff_getElem?]
  rw [List.map_reverse, List.nodup_reverse, List.zipIdx_map_fst]
  exact hnd

theorem restore_eq (f : Nat → Nat × Nat) (es : List Entry) (l : List Nat) (hnd : l.Nodup)
    (hlt : ∀ p ∈ l, p < es.length)
    (hes : ∀ p (h : p < es.length), es[p].pos = p ∧ (es[p].orig, es[p].dup) = f p) :
    restore es l = l.map f := by
  have key : ∀ m, m ≤ es.length →
      (es.take m).foldl (restoreOne l) (List.replicate l.length (0, 0)) =
      l.map (fun p => if p < m then f p else (0, 0)) := by
    intro m
    induction m with
    | zero => intro _; simp
    | succ m ih =>
      intro hm
      have hm' : m < es.length := by omega
      rw [List.take_succ_eq_append_getElem hm', List.foldl_append, ih (by omega)]
      obtain ⟨h1, h2⟩ := hes m hm'
      rw [List.foldl_cons, List.foldl_nil, restoreOne]
      rw [h1, h2]
      cases hl : (indexMap l).lookup m with
      | none =>
        refine List.map_congr_left (fun p hp => ?_)
        have : p ≠ m := by
          rintro rfl
          obtain ⟨i, hi⟩ := List.mem_iff_getElem?.mp hp
          rw [(indexMap_lookup l hnd p i).mpr hi] at hl
          cases hl
        by_cases hpm : p < m
        · rw [if_pos hpm, if_pos (by omega)]
        · rw [if_neg hpm, if_neg (by omega)]
      | some i =>
        have hi := (indexMap_lookup l hnd m i).mp hl
        obtain ⟨hil, hie⟩ := List.getElem?_eq_some_iff.mp hi
        refine List.ext_getElem (by simp) (fun j hj1 hj2 => ?_)
        have hjl : j < l.length := by simpa using hj2
        simp only [List.getElem_set]
        by_cases hij : i = j
        · subst hij
          rw [if_pos rfl, List.getElem_map, hie, if_pos (by omega)]
        · rw [if_neg hij, List.getElem_map, List.getElem_map]
          have : l[j] ≠ m := fun he => hij ((List.getElem_inj hnd).mp (hie.trans he.symm))
          by_cases hpm : l[j] < m
          · rw [if_pos hpm, if_pos (by omega)]
          · rw [if_neg hpm, if_neg (by omega)]
  have := key es.length (Nat.le_refl _)
  rw [List.take_length] at this
  unfold restore
  rw [this]
  exact List.map_congr_left (fun p hp => if_pos (hlt p hp))

end Psi.Threshold
