import Verif.Apsi.FileLemmas
import Mathlib.Data.List.Basic
import Mathlib.Data.List.Perm.Subperm
import Mathlib.Tactic.Linarith

/-! # Every group is made of its rows of the table -/

namespace Psi.Apsi

open Psi.Spiral (Res mapRes)
open Psi.DkPir (Str)

section
variable {B : Type} {w : World B}

/-- The bucket of a key. -/
def home (w : World B) (n : Nat) (k : Str) : Nat := w.hash k % n

/-- The rows of a table in a bucket. -/
def bucketRows (w : World B) (n : Nat) (t : Table) (b : Nat) : List (Str × Str) :=
  (t.rows.filter fun r => home w n r.1 = b).map (rowOf t.labeled)

/-- The rows of a table in a group. -/
def groupRows (w : World B) (n G : Nat) (rows : List (Str × Str)) (g : Nat) : List (Nat × (Str × Str)) :=
  (rows.filter fun r => home w n r.1 / perGroup n G = g).map fun r => (home w n r.1, r)

/-- The rows as they are read. -/
def readBack (w : World B) (n G : Nat) (t : Table) (g : Nat) : List (Nat × (Str × Str)) :=
  (groupRows w n G t.rows g).map fun r => (r.1, rowOf t.labeled r.2)

/-- A table the sender can serve from `n` buckets. -/
structure Fine (w : World B) (n : Nat) (t : Table) : Prop where
  rows : t.rows ≠ []
  keys : (t.rows.map Prod.fst).Nodup
  quiet : ∀ r ∈ t.rows, Quiet r.1 ∧ (t.labeled → Quiet r.2)
  label : t.labeled → ∀ r ∈ t.rows, ∃ r' ∈ t.rows, w.hash r'.1 % n = w.hash r.1 % n ∧ r'.2 ≠ []

/-! ### Arithmetic -/

theorem le_perGroup {n G : Nat} (hG : 0 < G) : n ≤ perGroup n G * G := by
  rw [perGroup]
  have h1 := Nat.div_add_mod (n + G - 1) G
  have h2 := Nat.mod_lt (n + G - 1) hG
  rw [Nat.mul_comm] at h1
  omega

theorem perGroup_pos {n G : Nat} (hn : 0 < n) (hG : 0 < G) : 0 < perGroup n G := by
  rcases Nat.eq_zero_or_pos (perGroup n G) with h | h
  · have := le_perGroup (n := n) hG
    rw [h, Nat.zero_mul] at this
    omega
  · exact h

theorem group_lt {n G b : Nat} (hG : 0 < G) (hb : b < n) : b / perGroup n G < G :=
  Nat.div_lt_of_lt_mul (Nat.lt_of_lt_of_le hb (le_perGroup hG))

theorem home_lt {n : Nat} (hn : 0 < n) (k : Str) : home w n k < n := Nat.mod_lt _ hn

theorem bucketIdx_home {n : Nat} (hn : 0 < n) (hn' : n ≤ 2 ^ 31) (k : Str) : bucketIdx w n k = .ok (home w n k) := by
  rw [bucketIdx, if_neg (Nat.ne_of_gt hn), if_pos (Nat.lt_of_lt_of_le (Nat.mod_lt _ hn) hn')]
  rfl

/-! ### Dividing -/

/-- The text added to the file of a group. -/
def added (w : World B) (n G : Nat) (labeled : Bool) (rows : List (Str × Str)) (i : Nat) : Str :=
  (groupRows w n G rows i).flatMap fun r => groupLine labeled r.1 r.2

theorem divideRows_ok {n G : Nat} (hn : 0 < n) (hn' : n ≤ 2 ^ 31) (hG : 0 < G) (labeled : Bool) :
    ∀ (rows : List (Str × Str)) (f : Nat → Option Str), ∃ f', divideRows w n G labeled f rows = .ok f' ∧
      ∀ i x, f i = some x → f' i = some (x ++ added w n G labeled rows i)
  | [], f => ⟨f, rfl, fun i x h => by simp [added, groupRows, h]⟩
  | r :: rs, f => by
    have hr : divideRow w n G labeled f r
        = .ok (append f (home w n r.1 / perGroup n G) (groupLine labeled (home w n r.1) r)) := by
      rw [divideRow, bucketIdx_home hn hn', bind_ok]
      exact if_pos (group_lt hG (home_lt hn _))
    obtain ⟨f', h1, h2⟩ := divideRows_ok hn hn' hG labeled rs
      (append f (home w n r.1 / perGroup n G) (groupLine labeled (home w n r.1) r))
    refine ⟨f', by rw [divideRows, hr, bind_ok, h1], ?_⟩
    intro i x hx
    by_cases h : home w n r.1 / perGroup n G = i
    · rw [h2 i (x ++ groupLine labeled (home w n r.1) r) (by rw [append, if_pos h.symm, hx]; rfl)]
      simp [added, groupRows, h]
    · rw [h2 i x (by rw [append, if_neg (Ne.symm h), hx])]
      simp [added, groupRows, h]

theorem groupText_eq (n G : Nat) (t : Table) (i : Nat) :
    groupText t.labeled (groupRows w n G t.rows i) = groupHeader t.labeled ++ added w n G t.labeled t.rows i := rfl

theorem groupBucketize_ok {n G : Nat} (hn : 0 < n) (hn' : n ≤ 2 ^ 31) (hG : 0 < G) {t : Table} (ht : t.rows ≠ [])
    {old : Nat → Option Str} (ho : ∀ i < G, w.keepOld = true → (old i).getD [] = []) :
    ∃ f, groupBucketize w n G t old = (f, .ok ()) ∧
      ∀ i < G, f i = some (groupText t.labeled (groupRows w n G t.rows i)) := by
  obtain ⟨f, h1, h2⟩ := divideRows_ok (w := w) hn hn' hG t.labeled t.rows (openStreams w G t.labeled old)
  refine ⟨f, ?_, ?_⟩
  · rw [groupBucketize, if_neg (Nat.ne_of_gt hG), h1]
    simp only [if_neg ht]
  · intro i hi
    rw [groupText_eq]
    refine h2 i _ ?_
    rw [openStreams, if_pos hi]
    by_cases hk : w.keepOld = true
    · rw [if_pos hk, ho i hi hk, List.nil_append]
    · rw [if_neg hk, List.nil_append]

/-! ### Reading a group -/

theorem readGroup_rows {n G : Nat} {t : Table} (ht : Fine w n t) (g : Nat) :
    readGroup (groupText t.labeled (groupRows w n G t.rows g)) = .ok (t.labeled, readBack w n G t g) := by
  rw [readGroup_text]
  · rfl
  · intro r hr
    obtain ⟨x, hx, rfl⟩ := List.mem_map.mp hr
    exact ht.quiet x (List.mem_of_mem_filter hx)

theorem readBack_fst (n G : Nat) (t : Table) (g : Nat) :
    (readBack w n G t g).map Prod.fst
      = (t.rows.filter fun r => home w n r.1 / perGroup n G = g).map fun r => home w n r.1 := by
  simp [readBack, groupRows, Function.comp_def]

theorem rowsOf_readBack {n G : Nat} (t : Table) {g b : Nat} (hb : b / perGroup n G = g) :
    rowsOf (readBack w n G t g) b = bucketRows w n t b := by
  rw [rowsOf, readBack, groupRows, bucketRows, List.map_map, List.filter_map, List.map_map, List.filter_filter]
  congr 1
  refine List.filter_congr fun r _ => ?_
  simp only [Function.comp_apply, ← Bool.decide_and]
  rw [decide_eq_decide]
  constructor
  · exact fun h => h.1
  · intro h
    exact ⟨h, by rw [h, hb]⟩

theorem mem_ids {n G : Nat} {t : Table} {g b : Nat} :
    b ∈ ((readBack w n G t g).map Prod.fst).dedup ↔ b / perGroup n G = g ∧ bucketRows w n t b ≠ [] := by
  rw [List.mem_dedup, readBack_fst]
  simp only [List.mem_map, List.mem_filter, decide_eq_true_eq, bucketRows, ne_eq, List.map_eq_nil_iff, List.filter_eq_nil_iff,
    not_forall, not_not]
  constructor
  · rintro ⟨r, ⟨h1, h2⟩, rfl⟩
    exact ⟨h2, r, h1, rfl⟩
  · rintro ⟨h1, r, h2, rfl⟩
    exact ⟨r, ⟨h2, h1⟩, rfl⟩

theorem ids_le {n G : Nat} (hn : 0 < n) (hG : 0 < G) (t : Table) (g : Nat) :
    ((readBack w n G t g).map Prod.fst).dedup.length ≤ perGroup n G := by
  have hs : ((readBack w n G t g).map Prod.fst).dedup ⊆ List.range' (g * perGroup n G) (perGroup n G) := by
    intro b hb
    have h := (mem_ids.mp hb).1
    have hp := perGroup_pos hn hG
    rw [List.mem_range'_1]
    have h1 := Nat.div_add_mod b (perGroup n G)
    have h2 := Nat.mod_lt b hp
    rw [h, Nat.mul_comm] at h1
    omega
  have := (List.Nodup.subperm (List.nodup_dedup _) hs).length_le
  rwa [List.length_range'] at this

/-! ### No bucket is refused -/

theorem foldl_max_pos : ∀ (l : List Nat) (a : Nat), (0 < a ∨ ∃ x ∈ l, 0 < x) → 0 < l.foldl max a
  | [], a, h => by simpa using h
  | x :: l, a, h => by
    rw [List.foldl_cons]
    refine foldl_max_pos l _ ?_
    rcases h with h | ⟨y, hy, h⟩
    · exact .inl (by omega)
    · rcases List.mem_cons.mp hy with rfl | hy
      · exact .inl (by omega)
      · exact .inr ⟨y, hy, h⟩

theorem bucket_nodup {n : Nat} {t : Table} (ht : Fine w n t) (b : Nat) : ((bucketRows w n t b).map Prod.fst).Nodup := by
  have : (bucketRows w n t b).map Prod.fst = (t.rows.filter fun r => home w n r.1 = b).map Prod.fst := by
    rw [bucketRows, List.map_map]
    congr 1
    funext r
    cases h : t.labeled <;> simp [rowOf]
  rw [this]
  exact ht.keys.sublist (List.filter_sublist.map _)

theorem longest_pos {n : Nat} {t : Table} (ht : Fine w n t) (hl : t.labeled = true) {b : Nat}
    (hb : bucketRows w n t b ≠ []) : 0 < longest (bucketRows w n t b) := by
  obtain ⟨r, hr⟩ := List.exists_mem_of_ne_nil _ hb
  obtain ⟨x, hx, -⟩ := List.mem_map.mp hr
  rw [List.mem_filter] at hx
  obtain ⟨r', h1, h2, h3⟩ := ht.label hl x hx.1
  refine foldl_max_pos _ _ (.inr ⟨r'.2.length, ?_, List.length_pos_iff.mpr h3⟩)
  refine List.mem_map.mpr ⟨r', List.mem_map.mpr ⟨r', List.mem_filter.mpr ⟨h1, ?_⟩, by simp [rowOf, hl]⟩, rfl⟩
  have := of_decide_eq_true hx.2
  exact decide_eq_true (h2.trans this)

theorem not_refused {n : Nat} {t : Table} (ht : Fine w n t) {b : Nat} (hb : bucketRows w n t b ≠ []) :
    refused t.labeled (bucketRows w n t b) = false := by
  rw [refused, decide_eq_false (not_not.mpr (bucket_nodup ht b)), Bool.false_or]
  cases hl : t.labeled with
  | false => rfl
  | true =>
    have := longest_pos ht hl hb
    simp only [Bool.true_and, beq_eq_false_iff_ne]
    omega

/-! ### What a finished group holds -/

/-- The database of a bucket. -/
def dbOf (w : World B) (n : Nat) (t : Table) (draw : Nat → Nat) (b : Nat) : Option Stored :=
  if bucketRows w n t b = [] then none else some (makeDb t.labeled (draw b) (bucketRows w n t b))

theorem look_groupDbs (hw : Sound w) {n G : Nat} (t : Table) (draw : Nat → Nat) {g b : Nat}
    (hb : b / perGroup n G = g) :
    look b (groupDbs w draw t.labeled (readBack w n G t g)) = dbOf w n t draw b := by
  rw [groupDbs, look_map (fun b => makeDb t.labeled (draw b) (rowsOf (readBack w n G t g) b)), dbOf, rowsOf_readBack t hb]
  by_cases h : bucketRows w n t b = []
  · rw [if_pos h, if_neg]
    intro hm
    exact (mem_ids.mp ((hw.perm _).mem_iff.mp hm)).2 h
  · rw [if_neg h, if_pos ((hw.perm _).mem_iff.mpr (mem_ids.mpr ⟨hb, h⟩))]

/-- The files of a finished group. -/
def doneFiles (w : World B) (n G : Nat) (t : Table) (g : Nat) (draw : Nat → Nat) : GroupFiles B :=
  groupFiles w draw t.labeled (readBack w n G t g)

/-- Positions with which the buckets of a group are found. -/
def Serves (w : World B) (n G : Nat) (t : Table) (g : Nat) (draw : Nat → Nat) (o : Offsets) : Prop :=
  ∀ b, b / perGroup n G = g → loadBucket w o (doneFiles w n G t g draw).db b = dbOf w n t draw b

theorem serves_made (hw : Sound w) {n G : Nat} (t : Table) (g : Nat) (draw : Nat → Nat) :
    Serves w n G t g draw (offsetsFrom w 0 (groupDbs w draw t.labeled (readBack w n G t g))) := by
  intro b hb
  rw [← look_groupDbs hw t draw hb]
  exact loadBucket_offsets hw b _

theorem loadMeta_done (hw : Sound w) {n G : Nat} (hn : 0 < n) (hG : 0 < G) (t : Table) (g : Nat) (draw : Nat → Nat) :
    ∃ x y o, doneFiles w n G t g draw = ⟨some x, some y⟩ ∧ loadMeta (perGroup n G) y = .ok o ∧ Serves w n G t g draw o := by
  refine ⟨_, _, inOrder (w.shuffle ((readBack w n G t g).map Prod.fst).dedup)
    (offsetsFrom w 0 (groupDbs w draw t.labeled (readBack w n G t g))), rfl, ?_, ?_⟩
  · have hl : (groupDbs w draw t.labeled (readBack w n G t g)).length
        = (inOrder (w.shuffle ((readBack w n G t g).map Prod.fst).dedup)
          (offsetsFrom w 0 (groupDbs w draw t.labeled (readBack w n G t g)))).length := by
      simp [groupDbs, inOrder]
    rw [hl]
    refine loadMeta_index ?_
    have := ids_le (w := w) hn hG t g
    rw [inOrder, List.length_map, (hw.perm _).length_eq]
    exact this
  · intro b hb
    rw [← serves_made hw t g draw b hb, loadBucket, loadBucket, groupDbs, look_inOrder (List.Perm.refl _)]

/-- Making a group that is not there yet. -/
theorem generate_new (hw : Sound w) {n G : Nat} (hn : 0 < n) (hG : 0 < G) {t : Table} (ht : Fine w n t) (g : Nat)
    (draw : Nat → Nat) {f : GroupFiles B} (hf : f.db = none ∨ f.index = none) :
    ∃ o, generate w draw (perGroup n G) (some (groupText t.labeled (groupRows w n G t.rows g))) f
      = (doneFiles w n G t g draw, .ok o) ∧ Serves w n G t g draw o := by
  refine ⟨_, ?_, serves_made hw t g draw⟩
  have hany : ((readBack w n G t g).map Prod.fst).dedup.any
      (fun b => refused t.labeled (rowsOf (readBack w n G t g) b)) = false := by
    rw [List.any_eq_false]
    intro b hb
    have := mem_ids.mp hb
    rw [rowsOf_readBack t this.1, not_refused ht this.2]
    exact Bool.false_ne_true
  have key : (match readGroup (groupText t.labeled (groupRows w n G t.rows g)) with
      | .throws => (f, (.throws : Res Offsets))
      | .undefined => (f, .undefined)
      | .ok (labeled, rows) =>
        if perGroup n G < (rows.map Prod.fst).dedup.length then (f, .throws)
        else if (rows.map Prod.fst).dedup.any (fun b => refused labeled (rowsOf rows b)) then
          (⟨some [], f.index⟩, .throws)
        else (groupFiles w draw labeled rows, .ok (offsetsFrom w 0 (groupDbs w draw labeled rows))))
      = (doneFiles w n G t g draw, .ok (offsetsFrom w 0 (groupDbs w draw t.labeled (readBack w n G t g)))) := by
    rw [readGroup_rows ht]
    simp only [hany, if_neg (Nat.not_lt.mpr (ids_le hn hG t g)), Bool.false_eq_true, if_false]
    rfl
  rw [generate]
  rcases f with ⟨db, ix⟩
  cases db with
  | none => exact key
  | some x =>
    cases ix with
    | none => exact key
    | some y =>
      rcases hf with h | h <;> cases h

/-- A group that is there is loaded. -/
theorem generate_done (hw : Sound w) {n G : Nat} (hn : 0 < n) (hG : 0 < G) (t : Table) (g : Nat)
    (draw draw' : Nat → Nat) (csv : Option Str) :
    ∃ o, generate w draw' (perGroup n G) csv (doneFiles w n G t g draw)
      = (doneFiles w n G t g draw, .ok o) ∧ Serves w n G t g draw o := by
  obtain ⟨x, y, o, h1, h2, h3⟩ := loadMeta_done hw hn hG t g draw
  refine ⟨o, ?_, h3⟩
  rw [h1]
  change ((⟨some x, some y⟩ : GroupFiles B), loadMeta (perGroup n G) y) = _
  rw [h2]

end

end Psi.Apsi
