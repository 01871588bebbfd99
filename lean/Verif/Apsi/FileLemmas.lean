import Verif.Apsi.Model
import Verif.DkPir.TableLemmas
import Verif.Text.Lemmas
import Mathlib.Data.List.Dedup

/-! # The files of a directory are read back as they were written -/

namespace Psi.Apsi

open Psi.Spiral (Res mapRes)
open Psi.DkPir (Str readRows readLine fieldsFrom consHead Plain)

theorem bind_ok {α β : Type} (a : α) (f : α → Res β) : (Res.ok a).bind f = f a := rfl

/-- Text that may be put between quotes. -/
def Quiet (s : Str) : Prop := '"' ∉ s ∧ '\n' ∉ s

instance (s : Str) : Decidable (Quiet s) := inferInstanceAs (Decidable (_ ∧ _))

/-! ### Lines of a group file -/

/-- Put text in front of the first field. -/
def onHead (s : Str) : List Str → List Str
  | [] => [s]
  | f :: r => (s ++ f) :: r

theorem onHead_cons (c : Char) (s : Str) (l : List Str) : consHead c (onHead s l) = onHead (c :: s) l := by
  cases l <;> rfl

theorem fields_quoted : ∀ (s t : Str), '"' ∉ s → fieldsFrom .quoted (s ++ '"' :: t) = (fieldsFrom .seen t).map (onHead s)
  | [], t, _ => by
    rw [List.nil_append, fieldsFrom]
    simp only [if_true]
    cases h : fieldsFrom .seen t with
    | none => rfl
    | some l =>
      cases l with
      | nil =>
        exfalso
        cases t with
        | nil => simp [fieldsFrom] at h
        | cons c r =>
          rw [fieldsFrom] at h
          split_ifs at h
          all_goals
            simp only [Option.map_eq_some_iff] at h
            obtain ⟨x, -, hx⟩ := h
          · cases x <;> simp [consHead] at hx
          · simp at hx
          · cases x <;> simp [consHead] at hx
      | cons f r => rfl
  | c :: s, t, h => by
    simp only [List.mem_cons, not_or] at h
    rw [List.cons_append, fieldsFrom]
    simp only [Ne.symm h.1, if_false]
    rw [fields_quoted s t h.2, Option.map_map]
    congr 1
    funext l
    exact onHead_cons c s l

/-- A quoted field at the end of a line. -/
theorem fields_quoted_last (s : Str) (h : '"' ∉ s) : fieldsFrom .start ('"' :: (s ++ ['"'])) = some [s] := by
  rw [fieldsFrom]
  simp only [if_true]
  rw [fields_quoted s [] h]
  simp [fieldsFrom, onHead]

/-- A quoted field before a comma. -/
theorem fields_quoted_cons (s t : Str) (h : '"' ∉ s) :
    fieldsFrom .start ('"' :: (s ++ '"' :: ',' :: t)) = (fieldsFrom .start t).map (s :: ·) := by
  rw [fieldsFrom]
  simp only [if_true]
  rw [fields_quoted s _ h, fieldsFrom]
  have hc : (',' : Char) ≠ '"' := by decide
  simp only [hc, if_false, if_true, Option.map_map]
  congr 1
  funext l
  simp [onHead]

theorem dec_plain (n : Nat) : Plain (Text.dec n) := by
  refine ⟨Text.dec_not_mem n _ (by decide), Text.dec_not_mem n _ (by decide), ?_⟩
  intro h
  have := List.mem_of_mem_head? h
  exact Text.dec_not_mem n '"' (by decide) this

/-- A line without its end. -/
def groupLine' (labeled : Bool) (b : Nat) (r : Str × Str) : Str :=
  Text.dec b ++ ',' :: '"' :: (r.1 ++ '"' :: (if labeled then ',' :: '"' :: (r.2 ++ ['"']) else []))

theorem groupLine_eq (labeled : Bool) (b : Nat) (r : Str × Str) :
    groupLine labeled b r = groupLine' labeled b r ++ ['\n'] := by
  cases labeled <;> simp [groupLine, groupLine']

/-- What is read of a line. -/
def fieldsOf (labeled : Bool) (b : Nat) (r : Str × Str) : List Str :=
  if labeled then [Text.dec b, r.1, r.2] else [Text.dec b, r.1]

theorem readLine_group {labeled : Bool} {b : Nat} {r : Str × Str} (h1 : Quiet r.1) (h2 : labeled → Quiet r.2) :
    readLine (if labeled then 3 else 2) (groupLine' labeled b r) = .ok (fieldsOf labeled b r) := by
  rw [readLine, groupLine', DkPir.fields_start_cons _ _ (dec_plain b)]
  cases labeled with
  | true =>
    simp only [if_true]
    rw [fields_quoted_cons _ _ h1.1, fields_quoted_last _ (h2 rfl).1]
    simp [fieldsOf]
  | false =>
    simp only [Bool.false_eq_true, if_false]
    rw [fields_quoted_last _ h1.1]
    simp [fieldsOf]

/-- The row a line stands for. -/
def rowOf (labeled : Bool) (r : Str × Str) : Str × Str := if labeled then r else (r.1, [])

theorem groupRow_fields (labeled : Bool) (b : Nat) (r : Str × Str) :
    groupRow (fieldsOf labeled b r) = .ok (b, rowOf labeled r) := by
  have h0 : (fieldsOf labeled b r).getD 0 [] = Text.dec b := by cases labeled <;> rfl
  rw [groupRow, h0, Text.digitsVal_dec]
  simp only [if_neg (Text.dec_ne_nil b)]
  cases labeled <;> rfl

theorem groupLine_no_newline {labeled : Bool} {b : Nat} {r : Str × Str} (h1 : Quiet r.1) (h2 : labeled → Quiet r.2) :
    '\n' ∉ groupLine' labeled b r := by
  have hd : '\n' ∉ Text.dec b := Text.dec_not_mem b _ (by decide)
  have hn : ('\n' : Char) ≠ '"' := by decide
  have hc : ('\n' : Char) ≠ ',' := by decide
  cases labeled with
  | true => simp [groupLine', hd, h1.2, (h2 rfl).2]
  | false => simp [groupLine', hd, h1.2]

/-- The first line without its end. -/
def groupHeader' (labeled : Bool) : Str := if labeled then "bucket_id,key,value".toList else "bucket_id,key".toList

theorem groupHeader_eq (labeled : Bool) : groupHeader labeled = groupHeader' labeled ++ ['\n'] := by
  cases labeled <;> decide

theorem hasValue_header (labeled : Bool) : hasValue (groupHeader' labeled) = labeled := by
  cases labeled <;> decide

/-- The text of a group file. -/
def groupText (labeled : Bool) (rows : List (Nat × (Str × Str))) : Str :=
  groupHeader labeled ++ rows.flatMap fun r => groupLine labeled r.1 r.2

theorem lines_group {labeled : Bool} {rows : List (Nat × (Str × Str))}
    (h : ∀ r ∈ rows, Quiet r.2.1 ∧ (labeled → Quiet r.2.2)) :
    Text.lines (groupText labeled rows) = groupHeader' labeled :: rows.map fun r => groupLine' labeled r.1 r.2 := by
  rw [groupText, groupHeader_eq, List.append_assoc, List.singleton_append, Text.lines_line _ _ (by cases labeled <;> decide)]
  congr 1
  have := Text.lines_flatMap (rows.map fun r => groupLine' labeled r.1 r.2) (by
    intro l hl
    obtain ⟨r, hr, rfl⟩ := List.mem_map.mp hl
    exact groupLine_no_newline (h r hr).1 (h r hr).2)
  rw [List.flatMap_map] at this
  rw [← this]
  congr 1
  exact List.flatMap_congr fun r _ => groupLine_eq _ _ _

theorem groupLine_ne_nil (labeled : Bool) (b : Nat) (r : Str × Str) : groupLine' labeled b r ≠ [] := by
  simp [groupLine']

/-- A group file is read back as it was written. -/
theorem readGroup_text {labeled : Bool} {rows : List (Nat × (Str × Str))}
    (h : ∀ r ∈ rows, Quiet r.2.1 ∧ (labeled → Quiet r.2.2)) :
    readGroup (groupText labeled rows) = .ok (labeled, rows.map fun r => (r.1, rowOf labeled r.2)) := by
  have hr : readRows (if labeled then 3 else 2) (groupText labeled rows) = .ok (rows.map fun r => fieldsOf labeled r.1 r.2) := by
    rw [readRows, lines_group h, List.drop_one, List.tail_cons, List.filter_eq_self.mpr, DkPir.mapRes_map',
      DkPir.mapRes_all (g := fun r : Nat × (Str × Str) => fieldsOf labeled r.1 r.2)]
    · exact fun r hr => readLine_group (h r hr).1 (h r hr).2
    · intro l hl
      obtain ⟨r, -, rfl⟩ := List.mem_map.mp hl
      have := groupLine_ne_nil labeled r.1 r.2
      simpa [List.isEmpty_iff] using this
  rw [readGroup, lines_group h]
  simp only [hasValue_header]
  rw [hr, bind_ok, DkPir.mapRes_map', DkPir.mapRes_all (g := fun r : Nat × (Str × Str) => (r.1, rowOf labeled r.2)), bind_ok]
  exact fun r _ => groupRow_fields _ _ _

/-! ### The index file -/

theorem words_line {l : Str} (h : '\n' ∉ l) (r : Str) :
    words (l ++ '\n' :: r) = (Text.split ' ' l).filter (· ≠ []) ++ words r := by
  rw [words, Text.lines_line _ _ h, List.flatMap_cons, List.filter_append]
  rfl

theorem words_index_tail (es : Offsets) :
    words ((es.map indexLine).flatMap fun l => l ++ ['\n']) = es.flatMap fun e => [Text.dec e.1, Text.dec e.2] := by
  induction es with
  | nil => rfl
  | cons e es ih =>
    have hs (n : Nat) : ' ' ∉ Text.dec n := Text.dec_not_mem n _ (by decide)
    have hn (n : Nat) : '\n' ∉ Text.dec n := Text.dec_not_mem n _ (by decide)
    rw [List.map_cons, List.flatMap_cons, List.append_assoc, List.singleton_append, words_line, ih, List.flatMap_cons]
    · congr 1
      rw [indexLine, List.append_assoc, List.singleton_append, Text.split_cons _ _ _ (hs _), Text.split_no _ _ (hs _)]
      simp [Text.dec_ne_nil]
    · simp [indexLine, hn]

theorem readPairs_index : ∀ es : Offsets, readPairs es.length (es.flatMap fun e => [Text.dec e.1, Text.dec e.2]) = .ok es
  | [] => rfl
  | e :: es => by
    rw [List.length_cons, List.flatMap_cons, List.cons_append, List.cons_append, List.nil_append, readPairs]
    simp only [Text.digitsVal_dec]
    rw [readPairs_index es]
    rfl

/-- The index file is read back as it was written. -/
theorem loadMeta_index {cap : Nat} {es : Offsets} (h : es.length ≤ cap) :
    loadMeta cap (indexText es.length es) = .ok es := by
  have hw : words (indexText es.length es)
      = Text.dec es.length :: es.flatMap fun e => [Text.dec e.1, Text.dec e.2] := by
    rw [indexText, List.flatMap_cons, List.append_assoc, List.singleton_append,
      words_line (Text.dec_not_mem _ _ (by decide)), words_index_tail, Text.split_no _ _ (Text.dec_not_mem _ _ (by decide))]
    simp [Text.dec_ne_nil]
  rw [loadMeta, hw]
  simp only [Text.digitsVal_dec, if_pos h, readPairs_index]

/-! ### The file of databases -/

/-- What is assumed of the library and of `unordered_map`. -/
structure Sound {B : Type} (w : World B) : Prop where
  load : ∀ s rest, w.load (w.save s ++ rest) = some s
  perm : ∀ l, (w.shuffle l).Perm l

section
variable {B : Type} {w : World B}

theorem look_offsets (hw : Sound w) (b : Nat) : ∀ (pre : List B) (dbs : List (Nat × Stored)),
    (match look b (offsetsFrom w pre.length dbs) with
      | none => none
      | some pos => w.load ((pre ++ dbBytes w dbs).drop pos)) = look b dbs
  | pre, [] => rfl
  | pre, d :: r => by
    rw [offsetsFrom, look, look]
    split_ifs with h
    · simp only [List.drop_left, dbBytes, List.flatMap_cons]
      exact hw.load _ _
    · have := look_offsets hw b (pre ++ w.save d.2) r
      rw [List.length_append] at this
      rw [dbBytes, List.flatMap_cons, ← List.append_assoc]
      exact this

/-- A bucket is found at its place. -/
theorem loadBucket_offsets (hw : Sound w) (b : Nat) (dbs : List (Nat × Stored)) :
    loadBucket w (offsetsFrom w 0 dbs) (some (dbBytes w dbs)) b = look b dbs := by
  have := look_offsets hw b [] dbs
  rw [List.nil_append] at this
  exact this

theorem look_map {α : Type} (f : Nat → α) (b : Nat) : ∀ ids : List Nat,
    look b (ids.map fun i => (i, f i)) = if b ∈ ids then some (f b) else none
  | [] => rfl
  | i :: ids => by
    rw [List.map_cons, look, look_map f b ids]
    by_cases h : i = b
    · simp [h]
    · simp [h, Ne.symm h]

theorem look_offsets_isSome (b : Nat) : ∀ (pos : Nat) (dbs : List (Nat × Stored)),
    (look b (offsetsFrom w pos dbs)).isSome = (look b dbs).isSome
  | _, [] => rfl
  | pos, d :: r => by
    rw [offsetsFrom, look, look]
    split_ifs
    · rfl
    · exact look_offsets_isSome b _ r

/-- The index in any order finds the same places. -/
theorem look_inOrder {f : Nat → Stored} {ids ids' : List Nat} (hi : ids'.Perm ids) (b : Nat) :
    look b (inOrder ids' (offsetsFrom w 0 (ids.map fun i => (i, f i)))) = look b (offsetsFrom w 0 (ids.map fun i => (i, f i))) := by
  rw [inOrder, look_map (fun b => (look b (offsetsFrom w 0 (ids.map fun i => (i, f i)))).getD 0)]
  have hs := look_offsets_isSome (w := w) b 0 (ids.map fun i => (i, f i))
  rw [look_map] at hs
  by_cases h : b ∈ ids
  · rw [if_pos (hi.mem_iff.mpr h)]
    rw [if_pos h] at hs
    cases hl : look b (offsetsFrom w 0 (ids.map fun i => (i, f i))) with
    | none => rw [hl] at hs; cases hs
    | some x => rfl
  · rw [if_neg (fun hb => h (hi.mem_iff.mp hb))]
    rw [if_neg h] at hs
    cases hl : look b (offsetsFrom w 0 (ids.map fun i => (i, f i))) with
    | none => rfl
    | some x => rw [hl] at hs; cases hs

end

end Psi.Apsi
