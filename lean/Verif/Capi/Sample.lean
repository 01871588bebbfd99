import Verif.Apsi.Examples
import Verif.Capi.Props

/-! # Examples for C115 -/

namespace Psi.Capi

open Psi.Spiral (Res)
open Psi.DkPir (Str)
open Psi.Apsi (exWorld exSound exConfig exFine exTable exTableFine exQueries Runs Server Stored)

/-- A heap where nothing was asked for yet. -/
def empty (O : Type) : Heap O := ⟨0, fun _ => none⟩

theorem empty_wf (O : Type) : (empty O).Wf := fun _ _ => rfl

/-- An allocator with enough memory for everything. -/
def plenty : Nat → Nat → Bool := fun _ _ => true

/-- An allocator with a null pointer for no bytes. -/
def strict : Nat → Nat → Bool := fun _ n => n ≠ 0

/-- An allocator whose third block is the last one. -/
def three : Nat → Nat → Bool := fun i _ => i < 3

/-- A string with zero bytes inside. -/
example := C115_string (O := Unit) (mem := plenty) (empty_wf _) [7, 0, 9, 0] rfl

example : (makeCString plenty [7, 0, 9, 0] (empty Unit)).2 = .ok ⟨some 0, 4⟩ := by decide +kernel

/-- Strings of different lengths, one of them empty. -/
example := C115_array (O := Unit) (mem := plenty) (empty_wf _) [[1, 2, 3], [], [4]] rfl (fun _ _ _ => rfl)

example : (makeCStringArray plenty [[1, 2, 3], [], [4]] (empty Unit)).1.next = 4 := by decide +kernel

/-- The memory ends at the third string. -/
example := C115_out_of_memory (O := Unit) (mem := three) (empty_wf _) [[1, 2, 3], []] [4] [[5]] rfl
  (by intro i s hi; rcases i with _ | _ | i <;> first | rfl | simp at hi) rfl

/-- The same program with an allocator that has no blocks of no bytes. -/
example := C115_no_bytes (h := empty Unit) (mem := strict) (fun _ => rfl) rfl

/-- A heap with an array of strings. -/
example : ∃ (h : Heap Unit) (arr : CArr) (L : List Nat), Arr h arr [[1], [2, 3]] L := by
  obtain ⟨h, arr, L, -, e, -⟩ := makeCStringArray_fits (mem := plenty) (O := Unit) [[1], [2, 3]] rfl (fun _ _ _ => rfl) (empty_wf _)
  exact ⟨h, arr, L, e⟩

/-- A heap with a result. -/
example : ∃ (h : Heap Unit) (p : Ptr) (L : List Nat), IsResult h p [[1], [2, 3]] [[4], [5]] L := by
  obtain ⟨h, p, L, -, e, -⟩ := makeQueryResult_ok (mem := plenty) (O := Unit) (fun _ _ => rfl) (keys := [[1], [2, 3]])
    (values := [[4], [5]]) (by decide) (empty_wf _)
  exact ⟨h, p, L, e⟩

example := C115_double_free (empty Unit)

/-- Two keys with values, two keys without, and two keys with one value. -/
example := C115_result (O := Unit) (mem := plenty) (fun _ _ => rfl) (empty_wf _) [[1], [2, 3]] [[4], [5]]
example := C115_result (O := Unit) (mem := plenty) (fun _ _ => rfl) (empty_wf _) [[1], [2, 3]] []
example := C115_result (O := Unit) (mem := plenty) (fun _ _ => rfl) (empty_wf _) [[1], [2, 3]] [[4]]

/-- A protocol that adds up bytes: the receiver sends its queries, the sender answers each with the string and its sum, the receiver
keeps the strings it asked for whose sum is even; a query without bytes is refused. -/
def toy : Api Nat (List Bytes) Nat where
  open_ := .ok 5
  make b t := if b = 0 then .throws else .ok (b + t)
  params s := .ok (s + 1, [UInt8.ofNat s])
  load r p := .ok (r + p.length)
  bucketize _ qs := if [] ∈ qs then .throws else .ok qs
  reqOprf _ c := .ok (c, c.map fun q => q ++ [0])
  runOprf s a := .ok (s + 1, a.map fun q => q ++ [UInt8.ofNat s])
  reqQuery _ c a := .ok (c, a.map fun q => [q.sum])
  runQuery s a := .ok (s, a)
  result _ c a := .ok (c, ((c.zip a).filterMap fun x => if x.2 = [6] then none else some x.1, (a.filter fun x => x ≠ [6])))

example : direct toy 3 4 [[1], [0], [7, 8]] = .ok ([[1], [7, 8]], [[7], [21]]) := by decide +kernel
example : direct toy 3 4 [[1], []] = .throws := by decide +kernel

/-- Queries that the program has on its heap. -/
example {h : Heap (Obj Nat (List Bytes) Nat)} (hw : h.Wf) {q : CArr} {Q : List Nat} (hq : Arr h q [[1], [0], [7, 8]] Q) :=
  C115_session toy (mem := plenty) (fun _ _ => rfl) hw 3 4 hq

example : ∃ (h : Heap (Obj Nat (List Bytes) Nat)) (q : CArr) (Q : List Nat), h.Wf ∧ Arr h q [[1], [0], [7, 8]] Q := by
  obtain ⟨h, arr, L, -, e, e3, -⟩ := makeCStringArray_fits (mem := plenty) (O := Obj Nat (List Bytes) Nat) [[1], [0], [7, 8]] rfl
    (fun _ _ _ => rfl) (empty_wf _)
  exact ⟨h, arr, L, e3.wf, e⟩

/-- A receiver on the heap. -/
example := C115_handles (h := (⟨1, fun p => if p = 0 then some (.object (.receiver 3)) else none⟩ : Heap (Obj Nat Nat Nat))) (a := 0)
  (o := .receiver 3) rfl

/-- UTF-8 is not of interest here: a byte for every character. -/
def bytes : Str → Bytes := List.map fun c => UInt8.ofNat c.toNat

example {s : Server Stored} (hs : Runs (exWorld false) exConfig exTable s) :=
  C115_flag_partial (mem := plenty) (fun _ _ => rfl) (empty_wf Unit) (exSound false) exFine (exTableFine false) rfl (fun b => b) 0 hs
    (queries := exQueries) (by decide) bytes

/-- Only a key that is not in the table, though its bucket has rows. -/
example {s : Server Stored} (hs : Runs (exWorld false) exConfig exTable s) :=
  C115_flag_partial (mem := plenty) (fun _ _ => rfl) (empty_wf Unit) (exSound false) exFine (exTableFine false) rfl (fun b => b) 0 hs
    (queries := ["eee".toList]) (by decide) bytes

example {s : Server Stored} (hs : Runs (exWorld false) exConfig exTable s) :=
  C115_file_partial (exSound false) exFine (exTableFine false) (fun b => b) 0 hs (queries := exQueries) (by decide) (b := 3)
    (by decide +kernel) none

/-- The first bucket has the two keys "a" and "c": the first line is `key,value,value`. -/
example {s : Server Stored} (hs : Runs (exWorld false) exConfig exTable s) :=
  C115_file_partial (exSound false) exFine (exTableFine false) (fun b => b) 0 hs (queries := ["bb".toList, "a".toList, "c".toList])
    (by decide) (b := 1) (by decide +kernel) (some "old".toList)

example {s : Server Stored} (hs : Runs (exWorld false) exConfig exTable s) :=
  C115_file_empty_bucket (exSound false) exFine (exTableFine false) (fun b => b) 0 hs
    (queries := ["a".toList, "four".toList]) (q := "four".toList) (by decide) (by decide) none

/-- "eee" is asked for first and not found. -/
example {s : Server Stored} (hs : Runs (exWorld false) exConfig exTable s) :=
  C115_header_short (exSound false) exFine (exTableFine false) rfl (fun b => b) 0 hs (queries := ["a".toList, "eee".toList]) (by decide)
    (b := 3) (by decide +kernel) (by decide) (k := "a".toList) (by decide) (by decide) none

example {s : Server Stored} (hs : Runs (exWorld false) exConfig exTable s) :=
  C115_file_no_queries (exSound false) exFine (exTableFine false) (fun b => b) 0 hs (some "old".toList)

end Psi.Capi
