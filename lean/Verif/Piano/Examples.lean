import Verif.Piano.Props
import Verif.Piano.PrivacyProps
import Mathlib.Tactic.NormNum

/-!
# Piano PIR: examples
-/

namespace Psi.Piano

open Psi.Spiral (Res mapRes w64 w32)

namespace Ex

/-- Twenty entries of two bytes, two chunks of sixteen, five sets, one replacement for each chunk. -/
def p : Params := ⟨20, 2, 1, 5, 1⟩

def db : List Nat := (List.range 40).map fun i => i + 1

def prf (tag c : Nat) : Nat := 3 * tag + c + 16

def pad (_ : Nat) : List Nat := [7, 7, 7, 7, 7, 7, 7, 7]

def rnd (c k : Nat) : Nat := 11 * c + k + 5

example : p.cs = 16 ∧ p.ss = 2 ∧ p.m1 = 5 ∧ p.m2 = 1 ∧ p.total = 2 := by decide

/-- Index 3 is in set 1, index 17 in set 0; 5 is in no set; 6 is in set 2, but the replacement of chunk 0 is used up; 3 is known. -/
example : run p prf pad rnd rnd db [3, 17, 5, 6, 3] = .ok
    [([5, 20], [7, 8]), ([0, 16], [35, 36]), ([11, 28], [11, 12]), ([6, 23], [0, 0]), ([1, 18], [7, 8])] := by decide +kernel

end Ex

/-- C92, every answer. -/
example := entry_or_zeros (p := Ex.p) (prf := Ex.prf) (pad := Ex.pad) (rnd := Ex.rnd) (μ := Ex.rnd) (db := Ex.db)
  (xs := [3, 17, 5, 6, 3]) (by decide) (by decide)

/-- C92, forty sets, of which two or three have each index: index 17 after index 3. -/
example (outs) (h : run ⟨20, 2, 1, 40, 2⟩ (fun tag _ => tag) Ex.pad Ex.rnd Ex.rnd Ex.db [3, 17] = .ok outs) :
    (outs.getD 1 noOut).2 = slice 2 Ex.db 17 :=
  right_unless_used_up (xs := [3, 17]) (by decide) (by decide) h (i := 1) (by decide) (by decide +kernel) (by decide +kernel)

/-- C93, two queries to two chunks and one of them again. -/
example (outs) (h : run ⟨20, 2, 1, 40, 2⟩ (fun tag _ => tag) Ex.pad Ex.rnd Ex.rnd Ex.db [3, 17, 3] = .ok outs) :
    (outs.getD 2 noOut).2 = slice 2 Ex.db 3 :=
  C93_within_partial (xs := [3, 17, 3]) (by decide) (by decide) h (by decide +kernel) (by decide +kernel) (i := 2) (by decide)

/-- C92, an index in no set, after a query to the other chunk. -/
example (outs) (h : run Ex.p Ex.prf Ex.pad Ex.rnd Ex.rnd Ex.db [17, 5] = .ok outs) :
    (outs.getD 1 noOut).2 = slice Ex.p.size Ex.db 5 :=
  right_unless_used_up (xs := [17, 5]) (by decide) (by decide) h (i := 1) (by decide) (by decide +kernel) (by decide +kernel)

/-- C92, the first answer. -/
example (outs) (h : run Ex.p Ex.prf Ex.pad Ex.rnd Ex.rnd Ex.db [3, 17, 5, 6, 3] = .ok outs) :
    (outs.getD 0 noOut).2 = slice Ex.p.size Ex.db 3 :=
  first_right (xs := [3, 17, 5, 6, 3]) (by decide) (by decide) h (by decide) (by decide)

/-- C92, index 3 again. -/
example (outs) (h : run Ex.p Ex.prf Ex.pad Ex.rnd Ex.rnd Ex.db [3, 17, 5, 6, 3] = .ok outs) :
    (outs.getD 4 noOut).2 = slice Ex.p.size Ex.db 3 :=
  again_right (xs := [3, 17, 5, 6, 3]) (by decide) (by decide) h (i := 0) (by decide) (by decide) rfl
    (first_right (xs := [3, 17, 5, 6, 3]) (by decide) (by decide) h (by decide) (by decide))

namespace Ex

/-- 2^24 entries of 8 bytes with the numbers that the code computes: 377305 queries, 3684 backup sets for each chunk. -/
def big : Params := ⟨2 ^ 24, 8, 1, 377305, 3684⟩

example : big.cs = 8192 ∧ big.ss = 2048 ∧ big.m1 = 377305 ∧ big.m2 = 3684 := by decide

/-- Set `j` has offset `j` in each chunk, so that every index is in some set. -/
def prf' (tag _ : Nat) : Nat := tag

theorem big_cs : big.cs = 8192 := by decide

theorem big_m1 : big.m1 = 377305 := by decide

theorem big_sets (x : Nat) : 0 < (setsWith big prf' x).card := by
  apply Finset.card_pos.mpr
  have hlt : x % big.cs < 8192 := by rw [big_cs]; exact Nat.mod_lt _ (by decide)
  refine ⟨x % big.cs, Finset.mem_filter.mpr ⟨Finset.mem_range.mpr (by rw [big_m1]; omega), ?_⟩⟩
  rw [offset_eq, prf', w32]
  have : x % big.cs % 2 ^ 32 = x % big.cs := Nat.mod_eq_of_lt (by omega)
  rw [this, Nat.mod_mod]

end Ex

/-- C93: all 8192 entries of the first chunk are asked for, one after the other; at most 3684 of the answers are not zero. -/
example (pad rnd μ outs) (db : List Nat) (hdb : db.length = 2 ^ 24 * 8)
    (h : run Ex.big Ex.prf' pad rnd μ db (List.range 8192) = .ok outs) :
    (outs.filter fun o => o.2 ≠ zeroEntry 8).length ≤ 3684 :=
  chunk_limit (p := Ex.big) hdb (fun x hx => lt_trans (List.mem_range.mp hx) (by decide)) h List.nodup_range
    (c := 0) (fun x hx => by rw [Ex.big_cs]; exact Nat.div_eq_of_lt (List.mem_range.mp hx)) (fun x _ => Ex.big_sets x)

/-- C93: an index behind the last chunk. -/
example := beyond_undefined (p := Ex.p) (prf := Ex.prf) (pad := Ex.pad) (rnd := Ex.rnd) (μ := Ex.rnd) (db := Ex.db) (xs := [])
  (by decide) (x := 34) (by decide) (by decide +kernel)

/-- C94: two queries against two others, with any of the messages. -/
example := fun V => queries_hidden (p := ⟨20, 2, 1, 5, 2⟩) (pad := Ex.pad) (db := Ex.db) (xs := [3, 5]) (ys := [17, 2])
  (by decide) (by decide) (by decide) (by decide) (by decide) (fun c => le_trans (List.length_filter_le _ _) (by decide))
  (by decide) (by decide) (fun c => le_trans (List.length_filter_le _ _) (by decide)) rfl rfl V

/-- C94: the numbers of the code for 2^24 entries. -/
example (pad) (db : List Nat) (hdb : db.length = 2 ^ 24 * 8) :=
  messages_uniform (p := Ex.big) (pad := pad) (xs := List.range 3684) (by decide) hdb (by decide)
    (fun x hx => lt_trans (List.mem_range.mp hx) (by decide)) List.nodup_range
    (fun c => le_trans (List.length_filter_le _ _) (by rw [List.length_range]; decide))

end Psi.Piano
