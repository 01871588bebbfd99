import Verif.IndexStore.Lemmas

/-!
# Properties of index files (C33)
-/

namespace Psi.IndexStore
open Psi.Text Spec

/-- State before the file exists. -/
def start : State := ⟨none, none⟩

/-- The reader's cut for the examples: blocks of two lines. -/
def pairs : List (List Char) → List (List (List Char))
  | [] => []
  | [a] => [[a]]
  | a :: b :: r => [a, b] :: pairs r

theorem pairs_cuts : Cuts pairs := by
  intro ls
  fun_induction pairs ls with
  | case1 => simp
  | case2 => simp
  | case3 a b r ih => simpa using ih

/-- After any history — writers opened with or without truncation, single and bulk writes, commits, closes,
destructors, crashes — reading the file gives the rows that are safe, each once, in the order they were
written, however the CSV reader cuts the file. -/
theorem C33_file_round_trip_partial (h : List Op) (s : State) (hr : run start h = .ok s) (hf : s.file ≠ none)
    (cut : List (List Char) → List (List (List Char))) (hc : Cuts cut)
    (hs : ∀ r ∈ (logOf h).safe, Small r) : readFile cut s = .ok (logOf h).safe := by
  have hi := run_inv h ⟨[], []⟩ start s ⟨Or.inr ⟨rfl, rfl, rfl⟩, by simp [start], fun _ => rfl⟩ hr
  rcases hi.file with hfile | ⟨hfile, -, -⟩
  · obtain ⟨f, w⟩ := s
    simp only at hfile
    subst hfile
    exact readFile_text cut hc _ w hs
  · exact absurd hfile hf

/-- A history with two runs: the first is cut off by a crash after a commit, the second one appends. -/
def sample : List Op :=
  [.make true, .write (5, 1), .commit, .write (6, 0), .crash, .make false, .writeAll [7, 9] [0, 2], .destroy]

example : (logOf sample).safe = [(5, 1), (7, 0), (9, 2)] := by decide
example (s : State) (hr : run start sample = .ok s) (hf : s.file ≠ none) :=
  C33_file_round_trip_partial sample s hr hf pairs pairs_cuts (by
    intro r hr
    have : (logOf sample).safe = [(5, 1), (7, 0), (9, 2)] := by decide
    rw [this] at hr
    simp only [List.mem_cons, List.not_mem_nil, or_false] at hr
    rcases hr with rfl | rfl | rfl <;> exact ⟨by norm_num, by norm_num⟩)
example : ∃ s, run start sample = .ok s ∧ s.file ≠ none := ⟨_, rfl, by simp⟩

/-- Rows an action writes. -/
def rowsOf : Op → List Row
  | .write r => [r]
  | .writeAll is cs => is.zip cs
  | .writeIdx is => is.map (fun i => (i, 0))
  | _ => []

/-- Actions of a program that fills an open writer. -/
def Fills : Op → Prop
  | .write _ => True
  | .writeAll is cs => is.length ≤ cs.length
  | .writeIdx _ => True
  | .commit => True
  | _ => False

/-- A program that opens the writer for a new result, writes and commits as it likes and closes, succeeds,
and the file then holds exactly the rows written — all of them, also those after the last commit. -/
theorem C33_new_result (s0 : State) (h0 : s0.writer = none) (ops : List Op) (hops : ∀ o ∈ ops, Fills o)
    (cut : List (List Char) → List (List (List Char))) (hc : Cuts cut)
    (hs : ∀ r ∈ ops.flatMap rowsOf, Small r) :
    ∃ s, run s0 (.make true :: ops ++ [.close]) = .ok s ∧ readFile cut s = .ok (ops.flatMap rowsOf) := by
  have key : ∀ (ops : List Op), (∀ o ∈ ops, Fills o) → ∀ (rows : List Row) (w : Writer), w.closed = false →
      ∃ s, run ⟨some (text rows), some w⟩ (ops ++ [.close]) = .ok s ∧
        s.file = some (text (rows ++ w.cache ++ ops.flatMap rowsOf)) := by
    intro ops
    induction ops with
    | nil =>
      intro _ rows w hw
      by_cases hwc : w.cache.isEmpty
      · have : w.cache = [] := by simpa using hwc
        exact ⟨_, by simp [run, step, close, hw, commit, this, Except.map]; rfl, by simp [this]⟩
      · exact ⟨_, by simp [run, step, close, hw, commit, hwc, Except.map]; rfl, by simp [text_append]⟩
    | cons o ops ih =>
      intro hops rows w hw
      have ho := hops o (by simp)
      have hrest := ih (fun o h => hops o (by simp [h]))
      cases o with
      | write r =>
        obtain ⟨s, e1, e2⟩ := hrest rows { w with cache := w.cache ++ [r], written := w.written + 1 } hw
        exact ⟨s, by simpa [run, step, write, hw, Except.map] using e1, by rw [e2]; simp [rowsOf]⟩
      | writeAll is cs =>
        have : ∃ w', writeAll is cs w = .ok w' := by
          simp only [Fills] at ho
          clear hrest hops ih
          induction is generalizing cs w with
          | nil => exact ⟨w, rfl⟩
          | cons i is ih =>
            cases cs with
            | nil => simp at ho
            | cons c cs =>
              obtain ⟨w', h⟩ := ih { w with cache := w.cache ++ [(i, c)], written := w.written + 1 } hw cs
                (by simpa using ho)
              exact ⟨w', by simpa [writeAll, write, hw] using h⟩
        obtain ⟨w', hw'⟩ := this
        obtain ⟨f1, f2, -⟩ := writeAll_ok _ _ _ _ hw'
        obtain ⟨s, e1, e2⟩ := hrest rows w' (by rw [f2, hw])
        exact ⟨s, by simpa [run, step, hw, hw', Except.map] using e1, by rw [e2, f1]; simp [rowsOf]⟩
      | writeIdx is =>
        have : ∃ w', writeIdx is w = .ok w' := by
          clear hrest hops ih ho
          induction is generalizing w with
          | nil => exact ⟨w, rfl⟩
          | cons i is ih =>
            obtain ⟨w', h⟩ := ih { w with cache := w.cache ++ [(i, 0)], written := w.written + 1 } hw
            exact ⟨w', by simpa [writeIdx, write, hw] using h⟩
        obtain ⟨w', hw'⟩ := this
        obtain ⟨f1, f2, -⟩ := writeIdx_ok _ _ _ hw'
        obtain ⟨s, e1, e2⟩ := hrest rows w' (by rw [f2, hw])
        exact ⟨s, by simpa [run, step, hw, hw', Except.map] using e1, by rw [e2, f1]; simp [rowsOf]⟩
      | commit =>
        have : ∃ f w', commit (text rows) w = .ok (f, w') := by
          unfold commit
          rw [hw]
          by_cases hwc : w.cache.isEmpty
          · exact ⟨_, _, by simp [hwc]; exact ⟨rfl, rfl⟩⟩
          · exact ⟨_, _, by simp [hwc]; exact ⟨rfl, rfl⟩⟩
        obtain ⟨f, w', hw'⟩ := this
        obtain ⟨f1, f2, f3, -⟩ := commit_ok _ _ _ _ hw'
        obtain ⟨s, e1, e2⟩ := hrest (rows ++ w.cache) w' (by rw [f3, hw])
        refine ⟨s, ?_, by rw [e2, f2]; simp [rowsOf]⟩
        subst f1
        simpa [run, step, hw', Except.map] using e1
      | make _ => exact absurd ho (by simp [Fills])
      | close => exact absurd ho (by simp [Fills])
      | destroy => exact absurd ho (by simp [Fills])
      | crash => exact absurd ho (by simp [Fills])
  obtain ⟨s, e1, e2⟩ := key ops hops [] ⟨[], 0, false⟩ rfl
  refine ⟨s, ?_, ?_⟩
  · simp only [List.cons_append, run, step, h0, make, if_true]
    exact e1
  · obtain ⟨f, w⟩ := s
    simp only at e2
    subst e2
    simpa using readFile_text cut hc _ w (by simpa using hs)

example := C33_new_result start rfl [.write (5, 1), .commit, .writeIdx [6, 8], .commit, .writeAll [9] [3]]
  (by intro o ho; simp at ho; rcases ho with rfl | rfl | rfl | rfl | rfl <;> simp [Fills]) pairs pairs_cuts (by
    intro r hr
    simp [rowsOf] at hr
    rcases hr with rfl | rfl | rfl | rfl <;> exact ⟨by norm_num, by norm_num⟩)

/-- Nothing can be written to a closed writer: each way of writing, and a commit, throws, and the file stays
as it is because the state does not change. -/
theorem C33_closed_writer (f : List Char) (w : Writer) (hw : w.closed = true) (r : Row) (is cs : List Nat) :
    step ⟨some f, some w⟩ (.write r) = .error .throw ∧ step ⟨some f, some w⟩ (.writeAll is cs) = .error .throw ∧
    step ⟨some f, some w⟩ (.writeIdx is) = .error .throw ∧ step ⟨some f, some w⟩ .commit = .error .throw ∧
    step ⟨some f, some w⟩ .close = .ok ⟨some f, some w⟩ := by
  simp [step, write, hw, commit, close, Except.map]

example := C33_closed_writer [] ⟨[], 0, true⟩ rfl (1, 2) [1] [2]

/-- A value of 2^63 or more in the first block: the column becomes one of floating point numbers and its
bytes are taken for integers. -/
theorem C33_big_value_misread (rows : List Row) (w : Option Writer) (r : Row) (hr : r ∈ rows) (hb : ¬ Small r) :
    readFile (fun ls => if ls.isEmpty then [] else [ls]) ⟨some (text rows), w⟩ = .error .undefined := by
  have hl : lines (text rows) = header :: rows.map rowText := by
    apply lines_linesText
    intro l hl
    rcases List.mem_cons.mp hl with rfl | hl
    · exact header_nl
    · obtain ⟨r, -, rfl⟩ := List.mem_map.mp hl
      exact rowText_nl r
  have hne : (rows.map rowText).isEmpty = false := by
    cases rows with
    | nil => simp at hr
    | cons => rfl
  have hm := mapM_parse [rows]
  simp only [List.map_cons, List.map_nil] at hm
  have hnf : rows.all fits = false := by
    rw [List.all_eq_false]
    exact ⟨r, hr, fun h => hb ((fits_iff r).mp h)⟩
  have hb : batches [rows.map rowText] = .error .undefined := by
    unfold batches
    rw [hm]
    simp [hnf]
  simp only [readFile, hl, ne_eq, not_true_eq_false, if_false, hne, Bool.false_eq_true, hb, Except.map]

example := C33_big_value_misread [(1, 0), (2 ^ 63, 0)] none (2 ^ 63, 0) (by simp) (by simp [Small])

/-- An empty record batch in the middle would end the reading early: the caller stops at the first "no". -/
theorem C33_empty_batch_stops : Reader.drain 5 ⟨none, [[(1, 0)], [], [(2, 0)]]⟩ = [(1, 0)] := by decide

/-- A crash between the creation of the file and the writing of the header leaves an empty file; a later
writer that appends writes no header and the file cannot be read any more. -/
theorem C33_header_lost (r : Row) (cut : List (List Char) → List (List (List Char))) :
    ∃ s, run ⟨some [], none⟩ [.make false, .write r, .close] = .ok s ∧ readFile cut s = .error .throw := by
  refine ⟨⟨some (linesText [rowText r]), some ⟨[], 1, true⟩⟩, ?_, ?_⟩
  · simp [run, step, make, write, close, commit, Except.map]
  · have hl : lines (linesText [rowText r]) = [rowText r] :=
      lines_linesText _ (by intro l hl; simp at hl; subst hl; exact rowText_nl r)
    have hne : rowText r ≠ header := by
      intro h
      have : 'p' ∈ rowText r := by rw [h]; decide
      simp only [rowText, List.mem_append, List.mem_cons] at this
      rcases this with h | h | h
      · exact dec_not_mem _ _ (by decide) h
      · exact absurd h (by decide)
      · exact dec_not_mem _ _ (by decide) h
    simp [readFile, hl, hne]

/-- The reader in memory: the given pairs, in increasing order of the index.  When the indexes are different
the answer does not depend on how the sort treats ties. -/
theorem C33_memory_reader (sort : List Row → List Row) (hsort : ∀ l, SortsByIndex l (sort l))
    (index counts : List Nat) (hl : index.length = counts.length) :
    ∃ out, memory sort index counts = .ok out ∧ SortsByIndex (index.zip counts) out ∧
      (index.Nodup → out.Pairwise (fun a b => a.1 < b.1) ∧
        ∀ other, SortsByIndex (index.zip counts) other → other = out) := by
  refine ⟨sort (index.zip counts), by simp [memory, hl], hsort _, fun hn => ?_⟩
  have strict : ∀ l, SortsByIndex (index.zip counts) l → l.Pairwise (fun a b => a.1 < b.1) := by
    intro l hl'
    have hnd : (l.map Prod.fst).Nodup := by
      rw [(hl'.1.map Prod.fst).nodup_iff, List.map_fst_zip (by omega)]
      exact hn
    rw [List.Nodup, List.pairwise_map] at hnd
    exact (hl'.2.and hnd).imp (fun ⟨a, b⟩ => lt_of_le_of_ne a b)
  refine ⟨strict _ (hsort _), fun other ho => ?_⟩
  exact (ho.1.trans (hsort _).1.symm).eq_of_pairwise
    (fun a b _ _ h1 h2 => absurd h1 (by omega)) (strict _ ho) (strict _ (hsort _))

theorem mergeSort_sorts (l : List Row) : SortsByIndex l (l.mergeSort (fun a b => decide (a.1 ≤ b.1))) := by
  refine ⟨List.mergeSort_perm _ _, ?_⟩
  have := List.pairwise_mergeSort (le := fun a b : Row => decide (a.1 ≤ b.1)) (by simp; omega) (by simp; omega) l
  simpa using this

example := C33_memory_reader _ mergeSort_sorts [7, 3, 5] [1, 0, 2] rfl

/-- Index and count lists of different length are refused. -/
theorem C33_memory_lengths (sort : List Row → List Row) (index counts : List Nat)
    (hl : index.length ≠ counts.length) : memory sort index counts = .error .throw := by
  simp [memory, hl]

example := C33_memory_lengths id [7, 3, 5] [1, 0] (by decide)

end Psi.IndexStore
