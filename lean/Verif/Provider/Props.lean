import Verif.Provider.Lemmas

/-!
# Properties of the batch providers (C30, C31) and of composite keys (C32)
-/

namespace Psi.Provider
open Spec
variable {α β : Type}

/-! ### C31: plain providers -/

/-- The memory provider delivers its items in order, cut into batches, then empty batches for ever. -/
theorem C31_memory (items labels : List α) (batch : Nat) (shuffle : Bool) (perm : List Nat) (n : Nat) :
    ∃ outs s, reads Mem.readBatch n (Mem.make items labels batch shuffle perm) = .ok (outs, s) ∧
      outs.length = n ∧ Delivers items batch outs := by
  obtain ⟨outs, s, h1, h2, h3, -⟩ := delivers_of_pending Mem.readBatch (fun m => m.items.drop m.cursor) batch
    (fun m => m.cursor ≤ m.items.length ∧ m.batch = batch) (by
      rintro m ⟨hm, rfl⟩
      obtain ⟨m', e1, e2, e3, e4, e5⟩ := m.readImpl_spec m.batch hm
      exact ⟨m', e1, e2, e3, e4⟩) n (Mem.make items labels batch shuffle perm)
    ⟨Nat.zero_le _, rfl⟩
  exact ⟨outs, s, h1, h2, by simpa [Mem.make] using h3⟩

example := C31_memory ["a", "b", "c"] [] 2 false [] 3
example : (reads Mem.readBatch 3 (Mem.make ["a", "b", "c"] [] 2 false [])).map Prod.fst =
    .ok [["a", "b"], ["c"], []] := by decide

/-- The caller may also ask for a different size each time; what it gets is always the next items. -/
theorem C31_memory_any_sizes (m : Mem α) (sizes : List Nat) (h : m.cursor ≤ m.items.length) :
    ∃ outs m', readSizes m sizes = .ok (outs, m') ∧
      outs.flatten = (m.items.drop m.cursor).take sizes.sum ∧ outs.length = sizes.length := by
  induction sizes generalizing m with
  | nil => exact ⟨[], m, rfl, by simp, rfl⟩
  | cons k ks ih =>
    obtain ⟨m1, e1, e2, e3, -, -⟩ := m.readImpl_spec k h
    obtain ⟨outs, m2, f1, f2, f3⟩ := ih m1 e3
    refine ⟨_, m2, by simp only [readSizes, e1, f1]; rfl, ?_, by simp [f3]⟩
    rw [List.flatten_cons, f2, e2, List.sum_cons, ← List.take_add]

example := C31_memory_any_sizes (Mem.make ["a", "b", "c"] [] 2 false []) [1, 0, 5] (by decide)

/-- With as many labels as items each item comes with its own label. -/
theorem C31_memory_labelled (items labels : List α) (batch : Nat) (shuffle : Bool) (perm : List Nat)
    (hl : labels.length = items.length) (hne : items ≠ []) (n : Nat) :
    ∃ outs s, reads Mem.readLabeled n (Mem.make items labels batch shuffle perm) = .ok (outs, s) ∧
      outs.length = n ∧ (∀ o ∈ outs, o.1.length = o.2.length) ∧
      Delivers (items.zip labels) batch (outs.map (fun o => o.1.zip o.2)) := by
  obtain ⟨outs, s, h1, h2, h3, h4⟩ := labelled_reads n (Mem.make items labels batch shuffle perm)
    ⟨Nat.zero_le _, hl, hne⟩
  exact ⟨outs, s, h1, h2, h3, by simpa [Mem.make] using h4⟩

example := C31_memory_labelled ["a", "b", "c"] ["x", "y", "z"] 2 false [] (by decide) (by decide) 2

/-- Fewer labels than items: the labels are read past their end. -/
theorem C31_memory_labels_too_short :
    reads Mem.readLabeled 1 (Mem.make ["a", "b"] ["x"] 2 false []) = .error .undefined := by decide

/-- The CSV provider delivers the rows of the file whatever record batches the CSV reader makes of
them, empty ones included. -/
theorem C31_csv (chunks : List (List β)) (batch n : Nat) :
    ∃ outs s, reads (E := Err) (fun s => .ok (Csv.read s)) n (Csv.open chunks batch) = .ok (outs, s) ∧
      outs.length = n ∧ Delivers chunks.flatten batch outs := by
  obtain ⟨outs, s, h1, h2, h3, -⟩ := delivers_of_pending (E := Err) (fun s => .ok (Csv.read s)) Csv.pending
    batch (fun s : Csv β => s.batch = batch) (by
      rintro s rfl
      obtain ⟨e1, e2, e3⟩ := s.read_spec
      exact ⟨s.read.2, by rw [← e1], e2, e3⟩) n (Csv.open chunks batch) rfl
  exact ⟨outs, s, h1, h2, by simpa [Csv.open, Csv.pending] using h3⟩

example := C31_csv [["a", "b", "c"], [], ["d"]] 2 4
example : (reads (E := Err) (fun s => .ok (Csv.read s)) 4 (Csv.open [["a", "b", "c"], [], ["d", "e"]] 2)).map
    Prod.fst = .ok [["a", "b"], ["c", "d"], ["e"], []] := by decide

/-- The provider over the key-info table of a sorted input delivers its records in the same way. -/
theorem C31_key_info (chunks : List (List β)) (batch n : Nat) :
    ∃ outs s, reads (E := Err) (fun s => .ok (Csv.readInfo s)) n (Csv.open chunks batch) = .ok (outs, s) ∧
      outs.length = n ∧ Delivers chunks.flatten batch outs := by
  obtain ⟨outs, s, h1, h2, h3, -⟩ := delivers_of_pending (E := Err) (fun s => .ok (Csv.readInfo s))
    Csv.pending batch (fun s : Csv β => s.batch = batch ∧ s.eof = false) (by
      rintro s ⟨rfl, he⟩
      obtain ⟨e1, e2, e3, e4⟩ := s.readInfo_spec he
      exact ⟨s.readInfo.2, by rw [← e1], e2, e3, e4⟩) n (Csv.open chunks batch) ⟨rfl, rfl⟩
  exact ⟨outs, s, h1, h2, by simpa [Csv.open, Csv.pending] using h3⟩

example := C31_key_info [["a", "b", "c"], [], ["d"]] 2 4

/-- For an input declared unique, each key is delivered with its row number and no duplicates. -/
theorem C31_unique_info (chunks : List (List β)) (batch n : Nat) :
    ∃ outs s, reads (E := Err) (fun s : Csv β × Nat => .ok (uniqueInfo s.1 s.2)) n (Csv.open chunks batch, 0) =
        .ok (outs, s) ∧ outs.length = n ∧
      Delivers (chunks.flatten.zipIdx.map (fun x => (x.1, x.2, 0))) batch outs := by
  obtain ⟨outs, s, h1, h2, h3, -⟩ := delivers_of_pending (E := Err)
    (fun s : Csv β × Nat => .ok (uniqueInfo s.1 s.2))
    (fun s => (s.1.pending.zipIdx s.2).map (fun x => (x.1, x.2, 0)))
    batch (fun s => s.1.batch = batch) (by
      rintro ⟨s, k⟩ rfl
      obtain ⟨e1, e2, e3⟩ := uniqueInfo_spec s k
      exact ⟨(uniqueInfo s k).2, by rw [← e1], e2, e3⟩) n (Csv.open chunks batch, 0) rfl
  exact ⟨outs, s, h1, h2, by simpa [Csv.open, Csv.pending] using h3⟩

example := C31_unique_info [["a", "b", "c"], [], ["d"]] 2 4
example : (reads (E := Err) (fun s : Csv String × Nat => .ok (uniqueInfo s.1 s.2)) 3
    (Csv.open [["a", "b", "c"]] 2, 0)).map Prod.fst =
    .ok [[("a", 0, 0), ("b", 1, 0)], [("c", 2, 0)], []] := by decide

/-- With a positive batch size, an empty batch is seen only after everything has been delivered. -/
theorem C31_empty_means_end (rows : List β) (batch : Nat) (outs : List (List β)) (hb : 0 < batch)
    (h : Delivers rows batch outs) (i : Nat) (hi : outs[i]? = some []) :
    (outs.take i).flatten = rows ∧ ∀ j b, i ≤ j → outs[j]? = some b → b = [] := by
  have hle : rows.length ≤ i * batch := by
    have := h.size i [] hi
    simp only [List.length_nil] at this
    omega
  have hlater : ∀ j b, i ≤ j → outs[j]? = some b → b = [] := by
    intro j b hij hj
    have := h.size j b hj
    have h2 : i * batch ≤ j * batch := Nat.mul_le_mul_right _ hij
    exact List.eq_nil_of_length_eq_zero (by omega)
  refine ⟨?_, hlater⟩
  obtain ⟨hlt, -⟩ := List.getElem?_eq_some_iff.mp hi
  have hall : outs.flatten = rows := by
    rw [h.concat]
    have : i * batch ≤ outs.length * batch := Nat.mul_le_mul_right _ (by omega)
    exact List.take_of_length_le (by omega)
  have hdrop : (outs.drop i).flatten = [] := by
    rw [List.flatten_eq_nil_iff]
    intro b hb
    obtain ⟨j, hj, rfl⟩ := List.mem_iff_getElem.mp hb
    rw [List.getElem_drop]
    exact hlater (i + j) _ (by omega) (List.getElem?_eq_getElem _)
  rw [← List.take_append_drop i outs, List.flatten_append, hdrop, List.append_nil] at hall
  exact hall

example := C31_empty_means_end ["a", "b", "c"] 2 [["a", "b"], ["c"], []] (by decide)
  ⟨by decide, by
    intro i b h
    match i, h with
    | 0, h => simp at h; subst h; rfl
    | 1, h => simp at h; subst h; rfl
    | 2, h => simp at h; subst h; rfl
    | i + 3, h => simp at h⟩ 2 rfl

/-! ### C30: shuffling providers -/

/-- The memory provider in shuffled mode, non-empty input: every item once, each with the position it
has in the output and the position it had in the input. -/
theorem C30_memory_shuffled_partial (items labels : List α) (batch : Nat) (perm : List Nat)
    (hp : perm.Perm (List.range items.length)) (hne : items ≠ []) :
    ∃ order : List (Shuf α), Shuffles items (order.map (fun x => (x.item, x.orig))) ∧
      order.map Shuf.orig = perm ∧ order.map Shuf.pos = List.range items.length ∧
      ∀ n, ∃ outs s, reads Mem.readShuffled n (Mem.make items labels batch true perm) = .ok (outs, s) ∧
        outs.length = n ∧ Delivers order batch outs := by
  have hgood : (Mem.make items labels batch true perm).Good := ⟨Nat.zero_le _, hp, hne⟩
  obtain ⟨hlen, hget⟩ := Mem.order_get _ hgood
  simp only [Mem.make, if_true] at hlen hget
  have hpl : perm.length = items.length := by simpa using hp.length_eq
  have horig : (Mem.order items perm).map Shuf.orig = perm := by
    apply List.ext_getElem?
    intro i
    by_cases hi : i < items.length
    · obtain ⟨s, x, e1, e2, e3⟩ := hget i hi
      rw [List.getElem?_map, e3, e1]; rfl
    · rw [List.getElem?_eq_none (by simp; omega), List.getElem?_eq_none (by omega)]
  refine ⟨Mem.order items perm, ⟨?_, ?_⟩, horig, ?_, ?_⟩
  · rw [List.map_map]
    exact (List.Perm.of_eq horig).trans hp
  · intro x i hx
    obtain ⟨y, hy, e⟩ := List.mem_map.mp hx
    obtain ⟨k, hk, rfl⟩ := List.mem_iff_getElem.mp hy
    obtain ⟨s, z, e1, e2, e3⟩ := hget k (by omega)
    rw [List.getElem?_eq_getElem hk] at e3
    simp only [Option.some.injEq] at e3
    rw [e3] at e
    simp only [Prod.mk.injEq] at e
    rw [← e.1, ← e.2]; exact e2
  · apply List.ext_getElem?
    intro i
    by_cases hi : i < items.length
    · obtain ⟨s, x, e1, e2, e3⟩ := hget i hi
      rw [List.getElem?_map, e3]; simp [hi]
    · rw [List.getElem?_eq_none (by simp; omega), List.getElem?_eq_none (by simp; omega)]
  · intro n
    obtain ⟨outs, s, h1, h2, h3, -⟩ := delivers_of_pending Mem.readShuffled Mem.shufPending batch
      (fun m => m.Good ∧ m.batch = batch) (by
        rintro m ⟨hm, rfl⟩
        obtain ⟨m', e1, e2, e3, e4, -, -⟩ := m.readShuffled_spec hm
        exact ⟨m', e1, e2, e3, e4⟩) n _ ⟨hgood, rfl⟩
    exact ⟨outs, s, h1, h2, by simpa [Mem.make, Mem.shufPending] using h3⟩

example := C30_memory_shuffled_partial ["a", "b", "c"] [] 2 [2, 0, 1] (by decide) (by decide)
example : (reads Mem.readShuffled 3 (Mem.make ["a", "b", "c"] [] 2 true [2, 0, 1])).map Prod.fst =
    .ok [[⟨"c", 0, 2⟩, ⟨"a", 1, 0⟩], [⟨"b", 2, 1⟩], []] := by decide

/-- On empty input the memory provider in shuffled mode delivers no empty batch but throws. -/
theorem C30_memory_empty_throws (labels : List α) (batch : Nat) :
    (Mem.make ([] : List α) labels batch true []).readShuffled = .error .throw := rfl

/-- The shuffling provider over any provider of non-empty raw batches: for every raw batch size, output
batch size and shuffle of each raw batch, the rows of all raw batches come out once each, numbered
consecutively, with the right duplicate count and the right position in the input. -/
theorem C30_simple_shuffled (σ : Nat → Nat → List Nat) (hσ : ∀ k l, (σ k l).Perm (List.range l))
    (raw : List (List (α × Nat))) (hne : ∀ b ∈ raw, b ≠ []) (batch : Nat) :
    ∃ order : List (ShufDup α),
      Shuffles raw.flatten (order.map (fun x => ((x.item, x.dup), x.orig))) ∧
      order.map ShufDup.pos = List.range raw.flatten.length ∧
      ∀ n, ∃ outs s, reads (Sim.read σ) n (Sim.make σ raw batch) = .ok (outs, s) ∧
        outs.length = n ∧ Delivers order batch outs := by
  obtain ⟨hperm, hget⟩ := future_spec σ hσ raw 0 0 0
  have hperm' : ((future σ 0 0 0 raw).map ShufDup.orig).Perm (List.range raw.flatten.length) := by
    simpa using hperm
  have hlen : (future σ 0 0 0 raw).length = raw.flatten.length := by
    simpa using hperm'.length_eq
  refine ⟨future σ 0 0 0 raw, ⟨by rw [List.map_map]; exact hperm', ?_⟩, ?_, ?_⟩
  · intro x i hx
    obtain ⟨y, hy, e⟩ := List.mem_map.mp hx
    obtain ⟨k, hk, rfl⟩ := List.mem_iff_getElem.mp hy
    obtain ⟨-, -, e3⟩ := hget k _ (List.getElem?_eq_getElem hk)
    simp only [Prod.mk.injEq] at e
    rw [← e.1, ← e.2]; simpa using e3
  · apply List.ext_getElem
    · simp [hlen]
    · intro i h1 h2
      rw [List.length_map] at h1
      have := (hget i _ (List.getElem?_eq_getElem h1)).1
      simpa using this
  · intro n
    obtain ⟨outs, s, h1, h2, h3, -⟩ := delivers_of_pending (Sim.read σ) (Sim.pending σ) batch
      (fun s => s.Good ∧ s.batch = batch) (by
        rintro s ⟨hs, rfl⟩
        obtain ⟨s', e1, e2, e3, e4⟩ := s.read_spec σ hσ hs
        exact ⟨s', e1, e2, e3, e4⟩) n _ ⟨Sim.make_good σ hσ raw batch hne, rfl⟩
    rw [Sim.make_pending σ hσ] at h3
    exact ⟨outs, s, h1, h2, h3⟩

/-- A shuffle for the examples: reverses every raw batch. -/
def backwards (_ l : Nat) : List Nat := (List.range l).reverse

theorem backwards_perm (k l : Nat) : (backwards k l).Perm (List.range l) := List.reverse_perm _

example := C30_simple_shuffled backwards backwards_perm [[("a", 0), ("b", 2)], [("c", 1)]] (by decide) 3
example : (reads (Sim.read backwards) 3 (Sim.make backwards [[("a", 0), ("b", 2), ("c", 1)], [("d", 4)]] 2)).map
    Prod.fst = .ok [[⟨"c", 0, 2, 1⟩, ⟨"b", 1, 1, 2⟩], [⟨"a", 2, 0, 0⟩, ⟨"d", 3, 3, 4⟩], []] := by decide

/-- The batches a plain provider delivers before its first empty batch are such raw batches: what the
shuffling provider needs follows from C31, for any input and positive raw batch size. -/
theorem C30_raw_from_provider (rows : List β) (rawSize : Nat) (outs : List (List β)) (hb : 0 < rawSize)
    (h : Delivers rows rawSize outs) (henough : rows.length ≤ outs.length * rawSize) :
    (∀ b ∈ outs.filter (fun b => !b.isEmpty), b ≠ []) ∧
    (outs.filter (fun b => !b.isEmpty)).flatten = rows ∧
    ∃ k, outs = outs.filter (fun b => !b.isEmpty) ++ List.replicate k [] := by
  refine ⟨?_, ?_, ?_⟩
  · intro b hb
    simpa using (List.mem_filter.mp hb).2
  · have : (outs.filter (fun b => !b.isEmpty)).flatten = outs.flatten := by
      clear h henough
      induction outs with
      | nil => rfl
      | cons a l ih =>
        cases a with
        | nil => simpa using ih
        | cons => simpa using ih
    rw [this, h.concat, List.take_of_length_le henough]
  · refine tail_empty outs (fun i j hij b c hi hj hb => ?_)
    subst hb
    exact (C31_empty_means_end rows rawSize outs ‹_› h i hi).2 j c (by omega) hj

example := C30_raw_from_provider ["a", "b", "c"] 2 [["a", "b"], ["c"], []] (by decide)
  ⟨by decide, by
    intro i b h
    match i, h with
    | 0, h => simp at h; subst h; rfl
    | 1, h => simp at h; subst h; rfl
    | 2, h => simp at h; subst h; rfl
    | i + 3, h => simp at h⟩ (by decide)

/-! ### C32: composite keys -/

/-- Composite keys of equally many columns agree exactly when all columns agree, provided no column of
one of the rows contains the separator. -/
theorem C32_composite_keys_partial (sep : Char) (a b : List (List Char)) (hlen : a.length = b.length)
    (ha : ∀ k ∈ a, sep ∉ k) : keysJoin sep a = keysJoin sep b ↔ a = b := by
  refine ⟨fun h => ?_, fun h => by rw [h]⟩
  have hb : ∀ k ∈ b, sep ∉ k := by
    have h1 := keysJoin_count sep a
    have h2 := keysJoin_count sep b
    rw [h, h2, hlen] at h1
    have h3 : (a.map (List.count sep)).sum = 0 := by
      rw [sum_zero]
      intro n hn
      obtain ⟨k, hk, rfl⟩ := List.mem_map.mp hn
      exact List.count_eq_zero.mpr (ha k hk)
    have h4 : (b.map (List.count sep)).sum = 0 := by omega
    intro k hk
    rw [sum_zero] at h4
    exact List.count_eq_zero.mp (h4 _ (List.mem_map.mpr ⟨k, hk, rfl⟩))
  exact keysJoin_inj sep a b hlen ha hb h

example := C32_composite_keys_partial ',' ["ab".toList, "c".toList] ["a".toList, "bc".toList] rfl (by decide)

/-- A single key column is compared as it is, whatever it contains. -/
theorem C32_single_column (sep : Char) (x y : List Char) : keysJoin sep [x] = keysJoin sep [y] ↔ [x] = [y] := by
  simp [keysJoin]

/-- A separator inside a column makes different rows match. -/
theorem C32_separator_in_column :
    keysJoin ',' ["a,b".toList, "c".toList] = keysJoin ',' ["a".toList, "b,c".toList] ∧
    ["a,b".toList, "c".toList] ≠ ["a".toList, "b,c".toList] := by decide

end Psi.Provider
