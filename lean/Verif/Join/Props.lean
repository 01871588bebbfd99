import Verif.Join.PartyLemmas

/-!
# Join step: property theorems (C01–C07)

`K` is the key type with the order `sort` uses; `RA`/`RB` are the rows of the two parties.
`Spec.LawfulIndex` is what the PSI protocol must deliver (proved protocol by protocol elsewhere).
-/

namespace Psi.Join
open Spec
variable {RA RB K : Type} [LinearOrder K]

/-! ### Concrete instance used by the examples -/

namespace Ex
/-- Rows are `(key, payload)`. -/
abbrev key (r : Nat × Nat) : Nat := r.1
abbrev A : List (Nat × Nat) := [(3, 0), (1, 1), (3, 2), (7, 3)]
abbrev B : List (Nat × Nat) := [(9, 10), (3, 11), (7, 12), (3, 13), (3, 14)]
abbrev kbsA : List (List Nat) := [[1, 3], [3, 7]]
abbrev rbsA : List (List (KeyRec Nat)) := [[⟨1, 0, 0⟩, ⟨3, 1, 1⟩], [⟨7, 3, 0⟩]]
abbrev kbsB : List (List Nat) := [[3, 3, 3, 7, 9]]
abbrev rbsB : List (List (KeyRec Nat)) := [[⟨3, 0, 2⟩], [⟨7, 3, 0⟩, ⟨9, 4, 0⟩]]
abbrev idxA : List (Nat × Nat) := [(2, 0), (1, 2)]
abbrev idxB : List (Nat × Nat) := [(0, 1), (1, 0)]

theorem inputA : Input 0 key A kbsA rbsA where
  nonempty := by decide
  keyChunks := ⟨by decide, by simp [sortTable, List.mergeSort, key]⟩
  recChunks := ⟨by decide, by decide⟩

theorem inputB : Input 0 key B kbsB rbsB where
  nonempty := by decide
  keyChunks := ⟨by decide, by simp [sortTable, List.mergeSort, key]⟩
  recChunks := ⟨by decide, by decide⟩

theorem lawfulA : LawfulIndex (protocolKeys 0 kbsA) key B idxA where
  nodup := by decide
  mem := by
    have hk : protocolKeys 0 kbsA = [1, 3, 7] := by decide
    rw [hk]
    intro i c
    rcases i with _ | _ | _ | i <;>
      simp [cnt, idxA, key, List.countP_cons, eq_comm]

theorem lawfulB : LawfulIndex (protocolKeys 0 kbsB) key A idxB where
  nodup := by decide
  mem := by
    have hk : protocolKeys 0 kbsB = [3, 7, 9] := by decide
    rw [hk]
    intro i c
    rcases i with _ | _ | _ | i <;>
      simp [cnt, idxB, key, List.countP_cons, eq_comm]
end Ex

/-! ### C01, C03, C04: contents of the output -/

/-- **C01** Inner join: the output has every own row as often as the peer has rows with the same key,
and nothing else. -/
theorem C01_inner_join_exact [DecidableEq RA] {e : K} {keyA : RA → K} {A : List RA} {kbs rbs}
    (h : Input e keyA A kbs rbs) (isLeft : Bool) (header : RA) (keyB : RB → K) (B : List RB)
    (idx : List (Nat × Nat)) (hidx : LawfulIndex (protocolKeys e kbs) keyB B idx) :
    ∃ res, finalizeStat .inner isLeft header (sortTable (fun a b => decide (a ≤ b)) keyA A) rbs idx
        = .ok res ∧
      ∀ broadcast peerOriginal,
        (∀ r, (finalizeOut broadcast .inner isLeft res peerOriginal).count (.own r)
          = A.count r * B.countP fun b => keyB b = keyA r) ∧
        .na ∉ finalizeOut broadcast .inner isLeft res peerOriginal := by
  refine ⟨_, party_stat h .inner isLeft header keyB B idx hidx, ?_⟩
  intro br p
  rw [party_out h .inner isLeft header keyB B idx hidx _
    (party_stat h .inner isLeft header keyB B idx hidx)]
  have hinj : Function.Injective (OutLine.own : RA → OutLine RA) := fun a b h => by simpa using h
  simp only [reduceCtorEq, or_self, and_false, if_false, keepUnmatched, false_and,
    List.append_nil]
  refine ⟨fun r => ?_, by simp⟩
  rw [List.count_map_of_injective _ _ hinj, count_interL]
  rfl

example := C01_inner_join_exact Ex.inputA true (0, 0) Ex.key Ex.B Ex.idxA Ex.lawfulA

theorem count_out [DecidableEq RA] {e : K} {keyA : RA → K} {A : List RA} {kbs rbs}
    (h : Input e keyA A kbs rbs) (t : JoinType) (isLeft : Bool) (header : RA) (keyB : RB → K)
    (B : List RB) (idx : List (Nat × Nat)) (hidx : LawfulIndex (protocolKeys e kbs) keyB B idx)
    (res : Stat × Dumper RA)
    (hres : finalizeStat t isLeft header (sortTable leK keyA A) rbs idx = .ok res)
    (br : Bool) (p : Nat) (r : RA) :
    (finalizeOut br t isLeft res p).count (.own r) = rowMultiplicity t isLeft keyA A keyB B r := by
  have hinj : Function.Injective (OutLine.own : RA → OutLine RA) := fun a b h => by simpa using h
  have hna : ∀ n, (List.replicate n (OutLine.na : OutLine RA)).count (.own r) = 0 := by
    intro n; rw [List.count_eq_zero]; simp [List.mem_replicate]
  rw [party_out h t isLeft header keyB B idx hidx res hres]
  simp only [List.count_append, apply_ite (List.count (OutLine.own r)), hna, List.count_nil,
    ite_self, List.count_map_of_injective _ _ hinj, count_interL, count_exceptL, rowMultiplicity]
  by_cases hc : cnt keyB B (keyA r) = 0 <;> simp [hc]

/-- **C03** Outer joins with both parties receiving the result: for every join type, whichever party is
the left one, both parties succeed; each own row occurs exactly as often as the join type demands; the
null rows of a party are as many as the unmatched rows the peer keeps; the two outputs have the same
length and fit together line by line (matched rows face rows with the same key, unmatched rows face
null rows). -/
theorem C03_joins_exact_and_aligned [DecidableEq RA] [DecidableEq RB]
    {e : K} {keyA : RA → K} {A : List RA} {kbsA rbsA} (hA : Input e keyA A kbsA rbsA)
    {e' : K} {keyB : RB → K} {B : List RB} {kbsB rbsB} (hB : Input e' keyB B kbsB rbsB)
    (t : JoinType) (aIsLeft : Bool) (headerA : RA) (headerB : RB)
    (idxA idxB : List (Nat × Nat))
    (hidxA : LawfulIndex (protocolKeys e kbsA) keyB B idxA)
    (hidxB : LawfulIndex (protocolKeys e' kbsB) keyA A idxB) :
    ∃ resA resB,
      finalizeStat t aIsLeft headerA (sortTable (fun a b => decide (a ≤ b)) keyA A) rbsA idxA
        = .ok resA ∧
      finalizeStat t (!aIsLeft) headerB (sortTable (fun a b => decide (a ≤ b)) keyB B) rbsB idxB
        = .ok resB ∧
      let outA := finalizeOut true t aIsLeft resA resB.1.original
      let outB := finalizeOut true t (!aIsLeft) resB resA.1.original
      (∀ r, outA.count (.own r) = rowMultiplicity t aIsLeft keyA A keyB B r) ∧
      (∀ r, outB.count (.own r) = rowMultiplicity t (!aIsLeft) keyB B keyA A r) ∧
      outA.count .na
        = (if keepUnmatched t (!aIsLeft) then (unmatched keyB B keyA A).length else 0) ∧
      outB.count .na = (if keepUnmatched t aIsLeft then (unmatched keyA A keyB B).length else 0) ∧
      List.Forall₂ (Fits keyA A keyB B) outA outB := by
  have sA := party_stat hA t aIsLeft headerA keyB B idxA hidxA
  have sB := party_stat hB t (!aIsLeft) headerB keyA A idxB hidxB
  refine ⟨_, _, sA, sB, ?_⟩
  simp only
  refine ⟨count_out hA t aIsLeft headerA keyB B idxA hidxA _ sA _ _,
    count_out hB t (!aIsLeft) headerB keyA A idxB hidxB _ sB _ _, ?_⟩
  rw [party_out hA t aIsLeft headerA keyB B idxA hidxA _ sA,
    party_out hB t (!aIsLeft) headerB keyA A idxB hidxB _ sB]
  simp only [if_true, unmatched_length]
  have hnaA : ∀ l : List RA, (l.map OutLine.own).count .na = 0 := by
    intro l; rw [List.count_eq_zero]; simp
  have hnaB : ∀ l : List RB, (l.map OutLine.own).count .na = 0 := by
    intro l; rw [List.count_eq_zero]; simp
  have hI : List.Forall₂ (Fits keyA A keyB B) ((interL keyA A keyB B).map .own)
      ((interL keyB B keyA A).map .own) := by
    rw [List.forall₂_map_left_iff, List.forall₂_map_right_iff]
    have := interL_aligned keyA A keyB B
    rw [← List.forall₂_eq_eq_eq, List.forall₂_map_left_iff, List.forall₂_map_right_iff] at this
    exact this
  have hEA : List.Forall₂ (Fits keyA A keyB B) ((exceptL keyA A keyB B).map .own)
      (List.replicate (unmatched keyA A keyB B).length .na) := by
    rw [← (exceptL_perm keyA A keyB B).length_eq]
    have : ∀ l : List RA, (∀ a ∈ l, cnt keyB B (keyA a) = 0) →
        List.Forall₂ (Fits keyA A keyB B) (l.map .own) (List.replicate l.length .na) := by
      intro l hl
      induction l with
      | nil => simp
      | cons a l ih =>
        simp only [List.map_cons, List.length_cons, List.replicate_succ]
        exact .cons (hl a (by simp)) (ih (fun a ha => hl a (by simp [ha])))
    exact this _ (fun a ha => by simpa using (List.mem_filter.mp ha).2)
  have hEB : List.Forall₂ (Fits keyA A keyB B)
      (List.replicate (unmatched keyB B keyA A).length .na) ((exceptL keyB B keyA A).map .own) := by
    rw [← (exceptL_perm keyB B keyA A).length_eq]
    have : ∀ l : List RB, (∀ a ∈ l, cnt keyA A (keyB a) = 0) →
        List.Forall₂ (Fits keyA A keyB B) (List.replicate l.length .na) (l.map .own) := by
      intro l hl
      induction l with
      | nil => simp
      | cons a l ih =>
        simp only [List.map_cons, List.length_cons, List.replicate_succ]
        exact .cons (hl a (by simp)) (ih (fun a ha => hl a (by simp [ha])))
    exact this _ (fun a ha => by simpa using (List.mem_filter.mp ha).2)
  cases t <;> cases aIsLeft <;>
    simp [keepUnmatched, hnaA, hnaB, List.count_replicate_self, hI] <;>
    first
      | exact List.rel_append hI hEA
      | exact List.rel_append hI hEB
      | exact List.rel_append hI (List.rel_append hEA hEB)
      | exact List.rel_append hI (List.rel_append hEB hEA)
      | exact List.rel_append hEA hEB
      | exact List.rel_append hEB hEA

example := C03_joins_exact_and_aligned Ex.inputA Ex.inputB .left true (0, 0) (0, 0)
  Ex.idxA Ex.idxB Ex.lawfulA Ex.lawfulB

/-- **C03** Result for one party only (no broadcast): the own rows are the same as with broadcast, and
no null rows are written (the party cannot pad for rows it knows nothing about). -/
theorem C03_single_party_rows [DecidableEq RA] {e : K} {keyA : RA → K} {A : List RA} {kbs rbs}
    (h : Input e keyA A kbs rbs) (t : JoinType) (isLeft : Bool) (header : RA) (keyB : RB → K)
    (B : List RB) (idx : List (Nat × Nat)) (hidx : LawfulIndex (protocolKeys e kbs) keyB B idx) :
    ∃ res, finalizeStat t isLeft header (sortTable (fun a b => decide (a ≤ b)) keyA A) rbs idx
        = .ok res ∧
      ∀ p, (∀ r, (finalizeOut false t isLeft res p).count (.own r)
          = rowMultiplicity t isLeft keyA A keyB B r) ∧
        .na ∉ finalizeOut false t isLeft res p := by
  have hs := party_stat h t isLeft header keyB B idx hidx
  refine ⟨_, hs, fun p => ⟨fun r => count_out h t isLeft header keyB B idx hidx _ hs false p r, ?_⟩⟩
  rw [party_out h t isLeft header keyB B idx hidx _ hs]
  cases t <;> cases isLeft <;> simp [keepUnmatched]

example := C03_single_party_rows Ex.inputA .left true (0, 0) Ex.key Ex.B Ex.idxA Ex.lawfulA

/-- **C04** Difference with both parties receiving the result: a party's output holds each of its rows
whose key the peer does not have exactly as often as the input does, no row with a shared key, and one
null row per row that only the peer has. -/
theorem C04_difference_exact [DecidableEq RA] [DecidableEq RB]
    {e : K} {keyA : RA → K} {A : List RA} {kbsA rbsA} (hA : Input e keyA A kbsA rbsA)
    {e' : K} {keyB : RB → K} {B : List RB} {kbsB rbsB} (hB : Input e' keyB B kbsB rbsB)
    (aIsLeft : Bool) (headerA : RA) (headerB : RB) (idxA idxB : List (Nat × Nat))
    (hidxA : LawfulIndex (protocolKeys e kbsA) keyB B idxA)
    (hidxB : LawfulIndex (protocolKeys e' kbsB) keyA A idxB) :
    ∃ resA resB,
      finalizeStat .difference aIsLeft headerA (sortTable (fun a b => decide (a ≤ b)) keyA A) rbsA
        idxA = .ok resA ∧
      finalizeStat .difference (!aIsLeft) headerB (sortTable (fun a b => decide (a ≤ b)) keyB B) rbsB
        idxB = .ok resB ∧
      let outA := finalizeOut true .difference aIsLeft resA resB.1.original
      (∀ r, outA.count (.own r) = if keyA r ∈ B.map keyB then 0 else A.count r) ∧
      outA.count .na = B.countP (fun b => keyB b ∉ A.map keyA) ∧
      outA.length = A.countP (fun a => keyA a ∉ B.map keyB) + B.countP (fun b => keyB b ∉ A.map keyA)
    := by
  obtain ⟨resA, resB, h1, h2, h3, h4, h5, h6, h7⟩ :=
    C03_joins_exact_and_aligned hA hB .difference aIsLeft headerA headerB idxA idxB hidxA hidxB
  refine ⟨resA, resB, h1, h2, ?_, ?_, ?_⟩
  · intro r
    rw [h3 r, rowMultiplicity]
    by_cases hc : cnt keyB B (keyA r) = 0
    · have := (cnt_eq_zero keyB B (keyA r)).mp hc
      rw [if_pos hc, if_neg this]
      simp [keepUnmatched]
    · have : keyA r ∈ B.map keyB := by
        by_contra hn; exact hc ((cnt_eq_zero keyB B (keyA r)).mpr hn)
      rw [if_neg hc, if_pos this]
      simp
  · rw [h5]
    simp only [keepUnmatched, true_or, or_true, if_true, unmatched, ← List.countP_eq_length_filter]
    apply List.countP_congr
    intro b _
    simp [cnt_eq_zero]
  · rw [party_out hA .difference aIsLeft headerA keyB B idxA hidxA resA h1]
    rw [party_stat hB .difference (!aIsLeft) headerB keyA A idxB hidxB] at h2
    simp only [Except.ok.injEq] at h2
    subst h2
    have l1 : A.countP (fun a => decide (keyA a ∉ B.map keyB)) = (exceptL keyA A keyB B).length := by
      rw [(exceptL_perm keyA A keyB B).length_eq, unmatched, ← List.countP_eq_length_filter]
      apply List.countP_congr
      intro b _
      simp [cnt_eq_zero]
    have l2 : B.countP (fun b => decide (keyB b ∉ A.map keyA)) =
        B.length - B.countP (fun b => keyB b ∈ A.map keyA) := by
      rw [unmatched_length, unmatched, ← List.countP_eq_length_filter]
      apply List.countP_congr
      intro b _
      simp [cnt_eq_zero]
    rw [l1, l2]
    cases aIsLeft <;> simp [keepUnmatched, Nat.add_comm]

example := C04_difference_exact Ex.inputA Ex.inputB false (0, 0) (0, 0)
  Ex.idxA Ex.idxB Ex.lawfulA Ex.lawfulB

/-! ### C02: row alignment -/

/-- **C02** Inner join: row `i` of one output has the same key as row `i` of the other. -/
theorem C02_rows_aligned
    {e : K} {keyA : RA → K} {A : List RA} {kbsA rbsA} (hA : Input e keyA A kbsA rbsA)
    {e' : K} {keyB : RB → K} {B : List RB} {kbsB rbsB} (hB : Input e' keyB B kbsB rbsB)
    (aIsLeft : Bool) (headerA : RA) (headerB : RB)
    (idxA idxB : List (Nat × Nat))
    (hidxA : LawfulIndex (protocolKeys e kbsA) keyB B idxA)
    (hidxB : LawfulIndex (protocolKeys e' kbsB) keyA A idxB) :
    ∃ (resA : Stat × Dumper RA) (resB : Stat × Dumper RB) (rowsA : List RA) (rowsB : List RB),
      finalizeStat .inner aIsLeft headerA (sortTable (fun a b => decide (a ≤ b)) keyA A) rbsA idxA
        = .ok resA ∧
      finalizeStat .inner (!aIsLeft) headerB (sortTable (fun a b => decide (a ≤ b)) keyB B) rbsB idxB
        = .ok resB ∧
      (∀ br p, finalizeOut br .inner aIsLeft resA p = rowsA.map .own) ∧
      (∀ br p, finalizeOut br .inner (!aIsLeft) resB p = rowsB.map .own) ∧
      rowsA.map keyA = rowsB.map keyB := by
  have sA := party_stat hA .inner aIsLeft headerA keyB B idxA hidxA
  have sB := party_stat hB .inner (!aIsLeft) headerB keyA A idxB hidxB
  refine ⟨_, _, interL keyA A keyB B, interL keyB B keyA A, sA, sB, ?_, ?_,
    interL_aligned keyA A keyB B⟩
  · intro br p
    rw [party_out hA .inner aIsLeft headerA keyB B idxA hidxA _ sA]
    simp [keepUnmatched]
  · intro br p
    rw [party_out hB .inner (!aIsLeft) headerB keyA A idxB hidxB _ sB]
    simp [keepUnmatched]

example := C02_rows_aligned Ex.inputA Ex.inputB true (0, 0) (0, 0)
  Ex.idxA Ex.idxB Ex.lawfulA Ex.lawfulB

/-- **C02** (second part) If the keys of one party are pairwise distinct, reading the two outputs side
by side gives the relational join.  The premise is needed: with duplicate keys at both parties the
claim is false (`C02_not_relational_join`). -/
theorem C02_relational_join_when_unique
    {e : K} {keyA : RA → K} {A : List RA} {kbsA rbsA} (hA : Input e keyA A kbsA rbsA)
    {e' : K} {keyB : RB → K} {B : List RB} {kbsB rbsB} (hB : Input e' keyB B kbsB rbsB)
    (aIsLeft : Bool) (headerA : RA) (headerB : RB)
    (idxA idxB : List (Nat × Nat))
    (hidxA : LawfulIndex (protocolKeys e kbsA) keyB B idxA)
    (hidxB : LawfulIndex (protocolKeys e' kbsB) keyA A idxB)
    (hu : (B.map keyB).Nodup) :
    ∃ (resA : Stat × Dumper RA) (resB : Stat × Dumper RB) (rowsA : List RA) (rowsB : List RB),
      finalizeStat .inner aIsLeft headerA (sortTable (fun a b => decide (a ≤ b)) keyA A) rbsA idxA
        = .ok resA ∧
      finalizeStat .inner (!aIsLeft) headerB (sortTable (fun a b => decide (a ≤ b)) keyB B) rbsB idxB
        = .ok resB ∧
      (∀ br p, finalizeOut br .inner aIsLeft resA p = rowsA.map .own) ∧
      (∀ br p, finalizeOut br .inner (!aIsLeft) resB p = rowsB.map .own) ∧
      rowsA.length = rowsB.length ∧
      (rowsA.zip rowsB).Perm (sqlJoin keyA A keyB B) := by
  have sA := party_stat hA .inner aIsLeft headerA keyB B idxA hidxA
  have sB := party_stat hB .inner (!aIsLeft) headerB keyA A idxB hidxB
  refine ⟨_, _, interL keyA A keyB B, interL keyB B keyA A, sA, sB, ?_, ?_, ?_, ?_⟩
  · intro br p
    rw [party_out hA .inner aIsLeft headerA keyB B idxA hidxA _ sA]
    simp [keepUnmatched]
  · intro br p
    rw [party_out hB .inner (!aIsLeft) headerB keyA A idxB hidxB _ sB]
    simp [keepUnmatched]
  · have := congrArg List.length (interL_aligned keyA A keyB B)
    simpa using this
  · exact zip_interL_unique keyA A keyB B hu

/-- Two keys of `Ex.A` occur, one of them twice; the keys of this peer table are distinct. -/
example := C02_relational_join_when_unique (B := [(7, 5), (3, 6)]) Ex.inputA
  (kbsB := [[3], [7]]) (rbsB := [[⟨3, 0, 0⟩, ⟨7, 1, 0⟩]]) (e' := 0) (keyB := Ex.key)
  ⟨by decide, ⟨by decide, by simp [sortTable, List.mergeSort, Ex.key]⟩,
    by decide, by decide⟩ true (0, 0) (0, 0) [(1, 0), (2, 0)] [(1, 0), (0, 1)]
  ⟨by decide, by
    have hk : protocolKeys 0 Ex.kbsA = [1, 3, 7] := by decide
    rw [hk]
    intro i c
    rcases i with _ | _ | _ | i <;> simp [cnt, Ex.key, List.countP_cons, eq_comm]⟩
  ⟨by decide, by
    have hk : protocolKeys 0 [[3], [7]] = [3, 7] := by decide
    rw [hk]
    intro i c
    rcases i with _ | _ | i <;> simp [cnt, Ex.key, List.countP_cons, eq_comm]⟩
  (by decide)

/-- **C02** (why the second part needs its premise) With duplicate keys at both parties the side-by-side
reading is not the relational join: for one key with rows `a₁ a₂` and `b₁ b₂` the outputs are
`a₁ a₁ a₂ a₂` and `b₁ b₁ b₂ b₂`, so `(a₁, b₂)` is missing. -/
theorem C02_not_relational_join :
    ¬ ∀ (A B : List (Nat × Nat)) (kbsA kbsB : List (List Nat)) (rbsA rbsB : List (List (KeyRec Nat)))
        (idxA idxB : List (Nat × Nat)) (resA resB : Stat × Dumper (Nat × Nat))
        (rowsA rowsB : List (Nat × Nat)),
      Input 0 Prod.fst A kbsA rbsA → Input 0 Prod.fst B kbsB rbsB →
      LawfulIndex (protocolKeys 0 kbsA) Prod.fst B idxA →
      LawfulIndex (protocolKeys 0 kbsB) Prod.fst A idxB →
      finalizeStat .inner true (0, 0) (sortTable (fun a b => decide (a ≤ b)) Prod.fst A) rbsA idxA
        = .ok resA →
      finalizeStat .inner false (0, 0) (sortTable (fun a b => decide (a ≤ b)) Prod.fst B) rbsB idxB
        = .ok resB →
      finalizeOut true .inner true resA resB.1.original = rowsA.map .own →
      finalizeOut true .inner false resB resA.1.original = rowsB.map .own →
      (rowsA.zip rowsB).Perm (sqlJoin Prod.fst A Prod.fst B) := by
  intro hall
  have hi : Input 0 Prod.fst [(1, 1), (1, 2)] [[1, 1]] [[⟨1, 0, 1⟩]] :=
    ⟨by decide, ⟨by decide, by simp [sortTable, List.mergeSort]⟩, by decide, by decide⟩
  have hl : LawfulIndex (protocolKeys 0 [[1, 1]]) Prod.fst [(1, 1), (1, 2)] [(0, 1)] :=
    ⟨by decide, by
      have hk : protocolKeys 0 [[1, 1]] = [1] := by decide
      rw [hk]
      intro i c
      rcases i with _ | i <;> simp [cnt, eq_comm]⟩
  have hI : interL Prod.fst [(1, 1), (1, 2)] Prod.fst [(1, 1), (1, 2)]
      = [(1, 1), (1, 1), (1, 2), (1, 2)] := by
    simp [interL, sortTable, List.mergeSort, cnt, leK]
  have sA := party_stat hi .inner true (0, 0) Prod.fst _ _ hl
  have sB := party_stat hi .inner false (0, 0) Prod.fst _ _ hl
  have oA := fun p => party_out hi .inner true (0, 0) Prod.fst _ _ hl _ sA true p
  have oB := fun p => party_out hi .inner false (0, 0) Prod.fst _ _ hl _ sB true p
  have := hall _ _ _ _ _ _ _ _ _ _ _ _ hi hi hl hl sA sB
    (by rw [oA]; simp [keepUnmatched]; rfl) (by rw [oB]; simp [keepUnmatched]; rfl)
  rw [hI] at this
  have h2 := this.mem_iff (a := ((1, 1), (1, 2)))
  revert h2
  decide

/-! ### C01–C04 for inputs declared to have unique keys -/

/-- **C01, C03, C04** for an input declared (truthfully) to have unique keys: whether or not aligned
output is requested, every own row occurs exactly as often as the join type demands.  `sortAll` is any
rearrangement. -/
theorem C01_unique_keys_exact [DecidableEq RA] (keyA : RA → K) (A : List RA)
    (rbs : List (List (KeyRec K))) (hr : Chunks rbs (keyInfoUnique 0 (A.map keyA)))
    (align : Bool) (sortAll : List RA → List RA) (hsort : ∀ l, (sortAll l).Perm l)
    (t : JoinType) (isLeft : Bool) (header : RA) (keyB : RB → K) (B : List RB)
    (idx : List (Nat × Nat)) (hidx : LawfulIndex (A.map keyA) keyB B idx) :
    ∃ res, finalizeStatUnique align sortAll t isLeft header A rbs idx = .ok res ∧
      ∀ br p r, (finalizeOut br t isLeft res p).count (.own r)
        = rowMultiplicity t isLeft keyA A keyB B r := by
  refine ⟨_, unique_stat keyA A rbs hr align sortAll t isLeft header keyB B idx hidx, ?_⟩
  intro br p r
  have hinj : Function.Injective (OutLine.own : RA → OutLine RA) := fun a b h => by simpa using h
  have hna : ∀ n, (List.replicate n (OutLine.na : OutLine RA)).count (.own r) = 0 := by
    intro n; rw [List.count_eq_zero]; simp [List.mem_replicate]
  have hI : (if align = true ∧ interU keyA A keyB B ≠ [] then sortAll (interU keyA A keyB B)
      else interU keyA A keyB B).count r = A.count r * cnt keyB B (keyA r) := by
    have h0 : (interU keyA A keyB B).count r = A.count r * cnt keyB B (keyA r) :=
      count_flatMap_replicate _ _ _
    split
    · rw [(hsort _).count_eq, h0]
    · exact h0
  have hE : (A.filter (fun a => cnt keyB B (keyA a) = 0)).count r =
      if cnt keyB B (keyA r) = 0 then A.count r else 0 := by
    by_cases h : cnt keyB B (keyA r) = 0
    · rw [if_pos h, List.count_filter (by simpa using h)]
    · rw [if_neg h, List.count_eq_zero]
      simp [h]
  generalize (if align = true ∧ interU keyA A keyB B ≠ [] then sortAll (interU keyA A keyB B)
      else interU keyA A keyB B) = I at hI
  by_cases hc : cnt keyB B (keyA r) = 0 <;> cases t <;> cases isLeft <;>
    simp [finalizeOut, generateResult, writeOutput, writeNa, keepUnmatched, rowMultiplicity, hc, hna,
      List.count_map_of_injective _ _ hinj, hI, hE]

/-- Row = `(payload, key)`, keys distinct and not sorted. -/
example := C01_unique_keys_exact (K := Nat) (Prod.snd : Nat × Nat → Nat) [(5, 4), (6, 2)]
  [[⟨4, 0, 0⟩, ⟨2, 1, 0⟩]] ⟨by decide, by decide⟩ true (fun l => l.reverse)
  (fun l => List.reverse_perm l) .full true (0, 0) Ex.key [(2, 0), (2, 1)] [(1, 1)]
  ⟨by decide, by
    intro i c
    rcases i with _ | _ | i <;> simp [cnt, Ex.key, eq_comm]⟩

/-- **C02** for inputs declared to have unique keys (the part that holds): if the re-sort of the
intersection file orders it by key, the rows of both parties are aligned.  Missing: the code re-sorts
by *all* columns in file order, which orders by key only if the key columns come first; see
`C02_unique_keys_misaligned`. -/
theorem C02_unique_keys_aligned_partial
    (keyA : RA → K) (A : List RA) (rbsA : List (List (KeyRec K)))
    (hrA : Chunks rbsA (keyInfoUnique 0 (A.map keyA)))
    (sortAllA : List RA → List RA) (hpA : ∀ l, (sortAllA l).Perm l)
    (hsA : ∀ l, ((sortAllA l).map keyA).Pairwise (· ≤ ·))
    (keyB : RB → K) (B : List RB) (rbsB : List (List (KeyRec K)))
    (hrB : Chunks rbsB (keyInfoUnique 0 (B.map keyB)))
    (sortAllB : List RB → List RB) (hpB : ∀ l, (sortAllB l).Perm l)
    (hsB : ∀ l, ((sortAllB l).map keyB).Pairwise (· ≤ ·))
    (aIsLeft : Bool) (headerA : RA) (headerB : RB) (idxA idxB : List (Nat × Nat))
    (hidxA : LawfulIndex (A.map keyA) keyB B idxA) (hidxB : LawfulIndex (B.map keyB) keyA A idxB) :
    ∃ (resA : Stat × Dumper RA) (resB : Stat × Dumper RB) (rowsA : List RA) (rowsB : List RB),
      finalizeStatUnique true sortAllA .inner aIsLeft headerA A rbsA idxA = .ok resA ∧
      finalizeStatUnique true sortAllB .inner (!aIsLeft) headerB B rbsB idxB = .ok resB ∧
      (∀ br p, finalizeOut br .inner aIsLeft resA p = rowsA.map .own) ∧
      (∀ br p, finalizeOut br .inner (!aIsLeft) resB p = rowsB.map .own) ∧
      rowsA.map keyA = rowsB.map keyB := by
  refine ⟨_, _, sortAllA (interU keyA A keyB B), sortAllB (interU keyB B keyA A),
    unique_stat keyA A rbsA hrA true sortAllA .inner aIsLeft headerA keyB B idxA hidxA,
    unique_stat keyB B rbsB hrB true sortAllB .inner (!aIsLeft) headerB keyA A idxB hidxB, ?_, ?_, ?_⟩
  · intro br p
    have : (if true = true ∧ interU keyA A keyB B ≠ [] then sortAllA (interU keyA A keyB B)
      else interU keyA A keyB B) = sortAllA (interU keyA A keyB B) := by
      by_cases h : interU keyA A keyB B = []
      · rw [h]
        have := (hpA []).eq_nil
        simp [this]
      · simp [h]
    rw [this]
    cases aIsLeft <;> simp [finalizeOut, generateResult, writeOutput, keepUnmatched]
  · intro br p
    have : (if true = true ∧ interU keyB B keyA A ≠ [] then sortAllB (interU keyB B keyA A)
      else interU keyB B keyA A) = sortAllB (interU keyB B keyA A) := by
      by_cases h : interU keyB B keyA A = []
      · rw [h]
        have := (hpB []).eq_nil
        simp [this]
      · simp [h]
    rw [this]
    cases aIsLeft <;> simp [finalizeOut, generateResult, writeOutput, keepUnmatched]
  · have pA : ((sortAllA (interU keyA A keyB B)).map keyA).Perm ((interL keyA A keyB B).map keyA) :=
      ((hpA _).trans ((sortTable_perm keyA A).flatMap_right _).symm).map _
    have pB : ((sortAllB (interU keyB B keyA A)).map keyB).Perm ((interL keyB B keyA A).map keyB) :=
      ((hpB _).trans ((sortTable_perm keyB B).flatMap_right _).symm).map _
    rw [← interL_aligned] at pB
    exact (pA.trans pB.symm).eq_of_pairwise (fun a b _ _ h1 h2 => le_antisymm h1 h2) (hsA _) (hsB _)

/-- Sort by the first column, which is the key. -/
example := C02_unique_keys_aligned_partial (K := Nat)
  Ex.key [(4, 5), (2, 6)] [[⟨4, 0, 0⟩, ⟨2, 1, 0⟩]] ⟨by decide, by decide⟩
  (sortTable (fun a b => decide (a ≤ b)) Ex.key) (sortTable_perm _) (sortTable_sorted _)
  Ex.key [(2, 0), (4, 9)] [[⟨2, 0, 0⟩, ⟨4, 1, 0⟩]] ⟨by decide, by decide⟩
  (sortTable (fun a b => decide (a ≤ b)) Ex.key) (sortTable_perm _) (sortTable_sorted _)
  true (0, 0) (0, 0) [(0, 0), (1, 0)] [(0, 0), (1, 0)]
  ⟨by decide, by intro i c; rcases i with _ | _ | i <;> simp [cnt, Ex.key, eq_comm]⟩
  ⟨by decide, by intro i c; rcases i with _ | _ | i <;> simp [cnt, Ex.key, eq_comm]⟩

/-- **C02** (negation for inputs declared to have unique keys) Re-sorting by all columns in file order
does not align the rows when the key is not the first column.  Party A's file has the columns
`payload,key`, party B's `key,payload`; both declare unique keys and ask for aligned output. -/
theorem C02_unique_keys_misaligned :
    ∃ (A B : List (Nat × Nat)) (rbsA rbsB : List (List (KeyRec Nat))) (idxA idxB : List (Nat × Nat))
      (resA resB : Stat × Dumper (Nat × Nat)) (rowsA rowsB : List (Nat × Nat)),
      (A.map Prod.snd).Nodup ∧ (B.map Prod.fst).Nodup ∧
      Chunks rbsA (keyInfoUnique 0 (A.map Prod.snd)) ∧
      Chunks rbsB (keyInfoUnique 0 (B.map Prod.fst)) ∧
      LawfulIndex (A.map Prod.snd) Prod.fst B idxA ∧ LawfulIndex (B.map Prod.fst) Prod.snd A idxB ∧
      finalizeStatUnique true (fun l => l.mergeSort fun a b => a.1 < b.1 || (a.1 == b.1 && a.2 ≤ b.2))
        .inner true (0, 0) A rbsA idxA = .ok resA ∧
      finalizeStatUnique true (fun l => l.mergeSort fun a b => a.1 < b.1 || (a.1 == b.1 && a.2 ≤ b.2))
        .inner false (0, 0) B rbsB idxB = .ok resB ∧
      finalizeOut true .inner true resA resB.1.original = rowsA.map .own ∧
      finalizeOut true .inner false resB resA.1.original = rowsB.map .own ∧
      rowsA.map Prod.snd ≠ rowsB.map Prod.fst := by
  have lA : LawfulIndex (([(20, 1), (10, 2)] : List (Nat × Nat)).map Prod.snd) Prod.fst
      ([(1, 5), (2, 6)] : List (Nat × Nat)) [(0, 0), (1, 0)] :=
    ⟨by decide, by intro i c; rcases i with _ | _ | i <;> simp [cnt, eq_comm]⟩
  have lB : LawfulIndex (([(1, 5), (2, 6)] : List (Nat × Nat)).map Prod.fst) Prod.snd
      ([(20, 1), (10, 2)] : List (Nat × Nat)) [(0, 0), (1, 0)] :=
    ⟨by decide, by intro i c; rcases i with _ | _ | i <;> simp [cnt, eq_comm]⟩
  have cA : Chunks [[⟨1, 0, 0⟩, ⟨2, 1, 0⟩]]
      (keyInfoUnique 0 (([(20, 1), (10, 2)] : List (Nat × Nat)).map Prod.snd)) :=
    ⟨by decide, by decide⟩
  have cB : Chunks [[⟨1, 0, 0⟩, ⟨2, 1, 0⟩]]
      (keyInfoUnique 0 (([(1, 5), (2, 6)] : List (Nat × Nat)).map Prod.fst)) :=
    ⟨by decide, by decide⟩
  refine ⟨[(20, 1), (10, 2)], [(1, 5), (2, 6)], _, _, _, _, _, _,
    [(10, 2), (20, 1)], [(1, 5), (2, 6)], by decide, by decide, cA, cB, lA, lB,
    unique_stat _ _ _ cA true _ .inner true (0, 0) _ _ _ lA,
    unique_stat _ _ _ cB true _ .inner false (0, 0) _ _ _ lB, ?_, ?_, by decide⟩
  · have hI : interU Prod.snd [(20, 1), (10, 2)] Prod.fst [(1, 5), (2, 6)] = [(20, 1), (10, 2)] := by
      decide
    rw [hI]
    simp [finalizeOut, generateResult, writeOutput, keepUnmatched, List.mergeSort]
  · have hI : interU Prod.fst [(1, 5), (2, 6)] Prod.snd [(20, 1), (10, 2)] = [(1, 5), (2, 6)] := by
      decide
    rw [hI]
    simp [finalizeOut, generateResult, writeOutput, keepUnmatched, List.mergeSort]

/-! ### C05: counts in the report -/

/-- **C05** The counts come out exact: own rows with a partner, peer rows with a partner, own rows,
rows of the joined output and distinct common keys. -/
theorem C05_report_counts {e : K} {keyA : RA → K} {A : List RA} {kbs rbs}
    (h : Input e keyA A kbs rbs) (t : JoinType) (isLeft : Bool) (header : RA) (keyB : RB → K)
    (B : List RB) (idx : List (Nat × Nat)) (hidx : LawfulIndex (protocolKeys e kbs) keyB B idx) :
    ∃ d, finalizeStat t isLeft header (sortTable (fun a b => decide (a ≤ b)) keyA A) rbs idx
      = .ok (⟨A.countP (fun a => keyA a ∈ B.map keyB), B.countP (fun b => keyB b ∈ A.map keyA),
              A.length, (sqlJoin keyA A keyB B).length,
              ((A.map keyA).toFinset ∩ (B.map keyB).toFinset).card⟩, d) := by
  have := party_stat h t isLeft header keyB B idx hidx
  rw [interL_length] at this
  exact ⟨_, this⟩

example := C05_report_counts Ex.inputA .full true (0, 0) Ex.key Ex.B Ex.idxA Ex.lawfulA

/-- **C05** The key counts recorded with the key file (used for `original_count` and
`original_key_count` in the report): number of rows, of distinct keys, of keys with several rows. -/
theorem C05_key_counts {e : K} {keyA : RA → K} {A : List RA} {kbs rbs}
    (h : Input e keyA A kbs rbs) :
    keyMeta (keyInfoMake e kbs) =
      { originCnt := A.length
        uniqueKeyCnt := (A.map keyA).toFinset.card
        duplicateKeyCnt := ((A.map keyA).toFinset.filter fun k => 2 ≤ cnt keyA A k).card } :=
  keyMeta_spec h

example : keyMeta (keyInfoMake 0 Ex.kbsA) = ⟨1, 3, 4⟩ := by decide

/-! ### C06: corrupted index files -/

/-- **C06** Whatever the index file contains: result generation succeeds exactly if no position is
listed twice and all positions exist; otherwise it fails with one of the two documented errors.  No
output is produced in the failing case (the model returns no files). -/
theorem C06_corrupt_index_rejected {e : K} {keyA : RA → K} {A : List RA} {kbs rbs}
    (h : Input e keyA A kbs rbs) (t : JoinType) (isLeft : Bool) (header : RA)
    (idx : List (Nat × Nat)) :
    ((∃ res, finalizeStat t isLeft header (sortTable (fun a b => decide (a ≤ b)) keyA A) rbs idx
        = .ok res) ↔
      (idx.map Prod.fst).Nodup ∧ ∀ x ∈ idx, x.1 < (A.map keyA).toFinset.card) ∧
    (∀ err, finalizeStat t isLeft header (sortTable (fun a b => decide (a ≤ b)) keyA A) rbs idx
        = .error err → (∃ i, err = .dupIndex i) ∨ ∃ i c, err = .leftover i c) := by
  refine ⟨?_, ?_⟩
  · have hlen : (keyInfoMake e kbs).length = (A.map keyA).toFinset.card := by
      have := h.keys_card
      simpa [protocolKeys] using this
    constructor
    · rintro ⟨res, hres⟩
      obtain ⟨ms, hm, hi⟩ := applyPeerDupCnt_ok header _ _ rbs h.recChunks.1 h.recChunks.2 _ _ _ hres
      have hst := idxOf_strict 0 ms
      rw [← hi] at hst
      refine ⟨?_, ?_⟩
      · have : ((sortIndex idx).map Prod.fst).Nodup := by
          rw [List.Nodup, List.pairwise_map]
          exact hst.imp (fun h => by omega)
        exact ((sortIndex_perm idx).map _).nodup_iff.mp this
      · intro x hx
        rw [← (sortIndex_perm idx).mem_iff, hi] at hx
        obtain ⟨j, hj, h1, _⟩ := (mem_idxOf 0 ms x.1 x.2).mp hx
        omega
    · rintro ⟨hn, hr⟩
      obtain ⟨ms, hm, hi⟩ := exists_marks 0 (keyInfoMake e kbs).length (sortIndex idx)
        (sortIndex_strict idx hn) (fun x hx => by
          rw [(sortIndex_perm idx).mem_iff] at hx
          have := hr x hx
          omega)
      obtain ⟨h1, h2, _⟩ := h.recs
      obtain ⟨c1, c2⟩ := cut_spec keyA _ _ 0 h1 h2
      have := applyPeerDupCnt_spec header _ _ ms c1 hm rbs h.recChunks.1 h.recChunks.2
        (Dumper.make (interOn t) (exceptOn t isLeft))
      rw [c2, ← hi] at this
      exact ⟨_, this⟩
  · intro err herr
    cases err with
    | dupIndex i => exact Or.inl ⟨i, rfl⟩
    | leftover i c => exact Or.inr ⟨i, c, rfl⟩
    | diverge =>
      exact absurd herr (applyPeerDupCnt_no_diverge header _ rbs h.recChunks.1 _ _)

example : ∃ err, finalizeStat .inner true (0, 0) (sortTable (fun a b => decide (a ≤ b)) Ex.key Ex.A)
    Ex.rbsA [(1, 0), (1, 0)] = .error err := by
  cases hc : finalizeStat .inner true (0, 0) (sortTable (fun a b => decide (a ≤ b)) Ex.key Ex.A)
    Ex.rbsA [(1, 0), (1, 0)] with
  | error e => exact ⟨e, rfl⟩
  | ok r =>
    have := ((C06_corrupt_index_rejected Ex.inputA .inner true (0, 0) [(1, 0), (1, 0)]).1).mp ⟨r, hc⟩
    simp at this

/-! ### C07: grouping of keys -/

/-- **C07** The key file lists every key of the table once; the record of a key names exactly the rows
of the sorted table with this key: row `j` has the key of record `i` iff `j` lies in the record's
range. -/
theorem C07_key_grouping {e : K} {keyA : RA → K} {A : List RA} {kbs rbs}
    (h : Input e keyA A kbs rbs) :
    (protocolKeys e kbs).Nodup ∧ (∀ k, k ∈ protocolKeys e kbs ↔ ∃ a ∈ A, keyA a = k) ∧
    (∀ r ∈ keyInfoMake e kbs, r.dup + 1 = A.countP fun a => keyA a = r.key) ∧
    ∀ r ∈ keyInfoMake e kbs, ∀ j, ∀ hj : j < (sortTable (fun a b => decide (a ≤ b)) keyA A).length,
      (keyA (sortTable (fun a b => decide (a ≤ b)) keyA A)[j] = r.key ↔
        r.start ≤ j ∧ j ≤ r.start + r.dup) := by
  refine ⟨h.nodup_keys, ?_, ?_, ?_⟩
  · intro k; rw [h.mem_keys]; simp
  · exact recs_dup h
  · exact recs_range h

example := C07_key_grouping Ex.inputA

/-- **C07** The records do not depend on how the sorted keys are cut into batches. -/
theorem C07_batching_irrelevant {e : K} {keyA : RA → K} {A : List RA} {kbs kbs' : List (List K)}
    {rbs rbs'} (h : Input e keyA A kbs rbs) (h' : Input e keyA A kbs' rbs') :
    keyInfoMake e kbs = keyInfoMake e kbs' := by
  unfold keyInfoMake
  rw [rleRun_eq_batch _ _ h.keyChunks.1, rleRun_eq_batch _ _ h'.keyChunks.1, h.keyChunks.2,
    h'.keyChunks.2]

example := C07_batching_irrelevant Ex.inputA
  (kbs' := [[1], [3], [3], [7]]) (rbs' := [[⟨1, 0, 0⟩, ⟨3, 1, 1⟩, ⟨7, 3, 0⟩]])
  ⟨by decide, ⟨by decide, by simp [sortTable, List.mergeSort, Ex.key]⟩,
    by decide, by decide⟩

end Psi.Join
