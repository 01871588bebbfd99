import Verif.ApsiCore.Props

/-!
# C109 on concrete data, and where the answer is wrong

Two data bases over the rational numbers.
-/

namespace Psi.ApsiCore

open Psi.Spiral (Res mapRes)

/-! ## Four bins, three bundles, Paterson-Stockmeyer with low degree 2 -/

namespace A

def P : Params := { felts := 1, perBundle := 2, bundleCount := 2, low := 2, maxItems := 4, itemBits := 16 }

def felt (x : Nat) (_ : Nat) : ℚ := x

def lab (x j _ : Nat) : ℚ := 10 * x + j

/-- A coefficient: its values in the two slots. -/
def co (a b : ℚ) : Vec ℚ := fun s => if s = 0 then a else b

def labels : List (List (Vec ℚ)) := [[co 0 0, co 10 10], [co 1 1, co 10 10]]

def db : Db ℚ where
  caches
    | 0 => [⟨[co 24 (-5), co (-50) 1, co 35 0, co (-10) 0, co 1 0], labels⟩]
    | 1 => [⟨[co (-7) 1, co 1 0], labels⟩, ⟨[co (-8) (-9), co 1 1], labels⟩]
    | _ => []
  nonceBytes := 1
  labelBytes := 3

def cell (a b : List Nat) : Nat → List Nat := fun i => if i = 0 then a else b

def ct : Content Nat
  | 0 => [cell [1, 2, 3, 4] [5]]
  | 1 => [cell [7] [], cell [8] [9]]
  | _ => []

def f : Filled Nat where
  table a := if a = 0 then 3 else if a = 1 then 6 else if a = 3 then 9 else 100
  loc x := if x = 3 then 0 else if x = 6 then 1 else if x = 9 then 3 else 2

/-- The third item of the data base twice, one that it does not have, and one more that it has. -/
def items : List Nat := [3, 6, 9, 3]

def es : List Nat := [1, 3]

def order (_ : Nat) : List Node := [⟨3, none⟩, ⟨1, none⟩, ⟨2, some (1, 1)⟩, ⟨4, some (3, 1)⟩]

theorem setup : Setup P felt lab 2 db ct items f es order where
  rep := by
    have hlab : ∀ (i k : Nat) (y : Nat) (j : Nat) (l : List (Vec ℚ)), labels[j]? = some l → peval l (i * 1 + k) (felt y k) = lab y j k := by
      intro i k y j l hl
      match j with
      | 0 => cases hl; simp [peval, co, felt, lab]; ring
      | 1 => cases hl; simp [peval, co, felt, lab]; ring
      | j + 2 => simp [labels] at hl
    have hlen : ∀ l ∈ labels, l.length ≤ P.maxItems + 1 := by
      intro l hl
      simp [labels] at hl
      rcases hl with rfl | rfl <;> decide
    intro idx hidx
    have : idx = 0 ∨ idx = 1 := by change idx < 2 at hidx; omega
    rcases this with rfl | rfl
    · refine List.Forall₂.cons ⟨by decide, rfl, hlen, ?_, fun i _ k _ y _ j l hl => hlab i k y j l hl⟩ .nil
      intro i hi k hk x
      change i < 2 at hi
      change k < 1 at hk
      interval_cases i <;> interval_cases k <;> simp [peval, co, cell, felt, P] <;> ring
    · refine List.Forall₂.cons ⟨by decide, rfl, hlen, ?_, fun i _ k _ y _ j l hl => hlab i k y j l hl⟩
        (List.Forall₂.cons ⟨by decide, rfl, hlen, ?_, fun i _ k _ y _ j l hl => hlab i k y j l hl⟩ .nil)
      · intro i hi k hk x
        change i < 2 at hi
        change k < 1 at hk
        interval_cases i <;> interval_cases k <;> simp [peval, co, cell, felt, P]
        ring
      · intro i hi k hk x
        change i < 2 at hi
        change k < 1 at hk
        interval_cases i <;> interval_cases k <;> simp [peval, co, cell, felt, P] <;> ring
  fits := by unfold Fits; decide
  graph := {
    sources := by decide
    topo := fun _ => by simp [Topo, order, es]
    all := by
      intro idx i ⟨h1, h2, _⟩
      change i ≤ 4 at h2
      interval_cases i <;> simp [es, order] }
  pos := by decide

/-- An item hits a bundle of this data base exactly if it is in it. -/
theorem hits_iff (x : Nat) (c : Nat → List Nat) : Hits P felt f x c ↔ x ∈ c (f.loc x % 2) := by
  unfold Hits
  constructor
  · intro h
    obtain ⟨y, hy, e⟩ := h 0 (by decide)
    unfold felt at e
    have : y = x := by exact_mod_cast e
    rw [← this]
    rw [this] at hy ⊢
    exact hy
  · intro h k _
    exact ⟨x, h, rfl⟩

theorem noDouble : NoDouble P felt f ct items := by
  intro x hx
  simp only [hits_iff]
  simp only [items, List.mem_cons, List.not_mem_nil, or_false] at hx
  rcases hx with rfl | rfl | rfl | rfl <;> unfold home <;> decide

end A

/-- Found: the second 3, and the 9. -/
example : ∃ pkgs, runQuery A.P A.db (queryData A.P A.felt A.f A.es) A.order = .ok pkgs ∧ pkgs.length = 3 ∧
    ∀ arrived : List (Option (Package ℚ)), arrived.Perm (pkgs.map some) →
      ∃ mrs : Recs (List ℚ), processAll A.P (fun l _ _ _ _ => l) [(), (), (), ()] 4 (ittOf A.f A.items) arrived = .ok mrs ∧
        (mrs 0).isSome = false ∧ (mrs 1).isSome = false ∧ (mrs 2).isSome = true ∧ (mrs 3).isSome = true := by
  obtain ⟨pkgs, h1, h2, h3⟩ := C109_found_iff_partial A.setup A.noDouble (fun (l : List ℚ) _ _ (_ : Unit) _ => l) [(), (), (), ()]
  refine ⟨pkgs, h1, h2, fun arrived ha => ?_⟩
  obtain ⟨mrs, e, h4⟩ := h3 arrived ha
  refine ⟨mrs, e, ?_, ?_, ?_, ?_⟩
  · rw [Bool.eq_false_iff]
    intro h
    exact ((h4 0 3 rfl).mp h).1 3 (by decide) rfl
  · rw [Bool.eq_false_iff]
    intro h
    obtain ⟨c, hc, hh⟩ := ((h4 1 6 rfl).mp h).2
    rw [A.hits_iff] at hh
    change c ∈ [A.cell [1, 2, 3, 4] [5]] at hc
    rw [List.mem_singleton] at hc
    subst hc
    exact absurd hh (by decide)
  · refine (h4 2 9 rfl).mpr ⟨?_, A.cell [8] [9], by simp [home, A.ct, A.f, A.P], (A.hits_iff _ _).mpr (by decide)⟩
    intro j' hj'
    match j' with
    | 3 => decide
    | j' + 4 => simp [A.items]
  · refine (h4 3 3 rfl).mpr ⟨?_, A.cell [1, 2, 3, 4] [5], by simp [home, A.ct, A.f, A.P], (A.hits_iff _ _).mpr (by decide)⟩
    intro j' hj'
    obtain ⟨m, rfl⟩ : ∃ m, j' = m + 4 := ⟨j' - 4, by omega⟩
    simp [A.items]

/-- The label of 9 arrives in four bytes, its field elements being 90 and 91. -/
example : ∃ pkgs, runQuery A.P A.db (queryData A.P A.felt A.f A.es) A.order = .ok pkgs ∧
    ∀ arrived : List (Option (Package ℚ)), arrived.Perm (pkgs.map some) →
      ∃ mrs : Recs (List ℚ × Nat × Nat × Nat × Nat),
        processAll A.P (fun l a b k n => (l, a, b, k, n)) [50, 51, 52, 53] 4 (ittOf A.f A.items) arrived = .ok mrs ∧
          mrs 2 = some (some ([90, 91], 32, 4, 52, 1)) := by
  obtain ⟨pkgs, h1, h2⟩ := C109_label A.setup A.noDouble (fun (l : List ℚ) a b k n => (l, a, b, k, n)) [50, 51, 52, 53] rfl (by decide)
    (by decide)
  refine ⟨pkgs, h1, fun arrived ha => ?_⟩
  obtain ⟨mrs, e, h3⟩ := h2 arrived ha
  refine ⟨mrs, e, ?_⟩
  rw [h3 2 9 52 rfl ?_ rfl (A.cell [8] [9]) (by simp [home, A.ct, A.f, A.P]) (by decide)]
  · simp [A.lab, A.P, A.db, List.range_succ]
    norm_num
  · intro j' hj'
    match j' with
    | 3 => decide
    | j' + 4 => simp [A.items]

example : ∃ pkgs, runQuery A.P A.db (queryData A.P A.felt A.f A.es) A.order = .ok pkgs ∧
    ∀ arrived : List (Option (Package ℚ)), arrived.Perm (pkgs.map some) →
      ∃ mrs : Recs (List ℚ), processAll A.P (fun l _ _ _ _ => l) ([] : List Unit) 4 (ittOf A.f A.items) arrived = .ok mrs ∧
        ∀ j x, A.items[j]? = some x → ((mrs j).isSome ↔ Last A.items j ∧ ∃ c ∈ home A.P A.f A.ct x, x ∈ c (A.f.loc x % 2)) :=
  C109_exact_partial A.setup A.noDouble (by decide) (fun x _ c _ y _ k _ h => by
    unfold A.felt at h
    exact_mod_cast h) _ _

/-- One key too few: no labels. -/
example {pkgs : List (Package ℚ)} (hq : runQuery A.P A.db (queryData A.P A.felt A.f A.es) A.order = .ok pkgs) {mrs : Recs (List ℚ)}
    (hm : processAll A.P (fun l _ _ _ _ => l) [(), (), ()] 4 (ittOf A.f A.items) (pkgs.map some) = .ok mrs) (j : Nat) (l : List ℚ) :
    mrs j ≠ some (some l) :=
  C109_no_label A.setup _ [(), (), ()] (Or.inr (Or.inr (Or.inl (by decide)))) hq (List.Perm.refl _) hm j l

example (p q : Package ℚ) : processAll A.P (fun (l : List ℚ) _ _ _ _ => l) ([] : List Unit) 4 (ittOf A.f A.items) [some p, none, some q] =
    processAll A.P (fun l _ _ _ _ => l) ([] : List Unit) 4 (ittOf A.f A.items) [some q, some p, none] :=
  C109_any_order A.setup.fits _ _ (by
    refine (List.Perm.swap _ _ _).trans ?_
    refine ((List.Perm.swap _ _ _).cons _).trans ?_
    refine (List.Perm.swap _ _ _).trans ?_
    exact (List.Perm.swap _ _ _).cons _)

/-! ## Items of two field elements -/

namespace B

def P : Params := { felts := 2, perBundle := 1, bundleCount := 1, low := 0, maxItems := 2, itemBits := 16 }

def felt (x : Nat × Nat) (k : Nat) : ℚ := if k = 0 then x.1 else x.2

def lab (x : Nat × Nat) (_ k : Nat) : ℚ := 10 * felt x k

def co (a b : ℚ) : Vec ℚ := fun s => if s = 0 then a else b

def labels : List (List (Vec ℚ)) := [[co 0 0, co 10 10]]

/-- The bundle with the items (1, 4) and (3, 2). -/
def b1 : Bundle ℚ := ⟨[co 3 8, co (-4) (-6), co 1 1], labels⟩

/-- The bundle with the item (1, 2); both its elements are taken in the other bundle. -/
def b2 : Bundle ℚ := ⟨[co (-1) (-2), co 1 1], labels⟩

def c1 : Nat → List (Nat × Nat) := fun _ => [(1, 4), (3, 2)]

def c2 : Nat → List (Nat × Nat) := fun _ => [(1, 2)]

def f : Filled (Nat × Nat) := ⟨fun _ => (1, 2), fun _ => 0⟩

theorem hb1 : BundleOf P felt lab 1 b1 c1 where
  matchLen := by decide
  parts := rfl
  labLen := by decide
  roots := by
    intro i hi k hk x
    change i < 1 at hi
    change k < 2 at hk
    interval_cases i
    interval_cases k <;> simp [peval, b1, co, c1, felt, P] <;> ring
  label := by
    intro i hi k hk y hy j l hl
    match j with
    | 0 => cases hl; simp [peval, co, lab]; ring
    | j + 1 => simp [b1, labels] at hl

theorem hb2 : BundleOf P felt lab 1 b2 c2 where
  matchLen := by decide
  parts := rfl
  labLen := by decide
  roots := by
    intro i hi k hk x
    change i < 1 at hi
    change k < 2 at hk
    interval_cases i
    interval_cases k <;> simp [peval, b2, co, c2, felt, P] <;> ring
  label := by
    intro i hi k hk y hy j l hl
    match j with
    | 0 => cases hl; simp [peval, co, lab]; ring
    | j + 1 => simp [b2, labels] at hl

theorem setup (bs : List (Bundle ℚ)) (cs : List (Nat → List (Nat × Nat))) (h : List.Forall₂ (BundleOf P felt lab 1) bs cs) :
    Setup P felt lab 1 ⟨fun _ => bs, 0, 4⟩ (fun _ => cs) [(1, 2)] f [1] (fun _ => [⟨1, none⟩, ⟨2, some (1, 1)⟩]) where
  rep := fun _ _ => h
  fits := by unfold Fits; decide
  graph := {
    sources := by decide
    topo := fun _ => by simp [Topo]
    all := by
      intro idx i ⟨h1, h2, _⟩
      change i ≤ 2 at h2
      interval_cases i <;> simp }
  pos := by decide

theorem hits1 : Hits P felt f (1, 2) c1 := by
  intro k hk
  change k < 2 at hk
  interval_cases k
  · exact ⟨(1, 4), by simp [c1], by simp [felt]⟩
  · exact ⟨(3, 2), by simp [c1], by simp [felt]⟩

theorem hits2 : Hits P felt f (1, 2) c2 := fun _ _ => ⟨(1, 2), by simp [c2], rfl⟩

end B

/-- C109, a limit: an item whose field elements belong to different items of the sender is found although the sender does not
have it. -/
theorem C109_false_positive {Lab K : Type} (dec : List ℚ → Nat → Nat → K → Nat → Lab) (keys : List K) :
    ∃ pkgs mrs, runQuery B.P ⟨fun _ => [B.b1], 0, 4⟩ (queryData B.P B.felt B.f [1]) (fun _ => [⟨1, none⟩, ⟨2, some (1, 1)⟩]) = .ok pkgs ∧
      processAll B.P dec keys 1 (ittOf B.f [(1, 2)]) (pkgs.map some) = .ok mrs ∧ (mrs 0).isSome ∧ ∀ i, (1, 2) ∉ B.c1 i := by
  have S := B.setup [B.b1] [B.c1] (.cons B.hb1 .nil)
  obtain ⟨pkgs, h1, _, h2⟩ := C109_found_iff_partial S (fun x _ => List.pairwise_singleton _ _) dec keys
  obtain ⟨mrs, e, h3⟩ := h2 _ (List.Perm.refl _)
  refine ⟨pkgs, mrs, h1, e, (h3 0 (1, 2) rfl).mpr ⟨?_, B.c1, by simp [home], B.hits1⟩, fun i => by simp [B.c1]⟩
  intro j' hj'
  obtain ⟨m, rfl⟩ : ∃ m, j' = m + 1 := ⟨j' - 1, by omega⟩
  simp

/-- C109 fails for the code: the sender has the item, but its field elements also occur in another bundle (that is why it was put
in a bundle of its own).  The query of both honest parties ends with an exception. -/
theorem C109_member_throws {Lab K : Type} (dec : List ℚ → Nat → Nat → K → Nat → Lab) (keys : List K) :
    ∃ pkgs, runQuery B.P ⟨fun _ => [B.b1, B.b2], 0, 4⟩ (queryData B.P B.felt B.f [1]) (fun _ => [⟨1, none⟩, ⟨2, some (1, 1)⟩]) = .ok pkgs ∧
      processAll B.P dec keys 1 (ittOf B.f [(1, 2)]) (pkgs.map some) = .throws := by
  have S := B.setup [B.b1, B.b2] [B.c1, B.c2] (.cons B.hb1 (.cons B.hb2 .nil))
  obtain ⟨pkgs, h1, h2⟩ := C109_double_hit_throws S (fun h => by
    have := h (1, 2) (by simp)
    simp only [home, List.pairwise_cons] at this
    exact this.1 B.c2 (by simp) ⟨B.hits1, B.hits2⟩) dec keys
  exact ⟨pkgs, h1, h2 _ (List.Perm.refl _)⟩

/-- C109 fails for the code: of two equal items in a query the first is reported as not found, although the sender has it. -/
theorem C109_repeated_item_not_found {Lab K : Type} (dec : List ℚ → Nat → Nat → K → Nat → Lab) (keys : List K) :
    ∃ pkgs mrs, runQuery A.P A.db (queryData A.P A.felt A.f A.es) A.order = .ok pkgs ∧
      processAll A.P dec keys 4 (ittOf A.f A.items) (pkgs.map some) = .ok mrs ∧ A.items[0]? = A.items[3]? ∧
      3 ∈ A.cell [1, 2, 3, 4] [5] 0 ∧ mrs 0 = none ∧ (mrs 3).isSome := by
  obtain ⟨pkgs, h1, _, h2⟩ := C109_found_iff_partial A.setup A.noDouble dec keys
  obtain ⟨mrs, e, h4⟩ := h2 _ (List.Perm.refl _)
  refine ⟨pkgs, mrs, h1, e, rfl, by decide, ?_, ?_⟩
  · rw [← Option.not_isSome_iff_eq_none]
    intro h
    exact ((h4 0 3 rfl).mp h).1 3 (by decide) rfl
  · refine (h4 3 3 rfl).mpr ⟨?_, A.cell [1, 2, 3, 4] [5], by simp [home, A.ct, A.f, A.P], (A.hits_iff _ _).mpr (by decide)⟩
    intro j' hj'
    obtain ⟨m, rfl⟩ : ∃ m, j' = m + 4 := ⟨j' - 4, by omega⟩
    simp [A.items]

/-- C109 fails for the code: parts that cannot be loaded are skipped without an error; if none can be loaded, nothing is found.
The data base holds two of the items asked for. -/
theorem C109_lost_parts_not_found {Lab K : Type} (dec : List ℚ → Nat → Nat → K → Nat → Lab) (keys : List K) :
    ∃ pkgs mrs mrs', runQuery A.P A.db (queryData A.P A.felt A.f A.es) A.order = .ok pkgs ∧
      processAll A.P dec keys 4 (ittOf A.f A.items) (pkgs.map fun _ => none) = .ok mrs ∧ (∀ j, mrs j = none) ∧
      processAll A.P dec keys 4 (ittOf A.f A.items) (pkgs.map some) = .ok mrs' ∧ (mrs' 2).isSome ∧ (mrs' 3).isSome := by
  obtain ⟨pkgs, h1, _, h2⟩ := C109_found_iff_partial A.setup A.noDouble dec keys
  obtain ⟨mrs', e, h4⟩ := h2 _ (List.Perm.refl _)
  have hno : ∀ l : List (Package ℚ), processAll A.P dec keys 4 (ittOf A.f A.items) (l.map fun _ => none) = .ok fun _ => none := by
    intro l
    unfold processAll
    induction l with
    | nil => rfl
    | cons p l ih => simpa only [List.map_cons, foldRes, Res.bind] using ih
  refine ⟨pkgs, _, mrs', h1, hno pkgs, fun _ => rfl, e, ?_, ?_⟩
  · refine (h4 2 9 rfl).mpr ⟨?_, A.cell [8] [9], by simp [home, A.ct, A.f, A.P], (A.hits_iff _ _).mpr (by decide)⟩
    intro j' hj'
    match j' with
    | 3 => decide
    | j' + 4 => simp [A.items]
  · refine (h4 3 3 rfl).mpr ⟨?_, A.cell [1, 2, 3, 4] [5], by simp [home, A.ct, A.f, A.P], (A.hits_iff _ _).mpr (by decide)⟩
    intro j' hj'
    obtain ⟨m, rfl⟩ : ∃ m, j' = m + 4 := ⟨j' - 4, by omega⟩
    simp [A.items]

end Psi.ApsiCore
