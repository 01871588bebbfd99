import Verif.PirLife.SealLemmas

/-!
# C124: a new database for a SealPIR server

The first database given to a new server is served.  Every later one is stored behind the first, where no answer reads.
-/

namespace Psi.PirLife

open Psi.Spiral (Res uintNum mapRes partitionRows)
open Psi.SealPir (Seal Params Options Plain setParams partPlains Laws toyLaws toy_fits sampleRows sampleRows_ok small_params
  long_params exactRoot)

theorem make_ok {root : Nat → Nat → Nat} {o : Options} {P : Params} (hP : setParams root o = .ok P) :
    SealServer.make root o = .ok ⟨P, List.replicate P.partNum none, false⟩ := by
  unfold SealServer.make
  rw [hP]
  rfl

/-! ### The first database -/

section

variable {S : Seal} (H : Laws S)

/-- **C124.**  A new server takes a database of the shape it was made for, and a client then gets every row of it.
(The property asks the same of every later database, which `later_databases_ignored` refutes.) -/
theorem first_database_served_partial {root : Nat → Nat → Nat} {o : Options} {P : Params} (hP : setParams root o = .ok P)
    (hS : o.n = S.n) (hodd : S.t % 2 = 1) (h3 : 3 ≤ S.t) (hl : 0 < o.logt) (h64 : o.logt ≤ 64) (ht : 2 ^ o.logt ≤ S.t)
    (hsize : 0 < o.eleSize) (h32 : 8 * o.eleSize < 2 ^ 32) {rows : List (List Nat)} (hlen : rows.length = o.eleNum)
    (hne : rows ≠ []) (hr : ∀ r ∈ rows, r.length = o.eleSize ∧ ∀ x ∈ r, x < 256)
    (hroot : P.numPts < (root P.numPts o.dimension + 1) ^ o.dimension) (h31 : P.dims.prod < 2 ^ 31) (hf : H.Fits P.dims)
    (hth : S.throwOnTransparent = false) :
    ∃ V W, SealServer.make root o = .ok V ∧ V.generate S rows o.eleSize = (W, .ok ()) ∧
      ∀ (coin : Nat → Nat → S.Coin) (idx : Nat) (hi : idx < rows.length), W.ask S P coin idx = .ok rows[idx] := by
  obtain ⟨dbs, d1, -⟩ := SealPir.db_ok H hP hS h3 hl h64 ht hsize h32 hlen hne hr (SealPir.dims_suffice hP hroot)
  obtain ⟨g1, g2⟩ := generate_fresh S (P := P) false rows o.eleSize
  rw [d1] at g1
  obtain ⟨g3, -⟩ := g2 dbs d1
  refine ⟨_, ⟨P, dbs.map some, true⟩, make_ok hP, Prod.ext g3 g1, fun coin idx hi => ?_⟩
  have h := SealPir.row_returned_partial H hP hS hodd h3 hl h64 ht hsize h32 hlen hr hroot h31 hf coin hi hth
  unfold SealPir.run at h
  rw [hP] at h
  have h : (SealPir.generateDb S P rows o.eleSize).bind _ = _ := h
  rw [d1] at h
  rw [ask_of_dbs]
  exact h

end

example := first_database_served_partial (toyLaws (L := 12) (t := 1179649) false (by norm_num) (by norm_num)) small_params rfl
  rfl (by show 3 ≤ 1179649; norm_num) (by norm_num) (by norm_num) (by show 2 ^ 20 ≤ 1179649; norm_num) (by norm_num)
  (by norm_num) (sampleRows_ok 1000 10).1 (by intro h; have := (sampleRows_ok 1000 10).1; rw [h] at this; cases this)
  (sampleRows_ok 1000 10).2 (by decide +kernel) (by decide)
  (toy_fits (L := 12) (t := 1179649) false (by norm_num) (by norm_num) _) rfl

/-! ### Later databases -/

/-- A further call that gives a server a database. -/
inductive Refill where
  | raw (rows : List (List Nat)) (rowLen : Nat)
  | views (rows : List (List Nat))

/-- The server behind the call, whether it returns or throws. -/
def Refill.after (S : Seal) (V : SealServer) : Refill → SealServer
  | .raw rows rowLen => (V.generate S rows rowLen).1
  | .views rows => (V.generateViews S rows).1

theorem refills_grown (S : Seal) : ∀ (calls : List Refill) (V : SealServer), V.seted = true →
    Grown V.stores (calls.foldl (Refill.after S) V).stores ∧ (calls.foldl (Refill.after S) V).P = V.P ∧
      (calls.foldl (Refill.after S) V).seted = true
  | [], V, h => ⟨Grown.refl _, rfl, h⟩
  | c :: cs, V, h => by
    have h1 : Grown V.stores (c.after S V).stores ∧ (c.after S V).P = V.P ∧ (V.seted = true → (c.after S V).seted = true) := by
      cases c with
      | raw rows rowLen => exact generate_grown S V rows rowLen
      | views rows => exact generateViews_grown S V rows
    obtain ⟨a, b, d⟩ := refills_grown S cs (c.after S V) (h1.2.2 h)
    rw [List.foldl_cons]
    exact ⟨h1.1.trans a, b.trans h1.2.1, d⟩

/-- **Violated.**  Whatever databases a server is given after the first, whether it accepts or refuses them, it answers
every query as if it had not been given them. -/
theorem later_databases_ignored (S : Seal) {root : Nat → Nat → Nat} {o : Options} {V W : SealServer}
    (hV : SealServer.make root o = .ok V) {rows : List (List Nat)} {rowLen : Nat} (hW : V.generate S rows rowLen = (W, .ok ()))
    (calls : List Refill) (keys : List Nat) (q : List (List S.Ct)) :
    (calls.foldl (Refill.after S) W).respond S keys q = W.respond S keys q := by
  unfold SealServer.make at hV
  cases hP : setParams root o with
  | throws => rw [hP] at hV; cases hV
  | undefined => rw [hP] at hV; cases hV
  | ok P =>
    rw [hP] at hV
    injection hV with hV
    subst hV
    obtain ⟨g1, g2⟩ := generate_fresh S (P := P) false rows rowLen
    rw [hW] at g1 g2
    cases hd : SealPir.generateDb S P rows rowLen with
    | throws => rw [hd] at g1; cases g1
    | undefined => rw [hd] at g1; cases g1
    | ok dbs =>
      obtain ⟨g3, g4, g5, g6⟩ := g2 dbs hd
      have g3 : W = _ := g3
      subst g3
      have hF := filled_of_dbs (P := P) g4 g6
      obtain ⟨a, b, c⟩ := refills_grown S calls _ hF.1
      exact hF.respond_eq a b c keys q

example (calls : List Refill) : ∃ V W, SealServer.make exactRoot ⟨4096, 1000, 10, 2, 20⟩ = .ok V ∧
    V.generate (SealPir.toy 12 1179649 false) (sampleRows 1000 10) 10 = (W, .ok ()) ∧
    ∀ keys q, ((.raw (sampleRows 1000 10).reverse 10 :: .views [] :: calls).foldl
        (Refill.after (SealPir.toy 12 1179649 false)) W).respond (SealPir.toy 12 1179649 false) keys q =
      W.respond (SealPir.toy 12 1179649 false) keys q := by
  obtain ⟨V, W, h1, h2, -⟩ := first_database_served_partial
    (toyLaws (L := 12) (t := 1179649) false (by norm_num) (by norm_num)) small_params rfl
    rfl (by show 3 ≤ 1179649; norm_num) (by norm_num) (by norm_num) (by show 2 ^ 20 ≤ 1179649; norm_num) (by norm_num)
    (by norm_num) (sampleRows_ok 1000 10).1 (by intro h; have := (sampleRows_ok 1000 10).1; rw [h] at this; cases this)
    (sampleRows_ok 1000 10).2 (by decide +kernel) (by decide)
    (toy_fits (L := 12) (t := 1179649) false (by norm_num) (by norm_num) _) rfl
  exact ⟨V, W, h1, h2, later_databases_ignored _ h1 h2 (.raw (sampleRows 1000 10).reverse 10 :: .views [] :: calls)⟩

section

variable {S : Seal} (H : Laws S)

/-- **Violated.**  Two databases of the same shape: the server takes both, and clients keep getting the rows of the
first; also from a server that is stored and loaded after the second. -/
theorem second_database_stale {root : Nat → Nat → Nat} {o : Options} {P : Params} (hP : setParams root o = .ok P)
    (hS : o.n = S.n) (hodd : S.t % 2 = 1) (h3 : 3 ≤ S.t) (hl : 0 < o.logt) (h64 : o.logt ≤ 64) (ht : 2 ^ o.logt ≤ S.t)
    (hsize : 0 < o.eleSize) (h32 : 8 * o.eleSize < 2 ^ 32) {rows rows' : List (List Nat)} (hlen : rows.length = o.eleNum)
    (hlen' : rows'.length = o.eleNum) (hne : rows ≠ []) (hr : ∀ r ∈ rows, r.length = o.eleSize ∧ ∀ x ∈ r, x < 256)
    (hr' : ∀ r ∈ rows', r.length = o.eleSize ∧ ∀ x ∈ r, x < 256)
    (hroot : P.numPts < (root P.numPts o.dimension + 1) ^ o.dimension) (h31 : P.dims.prod < 2 ^ 31) (hf : H.Fits P.dims)
    (hth : S.throwOnTransparent = false) :
    ∃ V W X proto Y, SealServer.make root o = .ok V ∧ V.generate S rows o.eleSize = (W, .ok ()) ∧
      W.generate S rows' o.eleSize = (X, .ok ()) ∧ X.dump = .ok proto ∧ SealServer.load root proto = .ok Y ∧
      ∀ (coin : Nat → Nat → S.Coin) (idx : Nat) (hi : idx < rows.length),
        X.ask S P coin idx = .ok rows[idx] ∧ Y.ask S P coin idx = .ok rows[idx] := by
  have hlt := SealPir.dims_suffice hP hroot
  have hne' : rows' ≠ [] := by
    intro h
    rw [h] at hlen'
    rw [← hlen'] at hlen
    exact hne (List.length_eq_zero_iff.1 hlen)
  obtain ⟨dbs, d1, d2, d3⟩ := SealPir.db_ok H hP hS h3 hl h64 ht hsize h32 hlen hne hr hlt
  obtain ⟨dbs', e1, e2, -⟩ := SealPir.db_ok H hP hS h3 hl h64 ht hsize h32 hlen' hne' hr' hlt
  obtain ⟨g1, g2⟩ := generate_fresh S (P := P) false rows o.eleSize
  rw [d1] at g1
  obtain ⟨g3, g4, g5, g6⟩ := g2 dbs d1
  have hparts : (partitionRows rows' o.eleSize P.partSize).length = P.partNum ∧
      mapRes (partPlains S P) (partitionRows rows' o.eleSize P.partSize) = .ok dbs' := by
    unfold SealPir.generateDb at e1
    simp only at e1
    split_ifs at e1 with a b
    exact ⟨by push Not at a; exact a, e1⟩
  have hX : (⟨P, dbs.map some, true⟩ : SealServer).generate S rows' o.eleSize =
      (⟨P, (List.zipWith (· ++ ·) dbs dbs').map some, true⟩, .ok ()) := by
    unfold SealServer.generate SealServer.fill
    simp only
    rw [if_neg (by rw [hparts.1]; simp), if_neg (by omega), if_neg (by rw [hparts.1]; omega), ← hparts.1, List.take_length,
      fillStores_more hparts.2 (by rw [d2, hparts.1])]
  have hz : (List.zipWith (· ++ ·) dbs dbs').length = P.partNum := by
    rw [List.length_zipWith, d2, e2, Nat.min_self]
  have hF := filled_of_dbs (P := P) g4 g6
  have hgr := generate_grown S (⟨P, dbs.map some, true⟩ : SealServer) rows' o.eleSize
  rw [hX] at hgr
  have hXresp := fun keys q => hF.respond_eq (S := S) hgr.1 rfl rfl keys q
  have hread : ∀ l : List (List Plain), mapRes Store.read (l.map some) = .ok l := by
    intro l
    induction l with
    | nil => rfl
    | cons x l ih =>
      rw [List.map_cons]
      unfold mapRes
      rw [ih]
      rfl
  have hdump : (⟨P, (List.zipWith (· ++ ·) dbs dbs').map some, true⟩ : SealServer).dump =
      .ok (SealPir.dump P (List.zipWith (· ++ ·) dbs dbs')) := by
    unfold SealServer.dump
    rw [if_neg (by simp)]
    show (mapRes Store.read ((List.zipWith (· ++ ·) dbs dbs').map some)).bind _ = _
    rw [hread]
    rfl
  have hload : SealServer.load root (SealPir.dump P (List.zipWith (· ++ ·) dbs dbs')) =
      .ok ⟨P, (List.zipWith (· ++ ·) dbs dbs').map some, true⟩ := by
    unfold SealServer.load
    rw [SealPir.load_dump hP hz]
    rfl
  refine ⟨_, ⟨P, dbs.map some, true⟩, _, _, _, make_ok hP, Prod.ext g3 g1, hX, hdump, hload, fun coin idx hi => ?_⟩
  have h := SealPir.row_returned_partial H hP hS hodd h3 hl h64 ht hsize h32 hlen hr hroot h31 hf coin hi hth
  unfold SealPir.run at h
  rw [hP] at h
  have h : (SealPir.generateDb S P rows o.eleSize).bind _ = _ := h
  rw [d1] at h
  have h : SealPir.ask S P coin dbs idx = _ := h
  have hx : (⟨P, (List.zipWith (· ++ ·) dbs dbs').map some, true⟩ : SealServer).ask S P coin idx = .ok rows[idx] := by
    rw [ask_eq hXresp, ask_of_dbs, h]
  exact ⟨hx, hx⟩

end

/-- Other rows for the examples. -/
def otherRows (n len : Nat) : List (List Nat) := (List.range n).map fun i => (List.range len).map fun k => (7 * i + k + 1) % 256

theorem otherRows_ok (n len : Nat) : (otherRows n len).length = n ∧
    ∀ r ∈ otherRows n len, r.length = len ∧ ∀ x ∈ r, x < 256 := by
  refine ⟨by simp [otherRows], fun r hr => ?_⟩
  obtain ⟨i, -, rfl⟩ := List.mem_map.1 hr
  refine ⟨by simp, fun x hx => ?_⟩
  obtain ⟨k, -, rfl⟩ := List.mem_map.1 hx
  exact Nat.mod_lt _ (by norm_num)

example := second_database_stale (toyLaws (L := 12) (t := 1179649) false (by norm_num) (by norm_num)) long_params rfl
  rfl (by show 3 ≤ 1179649; norm_num) (by norm_num) (by norm_num) (by show 2 ^ 20 ≤ 1179649; norm_num) (by norm_num)
  (by norm_num) (sampleRows_ok 7 25000).1 (otherRows_ok 7 25000).1
  (by intro h; have := (sampleRows_ok 7 25000).1; rw [h] at this; cases this)
  (sampleRows_ok 7 25000).2 (otherRows_ok 7 25000).2 (by decide +kernel) (by decide)
  (toy_fits (L := 12) (t := 1179649) false (by norm_num) (by norm_num) _) rfl

/-! ### Hash tables -/

/-- **C124.**  A hash table given to a new server is served as by a server made for the shape of the table, with two
dimensions, whatever number of rows and dimensions the server was made for.  (The property asks the same of every later
table, which `later_table_ignored` refutes.) -/
theorem first_table_served_partial (S : Seal) {root : Nat → Nat → Nat} {o : Options} {P P' : Params}
    (hP : setParams root o = .ok P) {table : List (List Nat)} {rowLen : Nat}
    (hP' : setParams root ⟨o.n, table.length, rowLen, 2, o.logt⟩ = .ok P') (hn : P'.partNum = P.partNum)
    {dbs : List (List Plain)} (hd : SealPir.generateDb S P' table rowLen = .ok dbs) :
    ∃ V W, SealServer.make root o = .ok V ∧ V.generateTable S root table rowLen = (W, .ok ()) ∧
      ∀ keys q, W.respond S keys q = SealPir.generateResponse S P' keys dbs q := by
  obtain ⟨-, p1, p2, -, -, -, -, p6, -⟩ := SealPir.setParams_ok hP
  obtain ⟨-, q1, q2, -, -, -, -, q6, -⟩ := SealPir.setParams_ok hP'
  have hps : P.partSize = P'.partSize := by rw [p6, q6]
  obtain ⟨g1, g2⟩ := generate_fresh S (P := P') false table rowLen
  rw [hd] at g1
  obtain ⟨g3, -⟩ := g2 dbs hd
  refine ⟨_, ⟨P', dbs.map some, true⟩, make_ok hP, ?_, fun keys q => respond_of_dbs S P' dbs keys q⟩
  refine Eq.trans ?_ (Prod.ext g3 g1 : (⟨P', List.replicate P'.partNum none, false⟩ : SealServer).generate S table rowLen =
    (⟨P', dbs.map some, true⟩, .ok ()))
  have hdd := hd
  unfold SealPir.generateDb at hdd
  simp only at hdd
  split_ifs at hdd with a b
  push Not at a
  unfold SealServer.generateTable SealServer.generate
  simp only
  rw [p1, p2, hP', hps, hn, if_neg (by rw [a, hn]; simp), if_neg (by rw [a, hn]; simp)]

theorem table_params : setParams exactRoot ⟨4096, 600, 30, 2, 20⟩ = .ok ⟨20, 4096, 600, 30, 341, 2, 10240, 1, [2, 2]⟩ := by
  decide +kernel

/-- A table of 600 rows for a server made for 1000 rows of another length and three dimensions. -/
example := first_table_served_partial (SealPir.toy 12 1179649 false) (o := ⟨4096, 1000, 10, 3, 20⟩)
  (P := ⟨20, 4096, 1000, 10, 1024, 1, 10240, 1, [2, 2, 2]⟩) (P' := ⟨20, 4096, 600, 30, 341, 2, 10240, 1, [2, 2]⟩)
  (root := exactRoot) (by decide +kernel) (table := sampleRows 600 30) (rowLen := 30)
  (by rw [(sampleRows_ok 600 30).1]; decide +kernel) rfl
  (SealPir.db_ok (toyLaws (L := 12) (t := 1179649) false (by norm_num) (by norm_num)) table_params rfl
    (by show 3 ≤ 1179649; norm_num) (by norm_num) (by norm_num) (by show 2 ^ 20 ≤ 1179649; norm_num) (by norm_num)
    (by norm_num) (sampleRows_ok 600 30).1 (by intro h; have := (sampleRows_ok 600 30).1; rw [h] at this; cases this)
    (sampleRows_ok 600 30).2 (by decide)).choose_spec.1

/-- **Violated.**  A server that holds a database is given a hash table that needs no more plaintexts.  It accepts the
table and takes over its shape, but answers from the plaintexts of the old database, whatever the rows of the table are. -/
theorem later_table_ignored (S : Seal) {root : Nat → Nat → Nat} {o : Options} {P P' : Params} (hP : setParams root o = .ok P)
    {rows : List (List Nat)} {rowLen : Nat} {dbs : List (List Plain)} (hd : SealPir.generateDb S P rows rowLen = .ok dbs)
    {table : List (List Nat)} {tableLen : Nat} (hP' : setParams root ⟨o.n, table.length, tableLen, 2, o.logt⟩ = .ok P')
    (hn : P'.partNum = P.partNum) (hp : P'.dims.prod ≤ P.dims.prod) {dbs' : List (List Plain)}
    (hd' : SealPir.generateDb S P' table tableLen = .ok dbs') :
    ∃ V W X, SealServer.make root o = .ok V ∧ V.generate S rows rowLen = (W, .ok ()) ∧
      W.generateTable S root table tableLen = (X, .ok ()) ∧ X.P = P' ∧
      ∀ keys q, X.respond S keys q = SealPir.generateResponse S P' keys dbs q := by
  obtain ⟨-, p1, p2, -, -, -, -, p6, -⟩ := SealPir.setParams_ok hP
  obtain ⟨-, q1, q2, -, -, -, -, q6, -⟩ := SealPir.setParams_ok hP'
  have hps : P.partSize = P'.partSize := by rw [p6, q6]
  obtain ⟨g1, g2⟩ := generate_fresh S (P := P) false rows rowLen
  rw [hd] at g1
  obtain ⟨g3, g4, g5, g6⟩ := g2 dbs hd
  have hdd := hd'
  unfold SealPir.generateDb at hdd
  simp only at hdd
  split_ifs at hdd with a b
  push Not at a
  have hX := fillStores_more hdd (ds := dbs) (by rw [a, hn, g4])
  have hT : (⟨P, dbs.map some, true⟩ : SealServer).generateTable S root table tableLen =
      (⟨P', (List.zipWith (· ++ ·) dbs dbs').map some, true⟩, .ok ()) := by
    unfold SealServer.generateTable SealServer.fill
    simp only
    rw [p1, p2, hP', hps, if_neg (by rw [a, hn]; simp)]
    simp only
    rw [if_neg b, if_neg (by rw [a]; omega), ← a, List.take_length, hX]
  refine ⟨_, ⟨P, dbs.map some, true⟩, _, make_ok hP, Prod.ext g3 g1, hT, rfl, fun keys q => ?_⟩
  have hF : (⟨P', dbs.map some, true⟩ : SealServer).Filled := by
    refine ⟨rfl, fun i hi => ?_⟩
    have hi : i < dbs.length := by rw [g4, ← hn]; exact hi
    exact ⟨dbs[i], by simp [hi], le_of_le_of_eq hp (g6 _ (List.getElem_mem hi)).symm⟩
  have hgr := fillStores_grown S P' (partitionRows table tableLen P'.partSize) (dbs.map some)
  rw [hX] at hgr
  rw [← respond_of_dbs]
  exact hF.respond_eq (S := S) (W := ⟨P', (List.zipWith (· ++ ·) dbs dbs').map some, true⟩) hgr rfl rfl keys q

/-- A table of 600 rows for a server that holds 1000 rows. -/
example := later_table_ignored (SealPir.toy 12 1179649 false) small_params
  (SealPir.db_ok (toyLaws (L := 12) (t := 1179649) false (by norm_num) (by norm_num)) small_params rfl
    (by show 3 ≤ 1179649; norm_num) (by norm_num) (by norm_num) (by show 2 ^ 20 ≤ 1179649; norm_num) (by norm_num)
    (by norm_num) (sampleRows_ok 1000 10).1 (by intro h; have := (sampleRows_ok 1000 10).1; rw [h] at this; cases this)
    (sampleRows_ok 1000 10).2 (by decide)).choose_spec.1
  (table := otherRows 600 30) (tableLen := 30) (P' := ⟨20, 4096, 600, 30, 341, 2, 10240, 1, [2, 2]⟩)
  (by rw [(otherRows_ok 600 30).1]; decide +kernel) rfl (by decide)
  (SealPir.db_ok (toyLaws (L := 12) (t := 1179649) false (by norm_num) (by norm_num)) table_params rfl
    (by show 3 ≤ 1179649; norm_num) (by norm_num) (by norm_num) (by show 2 ^ 20 ≤ 1179649; norm_num) (by norm_num)
    (by norm_num) (otherRows_ok 600 30).1 (by intro h; have := (otherRows_ok 600 30).1; rw [h] at this; cases this)
    (otherRows_ok 600 30).2 (by decide)).choose_spec.1

/-! ### A refused database -/

theorem mapRes_throws {α β : Type} {f : α → Res β} : ∀ {l : List α}, (∀ x ∈ l, f x ≠ .undefined) → (∃ x ∈ l, f x = .throws) →
    mapRes f l = .throws
  | [], _, h => by obtain ⟨x, hx, -⟩ := h; cases hx
  | y :: l, h1, h2 => by
    unfold mapRes
    cases hy : f y with
    | undefined => exact absurd hy (h1 y (by simp))
    | throws => rfl
    | ok z =>
      obtain ⟨x, hx, hx'⟩ := h2
      have : mapRes f l = .throws := by
        refine mapRes_throws (fun x hx => h1 x (by simp [hx])) ⟨x, ?_, hx'⟩
        rcases List.mem_cons.1 hx with h | h
        · rw [h, hy] at hx'
          cases hx'
        · exact h
      rw [this]
      rfl

/-- **Violated.**  A new server refuses to answer.  It is given too few rows as views, which it refuses, and from then on
it takes itself to have a database: a query makes it read plaintexts that are not there.  (For rows that one plaintext
holds.) -/
theorem refused_views_ready (S : Seal) {root : Nat → Nat → Nat} {o : Options} {P : Params} (hP : setParams root o = .ok P)
    (hl : 0 < o.logt) (h64 : o.logt ≤ 64) (hsize : 0 < o.eleSize) (hshort : o.eleSize ≤ P.partSize)
    (hprod : P.numPts < P.dims.prod) (hfit : P.perPt * SealPir.coefficientsPerElement o.logt o.eleSize ≤ o.n)
    {rows : List (List Nat)} (hne : rows ≠ []) (hfew : rows.length < o.eleNum)
    (hr : ∀ r ∈ rows, r.length = o.eleSize ∧ ∀ x ∈ r, x < 256) :
    ∃ V W, SealServer.make root o = .ok V ∧ V.generateViews S rows = (W, .throws) ∧
      ∀ keys ni ns q qs ex, P.dims = ni :: ns → SealPir.expandAll S keys ni q = .ok ex →
        V.respond S keys (q :: qs) = .throws ∧ W.respond S keys (q :: qs) = .undefined := by
  obtain ⟨-, p1, p2, p3, p4, hper, p5, p6, hps, p7, -, -, hpos, -⟩ := SealPir.setParams_ok hP
  have hpn : P.partNum = 1 := by
    rw [p7]
    refine Nat.div_eq_of_lt_le (by omega) ?_
    omega
  have hparts : partitionRows rows o.eleSize P.partSize = [rows] := by
    unfold partitionRows
    rw [if_pos hshort]
  obtain ⟨r, rest, hrows⟩ := List.exists_cons_of_ne_nil hne
  have hrlen : r.length = o.eleSize := (hr r (by rw [hrows]; simp)).1
  have hthrow : partPlains S P rows = .throws := by
    have hun : partPlains S P rows =
        (mapRes (SealPir.ptCoeffs P rows (SealPir.coefficientsPerElement P.logt o.eleSize)) (List.range P.numPts)).bind
        fun cs => .ok (cs.map S.encode ++ List.replicate (P.dims.prod - P.numPts) fun k => if k < P.n then 1 else 0) := by
      unfold partPlains
      rw [hrows]
      simp only
      rw [hrlen, if_neg (by rw [p1, p2]; omega)]
    obtain ⟨u1, u2⟩ := Psi.Spiral.uintNum_bounds o.eleNum hper
    have u3 := u2 (by omega)
    rw [← p5] at u1 u3
    rw [hun, mapRes_throws]
    · rfl
    · intro i hi
      unfold SealPir.ptCoeffs
      simp only
      split_ifs with h
      · simp
      · obtain ⟨css, e1, -⟩ := SealPir.packed_ok (logt := P.logt) (len := o.eleSize) (by omega) (by omega) hsize
          (rows := (rows.drop (i * P.perPt)).take (min P.perPt (P.eleNum - i * P.perPt)))
          (fun x hx => hr x (List.drop_subset _ _ (List.take_subset _ _ hx)))
        rw [e1]
        simp [Res.bind]
    · refine ⟨P.numPts - 1, by
        rw [List.mem_range]
        have : P.numPts ≠ 0 := by
          intro h
          rw [h, Nat.zero_mul] at u1
          omega
        omega, ?_⟩
      unfold SealPir.ptCoeffs
      simp only
      rw [if_pos]
      have : (P.numPts - 1) * P.perPt + P.perPt = P.numPts * P.perPt := by
        have h0 : P.numPts ≠ 0 := by
          intro h
          rw [h, Nat.zero_mul] at u1
          omega
        obtain ⟨m, hm⟩ := Nat.exists_eq_succ_of_ne_zero h0
        rw [hm, Nat.succ_sub_one, Nat.succ_mul]
      rw [p3]
      omega
  refine ⟨_, ⟨P, [some []], true⟩, make_ok hP, ?_, fun keys ni ns q qs ex hd hex => ⟨?_, ?_⟩⟩
  · unfold SealServer.generateViews
    rw [if_neg (by
      rintro ⟨x, hx, hx'⟩
      exact hx' ((hr x hx).1.trans p4.symm)), if_neg hne]
    unfold SealServer.generate SealServer.fill
    simp only
    rw [p4, hparts, hpn, if_neg (by simp), if_neg (by omega), if_neg (by simp)]
    show (match fillStores S P [rows] [none] with
      | (ss, .ok _) => _
      | (ss, .throws) => _
      | (ss, .undefined) => _) = _
    unfold fillStores fillStore
    rw [hthrow]
    rfl
  · unfold SealServer.respond
    rw [if_pos rfl]
  · have hni : 0 < ni := hpos ni (by rw [hd]; simp)
    have hdp : P.dims.prod / ni = ns.prod := by
      rw [hd, List.prod_cons]
      exact Nat.mul_div_cancel_left _ hni
    have hnp : 0 < ns.prod := List.prod_pos fun x hx => hpos x (by rw [hd]; simp [hx])
    unfold SealServer.respond
    rw [if_neg (by simp)]
    show mapRes _ (List.range P.partNum) = _
    rw [hpn]
    show mapRes _ [0] = _
    have h0 : (⟨P, [some []], true⟩ : SealServer).respondPart S keys (q :: qs) 0 = .undefined := by
      show SealPir.respond S P.logt keys P.dims (q :: qs) P.dims.prod [] = _
      rw [hd]
      unfold SealPir.respond
      rw [hex]
      show (mapRes _ (List.range ((ni :: ns).prod / ni))).bind _ = _
      rw [← hd, hdp]
      obtain ⟨m, hm⟩ := Nat.exists_eq_succ_of_ne_zero (Nat.pos_iff_ne_zero.1 hnp)
      rw [hm, List.range_succ_eq_map]
      unfold mapRes
      have : SealPir.dot S [] ex ni m.succ 0 = .undefined := by
        unfold SealPir.dot
        cases ex[0]? <;> rfl
      rw [this]
      rfl
    unfold mapRes
    rw [h0]
    rfl

section

variable {S : Seal} (H : Laws S)

/-- **Violated.**  The same for a client: before the refused call it is told that there is no database, after it the
server reads behind the end of its plaintexts, whatever row the client asks for. -/
theorem refused_views_ask {root : Nat → Nat → Nat} {o : Options} {P : Params} (hP : setParams root o = .ok P)
    (hl : 0 < o.logt) (h64 : o.logt ≤ 64) (hsize : 0 < o.eleSize) (hshort : o.eleSize ≤ P.partSize)
    (hprod : P.numPts < P.dims.prod) (hfit : P.perPt * SealPir.coefficientsPerElement o.logt o.eleSize ≤ o.n)
    {rows : List (List Nat)} (hne : rows ≠ []) (hfew : rows.length < o.eleNum)
    (hr : ∀ r ∈ rows, r.length = o.eleSize ∧ ∀ x ∈ r, x < 256) (hodd : S.t % 2 = 1) (h3 : 3 ≤ S.t)
    (h31 : P.dims.prod < 2 ^ 31)
    (hb : ∀ d ∈ P.dims, SealPir.expNoise H.fresh H.ks (Nat.clog 2 (min d S.n)) ≤ H.budget) :
    ∃ V W, SealServer.make root o = .ok V ∧ V.generateViews S rows = (W, .throws) ∧
      ∀ (coin : Nat → Nat → S.Coin) (idx : Nat), idx < o.eleNum →
        V.ask S P coin idx = .throws ∧ W.ask S P coin idx = .undefined := by
  obtain ⟨V, W, h1, h2, h4⟩ := refused_views_ready S hP hl h64 hsize hshort hprod hfit hne hfew hr
  refine ⟨V, W, h1, h2, fun coin idx hi => ?_⟩
  obtain ⟨-, -, -, -, -, hper, p5, -, -, -, -, hdne, hpos, -⟩ := SealPir.setParams_ok hP
  have hlt : idx / P.perPt < P.dims.prod := by
    refine lt_trans ?_ hprod
    rw [Nat.div_lt_iff_lt_mul hper, p5]
    have := (Psi.Spiral.uintNum_bounds o.eleNum hper).1
    omega
  obtain ⟨is, q, e1, e2, -, -, e3⟩ := SealPir.expansion_one_hot H hodd h3 coin hpos h31 hlt hb
  obtain ⟨ni, ns, hd⟩ := List.exists_cons_of_ne_nil hdne
  cases q with
  | nil => rw [hd] at e2; cases e2
  | cons q qs =>
    obtain ⟨-, ex, e4, -⟩ := e3 0 (by simp)
    have e4 : SealPir.expandAll S (SealPir.galoisElts S) ni q = .ok ex := by
      rw [hd] at e4
      exact e4
    obtain ⟨a, b⟩ := h4 _ ni ns q qs ex hd e4
    unfold SealServer.ask
    rw [e1]
    show (V.respond S _ (q :: qs)).bind _ = _ ∧ (W.respond S _ (q :: qs)).bind _ = _
    rw [a, b]
    exact ⟨rfl, rfl⟩

end

/-- A server for 1000 rows is given 5. -/
example := refused_views_ask (toyLaws (L := 12) (t := 1179649) false (by norm_num) (by norm_num)) small_params (by norm_num)
  (by norm_num) (by norm_num) (by decide) (by decide) (by decide +kernel) (rows := sampleRows 5 10) (by decide) (by decide)
  (sampleRows_ok 5 10).2 rfl (by show 3 ≤ 1179649; norm_num) (by decide)
  (fun d hd => by
    have h := (toy_fits (L := 12) (t := 1179649) false (by norm_num) (by norm_num) [2, 2]) d hd
    refine le_trans ?_ h.1
    have h0 : ∀ e, SealPir.expNoise 0 0 e = 0 := by
      intro e
      induction e with
      | zero => rfl
      | succ e ih => unfold SealPir.expNoise; rw [ih]
    show SealPir.expNoise 0 0 _ ≤ _
    rw [h0]
    exact Nat.zero_le _)

/-- A server for 1000 rows is given 5. -/
example := refused_views_ready (SealPir.toy 12 1179649 false) small_params (by norm_num) (by norm_num) (by norm_num) (by decide)
  (by decide) (by decide +kernel) (rows := sampleRows 5 10) (by decide) (by decide) (sampleRows_ok 5 10).2

/-- With dimensions that have no room for the plaintexts (a root that comes out too small, see `cube_params`) the database is
refused before any store is made.  The server takes itself to have a database here too, but a query and a dump are refused. -/
theorem unfit_views_refused (S : Seal) {root : Nat → Nat → Nat} {o : Options} {P : Params} (hP : setParams root o = .ok P)
    (hsize : 0 < o.eleSize) (hprod : P.dims.prod ≤ P.numPts) {rows : List (List Nat)} (hne : rows ≠ [])
    (hr : ∀ r ∈ rows, r.length = o.eleSize) :
    ∃ V W, SealServer.make root o = .ok V ∧ V.generateViews S rows = (W, .throws) ∧ W.seted = true ∧ W.dump = .throws ∧
      ∀ keys q, W.respond S keys q = .throws := by
  obtain ⟨-, -, -, -, p4, -, -, -, hps, p7, -⟩ := SealPir.setParams_ok hP
  have hpn : 0 < P.partNum := by
    rw [p7]
    exact Nat.div_pos (by omega) hps
  obtain ⟨k, hk⟩ := Nat.exists_eq_succ_of_ne_zero hpn.ne'
  refine ⟨_, ⟨P, List.replicate P.partNum none, true⟩, make_ok hP, ?_, rfl, ?_, fun keys q => ?_⟩
  · unfold SealServer.generateViews
    rw [if_neg (by
      rintro ⟨x, hx, hx'⟩
      exact hx' ((hr x hx).trans p4.symm)), if_neg hne]
    unfold SealServer.generate SealServer.fill
    simp only
    rw [if_pos hprod, ite_self]
  · unfold SealServer.dump
    rw [if_neg (by simp), hk]
    rfl
  · unfold SealServer.respond
    rw [if_neg (by simp)]
    refine mapRes_throws (fun i hi => ?_) ⟨0, List.mem_range.2 hpn, ?_⟩
    · unfold SealServer.respondPart
      have hi : i < P.partNum := List.mem_range.1 hi
      simp [hi, Store.read, Res.bind]
    · unfold SealServer.respondPart
      simp [hpn, Store.read, Res.bind]

/-- 64 rows of one plaintext each, with three dimensions of 4. -/
example := unfit_views_refused (SealPir.toy 12 1179649 false) SealPir.cube_params (by norm_num) (by decide)
  (rows := sampleRows 64 10240) (by intro h; have := (sampleRows_ok 64 10240).1; rw [h] at this; cases this)
  (fun r hr => ((sampleRows_ok 64 10240).2 r hr).1)

end Psi.PirLife
