import Verif.PirLife.SealModel

/-!
# Lemmas on the life of a SealPIR server
-/

namespace Psi.PirLife

open Psi.Spiral (Res uintNum mapRes partitionRows)
open Psi.SealPir (Seal Params Options Plain setParams partPlains)

theorem mapRes_congr {α β : Type} {f g : α → Res β} : ∀ {l : List α}, (∀ x ∈ l, f x = g x) → mapRes f l = mapRes g l
  | [], _ => rfl
  | x :: l, h => by
    unfold mapRes
    rw [h x (by simp), mapRes_congr fun y hy => h y (by simp [hy])]

/-- An answer reads the plaintexts that the dimensions hold, and nothing behind them. -/
theorem respond_append (S : Seal) (logt : Nat) (keys dims : List Nat) (q : List (List S.Ct)) {prod : Nat} {cur : List Plain}
    (x : List Plain) (h : prod ≤ cur.length) :
    SealPir.respond S logt keys dims q prod (cur ++ x) = SealPir.respond S logt keys dims q prod cur := by
  have hfrom : ∀ (ex : List S.Ct) (p k m j : Nat) (acc : S.Ct), k < p → (j + m) * p ≤ cur.length →
      SealPir.dotFrom S (cur ++ x) ex p k m j acc = SealPir.dotFrom S cur ex p k m j acc := by
    intro ex p k m
    induction m with
    | zero => intros; rfl
    | succ m ih =>
      intro j acc hk hl
      have hlt : j * p + k < cur.length := by
        have : (j + 1) * p ≤ (j + (m + 1)) * p := Nat.mul_le_mul_right _ (by omega)
        rw [Nat.add_mul, Nat.one_mul] at this
        omega
      unfold SealPir.dotFrom
      rw [List.getElem?_append_left hlt]
      cases ex[j]? with
      | none => rfl
      | some c =>
        cases cur[j * p + k]? with
        | none => rfl
        | some y =>
          show (SealPir.multiplyPlain S c y).bind _ = (SealPir.multiplyPlain S c y).bind _
          congr 1
          funext tmp
          exact ih (j + 1) _ hk (by rwa [Nat.add_assoc, Nat.add_comm 1 m])
  cases dims with
  | nil => cases q <;> rfl
  | cons ni ns =>
    cases q with
    | nil => rfl
    | cons q qs =>
      unfold SealPir.respond
      congr 1
      funext ex
      have : mapRes (SealPir.dot S (cur ++ x) ex ni (prod / ni)) (List.range (prod / ni)) =
          mapRes (SealPir.dot S cur ex ni (prod / ni)) (List.range (prod / ni)) := by
        refine mapRes_congr fun k hk => ?_
        rw [List.mem_range] at hk
        have hni : 0 < ni := by
          rcases Nat.eq_zero_or_pos ni with h0 | h0
          · rw [h0, Nat.div_zero] at hk
            omega
          · exact h0
        have hmul : ni * (prod / ni) ≤ cur.length := le_trans (Nat.mul_div_le _ _) h
        have hle : prod / ni ≤ ni * (prod / ni) := Nat.le_mul_of_pos_left _ hni
        unfold SealPir.dot
        rw [List.getElem?_append_left (by omega)]
        cases ex[0]? with
        | none => rfl
        | some c =>
          cases cur[k]? with
          | none => rfl
          | some y =>
            show (SealPir.multiplyPlain S c y).bind _ = (SealPir.multiplyPlain S c y).bind _
            congr 1
            funext acc
            exact hfrom ex _ k (ni - 1) 1 acc hk (by rwa [show 1 + (ni - 1) = ni by omega])
      rw [this]

/-! ### Stores only grow -/

/-- Every store that was filled is filled with the same plaintexts, and perhaps more behind them. -/
def Grown (ss tt : List Store) : Prop := tt.length = ss.length ∧
  ∀ (i : Nat) (db : List Plain), ss[i]? = some (some db) → ∃ x, tt[i]? = some (some (db ++ x))

theorem Grown.refl (ss : List Store) : Grown ss ss := ⟨rfl, fun i db h => ⟨[], by rw [h, List.append_nil]⟩⟩

theorem Grown.trans {ss tt uu : List Store} (h : Grown ss tt) (g : Grown tt uu) : Grown ss uu := by
  refine ⟨g.1.trans h.1, fun i db hi => ?_⟩
  obtain ⟨x, hx⟩ := h.2 i db hi
  obtain ⟨y, hy⟩ := g.2 i _ hx
  exact ⟨x ++ y, by rw [hy, List.append_assoc]⟩

theorem Grown.cons {s t : Store} {ss tt : List Store} (h0 : ∀ db, s = some db → ∃ x, t = some (db ++ x)) (h : Grown ss tt) :
    Grown (s :: ss) (t :: tt) := by
  refine ⟨by simp [h.1], fun i db hi => ?_⟩
  cases i with
  | zero =>
    simp only [List.getElem?_cons_zero, Option.some.injEq] at hi
    obtain ⟨x, hx⟩ := h0 db hi
    exact ⟨x, by simp [hx]⟩
  | succ i =>
    rw [List.getElem?_cons_succ] at hi ⊢
    exact h.2 i db hi

theorem fillStore_grown (S : Seal) (P : Params) (rows : List (List Nat)) (s : Store) :
    ∀ db, s = some db → ∃ x, (fillStore S P rows s).1 = some (db ++ x) := by
  intro db hs
  subst hs
  unfold fillStore
  cases partPlains S P rows with
  | ok ps => exact ⟨ps, rfl⟩
  | throws => exact ⟨[], by rw [List.append_nil]; rfl⟩
  | undefined => exact ⟨[], by rw [List.append_nil]; rfl⟩

theorem fillStores_grown (S : Seal) (P : Params) : ∀ (parts : List (List (List Nat))) (ss : List Store),
    Grown ss (fillStores S P parts ss).1
  | [], ss => Grown.refl ss
  | _ :: _, [] => Grown.refl []
  | rows :: parts, s :: ss => by
    have h0 := fillStore_grown S P rows s
    unfold fillStores
    rcases hf : fillStore S P rows s with ⟨s', r⟩
    rw [hf] at h0
    cases r with
    | ok u => exact Grown.cons h0 (fillStores_grown S P parts ss)
    | throws => exact Grown.cons h0 (Grown.refl ss)
    | undefined => exact Grown.cons h0 (Grown.refl ss)

theorem fill_grown (S : Seal) (V : SealServer) (parts : List (List (List Nat))) :
    Grown V.stores (V.fill S parts).1.stores ∧ (V.fill S parts).1.P = V.P ∧ (V.seted = true → (V.fill S parts).1.seted = true) ∧
      ((V.fill S parts).2 = .ok () → (V.fill S parts).1.seted = true) := by
  unfold SealServer.fill
  split_ifs with h1 h2
  · exact ⟨Grown.refl _, rfl, id, fun h => by cases h⟩
  · exact ⟨Grown.refl _, rfl, id, fun h => by cases h⟩
  · have hg := fillStores_grown S V.P (parts.take V.P.partNum) V.stores
    rcases hf : fillStores S V.P (parts.take V.P.partNum) V.stores with ⟨ss, r⟩
    rw [hf] at hg
    cases r with
    | ok u => exact ⟨hg, rfl, fun _ => rfl, fun _ => rfl⟩
    | throws => exact ⟨hg, rfl, id, fun h => by cases h⟩
    | undefined => exact ⟨hg, rfl, id, fun h => by cases h⟩

theorem generate_grown (S : Seal) (V : SealServer) (raw : List (List Nat)) (rowLen : Nat) :
    Grown V.stores (V.generate S raw rowLen).1.stores ∧ (V.generate S raw rowLen).1.P = V.P ∧
      (V.seted = true → (V.generate S raw rowLen).1.seted = true) := by
  unfold SealServer.generate
  simp only
  split_ifs with h
  · exact ⟨Grown.refl _, rfl, id⟩
  · obtain ⟨a, b, c, -⟩ := fill_grown S V (partitionRows raw rowLen V.P.partSize)
    exact ⟨a, b, c⟩

theorem generateViews_grown (S : Seal) (V : SealServer) (raw : List (List Nat)) :
    Grown V.stores (V.generateViews S raw).1.stores ∧ (V.generateViews S raw).1.P = V.P ∧
      (V.seted = true → (V.generateViews S raw).1.seted = true) := by
  unfold SealServer.generateViews
  split_ifs with h1 h2
  · exact ⟨Grown.refl _, rfl, id⟩
  · exact ⟨Grown.refl _, rfl, id⟩
  · obtain ⟨a, b, c⟩ := generate_grown S ({ V with seted := true } : SealServer) raw V.P.eleSize
    exact ⟨a, b, fun _ => c rfl⟩

/-- A server that holds, for every partition, the plaintexts its dimensions ask for. -/
def SealServer.Filled (V : SealServer) : Prop := V.seted = true ∧
  ∀ i : Nat, i < V.P.partNum → ∃ db : List Plain, V.stores[i]? = some (some db) ∧ V.P.dims.prod ≤ db.length

theorem SealServer.Filled.grown {V W : SealServer} (h : V.Filled) (hg : Grown V.stores W.stores) (hP : W.P = V.P)
    (hs : W.seted = true) : W.Filled := by
  refine ⟨hs, fun i hi => ?_⟩
  rw [hP] at hi ⊢
  obtain ⟨db, h1, h2⟩ := h.2 i hi
  obtain ⟨x, hx⟩ := hg.2 i db h1
  exact ⟨_, hx, by rw [List.length_append]; omega⟩

/-- A filled server answers as it did, however its stores grow. -/
theorem SealServer.Filled.respond_eq {S : Seal} {V W : SealServer} (h : V.Filled) (hg : Grown V.stores W.stores)
    (hP : W.P = V.P) (hs : W.seted = true) (keys : List Nat) (q : List (List S.Ct)) :
    W.respond S keys q = V.respond S keys q := by
  unfold SealServer.respond
  rw [h.1, hs, hP]
  rw [if_neg (by simp), if_neg (by simp)]
  refine mapRes_congr fun i hi => ?_
  rw [List.mem_range] at hi
  obtain ⟨db, h1, h2⟩ := h.2 i hi
  obtain ⟨x, hx⟩ := hg.2 i db h1
  unfold SealServer.respondPart
  rw [hx, h1, hP]
  exact respond_append S _ _ _ _ x h2

/-! ### The first database -/

theorem fillStores_fresh (S : Seal) (P : Params) : ∀ (parts : List (List (List Nat))),
    (fillStores S P parts (List.replicate parts.length none)).2 = ((mapRes (partPlains S P) parts).bind fun _ => .ok ()) ∧
    ∀ dbs, mapRes (partPlains S P) parts = .ok dbs →
      (fillStores S P parts (List.replicate parts.length none)).1 = dbs.map some
  | [] => ⟨rfl, fun dbs h => by
      unfold mapRes at h
      injection h with h
      subst h
      rfl⟩
  | rows :: parts => by
    obtain ⟨i1, i2⟩ := fillStores_fresh S P parts
    rw [List.length_cons, List.replicate_succ]
    unfold fillStores fillStore mapRes
    cases hp : partPlains S P rows with
    | throws => exact ⟨rfl, fun dbs h => by cases h⟩
    | undefined => exact ⟨rfl, fun dbs h => by cases h⟩
    | ok ps =>
      cases hm : mapRes (partPlains S P) parts with
      | throws => rw [hm] at i1; exact ⟨i1, fun dbs h => by cases h⟩
      | undefined => rw [hm] at i1; exact ⟨i1, fun dbs h => by cases h⟩
      | ok pss =>
        rw [hm] at i1
        refine ⟨i1, fun dbs h => ?_⟩
        have h : Res.ok (ps :: pss) = Res.ok dbs := h
        injection h with h
        subst h
        have := i2 pss hm
        show some ([] ++ ps) :: _ = some ps :: pss.map some
        rw [this]
        rfl

/-- Filling stores that hold something appends. -/
theorem fillStores_more {S : Seal} {P : Params} : ∀ {parts : List (List (List Nat))} {ds ds' : List (List Plain)},
    mapRes (partPlains S P) parts = .ok ds' → ds.length = parts.length →
    fillStores S P parts (ds.map some) = ((List.zipWith (· ++ ·) ds ds').map some, .ok ())
  | [], ds, ds', _, hl => by
    rw [List.length_eq_zero_iff.1 hl]
    rfl
  | p :: parts, [], ds', _, hl => by cases hl
  | p :: parts, d :: ds, ds', h, hl => by
    unfold mapRes at h
    cases hp : partPlains S P p with
    | throws => rw [hp] at h; cases h
    | undefined => rw [hp] at h; cases h
    | ok y =>
      rw [hp] at h
      cases hm : mapRes (partPlains S P) parts with
      | throws => rw [hm] at h; cases h
      | undefined => rw [hm] at h; cases h
      | ok ys =>
        rw [hm] at h
        have h : Res.ok (y :: ys) = Res.ok ds' := h
        injection h with h
        subst h
        have := fillStores_more hm (ds := ds) (by simpa using hl)
        rw [List.map_cons]
        unfold fillStores fillStore
        rw [hp]
        show (_ :: (fillStores S P parts (ds.map some)).1, (fillStores S P parts (ds.map some)).2) = _
        rw [this]
        rfl

theorem partPlains_length {S : Seal} {P : Params} {rows : List (List Nat)} {db : List Plain} (h : partPlains S P rows = .ok db)
    (hp : P.numPts ≤ P.dims.prod) : db.length = P.dims.prod := by
  unfold partPlains at h
  cases rows with
  | nil => cases h
  | cons r rs =>
    simp only at h
    split_ifs at h with h1
    cases hm : mapRes (SealPir.ptCoeffs P (r :: rs) (SealPir.coefficientsPerElement P.logt r.length)) (List.range P.numPts) with
    | throws => rw [hm] at h; cases h
    | undefined => rw [hm] at h; cases h
    | ok cs =>
      rw [hm] at h
      have h : Res.ok (cs.map S.encode ++ List.replicate (P.dims.prod - P.numPts) fun k => if k < P.n then 1 else 0) =
        Res.ok db := h
      injection h with h
      subst h
      have := (SealPir.mapRes_inv hm).1
      rw [List.length_range] at this
      rw [List.length_append, List.length_map, List.length_replicate]
      omega

/-- What `GenerateFromRawData` makes of a new server. -/
theorem generate_fresh (S : Seal) {P : Params} (b : Bool) (raw : List (List Nat)) (rowLen : Nat) :
    ((⟨P, List.replicate P.partNum none, b⟩ : SealServer).generate S raw rowLen).2 =
      (SealPir.generateDb S P raw rowLen).bind (fun _ => .ok ()) ∧
    ∀ dbs, SealPir.generateDb S P raw rowLen = .ok dbs →
      ((⟨P, List.replicate P.partNum none, b⟩ : SealServer).generate S raw rowLen).1 = ⟨P, dbs.map some, true⟩ ∧
      dbs.length = P.partNum ∧ P.numPts < P.dims.prod ∧ ∀ db ∈ dbs, db.length = P.dims.prod := by
  unfold SealServer.generate SealPir.generateDb SealServer.fill
  simp only
  by_cases h1 : (partitionRows raw rowLen P.partSize).length ≠ P.partNum
  · rw [if_pos h1, if_pos h1]
    exact ⟨rfl, fun dbs h => by cases h⟩
  · rw [if_neg h1, if_neg h1]
    by_cases h2 : P.dims.prod ≤ P.numPts
    · rw [if_pos h2, if_pos h2]
      exact ⟨rfl, fun dbs h => by cases h⟩
    · push Not at h1
      rw [if_neg h2, if_neg h2, if_neg (by omega), ← h1, List.take_length]
      obtain ⟨f1, f2⟩ := fillStores_fresh S P (partitionRows raw rowLen P.partSize)
      rcases hf : fillStores S P (partitionRows raw rowLen P.partSize)
        (List.replicate (partitionRows raw rowLen P.partSize).length none) with ⟨ss, r⟩
      rw [hf] at f1 f2
      cases hm : mapRes (partPlains S P) (partitionRows raw rowLen P.partSize) with
      | throws => rw [hm] at f1; subst f1; exact ⟨rfl, fun dbs h => by cases h⟩
      | undefined => rw [hm] at f1; subst f1; exact ⟨rfl, fun dbs h => by cases h⟩
      | ok dbs =>
        rw [hm] at f1
        subst f1
        have h3 : ss = dbs.map some := f2 dbs hm
        refine ⟨rfl, fun dbs' h => ?_⟩
        injection h with h
        subst h
        obtain ⟨m1, m2⟩ := SealPir.mapRes_inv hm
        refine ⟨by rw [h3]; rfl, m1, by omega, fun db hd => ?_⟩
        obtain ⟨i, hi, rfl⟩ := List.getElem_of_mem hd
        exact partPlains_length (m2 i (by omega) hi) (by omega)

theorem filled_of_dbs {P : Params} {dbs : List (List Plain)} (h1 : dbs.length = P.partNum)
    (h2 : ∀ db ∈ dbs, db.length = P.dims.prod) : (⟨P, dbs.map some, true⟩ : SealServer).Filled := by
  refine ⟨rfl, fun i hi => ?_⟩
  have hi : i < dbs.length := by rw [h1]; exact hi
  exact ⟨dbs[i], by simp [hi], (h2 _ (List.getElem_mem hi)).ge⟩

/-- A server filled with databases answers as `SealPir.generateResponse` does. -/
theorem respond_of_dbs (S : Seal) (P : Params) (dbs : List (List Plain)) (keys : List Nat) (q : List (List S.Ct)) :
    (⟨P, dbs.map some, true⟩ : SealServer).respond S keys q = SealPir.generateResponse S P keys dbs q := by
  unfold SealServer.respond SealPir.generateResponse
  rw [if_neg (by simp)]
  refine mapRes_congr fun i _ => ?_
  unfold SealServer.respondPart SealPir.respondPart
  rw [List.getElem?_map]
  cases dbs[i]? <;> rfl

theorem ask_eq {S : Seal} {V W : SealServer} (h : ∀ keys q, W.respond S keys q = V.respond S keys q) (P : Params)
    (coin : Nat → Nat → S.Coin) (idx : Nat) : W.ask S P coin idx = V.ask S P coin idx := by
  unfold SealServer.ask
  congr 1
  funext q
  rw [h]

theorem ask_of_dbs (S : Seal) (P : Params) (dbs : List (List Plain)) (coin : Nat → Nat → S.Coin) (idx : Nat) :
    (⟨P, dbs.map some, true⟩ : SealServer).ask S P coin idx = SealPir.ask S P coin dbs idx := by
  unfold SealServer.ask SealPir.ask
  congr 1
  funext q
  rw [respond_of_dbs]

end Psi.PirLife
