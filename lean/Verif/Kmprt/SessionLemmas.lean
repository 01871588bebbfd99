import Verif.Kmprt.OpprfLemmas

/-!
# A whole session of the OPPRF
-/

namespace Psi.Kmprt

open Psi.Spiral (Res mapRes)

/-- The empty tables. -/
def Session.empty (s : Session) : Cuckoo := ⟨List.replicate s.m0 0, List.replicate s.m1 0⟩

theorem sendStage_get {s : Session} {points : List (Nat × Nat)} {c : Nat} {a : List (Nat × List Nat)} (h : sendStage s points c = .ok a) :
    a.length = s.m c ∧ ∀ addr < s.m c,
      sendBin s c (s.begin c + addr) (simpleBin (numHashes c) (s.m c) addr points) = .ok (a.getD addr (0, [])) := by
  obtain ⟨h1, h2⟩ := mapRes_inv h
  rw [List.length_range] at h1
  refine ⟨h1, fun addr ha => ?_⟩
  have := h2 addr (by simpa using ha) (by omega)
  rw [List.getElem_range] at this
  rw [this, List.getD_eq_getElem _ _ (by omega)]

theorem opprfSend_get {s : Session} {xs ys : List Nat} {msgs : List (Nat × List Nat)} (h : opprfSend s xs ys = .ok msgs) :
    xs.length = ys.length ∧ msgs.length = s.m0 + s.m1 ∧ ∀ c < 2, ∀ addr < s.m c,
      sendBin s c (s.begin c + addr) (simpleBin (numHashes c) (s.m c) addr (xs.zip ys)) = .ok (msgs.getD (s.begin c + addr) (0, [])) := by
  unfold opprfSend at h
  split_ifs at h with hl
  · cases ha : sendStage s (xs.zip ys) 0 with
    | throws => rw [ha] at h; cases h
    | undefined => rw [ha] at h; cases h
    | ok a =>
      rw [ha] at h
      cases hb : sendStage s (xs.zip ys) 1 with
      | throws => simp only [Res.bind] at h; rw [hb] at h; cases h
      | undefined => simp only [Res.bind] at h; rw [hb] at h; cases h
      | ok b =>
        simp only [Res.bind] at h
        rw [hb] at h
        injection h with h
        subst h
        obtain ⟨a1, a2⟩ := sendStage_get ha
        obtain ⟨b1, b2⟩ := sendStage_get hb
        have e0 : s.m 0 = s.m0 := rfl
        have e1 : s.m 1 = s.m1 := rfl
        refine ⟨by omega, by rw [List.length_append, a1, b1, e0, e1], fun c hc addr haddr => ?_⟩
        obtain rfl | rfl : c = 0 ∨ c = 1 := by omega
        · rw [a2 addr haddr]
          have : s.begin 0 = 0 := rfl
          rw [this, Nat.zero_add, List.getD_append _ _ _ _ (by omega)]
        · rw [b2 addr haddr]
          have : s.begin 1 = s.m0 := rfl
          rw [this, List.getD_append_right _ _ _ _ (by omega), a1, e0, Nat.add_sub_cancel_left]

/-- What a query yields, given the tables and the messages. -/
def queryValue (s : Session) (msgs : List (Nat × List Nat)) (c addr q : Nat) : Nat :=
  let e := s.prf (s.begin c + addr) q
  e ^^^ (msgs.getD (s.begin c + addr) (0, [])).2.getD (s.ro e (msgs.getD (s.begin c + addr) (0, [])).1 % tableSize c) 0

theorem evals_get {s : Session} {t : Cuckoo} {msgs : List (Nat × List Nat)} {q : Nat} {c addr : Nat} (hc : c < 2)
    (haddr : addr < s.m c) (hq : q ≠ 0) (hbin : (t.bins c).getD addr 0 = q) :
    (((List.range (s.m 0)).map fun i => binOut s t 0 i (msgs.getD i (0, []))) ++
      (List.range (s.m 1)).map fun i => binOut s t 1 i ((msgs.drop (s.m 0)).getD i (0, [])))[c * s.m0 + addr]? =
      some (queryValue s msgs c addr q) := by
  have hE : ∀ c, (t.bins c).getD addr 0 = q → binEval s t c addr = s.prf (s.begin c + addr) q := by
    intro c hb
    unfold binEval binElem
    rw [hb, if_neg hq]
  have e0 : s.m 0 = s.m0 := rfl
  obtain rfl | rfl : c = 0 ∨ c = 1 := by omega
  · have hb0 : s.begin 0 = 0 := rfl
    rw [List.getElem?_append_left (by simpa using haddr), List.getElem?_map, List.getElem?_range (by omega)]
    simp only [Option.map_some]
    unfold queryValue binOut
    rw [Nat.zero_mul, Nat.zero_add, hE 0 hbin, hb0, Nat.zero_add]
  · have hb1 : s.begin 1 = s.m0 := rfl
    rw [List.getElem?_append_right (by simp; omega), List.length_map, List.length_range, List.getElem?_map]
    have : 1 * s.m0 + addr - s.m 0 = addr := by omega
    rw [this, List.getElem?_range haddr]
    simp only [Option.map_some]
    unfold queryValue binOut
    have hd : (msgs.drop (s.m 0)).getD addr (0, []) = msgs.getD (s.m0 + addr) (0, []) := by
      rw [List.getD_eq_getElem?_getD, List.getD_eq_getElem?_getD, List.getElem?_drop, e0]
    rw [hE 1 hbin, hb1, hd]

/-- The receiver, once its cuckoo tables are made: every query has its value, and the corrections are the ones the sender
waits for. -/
theorem opprfRecv_ok {s : Session} {queries : List Nat} {msgs : List (Nat × List Nat)} {t : Cuckoo} (h0 : 0 < s.m0) (h1 : 0 < s.m1)
    (hq : ∀ q ∈ queries, q ≠ 0) (hl : msgs.length = s.m0 + s.m1) (ht : insertAll s.evict 0 s.empty queries = .ok t) :
    ∃ r, opprfRecv s queries msgs = .ok (r, recvCorrections s 0 ++ recvCorrections s 1) ∧ r.length = queries.length ∧
      ∀ k (hk : k < queries.length) (hk' : k < r.length), ∃ c addr, lookup t queries[k] = some (c, addr) ∧ c < 2 ∧ addr < s.m c ∧
        (∃ idx < numHashes c, hash queries[k] idx % s.m c = addr) ∧ r[k] = queryValue s msgs c addr queries[k] := by
  have e0 : s.m 0 = s.m0 := rfl
  have e1 : s.m 1 = s.m1 := rfl
  obtain ⟨t0, t1, t2⟩ := insertAll_ok queries 0 s.empty t (by simpa [Session.empty] using h0) (by simpa [Session.empty] using h1) ht
  have tl : ∀ c < 2, (t.bins c).length = s.m c := by
    intro c hc
    obtain rfl | rfl : c = 0 ∨ c = 1 := by omega
    · have : (t.bins 0).length = t.b0.length := rfl
      rw [this, t0, e0]; simp [Session.empty]
    · have : (t.bins 1).length = t.b1.length := rfl
      rw [this, t1, e1]; simp [Session.empty]
  obtain ⟨buf0, l0, r0⟩ := recvStage_ok (s := s) (t := t) (c := 0)
    (st := { buf := List.replicate BATCH 0, b := 0, evals := [], msgs := msgs, corrections := [] }) (by omega) (by simp only; omega) rfl
    (List.length_replicate ..)
  obtain ⟨buf1, l1, r1⟩ := recvStage_ok (s := s) (t := t) (c := 1)
    (st := ⟨buf0, 0, [] ++ (List.range (s.m 0)).map (fun i => binOut s t 0 i (msgs.getD i (0, []))), msgs.drop (s.m 0),
      [] ++ recvCorrections s 0⟩) (by omega) (by simp only [List.length_drop]; omega) rfl l0
  have key : ∀ q ∈ queries, ∃ c addr, lookup t q = some (c, addr) ∧ c < 2 ∧ addr < s.m c ∧
      (∃ idx < numHashes c, hash q idx % s.m c = addr) ∧
      ([] ++ (List.range (s.m 0)).map (fun i => binOut s t 0 i (msgs.getD i (0, []))) ++
        (List.range (s.m 1)).map fun i => binOut s t 1 i ((msgs.drop (s.m 0)).getD i (0, [])))[c * s.m0 + addr]? =
        some (queryValue s msgs c addr q) := by
    intro q hqm
    obtain ⟨c, addr, hlk, hc, hbin, idx, hidx, haddr⟩ := lookup_placed (t2 q (hq q hqm) (Or.inr hqm))
    rw [tl c hc] at haddr
    have hpos : 0 < s.m c := by
      obtain rfl | rfl : c = 0 ∨ c = 1 := by omega
      · omega
      · omega
    have hlt : addr < s.m c := by rw [haddr]; exact Nat.mod_lt _ hpos
    exact ⟨c, addr, hlk, hc, hlt, ⟨idx, hidx, haddr.symm⟩, evals_get hc hlt (hq q hqm) hbin⟩
  have hmap : ∀ l : List Nat, (∀ q ∈ l, q ∈ queries) → ∃ r, mapRes (queryEval s t ([] ++ (List.range (s.m 0)).map (fun i => binOut s t 0 i (msgs.getD i (0, []))) ++
          (List.range (s.m 1)).map fun i => binOut s t 1 i ((msgs.drop (s.m 0)).getD i (0, [])))) l = .ok r := by
    intro l
    induction l with
    | nil => intro _; exact ⟨[], rfl⟩
    | cons q l ih =>
      intro hl
      obtain ⟨r, hr⟩ := ih fun x hx => hl x (by simp [hx])
      obtain ⟨c, addr, hlk, -, -, -, hev⟩ := key q (hl q (by simp))
      refine ⟨queryValue s msgs c addr q :: r, ?_⟩
      unfold mapRes
      rw [hr]
      unfold queryEval
      simp only [hlk, hev, Res.bind]
  obtain ⟨r, hr⟩ := hmap queries fun _ h => h
  refine ⟨r, ?_, ?_⟩
  · unfold opprfRecv
    have ht' : insertAll s.evict 0 ⟨List.replicate s.m0 0, List.replicate s.m1 0⟩ queries = .ok t := ht
    rw [e0] at r0
    rw [e0, e1] at r1
    rw [e0, e1] at hr
    rw [ht']
    simp only [Res.bind]
    rw [r0]
    simp only
    rw [r1]
    simp only
    rw [hr]
    simp
  · obtain ⟨g1, g2⟩ := mapRes_inv hr
    refine ⟨g1, fun k hk hk' => ?_⟩
    obtain ⟨c, addr, hlk, hc, hlt, hidx, hev⟩ := key queries[k] (List.getElem_mem hk)
    refine ⟨c, addr, hlk, hc, hlt, hidx, ?_⟩
    have := g2 k hk hk'
    unfold queryEval at this
    simp only [hlk, hev] at this
    injection this with this
    exact this.symm

/-- A session that ends well. -/
theorem opprf_get {s : Session} {xs ys queries r : List Nat} (h0 : 0 < s.m0) (h1 : 0 < s.m1) (hq : ∀ q ∈ queries, q ≠ 0)
    (h : opprf s xs ys queries = .ok r) :
    ∃ msgs t, opprfSend s xs ys = .ok msgs ∧ insertAll s.evict 0 s.empty queries = .ok t ∧ r.length = queries.length ∧
      ∀ k (hk : k < queries.length) (hk' : k < r.length), ∃ c addr, lookup t queries[k] = some (c, addr) ∧ c < 2 ∧ addr < s.m c ∧
        (∃ idx < numHashes c, hash queries[k] idx % s.m c = addr) ∧ r[k] = queryValue s msgs c addr queries[k] := by
  unfold opprf at h
  cases hs : opprfSend s xs ys with
  | throws => rw [hs] at h; cases h
  | undefined => rw [hs] at h; cases h
  | ok msgs =>
    rw [hs] at h
    simp only [Res.bind] at h
    cases ht : insertAll s.evict 0 s.empty queries with
    | throws =>
      unfold Session.empty at ht
      unfold opprfRecv at h
      rw [ht] at h; cases h
    | undefined => exact absurd ht (insertAll_not_undefined _ _ _)
    | ok t =>
      obtain ⟨r', hr, hl, hv⟩ := opprfRecv_ok h0 h1 hq (opprfSend_get hs).2.1 ht
      rw [hr] at h
      injection h with h
      subst h
      exact ⟨msgs, t, rfl, rfl, hl, hv⟩

/-- A session does not run into undefined behaviour. -/
theorem opprf_defined {s : Session} {xs ys queries : List Nat} (h0 : 0 < s.m0) (h1 : 0 < s.m1) (hq : ∀ q ∈ queries, q ≠ 0) :
    opprf s xs ys queries ≠ .undefined := by
  have hmr : ∀ {α β : Type} (f : α → Res β) (l : List α), (∀ a, f a ≠ .undefined) → mapRes f l ≠ .undefined := by
    intro α β f l hf
    induction l with
    | nil => simp [mapRes]
    | cons a l ih =>
      unfold mapRes
      cases ha : f a with
      | throws => simp [Res.bind]
      | undefined => exact absurd ha (hf a)
      | ok b =>
        cases hl : mapRes f l with
        | throws => simp [Res.bind]
        | undefined => exact absurd hl ih
        | ok bs => simp [Res.bind]
  have hst : ∀ c, sendStage s (xs.zip ys) c ≠ .undefined := by
    intro c
    unfold sendStage
    apply hmr
    intro a
    unfold sendBin
    split <;> simp
  unfold opprf
  cases hs : opprfSend s xs ys with
  | throws => simp [Res.bind]
  | undefined =>
    unfold opprfSend at hs
    split_ifs at hs
    cases ha : sendStage s (xs.zip ys) 0 with
    | throws => rw [ha] at hs; cases hs
    | undefined => exact absurd ha (hst 0)
    | ok a =>
      cases hb : sendStage s (xs.zip ys) 1 with
      | throws => rw [ha, hb] at hs; cases hs
      | undefined => exact absurd hb (hst 1)
      | ok b => rw [ha, hb] at hs; cases hs
  | ok msgs =>
    cases ht : insertAll s.evict 0 s.empty queries with
    | throws =>
      unfold Session.empty at ht
      unfold opprfRecv
      rw [ht]
      simp [Res.bind]
    | undefined => exact absurd ht (insertAll_not_undefined _ _ _)
    | ok t =>
      obtain ⟨r', hr, -, -⟩ := opprfRecv_ok h0 h1 hq (opprfSend_get hs).2.1 ht
      simp only [Res.bind]
      rw [hr]
      simp

/-- The value of a programmed query is the value of its first point. -/
theorem opprf_programmed {s : Session} {xs ys queries r : List Nat} (h0 : 0 < s.m0) (h1 : 0 < s.m1) (hq : ∀ q ∈ queries, q ≠ 0)
    (ho : ∀ l, (s.order l).Perm l) (h : opprf s xs ys queries = .ok r) {k x y : Nat} (hk : queries[k]? = some x)
    (hp : (xs.zip ys).find? (fun q => q.1 == x) = some (x, y)) (hne : ∀ ot, s.prf ot x ≠ y) : r[k]? = some y := by
  obtain ⟨msgs, t, hs, -, hl, hv⟩ := opprf_get h0 h1 hq h
  obtain ⟨hkl, hkx⟩ := List.getElem?_eq_some_iff.1 hk
  obtain ⟨c, addr, -, hc, hlt, hidx, hr⟩ := hv k hkl (by omega)
  rw [List.getElem?_eq_getElem (by omega : k < r.length), hr]
  rw [hkx] at hidx ⊢
  have hb := (opprfSend_get hs).2.2 c hc addr hlt
  have hmem : (x, y) ∈ simpleBin (numHashes c) (s.m c) addr (xs.zip ys) := by
    have := find_simpleBin hidx (xs.zip ys)
    rw [hp] at this
    exact List.mem_of_find?_eq_some this
  exact congrArg some (sendBin_programmed ho hb hmem (hne _))

end Psi.Kmprt
