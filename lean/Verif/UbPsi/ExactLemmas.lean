import Verif.UbPsi.OnlineLemmas
import Mathlib.Data.List.Nodup

/-!
# Lemmas about the results of the online phase of UB-PSI
-/

namespace Psi.UbPsi
open Psi.Ecdh (Bytes dupMap dupAt)
open Psi.Spec (peerRows ExactIndex)
open Psi.Provider (ShufDup)
open Psi.Provider.Spec (Shuffles)

variable {α G : Type} [AddCommGroup G] {c : Curve α G}

theorem lookup_iff {κ υ : Type} [BEq κ] [LawfulBEq κ] (l : List (κ × υ)) (h : (l.map Prod.fst).Nodup) (k : κ) (v : υ) :
    l.lookup k = some v ↔ (k, v) ∈ l := by
  induction l with
  | nil => simp
  | cons x l ih =>
    obtain ⟨a, b⟩ := x
    simp only [List.map_cons, List.nodup_cons] at h
    rw [List.lookup_cons]
    by_cases hk : k = a
    · subst hk
      simp only [BEq.rfl, Option.some.injEq, List.mem_cons, Prod.mk.injEq, true_and]
      constructor
      · rintro rfl; exact Or.inl rfl
      · rintro (rfl | hm)
        · rfl
        · exact absurd (List.mem_map.mpr ⟨_, hm, rfl⟩) h.1
    · have : (k == a) = false := by simpa using hk
      rw [this]
      simp only [ih h.2, List.mem_cons, Prod.mk.injEq, hk, false_and, false_or]

theorem pieces_map {β γ : Type} (g : β → γ) (size fuel : Nat) (l : List β) :
    pieces size fuel (l.map g) = (pieces size fuel l).map (fun b => b.map g) := by
  induction fuel generalizing l with
  | zero => rfl
  | succ fuel ih =>
    rw [pieces, pieces]
    cases l with
    | nil => simp
    | cons x l =>
      simp only [List.map_cons, List.isEmpty_cons, Bool.false_eq_true, if_false]
      rw [← List.map_cons, ← List.map_take, ← List.map_drop, ih]

/-- The elements at given positions. -/
def pick {β : Type} (l : List β) (ix : List Nat) : List β := ix.filterMap (fun i => l[i]?)

theorem pick_get {β : Type} (l : List β) (ix : List Nat) (h : ∀ i ∈ ix, i < l.length) (k : Nat) :
    (pick l ix)[k]? = (ix[k]?).bind (fun i => l[i]?) := by
  induction ix generalizing k with
  | nil => simp [pick]
  | cons i ix ih =>
    have hi := h i (by simp)
    have : pick l (i :: ix) = l[i] :: pick l ix := by
      simp [pick, List.getElem?_eq_getElem hi]
    rw [this]
    cases k with
    | zero => simp [List.getElem?_eq_getElem hi]
    | succ k => simpa using ih (fun j hj => h j (by simp [hj])) k

theorem pick_range {β : Type} (l : List β) : pick l (List.range l.length) = l := by
  apply List.ext_getElem?
  intro k
  rw [pick_get l _ (by intro i hi; simpa using hi)]
  by_cases hk : k < l.length
  · simp [hk]
  · simp [hk]

theorem pick_perm {β : Type} (l : List β) (ix : List Nat) (h : ix.Perm (List.range l.length)) :
    (pick l ix).Perm l := by
  have : (pick l ix).Perm (pick l (List.range l.length)) := List.Perm.filterMap _ h
  rwa [pick_range] at this

theorem mapE_pick {β γ : Type} (g : β → γ) (l : List β) (ix : List Nat) (h : ∀ i ∈ ix, i < l.length) :
    mapE (elemAt (l.map g)) ix = .ok ((pick l ix).map g) := by
  induction ix with
  | nil => rfl
  | cons i ix ih =>
    have hi := h i (by simp)
    have : pick l (i :: ix) = l[i] :: pick l ix := by
      simp [pick, List.getElem?_eq_getElem hi]
    rw [mapE, this]
    have h2 := ih (fun j hj => h j (by simp [hj]))
    have h1 : (l.map g)[i]? = some (g l[i]) := by simp [hi]
    rw [elemAt, h1]
    dsimp only
    rw [h2]
    rfl

theorem tags_nodup {key : Bytes} {keys : List α} (h : NoClash c key keys) (l : List α) (hl : l ⊆ keys)
    (hn : l.Nodup) : (l.map (c.tag key)).Nodup :=
  List.Nodup.map_on (fun x hx y hy e => h x (hl hx) y (hl hy) e) hn

/-- The OPRF value of the key of an item. -/
def itemTag (c : Curve α G) (key : Bytes) (x : α × Nat) : Bytes := c.tag key x.1

/-- What the exchange leaves with the parties, for the client's items in the order `view`. -/
structure Exchanged (c : Curve α G) (key : Bytes) (sg : Bool) (view : List (α × Nat)) (st : MemStore) (p : PeerCnt) :
    Prop where
  finds : ∀ t i, st.find t = some i ↔ (view.map (itemTag c key))[i]? = some t
  total : sg = true → p.total = peerRows view
  dup : sg = true → ∀ i x, view[i]? = some x → dupAt p.dup i = x.2

theorem exchange_ok (hc : c.Lawful) (o : Online α) (key : Bytes) (hr : c.GoodKey o.r) (hk : c.GoodKey key)
    (hn : (o.input.flatten.map Prod.fst).Nodup) (hcl : NoClash c key (o.input.flatten.map Prod.fst))
    (hperm : ∀ n, (o.perm n).Perm (List.range n)) (hb : 0 < o.batch)
    (hs : peerRows o.input.flatten < 2 ^ 32) :
    ∃ self p view, exchange c o key = .ok (self, p) ∧ Exchanged c key o.serverGets view self p ∧
      view.Perm o.input.flatten ∧ (o.clientGets = true → view = o.input.flatten) ∧
      (o.clientGets = false → view = pick o.input.flatten (o.perm o.input.flatten.length)) ∧
      p.unique = o.input.flatten.length := by
  have hlen := length_le_rows o.input.flatten
  have hmsgs : blindMsgs c o.r o.serverGets o.input
      = o.input.map (blindMsg c o.r o.serverGets) ++ [Batch.last] := rfl
  obtain ⟨p, h1, h2, h3, h4⟩ := recvBlind_ok hc o.r key hr o.serverGets o.input (p := ⟨0, 0, []⟩) (done := [])
    ⟨rfl, by simp, by intro i; simp [dupAt]⟩ (by simpa using hs)
  simp only [List.nil_append] at h2 h3 h4
  have hfind : ∀ (view : List (α × Nat)), view.Perm o.input.flatten → ∀ t i,
      (((view.map (itemTag c key)).foldl MemStore.save ⟨[], 0⟩).find t = some i ↔
        (view.map (itemTag c key))[i]? = some t) := by
    intro view hv t i
    apply store_find
    · have : view.map (itemTag c key) = (view.map Prod.fst).map (c.tag key) := by rw [List.map_map]; rfl
      rw [this]
      exact tags_nodup hcl _ (hv.map Prod.fst).subset ((hv.map Prod.fst).nodup_iff.mpr hn)
    · rw [List.length_map, hv.length_eq]; omega
  have hpr : ∀ (view : List (α × Nat)), view.Perm o.input.flatten → peerRows view = peerRows o.input.flatten :=
    fun view hv => (hv.map _).sum_nat
  unfold exchange
  rw [hmsgs]
  dsimp only
  by_cases hcg : o.clientGets = true
  · rw [if_pos hcg, evalMsgs, h1]
    dsimp only
    have hev := recvEvaluated_ok hc o.r key hr hk (o.input.map (fun b => b.map Prod.fst)) ⟨[], 0⟩
    have hm : (o.input.map (fun b => b.map (fun x => evd c o.r key x.1))).map
        (fun ev => (⟨false, ev.flatten, []⟩ : Batch))
        = (o.input.map (fun b => b.map Prod.fst)).map
          (fun b => (⟨false, (b.map (evd c o.r key)).flatten, []⟩ : Batch)) := by
      rw [List.map_map, List.map_map]
      apply List.map_congr_left
      intro b _
      simp only [Function.comp_apply, List.map_map]
      rfl
    rw [hm, hev]
    dsimp only
    have ht : (o.input.map (fun b => b.map Prod.fst)).flatten.map (c.tag key)
        = o.input.flatten.map (itemTag c key) := by
      rw [← List.map_flatten, List.map_map]; rfl
    rw [ht]
    refine ⟨_, _, o.input.flatten, rfl, ⟨hfind _ (List.Perm.refl _), h3, ?_⟩, List.Perm.refl _, fun _ => rfl, fun e => by simp [hcg] at e, h2⟩
    intro e i x hx
    rw [h4, if_pos e, hx]; rfl
  · rw [if_neg hcg, shuffleMsgs, h1]
    dsimp only
    have hall : (o.input.map (fun b => b.map (fun x => evd c o.r key x.1))).flatten
        = o.input.flatten.map (fun x => evd c o.r key x.1) := by rw [List.map_flatten]
    rw [hall, List.length_map]
    have hix := hperm o.input.flatten.length
    have hlt : ∀ i ∈ o.perm o.input.flatten.length, i < o.input.flatten.length := by
      intro i hi; simpa using hix.mem_iff.mp hi
    have hpk := pick_perm o.input.flatten _ hix
    rw [mapE_pick _ _ _ hlt]
    dsimp only
    have hlix : (o.perm o.input.flatten.length).length = o.input.flatten.length := by simpa using hix.length_eq
    generalize hixd : o.perm o.input.flatten.length = ix at *
    generalize hview : pick o.input.flatten ix = view at *
    have hev := recvEvaluated_ok hc o.r key hr hk
      (pieces o.batch (view.length + 1) (view.map Prod.fst)) ⟨[], 0⟩
    have hm : (pieces o.batch ((view.map (fun x => evd c o.r key x.1)).length + 1)
          (view.map (fun x => evd c o.r key x.1))).map (fun b => (⟨false, b.flatten, []⟩ : Batch))
        = (pieces o.batch (view.length + 1) (view.map Prod.fst)).map
          (fun b => (⟨false, (b.map (evd c o.r key)).flatten, []⟩ : Batch)) := by
      have : view.map (fun x => evd c o.r key x.1) = (view.map Prod.fst).map (evd c o.r key) := by
        rw [List.map_map]; rfl
      rw [this, pieces_map, List.map_map, List.length_map, List.length_map]
      rfl
    rw [hm, hev]
    dsimp only
    rw [pieces_flatten _ hb _ _ (by simp)]
    have ht : (view.map Prod.fst).map (c.tag key) = view.map (itemTag c key) := by rw [List.map_map]; rfl
    rw [ht]
    refine ⟨_, _, view, rfl, ⟨hfind _ hpk, ?_, ?_⟩, hpk, fun e => absurd e hcg, fun _ => rfl, h2⟩
    · intro e
      dsimp only
      rw [h3 e, hpr _ hpk]
    · intro e i x hx
      dsimp only
      rw [← hview, pick_get _ _ hlt] at hx
      obtain ⟨j, hj, hx⟩ := Option.bind_eq_some_iff.mp hx
      obtain ⟨hil, ej⟩ := List.getElem?_eq_some_iff.mp hj
      have hjl := hlt j (ej ▸ List.getElem_mem hil)
      have hmap : ix.zipIdx.map (fun x => (x.2 % 2 ^ 32, dupAt p.dup (x.1 % 2 ^ 32)))
          = ix.zipIdx.map (fun x => (x.2, dupAt p.dup x.1)) := by
        apply List.map_congr_left
        rintro ⟨a, b⟩ hab
        rw [List.mem_zipIdx_iff_getElem?] at hab
        obtain ⟨hbl, eb⟩ := List.getElem?_eq_some_iff.mp hab
        dsimp only at hbl eb ⊢
        have := hlt a (eb ▸ List.getElem_mem hbl)
        rw [Nat.mod_eq_of_lt (by omega), Nat.mod_eq_of_lt (by omega)]
      rw [hmap, dupAt, (lookup_iff _ ?_ i x.2).mpr ?_]
      · rfl
      · rw [List.map_reverse, List.nodup_reverse, List.map_map]
        have : (Prod.fst ∘ fun x : Nat × Nat => (x.2, dupAt p.dup x.1)) = Prod.snd := rfl
        rw [this, List.zipIdx_map_snd]
        exact List.nodup_range'
      · rw [List.mem_reverse, List.mem_map]
        refine ⟨(j, i), List.mem_zipIdx_iff_getElem?.mpr hj, ?_⟩
        rw [h4, if_pos e, hx]; rfl

/-! ### Results -/

/-- The server's cache comes from its items. -/
structure FromItems (items : List (α × Nat)) (order : List (ShufDup α)) : Prop where
  shuf : Shuffles items (order.map (fun x => ((x.item, x.dup), x.orig)))
  pos : order.map ShufDup.pos = List.range items.length

theorem FromItems.length {items : List (α × Nat)} {order : List (ShufDup α)} (h : FromItems items order) :
    order.length = items.length := by simpa using congrArg List.length h.pos

theorem FromItems.get {items : List (α × Nat)} {order : List (ShufDup α)} (h : FromItems items order)
    {x : ShufDup α} (hx : x ∈ order) : items[x.orig]? = some (x.item, x.dup) :=
  h.shuf.back _ _ (List.mem_map.mpr ⟨x, hx, rfl⟩)

theorem FromItems.ex {items : List (α × Nat)} {order : List (ShufDup α)} (h : FromItems items order)
    {j : Nat} {y : α × Nat} (hy : items[j]? = some y) : ∃ x ∈ order, x.orig = j ∧ x.item = y.1 ∧ x.dup = y.2 := by
  obtain ⟨hj, e⟩ := List.getElem?_eq_some_iff.mp hy
  have : j ∈ (order.map (fun x => ((x.item, x.dup), x.orig))).map Prod.snd := by
    rw [h.shuf.all.mem_iff]; simpa using hj
  rw [List.map_map] at this
  obtain ⟨x, hx, e2⟩ := List.mem_map.mp this
  have e3 := h.get hx
  simp only [Function.comp_apply] at e2
  rw [e2, hy] at e3
  simp only [Option.some.injEq] at e3
  exact ⟨x, hx, e2, by rw [e3], by rw [e3]⟩

theorem FromItems.orig_nodup {items : List (α × Nat)} {order : List (ShufDup α)} (h : FromItems items order) :
    (order.map ShufDup.orig).Nodup := by
  have h1 : (order.map (fun x => ((x.item, x.dup), x.orig))).map Prod.snd = order.map ShufDup.orig := by
    rw [List.map_map]; rfl
  have := h.shuf.all.nodup_iff.mpr List.nodup_range
  rwa [h1] at this

theorem FromItems.perm {items : List (α × Nat)} {order : List (ShufDup α)} (h : FromItems items order) :
    (order.map (fun x => (x.item, x.dup))).Perm items := by
  have h1 : (order.map (fun x => ((x.item, x.dup), x.orig))).map Prod.snd = order.map ShufDup.orig := by
    rw [List.map_map]; rfl
  have h2 := h.shuf.all
  rw [h1] at h2
  have h3 := pick_perm items _ h2
  have h4 : pick items (order.map ShufDup.orig) = order.map (fun x => (x.item, x.dup)) := by
    rw [pick, List.filterMap_map]
    rw [← List.filterMap_eq_map]
    apply List.filterMap_congr
    intro x hx
    simp only [Function.comp_apply]
    exact h.get hx
  rwa [h4] at h3

variable {key : Bytes}

/-- The lines found by the comparison. -/
theorem found_iff {self : MemStore} {p : PeerCnt} {sg : Bool} {view items : List (α × Nat)}
    {order : List (ShufDup α)} (he : Exchanged c key sg view self p) (hf : FromItems items order)
    (hcl : NoClash c key (view.map Prod.fst ++ items.map Prod.fst)) {found : List (Nat × Nat × Nat)}
    (hp : found.Perm ((((order.map (recOf c key)).map sent).zipIdx).filterMap (hit self))) (i k d : Nat) :
    (i, k, d) ∈ found ↔ ∃ x y, order[k]? = some x ∧ view[i]? = some y ∧ x.item = y.1 ∧ x.dup = d := by
  rw [hp.mem_iff, List.mem_filterMap]
  constructor
  · rintro ⟨⟨⟨t, d'⟩, k'⟩, hx, hh⟩
    simp only [hit, Option.map_eq_some_iff, Prod.mk.injEq] at hh
    obtain ⟨i', hi, rfl, rfl, rfl⟩ := hh
    rw [List.mem_zipIdx_iff_getElem?] at hx
    simp only [List.getElem?_map, Option.map_map, Option.map_eq_some_iff, Function.comp_apply, sent, recOf,
      Prod.mk.injEq] at hx
    obtain ⟨x, hx, rfl, rfl⟩ := hx
    rw [he.finds, List.getElem?_map, Option.map_eq_some_iff] at hi
    obtain ⟨y, hy, e⟩ := hi
    refine ⟨x, y, hx, hy, ?_, rfl⟩
    refine (hcl y.1 ?_ x.item ?_ e).symm
    · exact List.mem_append_left _ (List.mem_map_of_mem (List.mem_of_getElem? hy))
    · have := hf.get (List.mem_of_getElem? hx)
      exact List.mem_append_right _ (List.mem_map.mpr ⟨_, List.mem_of_getElem? this, rfl⟩)
  · rintro ⟨x, y, hx, hy, e, rfl⟩
    refine ⟨((c.tag key x.item, x.dup), k), ?_, ?_⟩
    · rw [List.mem_zipIdx_iff_getElem?]
      simp [hx, sent, recOf]
    · simp only [hit, Option.map_eq_some_iff]
      refine ⟨i, ?_, rfl⟩
      rw [he.finds, List.getElem?_map, hy]
      simp [itemTag, e]

theorem zipIdx_filterMap_nodup {β γ : Type} (l : List β) (f : β × Nat → Option γ) (g : γ → Nat)
    (h : ∀ x y, f x = some y → g y = x.2) : ((l.zipIdx.filterMap f).map g).Nodup := by
  rw [List.map_filterMap]
  have : ∀ s, ((l.zipIdx s).filterMap (fun x => (f x).map g)).Nodup ∧
      ∀ k ∈ (l.zipIdx s).filterMap (fun x => (f x).map g), s ≤ k := by
    induction l with
    | nil => intro s; simp
    | cons x l ih =>
      intro s
      rw [List.zipIdx_cons, List.filterMap_cons]
      obtain ⟨i1, i2⟩ := ih (s + 1)
      cases hf : f (x, s) with
      | none => exact ⟨i1, fun k hk => by have := i2 k hk; omega⟩
      | some y =>
        have := h _ _ hf
        simp only [Option.map_some, List.nodup_cons, List.mem_cons, forall_eq_or_imp]
        refine ⟨⟨fun hm => ?_, i1⟩, by omega, fun k hk => by have := i2 k hk; omega⟩
        have := i2 _ hm
        omega
  exact (this 0).1

theorem client_exact {self : MemStore} {p : PeerCnt} {sg : Bool} {view items : List (α × Nat)}
    {order : List (ShufDup α)} (he : Exchanged c key sg view self p) (hf : FromItems items order)
    (hcl : NoClash c key (view.map Prod.fst ++ items.map Prod.fst)) (hi : (items.map Prod.fst).Nodup)
    {found : List (Nat × Nat × Nat)}
    (hp : found.Perm ((((order.map (recOf c key)).map sent).zipIdx).filterMap (hit self))) :
    ExactIndex view items (found.map (fun x => (x.1, x.2.2))) where
  nodup := by
    have hk : (found.map (fun x => x.2.1)).Nodup := by
      rw [(hp.map _).nodup_iff]
      apply zipIdx_filterMap_nodup
      intro x y h
      simp only [hit, Option.map_eq_some_iff] at h
      obtain ⟨_, _, rfl⟩ := h
      rfl
    have hfn : found.Nodup := List.Nodup.of_map _ hk
    rw [List.map_map]
    refine List.Nodup.map_on ?_ hfn
    rintro ⟨i, k, d⟩ h1 ⟨i', k', d'⟩ h2 e
    simp only [Function.comp_apply] at e
    subst e
    obtain ⟨x, y, a1, a2, a3, a4⟩ := (found_iff he hf hcl hp _ _ _).mp h1
    obtain ⟨x', y', b1, b2, b3, b4⟩ := (found_iff he hf hcl hp _ _ _).mp h2
    rw [a2] at b2
    cases b2
    have hkeys : (order.map ShufDup.item).Nodup := by
      have h3 := (hf.perm.map Prod.fst).nodup_iff.mpr hi
      rw [List.map_map] at h3
      exact h3
    obtain ⟨ka, ea⟩ := List.getElem?_eq_some_iff.mp a1
    obtain ⟨kb, eb⟩ := List.getElem?_eq_some_iff.mp b1
    have hkk : k = k' := by
      have := (List.nodup_iff_injective_getElem.mp hkeys) (a₁ := ⟨k, by simpa using ka⟩)
        (a₂ := ⟨k', by simpa using kb⟩) (by simp [ea, eb, a3, b3])
      simpa using this
    subst hkk
    rw [a1] at b1
    cases b1
    simp [← a4, ← b4]
  mem := by
    intro i d
    rw [List.mem_map]
    constructor
    · rintro ⟨⟨i', k, d'⟩, h1, e⟩
      simp only [Prod.mk.injEq] at e
      obtain ⟨rfl, rfl⟩ := e
      obtain ⟨x, y, a1, a2, a3, a4⟩ := (found_iff he hf hcl hp _ _ _).mp h1
      refine ⟨y.1, y.2, a2, ?_⟩
      have := List.mem_of_getElem? (hf.get (List.mem_of_getElem? a1))
      rw [a3, a4] at this
      exact this
    · rintro ⟨x, e, h1, h2⟩
      obtain ⟨j, hj, ej⟩ := List.mem_iff_getElem.mp h2
      obtain ⟨z, hz, -, ez, ed⟩ := hf.ex (List.getElem?_eq_some_iff.mpr ⟨hj, ej⟩)
      obtain ⟨k, hk, ek⟩ := List.mem_iff_getElem.mp hz
      refine ⟨(i, k, d), (found_iff he hf hcl hp _ _ _).mpr ⟨z, (x, e), ?_, h1, ez, ed⟩, rfl⟩
      exact List.getElem?_eq_some_iff.mpr ⟨hk, ek⟩

theorem server_exact {self : MemStore} {p : PeerCnt} {view items : List (α × Nat)}
    {order : List (ShufDup α)} (he : Exchanged c key true view self p) (hf : FromItems items order)
    (hcl : NoClash c key (view.map Prod.fst ++ items.map Prod.fst))
    {found : List (Nat × Nat × Nat)}
    (hp : found.Perm ((((order.map (recOf c key)).map sent).zipIdx).filterMap (hit self)))
    {s : ServerCache} (hs : CacheOf s (order.map (recOf c key))) (batch : Nat) (hb : 0 < batch) :
    ∃ w, rowIndexes s batch (countMap p (found.map (fun x => (x.2.1, x.1)))) = .ok w ∧
      ExactIndex items view w := by
  have hcm : countMap p (found.map (fun x => (x.2.1, x.1)))
      = (found.map (fun x => (x.2.1, dupAt p.dup x.1))).reverse := by
    rw [countMap, List.map_map]; rfl
  have hkeys : ((countMap p (found.map (fun x => (x.2.1, x.1)))).map Prod.fst).Nodup := by
    rw [hcm, List.map_reverse, List.nodup_reverse, List.map_map]
    show (found.map (fun x => x.2.1)).Nodup
    rw [(hp.map _).nodup_iff]
    apply zipIdx_filterMap_nodup
    intro x y h
    simp only [hit, Option.map_eq_some_iff] at h
    obtain ⟨_, _, rfl⟩ := h
    rfl
  have hlook : ∀ k n, (countMap p (found.map (fun x => (x.2.1, x.1)))).lookup k = some n ↔
      ∃ (x : ShufDup α) (y : α × Nat) (i : Nat), order[k]? = some x ∧ view[i]? = some y ∧ x.item = y.1 ∧ y.2 = n := by
    intro k n
    rw [lookup_iff _ hkeys, hcm, List.mem_reverse, List.mem_map]
    constructor
    · rintro ⟨⟨i, k', d⟩, h1, e⟩
      simp only [Prod.mk.injEq] at e
      obtain ⟨rfl, rfl⟩ := e
      obtain ⟨x, y, a1, a2, a3, a4⟩ := (found_iff he hf hcl hp _ _ _).mp h1
      exact ⟨x, y, i, a1, a2, a3, (he.dup rfl i y a2).symm⟩
    · rintro ⟨x, y, i, a1, a2, a3, rfl⟩
      exact ⟨(i, k, x.dup), (found_iff he hf hcl hp _ _ _).mpr ⟨x, y, a1, a2, a3, rfl⟩, by
        rw [he.dup rfl i y a2]⟩
  generalize hM : countMap p (found.map (fun x => (x.2.1, x.1))) = M at *
  have hfl := pieces_flatten batch hb ((order.map (recOf c key)).length + 1) (order.map (recOf c key)) (by omega)
  refine ⟨(order.map (recOf c key)).filterMap (fun r => (M.lookup r.origin).map (fun n => (r.shuffle, n))), ?_, ?_⟩
  · rw [rowIndexes, openCache_ok hs]
    dsimp only
    rw [drain_cache hs batch hb]
    dsimp only
    rw [hfl]
  · have hpos : ∀ (k : Nat) (x : ShufDup α), order[k]? = some x → x.pos = k := by
      intro k x hx
      have : (order.map ShufDup.pos)[k]? = some x.pos := by rw [List.getElem?_map, hx]; rfl
      rw [hf.pos] at this
      obtain ⟨h1, h2⟩ := List.getElem?_eq_some_iff.mp this
      rw [List.getElem_range] at h2
      exact h2.symm
    constructor
    · rw [List.filterMap_map, List.map_filterMap]
      have hsub : (order.filterMap (fun x => (((fun r : Rec => (M.lookup r.origin).map (fun n => (r.shuffle, n))) ∘ recOf c key) x).map
          Prod.fst)).Sublist (order.map ShufDup.orig) := by
        clear hf hp hs hfl hpos hlook
        induction order with
        | nil => simp
        | cons x order ih =>
          rw [List.filterMap_cons, List.map_cons]
          simp only [Function.comp_apply, recOf]
          cases M.lookup x.pos with
          | none => exact (ih).cons _
          | some n => exact (ih).cons_cons _
      exact hf.orig_nodup.sublist hsub
    · intro j n
      rw [List.mem_filterMap]
      constructor
      · rintro ⟨r, hr, e⟩
        obtain ⟨x, hx, rfl⟩ := List.mem_map.mp hr
        obtain ⟨k, hk, ek⟩ := List.mem_iff_getElem.mp hx
        have hx' : order[k]? = some x := List.getElem?_eq_some_iff.mpr ⟨hk, ek⟩
        simp only [recOf, Option.map_eq_some_iff, Prod.mk.injEq] at e
        obtain ⟨n', hl, rfl, rfl⟩ := e
        rw [hpos k x hx', hlook] at hl
        obtain ⟨x2, y, i, b1, b2, b3, b4⟩ := hl
        rw [hx'] at b1
        cases b1
        refine ⟨x.item, x.dup, hf.get hx, ?_⟩
        rw [b3, ← b4]
        exact List.mem_of_getElem? b2
      · rintro ⟨x, e, h1, h2⟩
        obtain ⟨z, hz, e1, e2, e3⟩ := hf.ex h1
        obtain ⟨k, hk, ek⟩ := List.mem_iff_getElem.mp hz
        have hz' : order[k]? = some z := List.getElem?_eq_some_iff.mpr ⟨hk, ek⟩
        obtain ⟨i, hi, ei⟩ := List.mem_iff_getElem.mp h2
        refine ⟨recOf c key z, List.mem_map_of_mem hz, ?_⟩
        simp only [recOf, Option.map_eq_some_iff, Prod.mk.injEq]
        refine ⟨n, ?_, e1, rfl⟩
        rw [hpos k z hz', hlook]
        exact ⟨z, (x, n), i, hz', List.getElem?_eq_some_iff.mpr ⟨hi, ei⟩, e2, rfl⟩

end Psi.UbPsi
