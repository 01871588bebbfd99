import Verif.ThresholdUb.Model
import Verif.UbPsi.Props
import Verif.Threshold.Spec

/-!
# Lemmas about unbalanced PSI with a threshold
-/

namespace Psi.ThresholdUb
open Psi.Ecdh (Bytes dupAt)
open Psi.UbPsi
open Psi.Spec (peerRows ExactIndex)
open Psi.Provider (ShufDup)
open Psi.Threshold (commonKeys Choice only)

variable {α G : Type} [AddCommGroup G] {c : Curve α G} [DecidableEq α] {key : Bytes}

theorem mapE_all {β γ : Type} (f : β → Except Err γ) (g : β → γ) (l : List β) (h : ∀ x ∈ l, f x = .ok (g x)) :
    mapE f l = .ok (l.map g) := by
  induction l with
  | nil => rfl
  | cons x l ih =>
    rw [mapE, h x (by simp)]
    dsimp only
    rw [ih (fun y hy => h y (by simp [hy]))]
    rfl

/-- The keys of found lines, by their cache index. -/
def keysOf (order : List (ShufDup α)) (found : List (Nat × Nat × Nat)) : List α :=
  found.filterMap (fun x => (order[x.2.1]?).map ShufDup.item)

omit [DecidableEq α] in
theorem mem_keysOf {order : List (ShufDup α)} {found : List (Nat × Nat × Nat)} {x : α} :
    x ∈ keysOf order found ↔ ∃ i k d z, (i, k, d) ∈ found ∧ order[k]? = some z ∧ z.item = x := by
  rw [keysOf, List.mem_filterMap]
  constructor
  · rintro ⟨⟨i, k, d⟩, h1, h2⟩
    obtain ⟨z, hz, e⟩ := Option.map_eq_some_iff.mp h2
    exact ⟨i, k, d, z, h1, hz, e⟩
  · rintro ⟨i, k, d, z, h1, hz, e⟩
    exact ⟨(i, k, d), h1, Option.map_eq_some_iff.mpr ⟨z, hz, e⟩⟩

/-- What is known of the lines found, before and after the cut. -/
structure Lines (view : List (α × Nat)) (order : List (ShufDup α)) (found : List (Nat × Nat × Nat)) : Prop where
  cacheNodup : (found.map (fun x => x.2.1)).Nodup
  sound : ∀ i k d, (i, k, d) ∈ found → ∃ x y, order[k]? = some x ∧ view[i]? = some y ∧ x.item = y.1 ∧ x.dup = d
  complete : ∀ i k d x y, order[k]? = some x → view[i]? = some y → x.item = y.1 → x.dup = d →
    x.item ∈ keysOf order found → (i, k, d) ∈ found

omit [DecidableEq α] in
theorem order_inj {order : List (ShufDup α)} (h : (order.map ShufDup.item).Nodup) {k k' : Nat} {x x' : ShufDup α}
    (h1 : order[k]? = some x) (h2 : order[k']? = some x') (e : x.item = x'.item) : k = k' := by
  obtain ⟨ka, ea⟩ := List.getElem?_eq_some_iff.mp h1
  obtain ⟨kb, eb⟩ := List.getElem?_eq_some_iff.mp h2
  have := (List.nodup_iff_injective_getElem.mp h) (a₁ := ⟨k, by simpa using ka⟩)
    (a₂ := ⟨k', by simpa using kb⟩) (by simp [ea, eb, e])
  simpa using this

omit [DecidableEq α] in
theorem nodup_inj {β γ : Type} {l : List β} {f : β → γ} (h : (l.map f).Nodup) {x y : β} (hx : x ∈ l) (hy : y ∈ l)
    (e : f x = f y) : x = y := List.inj_on_of_nodup_map h hx hy e

omit [DecidableEq α] in
/-- A cut of lines is again of this kind. -/
theorem Lines.sublist {view : List (α × Nat)} {order : List (ShufDup α)} {found found' : List (Nat × Nat × Nat)}
    (h : Lines view order found) (hi : (order.map ShufDup.item).Nodup) (hs : found'.Sublist found) :
    Lines view order found' where
  cacheNodup := h.cacheNodup.sublist (hs.map _)
  sound i k d hm := h.sound i k d (hs.subset hm)
  complete := by
    intro i k d x y h1 h2 h3 h4 h5
    obtain ⟨i', k', d', z, m, hz, e⟩ := mem_keysOf.mp h5
    have hk : k' = k := order_inj hi hz h1 e
    subst hk
    have hx : x.item ∈ keysOf order found := mem_keysOf.mpr ⟨i', k', d', z, hs.subset m, hz, e⟩
    have := h.complete i k' d x y h1 h2 h3 h4 hx
    have e2 := nodup_inj h.cacheNodup this (hs.subset m) rfl
    rw [e2]; exact m

omit [DecidableEq α] in
theorem keysOf_length {view : List (α × Nat)} {order : List (ShufDup α)} {found : List (Nat × Nat × Nat)}
    (h : ∀ i k d, (i, k, d) ∈ found → ∃ x y, order[k]? = some x ∧ view[i]? = some y ∧ x.item = y.1 ∧ x.dup = d) :
    (keysOf order found).length = found.length := by
  induction found with
  | nil => rfl
  | cons f found ih =>
    obtain ⟨i, k, d⟩ := f
    obtain ⟨x, y, hx, -⟩ := h i k d (by simp)
    have := ih (fun i k d hm => h i k d (by simp [hm]))
    rw [keysOf, List.filterMap_cons]
    simp only [hx, Option.map_some, List.length_cons]
    rw [← this]; rfl

omit [DecidableEq α] in
theorem keysOf_nodup {order : List (ShufDup α)} {found : List (Nat × Nat × Nat)}
    (hi : (order.map ShufDup.item).Nodup) (h : (found.map (fun x => x.2.1)).Nodup) : (keysOf order found).Nodup := by
  induction found with
  | nil => simp [keysOf]
  | cons f found ih =>
    simp only [List.map_cons, List.nodup_cons] at h
    rw [keysOf, List.filterMap_cons]
    cases hf : order[f.2.1]? with
    | none => exact ih h.2
    | some x =>
      simp only [Option.map_some, List.nodup_cons]
      refine ⟨fun hm => ?_, ih h.2⟩
      obtain ⟨i, k, d, z, m, hz, e⟩ := mem_keysOf.mp hm
      have := order_inj hi hz hf e
      exact h.1 (List.mem_map.mpr ⟨_, m, this⟩)

theorem keysOf_common {view client items : List (α × Nat)} {order : List (ShufDup α)}
    {found : List (Nat × Nat × Nat)} (hl : Lines view order found) (hf : FromItems items order)
    (hv : view.Perm client) {x : α} (hx : x ∈ keysOf order found) : x ∈ commonKeys client items := by
  obtain ⟨i, k, d, z, m, hz, rfl⟩ := mem_keysOf.mp hx
  obtain ⟨x, y, h1, h2, h3, -⟩ := hl.sound i k d m
  rw [hz] at h1
  cases h1
  rw [commonKeys, List.mem_filter]
  refine ⟨?_, ?_⟩
  · rw [h3]
    exact List.mem_map_of_mem (hv.mem_iff.mp (List.mem_of_getElem? h2))
  · simp only [decide_eq_true_eq]
    have := List.mem_of_getElem? (hf.get (List.mem_of_getElem? hz))
    exact List.mem_map.mpr ⟨_, this, rfl⟩

/-- The keys kept by a cut are a legal choice if the lines before the cut cover all common keys. -/
theorem choice {view client items : List (α × Nat)} {order : List (ShufDup α)}
    {found : List (Nat × Nat × Nat)} (hl : Lines view order found) (hi : (order.map ShufDup.item).Nodup)
    (hf : FromItems items order) (hv : view.Perm client) (hc : (client.map Prod.fst).Nodup)
    (hall : ∀ i k d x y, order[k]? = some x → view[i]? = some y → x.item = y.1 → x.dup = d → (i, k, d) ∈ found)
    (t : Nat) :
    Choice t client items (keysOf order (limit t found)) ∧ found.length = (commonKeys client items).length := by
  have hlen : found.length = (commonKeys client items).length := by
    rw [← keysOf_length hl.sound]
    apply List.Perm.length_eq
    refine (List.perm_ext_iff_of_nodup (keysOf_nodup hi hl.cacheNodup) (hc.filter _)).mpr ?_
    intro x
    refine ⟨fun hx => keysOf_common hl hf hv hx, ?_⟩
    intro hx
    obtain ⟨h1, h2⟩ := List.mem_filter.mp hx
    simp only [decide_eq_true_eq] at h2
    obtain ⟨⟨x', e⟩, m1, rfl⟩ := List.mem_map.mp h1
    obtain ⟨⟨x2, d⟩, m2, e2⟩ := List.mem_map.mp h2
    simp only at e2
    subst e2
    obtain ⟨i, hi', ei⟩ := List.mem_iff_getElem.mp (hv.mem_iff.mpr m1)
    obtain ⟨j, hj, ej⟩ := List.mem_iff_getElem.mp m2
    obtain ⟨z, hz, -, ez, ed⟩ := hf.ex (List.getElem?_eq_some_iff.mpr ⟨hj, ej⟩)
    obtain ⟨k, hk, ek⟩ := List.mem_iff_getElem.mp hz
    have hk' := List.getElem?_eq_some_iff.mpr ⟨hk, ek⟩
    exact mem_keysOf.mpr ⟨i, k, d, z,
      hall i k d z _ hk' (List.getElem?_eq_some_iff.mpr ⟨hi', ei⟩) ez ed, hk', ez⟩
  have hsub : (limit t found).Sublist found := List.take_sublist _ _
  have hl' := hl.sublist hi hsub
  refine ⟨⟨keysOf_nodup hi hl'.cacheNodup, fun x hx => keysOf_common hl' hf hv hx, ?_⟩, hlen⟩
  rw [keysOf_length hl'.sound, limit, List.length_take, hlen]
  omega

/-- The client's lines, after restoration. -/
theorem client_lines {view client items : List (α × Nat)} {order : List (ShufDup α)}
    {found : List (Nat × Nat × Nat)} (hl : Lines view order found) (hi : (order.map ShufDup.item).Nodup)
    (hf : FromItems items order) {ix : List Nat} (hix : ix.Perm (List.range client.length))
    (hv : view = pick client ix) (perm : Nat → List Nat) (hp : perm client.length = ix) :
    ∃ w, clientLines perm client.length found = .ok w ∧
      ExactIndex client (only (keysOf order found) items) w := by
  have hlt : ∀ i ∈ ix, i < client.length := by
    intro i hi; simpa using hix.mem_iff.mp hi
  have hnd : ix.Nodup := hix.nodup_iff.mpr List.nodup_range
  have hview : ∀ i : Nat, view[i]? = (ix[i]?).bind (fun j => client[j]?) := by
    intro i; rw [hv, pick_get _ _ hlt]
  have hmem : ∀ f ∈ found, ∃ j, ix[f.1]? = some j ∧ client[j]? = view[f.1]? := by
    rintro ⟨i, k, d⟩ hm
    obtain ⟨x, y, -, h2, -⟩ := hl.sound i k d hm
    rw [hview] at h2
    obtain ⟨j, hj, e⟩ := Option.bind_eq_some_iff.mp h2
    exact ⟨j, hj, by rw [hview]; simp [hj]⟩
  have hr : restoreIndexes perm client.length (found.map (fun x => x.1))
      = .ok (found.map (fun x => (ix[x.1]?).getD 0)) := by
    rw [restoreIndexes, hp, mapE_all (elemAt ix) (fun i => (ix[i]?).getD 0)]
    · rw [List.map_map]; rfl
    · intro i hi
      obtain ⟨f, hm, rfl⟩ := List.mem_map.mp hi
      obtain ⟨j, hj, -⟩ := hmem f hm
      rw [elemAt, hj]; rfl
  refine ⟨found.map (fun x => ((ix[x.1]?).getD 0, x.2.2)), ?_, ?_, ?_⟩
  · rw [clientLines, hr]
    simp only [List.length_map, ne_eq, not_true_eq_false, if_false]
    rw [List.zip_map']
  · rw [List.map_map]
    refine List.Nodup.map_on ?_ (List.Nodup.of_map _ hl.cacheNodup)
    rintro ⟨i, k, d⟩ h1 ⟨i', k', d'⟩ h2 e
    simp only [Function.comp_apply] at e
    obtain ⟨j, hj, -⟩ := hmem _ h1
    obtain ⟨j', hj', -⟩ := hmem _ h2
    rw [hj, hj'] at e
    simp only [Option.getD_some] at e
    subst e
    obtain ⟨a, ea⟩ := List.getElem?_eq_some_iff.mp hj
    obtain ⟨b, eb⟩ := List.getElem?_eq_some_iff.mp hj'
    have hii : i = i' := (List.getElem_inj hnd).mp (ea.trans eb.symm)
    subst hii
    obtain ⟨x, y, a1, a2, a3, -⟩ := hl.sound _ _ _ h1
    obtain ⟨x', y', b1, b2, b3, -⟩ := hl.sound _ _ _ h2
    rw [a2] at b2
    cases b2
    have hkk := order_inj hi a1 b1 (a3.trans b3.symm)
    exact nodup_inj hl.cacheNodup h1 h2 hkk
  · intro j d
    rw [List.mem_map]
    constructor
    · rintro ⟨⟨i, k, d'⟩, h1, e⟩
      obtain ⟨j', hj', hc⟩ := hmem _ h1
      rw [hj'] at e
      simp only [Option.getD_some, Prod.mk.injEq] at e
      obtain ⟨rfl, rfl⟩ := e
      obtain ⟨x, y, a1, a2, a3, a4⟩ := hl.sound _ _ _ h1
      refine ⟨y.1, y.2, hc.trans a2, List.mem_filter.mpr ⟨?_, ?_⟩⟩
      · have := List.mem_of_getElem? (hf.get (List.mem_of_getElem? a1))
        rw [a3, a4] at this
        exact this
      · simp only [decide_eq_true_eq]
        rw [← a3]
        exact mem_keysOf.mpr ⟨i, k, d', x, h1, a1, rfl⟩
    · rintro ⟨x, e, h1, h2⟩
      obtain ⟨h3, h4⟩ := List.mem_filter.mp h2
      simp only [decide_eq_true_eq] at h4
      obtain ⟨i, k, d', z, m, hz, ez⟩ := mem_keysOf.mp h4
      have hj : j ∈ ix := by
        rw [hix.mem_iff]; simpa using (List.getElem?_eq_some_iff.mp h1).1
      obtain ⟨i', hi', ei⟩ := List.mem_iff_getElem.mp hj
      have hji := List.getElem?_eq_some_iff.mpr ⟨hi', ei⟩
      have hvi : view[i']? = some (x, e) := by rw [hview, hji]; exact h1
      obtain ⟨n, hn, en⟩ := List.mem_iff_getElem.mp h3
      obtain ⟨z', hz', -, ez', ed⟩ := hf.ex (List.getElem?_eq_some_iff.mpr ⟨hn, en⟩)
      obtain ⟨k', hk, ek⟩ := List.mem_iff_getElem.mp hz'
      have hk' := List.getElem?_eq_some_iff.mpr ⟨hk, ek⟩
      refine ⟨(i', k', d), hl.complete i' k' d z' _ hk' hvi ez' ed ?_, by simp [hji]⟩
      rw [ez', ← ez]
      exact mem_keysOf.mpr ⟨i, k, d', z, m, hz, rfl⟩

/-- The server's rows for a list of lines. -/
theorem server_rows {p : PeerCnt} {view items : List (α × Nat)} {order : List (ShufDup α)}
    {found : List (Nat × Nat × Nat)} (hl : Lines view order found) (hf : FromItems items order)
    (hdup : ∀ i x, view[i]? = some x → dupAt p.dup i = x.2)
    {s : ServerCache} (hs : CacheOf s (order.map (recOf c key))) (batch : Nat) (hb : 0 < batch) :
    ∃ w, rowIndexes s batch (countMap p (found.map (fun x => (x.2.1, x.1)))) = .ok w ∧
      ExactIndex items (only (keysOf order found) view) w := by
  have hcm : countMap p (found.map (fun x => (x.2.1, x.1)))
      = (found.map (fun x => (x.2.1, dupAt p.dup x.1))).reverse := by
    rw [countMap, List.map_map]; rfl
  have hkeys : ((countMap p (found.map (fun x => (x.2.1, x.1)))).map Prod.fst).Nodup := by
    rw [hcm, List.map_reverse, List.nodup_reverse, List.map_map]
    exact hl.cacheNodup
  have hlook : ∀ k n, (countMap p (found.map (fun x => (x.2.1, x.1)))).lookup k = some n ↔
      ∃ (x : ShufDup α) (y : α × Nat) (i : Nat), order[k]? = some x ∧ view[i]? = some y ∧ x.item = y.1 ∧ y.2 = n ∧
        x.item ∈ keysOf order found := by
    intro k n
    rw [lookup_iff _ hkeys, hcm, List.mem_reverse, List.mem_map]
    constructor
    · rintro ⟨⟨i, k', d⟩, h1, e⟩
      simp only [Prod.mk.injEq] at e
      obtain ⟨rfl, rfl⟩ := e
      obtain ⟨x, y, a1, a2, a3, a4⟩ := hl.sound _ _ _ h1
      exact ⟨x, y, i, a1, a2, a3, (hdup i y a2).symm, mem_keysOf.mpr ⟨i, k', d, x, h1, a1, rfl⟩⟩
    · rintro ⟨x, y, i, a1, a2, a3, rfl, a5⟩
      exact ⟨(i, k, x.dup), hl.complete i k x.dup x y a1 a2 a3 rfl a5, by rw [hdup i y a2]⟩
  generalize hM : countMap p (found.map (fun x => (x.2.1, x.1))) = M at *
  have hfl := pieces_flatten batch hb ((order.map (recOf c key)).length + 1) (order.map (recOf c key)) (by omega)
  refine ⟨(order.map (recOf c key)).filterMap (fun r => (M.lookup r.origin).map (fun n => (r.shuffle, n))), ?_, ?_⟩
  · rw [rowIndexes, openCache_ok hs]
    dsimp only
    rw [drain_cache hs batch hb]
    dsimp only
    rw [hfl]
  · have hpos : ∀ (k : Nat) (x : ShufDup α), order[k]? = some x → x.pos = k := by
      intro k x hx
      have : (order.map ShufDup.pos)[k]? = some x.pos := by rw [List.getElem?_map, hx]; rfl
      rw [hf.pos] at this
      obtain ⟨h1, h2⟩ := List.getElem?_eq_some_iff.mp this
      rw [List.getElem_range] at h2
      exact h2.symm
    constructor
    · rw [List.filterMap_map, List.map_filterMap]
      have hsub : (order.filterMap (fun x => (((fun r : Rec => (M.lookup r.origin).map (fun n => (r.shuffle, n))) ∘ recOf c key) x).map
          Prod.fst)).Sublist (order.map ShufDup.orig) := by
        clear hl hf hs hfl hpos hlook
        induction order with
        | nil => simp
        | cons x order ih =>
          rw [List.filterMap_cons, List.map_cons]
          simp only [Function.comp_apply, recOf]
          cases M.lookup x.pos with
          | none => exact (ih).cons _
          | some n => exact (ih).cons_cons _
      exact hf.orig_nodup.sublist hsub
    · intro j n
      rw [List.mem_filterMap]
      constructor
      · rintro ⟨r, hr, e⟩
        obtain ⟨x, hx, rfl⟩ := List.mem_map.mp hr
        obtain ⟨k, hk, ek⟩ := List.mem_iff_getElem.mp hx
        have hx' : order[k]? = some x := List.getElem?_eq_some_iff.mpr ⟨hk, ek⟩
        simp only [recOf, Option.map_eq_some_iff, Prod.mk.injEq] at e
        obtain ⟨n', hlk, rfl, rfl⟩ := e
        rw [hpos k x hx', hlook] at hlk
        obtain ⟨x2, y, i, b1, b2, b3, b4, b5⟩ := hlk
        rw [hx'] at b1
        cases b1
        refine ⟨x.item, x.dup, hf.get hx, List.mem_filter.mpr ⟨?_, by simpa using b5⟩⟩
        rw [b3, ← b4]
        exact List.mem_of_getElem? b2
      · rintro ⟨x, e, h1, h2⟩
        obtain ⟨h3, h4⟩ := List.mem_filter.mp h2
        simp only [decide_eq_true_eq] at h4
        obtain ⟨z, hz, e1, e2, e3⟩ := hf.ex h1
        obtain ⟨k, hk, ek⟩ := List.mem_iff_getElem.mp hz
        have hz' : order[k]? = some z := List.getElem?_eq_some_iff.mpr ⟨hk, ek⟩
        obtain ⟨i, hi, ei⟩ := List.mem_iff_getElem.mp h3
        refine ⟨recOf c key z, List.mem_map_of_mem hz, ?_⟩
        simp only [recOf, Option.map_eq_some_iff, Prod.mk.injEq]
        refine ⟨n, ?_, e1, rfl⟩
        rw [hpos k z hz', hlook]
        exact ⟨z, (x, n), i, hz', List.getElem?_eq_some_iff.mpr ⟨hi, ei⟩, e2, rfl, by rw [e2]; exact h4⟩

end Psi.ThresholdUb
