import Verif.Threshold.PlanLemmas
import Verif.Ecdh.StoreLemmas

/-! # The lines both parties write, in terms of their items -/

namespace Psi.Threshold
open Psi.Ecdh (Crypto dual2 dual2_eq_iff Bytes)
open Psi.Bucket
open Psi.Spec

variable {α P : Type}

theorem cryptoCfg {r : Run α P} (hx : Crypto r.base) : Crypto r.cfg := ⟨hx.comm, hx.inj⟩

theorem bat_end (r : Run α P) : bat r (r.base.input true).length = [] := by simp [bat]

theorem ordTo_nm {r : Run α P} {L : Nat} (hc : r.Lawful L) : ordTo r (nm r true) = order r := by
  have : nm r true = (r.base.input true).length + 1 := by
    unfold nm Ecdh.allBatches
    rw [List.length_append]; rfl
  rw [this, ordTo_succ]
  have hp : r.perm (r.base.input true).length 0 = [] := List.length_eq_zero_iff.mp (perm_length hc _ 0)
  simp [ordAt, bat_end, hp, order]

theorem selfStore_get {r : Run α P} {L : Nat} (hc : r.Lawful L) (i : Nat) (x : Bytes) (e : Nat) :
    (selfStore r)[i]? = some (x, e) ↔ ∃ a y, (order r)[i]? = some a ∧ (r.items true)[a]? = some y ∧
      x = dual2 r.cfg true y.1 ∧ e = 0 := by
  unfold selfStore
  rw [ordTo_nm hc, List.getElem?_map, Option.map_eq_some_iff]
  constructor
  · rintro ⟨a, ha, he⟩
    have hl := order_lt hc ha
    refine ⟨a, (r.items true)[a], ha, List.getElem?_eq_getElem hl, ?_⟩
    unfold dualAt at he
    rw [List.getElem?_eq_getElem hl] at he
    simp only [Option.map_some, Option.getD_some, Prod.mk.injEq] at he
    exact ⟨he.1.symm, he.2.symm⟩
  · rintro ⟨a, y, ha, hy, rfl, rfl⟩
    exact ⟨a, ha, by simp [dualAt, hy]⟩

theorem peerStore_nodup {r : Run α P} (hx : Crypto r.base) (hd : ((r.items false).map Prod.fst).Nodup) :
    ((peerStore r).map Prod.fst).Nodup := by
  unfold peerStore
  rw [List.map_map]
  have : (fun x : α × Nat => x.1) = Prod.fst := rfl
  have hn : (r.items false).Nodup := List.Nodup.of_map _ hd
  refine List.Nodup.map_on (fun x hx1 y hy1 h => ?_) hn
  have h' := (dual2_eq_iff r.cfg (cryptoCfg hx) false false x y hx1 hy1).mp h
  exact List.inj_on_of_nodup_map hd hx1 hy1 h'

/-- The intersection the receiver finds, before and after the limit. -/
theorem found_eq {r : Run α P} {L : Nat} (hc : r.Lawful L) (hx : Crypto r.base)
    (hd : ((r.items false).map Prod.fst).Nodup) :
    ∃ m : List (Nat × Nat × Nat),
      found r (selfStore r) (peerStore r) = some ⟨m.length, m.take r.threshold⟩ ∧ (m.map (·.1)).Nodup ∧
      m.length < 2 ^ 32 ∧
      ∀ i j d, (i, j, d) ∈ m ↔ ∃ a x e, (order r)[i]? = some a ∧ (r.items true)[a]? = some (x, e) ∧
        (r.items false)[j]? = some (x, d) := by
  obtain ⟨n, hn, h1, h2⟩ := hc.fresh
  have hfS : Fits (selfStore r) := by
    refine ⟨?_, ?_⟩
    · have := hc.few
      have e : (selfStore r).length = (r.items true).length := by
        unfold selfStore; rw [List.length_map, ordTo_nm hc, order_length hc]
      unfold Run.items at e
      omega
    · intro d hdm
      obtain ⟨i, hi⟩ := List.mem_iff_getElem?.mp hdm
      obtain ⟨_, _, _, _, _, h0⟩ := (selfStore_get hc i d.1 d.2).mp hi
      rw [h0]; decide
  have hfP : Fits (peerStore r) := by
    refine ⟨?_, ?_⟩
    · have := hc.fewPeer
      simp only [peerStore, List.length_map, Run.items]; omega
    · intro d hdm
      obtain ⟨x, hxm, rfl⟩ := List.mem_map.mp hdm
      exact hc.dup x hxm
  obtain ⟨m, hm, hs⟩ := found_loads r.threshold r.bucketHash n hn
    ((Cache.fresh n).writeAll r.bucketHash (selfStore r)) ((Cache.fresh n).writeAll r.bucketHash (peerStore r))
    (itemsFrom 0 (selfStore r)) (itemsFrom 0 (peerStore r))
    (fun b hb => load_fresh r.bucketHash n _ hfS b hb) (fun b hb => load_fresh r.bucketHash n _ hfP b hb)
  have hmem : ∀ i j d, (i, j, d) ∈ m ↔ ∃ a x e, (order r)[i]? = some a ∧ (r.items true)[a]? = some (x, e) ∧
        (r.items false)[j]? = some (x, d) := by
    intro i j d
    rw [hm.mem_iff, mem_matchesOf _ _ (peerStore_nodup hx hd)]
    constructor
    · rintro ⟨x, e, hi, hj⟩
      obtain ⟨a, y, ha, hy, rfl, _⟩ := (selfStore_get hc i x e).mp hi
      unfold peerStore at hj
      rw [List.getElem?_map, Option.map_eq_some_iff] at hj
      obtain ⟨z, hz, he⟩ := hj
      simp only [Prod.mk.injEq] at he
      have := (dual2_eq_iff r.cfg (cryptoCfg hx) false true z y (List.mem_of_getElem? hz) (List.mem_of_getElem? hy)).mp he.1
      refine ⟨a, y.1, y.2, ha, hy, ?_⟩
      rw [hz, ← this, ← he.2]
    · rintro ⟨a, x, e, ha, hy, hz⟩
      refine ⟨dual2 r.cfg true x, 0, (selfStore_get hc i _ _).mpr ⟨a, (x, e), ha, hy, rfl, rfl⟩, ?_⟩
      unfold peerStore
      rw [List.getElem?_map, hz]
      simp only [Option.map_some, Option.some.injEq, Prod.mk.injEq, and_true]
      exact (dual2_eq_iff r.cfg (cryptoCfg hx) false true (x, d) (x, e) (List.mem_of_getElem? hz)
        (List.mem_of_getElem? hy)).mpr rfl
  have hnd : (m.map (·.1)).Nodup := (hm.map _).nodup_iff.mpr (matchesOf_nodup _ _)
  have hlt : ∀ p ∈ m.map (·.1), p < (r.items true).length := by
    intro p hp
    obtain ⟨⟨i, j, d⟩, ht, rfl⟩ := List.mem_map.mp hp
    obtain ⟨a, _, _, ha, _⟩ := (hmem i j d).mp ht
    have := (List.getElem?_eq_some_iff.mp ha).1
    rwa [order_length hc] at this
  have hfew : (r.items true).length < 2 ^ 32 := hc.few
  have hlen : m.length < 2 ^ 32 := by
    have h3 : (m.map (·.1)).toFinset ⊆ Finset.range (r.items true).length := by
      intro p hp
      exact Finset.mem_range.mpr (hlt p (List.mem_toFinset.mp hp))
    have h4 := Finset.card_le_card h3
    rw [List.toFinset_card_of_nodup hnd, Finset.card_range, List.length_map] at h4
    omega
  have hcast : m.map cast32 = m := by
    conv_rhs => rw [← List.map_id m]
    refine List.map_congr_left (fun t ht => ?_)
    obtain ⟨i, j, d⟩ := t
    obtain ⟨a, x, e, _, _, hj⟩ := (hmem i j d).mp ht
    have h5 := (List.getElem?_eq_some_iff.mp hj).1
    have h6 : (r.items false).length ≤ 2 ^ 32 := hc.fewPeer
    have h7 := hlt i (List.mem_map.mpr ⟨_, ht, rfl⟩)
    unfold cast32
    simp only [id]
    rw [Nat.mod_eq_of_lt (by omega), Nat.mod_eq_of_lt (by omega)]
  refine ⟨m, ?_, hnd, hlen, hmem⟩
  unfold found
  rw [h1, h2]
  show (if ((Cache.fresh n).writeAll r.bucketHash (selfStore r)).files.length =
    ((Cache.fresh n).writeAll r.bucketHash (peerStore r)).files.length then
    scanBins r.threshold ((Cache.fresh n).writeAll r.bucketHash (selfStore r))
      ((Cache.fresh n).writeAll r.bucketHash (peerStore r)) 0
      ((Cache.fresh n).writeAll r.bucketHash (selfStore r)).files.length ⟨0, []⟩ else none) = _
  have e1 : ∀ s, ((Cache.fresh n).writeAll r.bucketHash s).files.length = n := by
    intro s
    rw [(writeAll_files r.bucketHash s (Cache.fresh n)).1]; simp [Cache.fresh, Cache.openDir]
  rw [e1, e1, if_pos rfl, hs, hcast, Nat.mod_eq_of_lt hlen]

/-- The sender's answer: original position and the count stored for the shuffled position. -/
theorem answer_eq {r : Run α P} {L : Nat} (hc : r.Lawful L) (f : Found) (hnd : (f.lines.map (·.1)).Nodup)
    (hlt : ∀ x ∈ f.lines, x.1 < (order r).length) :
    answer r f = f.lines.map (fun x => ((order r)[x.1]?.getD 0, dupOf r x.1)) := by
  unfold answer
  rw [restore_eq (fun p => ((order r)[p]?.getD 0, dupOf r p)) _ _ hnd, List.map_map]
  · rfl
  · intro p hp
    obtain ⟨x, hxm, rfl⟩ := List.mem_map.mp hp
    have := hlt x hxm
    simpa [cacheTo, ordTo_nm hc] using this
  · intro p hp
    have hp' : p < (order r).length := by simpa [cacheTo, ordTo_nm hc] using hp
    simp [cacheTo, ordTo_nm hc, entryAt, hp']

/-! ## From positions to keys -/

theorem key_inj {l : List (α × Nat)} (h : (l.map Prod.fst).Nodup) {i j : Nat} {x : α} {e e' : Nat}
    (hi : l[i]? = some (x, e)) (hj : l[j]? = some (x, e')) : i = j := by
  obtain ⟨h1, h2⟩ := List.getElem?_eq_some_iff.mp hi
  obtain ⟨h3, h4⟩ := List.getElem?_eq_some_iff.mp hj
  refine (List.getElem_inj (i := i) (j := j) (h₀ := by simpa using h1) (h₁ := by simpa using h3) h).mp ?_
  simp [h2, h4]

theorem order_inj {r : Run α P} {L : Nat} (hc : r.Lawful L) {i j a : Nat} (hi : (order r)[i]? = some a)
    (hj : (order r)[j]? = some a) : i = j := by
  obtain ⟨h1, h2⟩ := List.getElem?_eq_some_iff.mp hi
  obtain ⟨h3, h4⟩ := List.getElem?_eq_some_iff.mp hj
  exact (List.getElem_inj (order_nodup hc)).mp (h2.trans h4.symm)

/-- The matches `S`: distinct, each from an item of the receiver and one of the sender with the same key. -/
structure Sound (r : Run α P) (S : List (Nat × Nat × Nat)) : Prop where
  nodup : (S.map (·.1)).Nodup
  ok : ∀ i j d, (i, j, d) ∈ S → ∃ a x e, (order r)[i]? = some a ∧ (r.items true)[a]? = some (x, e) ∧
        (r.items false)[j]? = some (x, d)

/-- The key of a match. -/
def keyOf (r : Run α P) (x : Nat × Nat × Nat) : Option α := (r.items false)[x.2.1]?.map Prod.fst

theorem exists_keys {r : Run α P} {S : List (Nat × Nat × Nat)} (h : Sound r S) :
    ∃ T : List α, T.map some = S.map (keyOf r) := by
  have hs : ∀ x ∈ S, ∃ k, keyOf r x = some k := by
    rintro ⟨i, j, d⟩ hx
    obtain ⟨_, x, _, _, _, hj⟩ := h.ok i j d hx
    exact ⟨x, by simp [keyOf, hj]⟩
  clear h
  induction S with
  | nil => exact ⟨[], rfl⟩
  | cons x S ih =>
    obtain ⟨k, hk⟩ := hs x (List.mem_cons_self ..)
    obtain ⟨T, hT⟩ := ih (fun y hy => hs y (List.mem_cons_of_mem _ hy))
    exact ⟨k :: T, by simp [hk, hT]⟩

theorem mem_keys {r : Run α P} {S : List (Nat × Nat × Nat)} (h : Sound r S) {T : List α}
    (hT : T.map some = S.map (keyOf r)) (x : α) :
    x ∈ T ↔ ∃ i j d a e, (i, j, d) ∈ S ∧ (order r)[i]? = some a ∧ (r.items true)[a]? = some (x, e) ∧
      (r.items false)[j]? = some (x, d) := by
  have h1 : x ∈ T ↔ some x ∈ S.map (keyOf r) := by rw [← hT]; simp
  rw [h1]
  constructor
  · intro hm
    obtain ⟨⟨i, j, d⟩, hx, he⟩ := List.mem_map.mp hm
    obtain ⟨a, y, e, ha, hy, hj⟩ := h.ok i j d hx
    have : y = x := by simpa [keyOf, hj] using he
    subst this
    exact ⟨i, j, d, a, e, hx, ha, hy, hj⟩
  · rintro ⟨i, j, d, a, e, hx, _, _, hj⟩
    exact List.mem_map.mpr ⟨_, hx, by simp [keyOf, hj]⟩

theorem Sound.inj {r : Run α P} {S : List (Nat × Nat × Nat)} (h : Sound r S) {i j d j' d' : Nat}
    (h1 : (i, j, d) ∈ S) (h2 : (i, j', d') ∈ S) : j = j' ∧ d = d' := by
  have := List.inj_on_of_nodup_map h.nodup h1 h2 rfl
  simpa using this

theorem keys_nodup {r : Run α P} {L : Nat} (hc : r.Lawful L) (hd : ((r.items true).map Prod.fst).Nodup)
    {S : List (Nat × Nat × Nat)} (h : Sound r S) {T : List α} (hT : T.map some = S.map (keyOf r)) : T.Nodup := by
  refine List.Nodup.of_map some ?_
  rw [hT]
  refine List.Nodup.map_on ?_ (List.Nodup.of_map _ h.nodup)
  rintro ⟨i, j, d⟩ hx ⟨i', j', d'⟩ hx' he
  obtain ⟨a, y, e, ha, hy, hj⟩ := h.ok i j d hx
  obtain ⟨a', y', e', ha', hy', hj'⟩ := h.ok i' j' d' hx'
  have : y = y' := by simpa [keyOf, hj, hj'] using he
  subst this
  have e1 := key_inj hd hy hy'
  subst e1
  have e2 := order_inj hc ha ha'
  subst e2
  obtain ⟨rfl, rfl⟩ := h.inj hx hx'
  rfl

theorem Sound.take {r : Run α P} {S : List (Nat × Nat × Nat)} (h : Sound r S) (t : Nat) : Sound r (S.take t) :=
  ⟨by rw [List.map_take]; exact h.nodup.sublist (List.take_sublist _ _),
    fun i j d hx => h.ok i j d (List.mem_of_mem_take hx)⟩

/-- The receiver's lines. -/
theorem receiver_exact [DecidableEq α] {r : Run α P} {L : Nat} (hc : r.Lawful L)
    (hd : ∀ p, ((r.items p).map Prod.fst).Nodup) {S : List (Nat × Nat × Nat)} (h : Sound r S) {T : List α}
    (hT : T.map some = S.map (keyOf r)) :
    ExactIndex (r.items true) (only T (r.items false)) (S.map (fun x => ((order r)[x.1]?.getD 0, x.2.2))) where
  nodup := by
    rw [List.map_map]
    refine List.Nodup.map_on ?_ (List.Nodup.of_map _ h.nodup)
    rintro ⟨i, j, d⟩ hx ⟨i', j', d'⟩ hx' he
    obtain ⟨a, y, e, ha, -, -⟩ := h.ok i j d hx
    obtain ⟨a', y', e', ha', -, -⟩ := h.ok i' j' d' hx'
    have : a = a' := by simpa [ha, ha'] using he
    subst this
    have e2 := order_inj hc ha ha'
    subst e2
    obtain ⟨rfl, rfl⟩ := h.inj hx hx'
    rfl
  mem b c := by
    constructor
    · intro hm
      obtain ⟨⟨i, j, d⟩, hx, he⟩ := List.mem_map.mp hm
      obtain ⟨a, y, e, ha, hy, hj⟩ := h.ok i j d hx
      simp only [ha, Option.getD_some, Prod.mk.injEq] at he
      obtain ⟨rfl, rfl⟩ := he
      refine ⟨y, e, hy, List.mem_filter.mpr ⟨List.mem_of_getElem? hj, ?_⟩⟩
      simpa using (mem_keys h hT y).mpr ⟨i, j, d, a, e, hx, ha, hy, hj⟩
    · rintro ⟨x, e, hb, hm⟩
      obtain ⟨hm1, hm2⟩ := List.mem_filter.mp hm
      obtain ⟨i, j, d, a, e', hx, ha, hy, hj⟩ := (mem_keys h hT x).mp (by simpa using hm2)
      have e1 := key_inj (hd true) hy hb
      subst e1
      obtain ⟨j', hj'⟩ := List.mem_iff_getElem?.mp hm1
      have e2 := key_inj (hd false) hj hj'
      subst e2
      have e3 : d = c := by simpa [hj] using hj'
      subst e3
      exact List.mem_map.mpr ⟨(i, j, d), hx, by simp [ha]⟩

/-- The sender's positions. -/
theorem sender_positions [DecidableEq α] {r : Run α P} {L : Nat} (hc : r.Lawful L)
    (hd : ∀ p, ((r.items p).map Prod.fst).Nodup) {S : List (Nat × Nat × Nat)} (h : Sound r S) {T : List α}
    (hT : T.map some = S.map (keyOf r)) (g : Nat → Nat) :
    ExactPositions (r.items false) T (S.map (fun x => (x.2.1, g x.1))) where
  nodup := by
    rw [List.map_map]
    refine List.Nodup.map_on ?_ (List.Nodup.of_map _ h.nodup)
    rintro ⟨i, j, d⟩ hx ⟨i', j', d'⟩ hx' he
    obtain ⟨a, y, e, ha, hy, hj⟩ := h.ok i j d hx
    obtain ⟨a', y', e', ha', hy', hj'⟩ := h.ok i' j' d' hx'
    have : j = j' := he
    subst this
    have : y = y' := by rw [hj] at hj'; simp at hj'; exact hj'.1
    subst this
    have e1 := key_inj (hd true) hy hy'
    subst e1
    have e2 := order_inj hc ha ha'
    subst e2
    obtain ⟨_, rfl⟩ := h.inj hx hx'
    rfl
  mem b := by
    rw [List.map_map]
    constructor
    · intro hm
      obtain ⟨⟨i, j, d⟩, hx, he⟩ := List.mem_map.mp hm
      obtain ⟨a, y, e, ha, hy, hj⟩ := h.ok i j d hx
      have : j = b := he
      subst this
      exact ⟨y, d, hj, (mem_keys h hT y).mpr ⟨i, j, d, a, e, hx, ha, hy, hj⟩⟩
    · rintro ⟨x, e, hb, hm⟩
      obtain ⟨i, j, d, a, e', hx, ha, hy, hj⟩ := (mem_keys h hT x).mp hm
      have e1 := key_inj (hd false) hj hb
      subst e1
      exact List.mem_map.mpr ⟨(i, j, d), hx, rfl⟩

/-- The sender's lines, if the counts stored for shuffled positions are those of the items there. -/
theorem sender_exact [DecidableEq α] {r : Run α P} {L : Nat} (hc : r.Lawful L)
    (hd : ∀ p, ((r.items p).map Prod.fst).Nodup) {S : List (Nat × Nat × Nat)} (h : Sound r S) {T : List α}
    (hT : T.map some = S.map (keyOf r)) (g : Nat → Nat)
    (hg : ∀ i a x e, (order r)[i]? = some a → (r.items true)[a]? = some (x, e) → g i = e) :
    ExactIndex (r.items false) (only T (r.items true)) (S.map (fun x => (x.2.1, g x.1))) where
  nodup := (sender_positions hc hd h hT g).nodup
  mem b c := by
    constructor
    · intro hm
      obtain ⟨⟨i, j, d⟩, hx, he⟩ := List.mem_map.mp hm
      obtain ⟨a, y, e, ha, hy, hj⟩ := h.ok i j d hx
      simp only [hg i a y e ha hy, Prod.mk.injEq] at he
      obtain ⟨rfl, rfl⟩ := he
      refine ⟨y, d, hj, List.mem_filter.mpr ⟨List.mem_of_getElem? hy, ?_⟩⟩
      simpa using (mem_keys h hT y).mpr ⟨i, j, d, a, e, hx, ha, hy, hj⟩
    · rintro ⟨x, e, hb, hm⟩
      obtain ⟨hm1, hm2⟩ := List.mem_filter.mp hm
      obtain ⟨i, j, d, a, e', hx, ha, hy, hj⟩ := (mem_keys h hT x).mp (by simpa using hm2)
      have e1 := key_inj (hd false) hj hb
      subst e1
      obtain ⟨a', ha'⟩ := List.mem_iff_getElem?.mp hm1
      have e2 := key_inj (hd true) hy ha'
      subst e2
      have e3 : e' = c := by simpa [hy] using ha'
      subst e3
      exact List.mem_map.mpr ⟨(i, j, d), hx, by simp [hg i a x e' ha hy]⟩

/-- All matches together are the common keys. -/
theorem keys_common [DecidableEq α] {r : Run α P} {L : Nat} (hc : r.Lawful L)
    (hd : ∀ p, ((r.items p).map Prod.fst).Nodup) {m : List (Nat × Nat × Nat)} (h : Sound r m)
    (hall : ∀ i j d, (∃ a x e, (order r)[i]? = some a ∧ (r.items true)[a]? = some (x, e) ∧
        (r.items false)[j]? = some (x, d)) → (i, j, d) ∈ m)
    {K : List α} (hK : K.map some = m.map (keyOf r)) : K.Perm (commonKeys (r.items true) (r.items false)) := by
  refine (List.perm_ext_iff_of_nodup (keys_nodup hc (hd true) h hK) ((hd true).filter _)).mpr (fun x => ?_)
  rw [mem_keys h hK]
  simp only [List.mem_filter, List.mem_map, decide_eq_true_eq]
  constructor
  · rintro ⟨i, j, d, a, e, _, _, hy, hj⟩
    exact ⟨⟨_, List.mem_of_getElem? hy, rfl⟩, ⟨_, List.mem_of_getElem? hj, rfl⟩⟩
  · rintro ⟨⟨⟨x, e⟩, hx, rfl⟩, ⟨⟨y, d⟩, hy, he⟩⟩
    simp only at he
    subst he
    obtain ⟨a, ha⟩ := List.mem_iff_getElem?.mp hx
    obtain ⟨j, hj⟩ := List.mem_iff_getElem?.mp hy
    have : a ∈ order r := (order_perm hc).mem_iff.mpr (List.mem_range.mpr (List.getElem?_eq_some_iff.mp ha).1)
    obtain ⟨i, hi⟩ := List.mem_iff_getElem?.mp this
    exact ⟨i, j, d, a, e, hall i j d ⟨a, y, e, hi, ha, hj⟩, hi, ha, hj⟩

/-- Every shuffle of a batch puts at each place an item with the same count as the item that was there. -/
def CountsFixed (r : Run α P) : Prop :=
  ∀ k p q, p < (bat r k).length → (r.perm k (bat r k).length)[p]? = some q →
    ((bat r k)[q]?).map Prod.snd = ((bat r k)[p]?).map Prod.snd

theorem dupOf_fixed {r : Run α P} {L : Nat} (hc : r.Lawful L) (hf : CountsFixed r) (hb : r.broadcast = true)
    (i a : Nat) (x : α) (e : Nat) (hi : (order r)[i]? = some a) (ha : (r.items true)[a]? = some (x, e)) :
    dupOf r i = e := by
  have key : ∀ k i a : Nat, (ordTo r k)[i]? = some a →
      ((r.items true)[a]?).map Prod.snd = ((r.items true)[i]?).map Prod.snd := by
    intro k
    induction k with
    | zero => intro i a h; simp [ordTo] at h
    | succ k ih =>
      intro i a h
      rw [ordTo_succ] at h
      by_cases hl : i < (ordTo r k).length
      · rw [List.getElem?_append_left hl] at h
        exact ih i a h
      · rw [List.getElem?_append_right (by omega), ordTo_length hc] at h
        rw [ordTo_length hc] at hl
        unfold ordAt at h
        rw [List.getElem?_map, Option.map_eq_some_iff] at h
        obtain ⟨q, hq, rfl⟩ := h
        have h1 : i - cnt r k < (bat r k).length := by
          have := (List.getElem?_eq_some_iff.mp hq).1
          rwa [perm_length hc] at this
        have h2 := perm_lt hc (List.mem_of_getElem? hq)
        have h3 := hf k (i - cnt r k) q h1 hq
        rw [List.getElem?_eq_getElem h1, List.getElem?_eq_getElem h2] at h3
        rw [items_bat r k q h2]
        have : i = cnt r k + (i - cnt r k) := by omega
        rw [this, items_bat r k _ h1]
        exact h3
  have := key _ i a hi
  unfold dupOf
  rw [if_pos hb, ← this, ha]
  rfl

/-- The whole run in terms of the chosen matches. -/
theorem run_result [DecidableEq α] {r : Run α P} {L : Nat} (hc : r.Lawful L) (hx : Crypto r.base)
    (hd : ∀ p, ((r.items p).map Prod.fst).Nodup) :
    ∃ m S : List (Nat × Nat × Nat), S = m.take r.threshold ∧ Sound r m ∧
      (∀ i j d, (∃ a x e, (order r)[i]? = some a ∧ (r.items true)[a]? = some (x, e) ∧
        (r.items false)[j]? = some (x, d)) → (i, j, d) ∈ m) ∧
      ∃ bound, ∀ sched : List Task,
        (∀ t, ((net r).exec sched (net r).init).1.task t ≠ .fail) ∧ ((net r).exec sched (net r).init).2 ≤ bound ∧
        ((net r).Stuck ((net r).exec sched (net r).init).1 →
          result ((net r).exec sched (net r).init).1 true =
            some ⟨some (S.map (fun x => ((order r)[x.1]?.getD 0, x.2.2))), m.length, S.length⟩ ∧
          result ((net r).exec sched (net r).init).1 false =
            some ⟨if r.broadcast then some (S.map (fun x => (x.2.1, dupOf r x.1))) else none, m.length, S.length⟩ ∧
          (∀ t, ∃ s, ((net r).exec sched (net r).init).1.task t = .halt s) ∧
          ∀ q, ((net r).exec sched (net r).init).1.queue q = []) := by
  obtain ⟨m, hf, hnd, hlen, hmem⟩ := found_eq hc hx (hd false)
  have hs : Sound r m := ⟨hnd, fun i j d h => (hmem i j d).mp h⟩
  refine ⟨m, m.take r.threshold, rfl, hs, fun i j d h => (hmem i j d).mpr h, ?_⟩
  have hs' := hs.take r.threshold
  have ht := hc.threshold
  obtain ⟨bound, hb⟩ := run_planned hc _ hf (by
    simp only [List.length_take]
    rw [Nat.mod_eq_of_lt (by omega), Nat.min_comm])
  refine ⟨bound, fun sched => ⟨(hb sched).1, (hb sched).2.1, fun hst => ?_⟩⟩
  obtain ⟨hf, hq, -⟩ := (hb sched).2.2 hst
  have ha := answer_eq hc ⟨m.length, m.take r.threshold⟩ hs'.nodup (fun x hxm => by
    obtain ⟨i, j, d⟩ := x
    obtain ⟨a, _, _, ha, -, -⟩ := hs'.ok i j d hxm
    exact (List.getElem?_eq_some_iff.mp ha).1)
  have zipmap : ∀ {A B C : Type} (l : List A) (f : A → B) (g : A → C), (l.map f).zip (l.map g) = l.map (fun x => (f x, g x)) := by
    intro A B C l f g
    induction l with
    | nil => rfl
    | cons x l ih => simp [ih]
  refine ⟨?_, ?_, fun t => ⟨_, hf t⟩, hq⟩
  · simp only [result, if_true, hf, plan]
    rw [ha, List.map_map, zipmap]; rfl
  · simp only [result, Bool.false_eq_true, if_false, hf, plan]
    rw [ha, List.map_map, zipmap]; rfl

end Psi.Threshold
