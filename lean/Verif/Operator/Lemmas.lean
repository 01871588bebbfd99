import Verif.Operator.Spec
import Verif.Ecdh.Props
import Verif.Kkrt.Props
import Verif.Rr22.IntersectProps
import Mathlib.Data.List.Nodup

/-!
# Lemmas on the operators
-/

namespace Psi.Operator
open Psi.Spec
open Psi.Ecdh (Bytes)

variable {α P : Type}

/-- Lines of a list, by a function of its elements. -/
theorem mem_lines {β : Type} (l : List β) (f : β → Option Nat) (i d : Nat) :
    (i, d) ∈ l.zipIdx.filterMap (fun x => (f x.1).map fun d => (x.2, d)) ↔ ∃ x, l[i]? = some x ∧ f x = some d := by
  rw [List.mem_filterMap]
  constructor
  · rintro ⟨⟨x, k⟩, hx, he⟩
    rw [List.mem_zipIdx_iff_getElem?] at hx
    obtain ⟨d', hd, he⟩ := Option.map_eq_some_iff.1 he
    cases he
    exact ⟨x, hx, hd⟩
  · rintro ⟨x, hx, hd⟩
    exact ⟨(x, i), List.mem_zipIdx_iff_getElem?.2 hx, by rw [hd]; rfl⟩

theorem nodup_lines {β : Type} (l : List β) (f : β → Option Nat) :
    ((l.zipIdx.filterMap (fun x => (f x.1).map fun d => (x.2, d))).map Prod.fst).Nodup := by
  have : (l.zipIdx.filterMap (fun x => (f x.1).map fun d => (x.2, d))).map Prod.fst =
      (l.zipIdx.filter fun x => (f x.1).isSome).map Prod.snd := by
    generalize l.zipIdx = z
    induction z with
    | nil => rfl
    | cons a z ih =>
      rw [List.filterMap_cons, List.filter_cons]
      cases h : f a.1 with
      | none => simpa using ih
      | some d => simpa using ih
  rw [this]
  refine List.Nodup.sublist (List.filter_sublist.map Prod.snd) ?_
  rw [List.zipIdx_map_snd]
  exact List.nodup_range'

/-- Items are replaced by values, and counts are put into another form. -/
theorem exact_recount {β : Type} {own peer : List (α × Nat)} (φ : α → β) (f g h : Nat → Nat)
    (hφ : ∀ x ∈ own, ∀ y ∈ peer, φ x.1 = φ y.1 → x.1 = y.1) {w : Lines}
    (e : ExactIndex (own.map fun x => (φ x.1, f x.2)) (peer.map fun x => (φ x.1, g x.2)) w) :
    ExactIndex own (peer.map fun x => (x.1, h (g x.2))) (w.map fun l => (l.1, h l.2)) := by
  refine ⟨?_, fun i d => ?_⟩
  · rw [List.map_map]
    exact e.nodup
  · rw [List.mem_map]
    constructor
    · rintro ⟨⟨i', d'⟩, hw, he⟩
      cases he
      obtain ⟨x, c, h1, h2⟩ := (e.mem _ _).1 hw
      rw [List.getElem?_map] at h1
      obtain ⟨y, hy, he⟩ := Option.map_eq_some_iff.1 h1
      obtain ⟨z, hz, he2⟩ := List.mem_map.1 h2
      cases he
      have e1 : φ z.1 = φ y.1 := (Prod.mk.inj he2).1
      have e2 : g z.2 = d' := (Prod.mk.inj he2).2
      refine ⟨y.1, y.2, hy, List.mem_map.2 ⟨z, hz, ?_⟩⟩
      rw [e2, hφ y (List.mem_of_getElem? hy) z hz e1.symm]
    · rintro ⟨x, c, h1, h2⟩
      obtain ⟨z, hz, he⟩ := List.mem_map.1 h2
      have e1 : z.1 = x := (Prod.mk.inj he).1
      refine ⟨(i, g z.2), (e.mem _ _).2 ⟨φ x, f c, ?_, List.mem_map.2 ⟨z, hz, by rw [e1]⟩⟩, ?_⟩
      · rw [List.getElem?_map, h1]
        rfl
      · show (i, h (g z.2)) = (i, d)
        rw [(Prod.mk.inj he).2]

/-- Counts are put into another form and back. -/
theorem exact_map {own peer : List (α × Nat)} (f g h : Nat → Nat) (hg : ∀ x ∈ peer, h (g x.2) = x.2) {w : Lines}
    (e : ExactIndex (own.map fun x => (x.1, f x.2)) (peer.map fun x => (x.1, g x.2)) w) :
    ExactIndex own peer (w.map fun l => (l.1, h l.2)) := by
  have := exact_recount (fun x => x) f g h (fun _ _ _ _ he => he) e
  rwa [List.map_congr_left (fun x hx => by rw [hg x hx]), List.map_id'] at this

/-! ## ECDH -/

theorem endBucket_eq (s p : List Bucket.Item) :
    endBucket s p = (Bucket.matchBucket (Bucket.mkSet p) s).1.map fun l => (l.1, l.2 + 1) := by
  unfold endBucket
  induction s with
  | nil => rfl
  | cons x s ih =>
    rw [List.filterMap_cons, Bucket.matchBucket]
    cases h : (Bucket.mkSet p).find? fun y => y.data64 == x.data64 with
    | none => simpa using ih
    | some y => simpa using ih

theorem endBuckets_eq (self peer : Bucket.Cache) : ∀ n b, endBuckets self peer b n =
    (Bucket.binLoop self peer b n).map fun r => r.1.map fun l => (l.1, l.2 + 1)
  | 0, _ => rfl
  | n + 1, b => by
    rw [endBuckets, Bucket.binLoop, endBuckets_eq self peer n (b + 1)]
    cases self.load b with
    | none => rfl
    | some s =>
      cases peer.load b with
      | none => rfl
      | some p =>
        cases Bucket.binLoop self peer (b + 1) n with
        | none => rfl
        | some r =>
          show some (endBucket s p ++ _) = some _
          rw [endBucket_eq, ← List.map_append]

theorem findIdx_find {β γ : Type} (p : β → Bool) (f : β → γ) (d : β) : ∀ l : List β,
    (l.findIdx? p).map (fun i => f (l.getD i d)) = (l.find? p).map f
  | [] => rfl
  | a :: l => by
    rw [List.findIdx?_cons, List.find?_cons]
    cases p a with
    | true => rfl
    | false =>
      simp only [Bool.false_eq_true, if_false, Option.map_map]
      rw [← findIdx_find p f d l]
      rfl

theorem endMemory_eq (self peer : List (Bytes × Nat)) : endMemory self peer =
    self.zipIdx.filterMap fun x => ((peer.find? fun y => y.1 = x.1.1).map fun y => y.2 + 1).map fun d => (x.2, d) := by
  unfold endMemory
  apply List.filterMap_congr
  intro x _
  rw [Option.map_map, ← findIdx_find (fun y : Bytes × Nat => decide (y.1 = x.1.1)) _ ([], 0)]
  refine congrArg (fun f => Option.map f _) (funext fun i => ?_)
  show _ = (x.2, (peer.getD i ([], 0)).2 + 1)
  rw [Prod.mk.injEq]
  refine ⟨rfl, ?_⟩
  dsimp only
  split <;> omega

/-! ## The broadcast -/

section
variable [DecidableEq α]

omit [DecidableEq α] in
theorem at_dup (xs : List (α × Nat)) {j : Nat} {n : α} {c : Nat} (h : xs[j]? = some (n, c)) :
    at? (xs.zipIdx.filterMap fun x => if 1 < x.1.2 then some (x.2, x.1.2) else none) j = if 1 < c then some c else none := by
  have hmem : ∀ k d, (k, d) ∈ (xs.zipIdx.filterMap fun x => if 1 < x.1.2 then some (x.2, x.1.2) else none) →
      ∃ m, xs[k]? = some (m, d) ∧ 1 < d := by
    intro k d hk
    obtain ⟨⟨x, k'⟩, hx, he⟩ := List.mem_filterMap.1 hk
    rw [List.mem_zipIdx_iff_getElem?] at hx
    split at he
    · cases he
      exact ⟨x.1, hx, by assumption⟩
    · cases he
  unfold at?
  split
  · rename_i hc
    have hin : (j, c) ∈ (xs.zipIdx.filterMap fun x => if 1 < x.1.2 then some (x.2, x.1.2) else none) := by
      refine List.mem_filterMap.2 ⟨((n, c), j), List.mem_zipIdx_iff_getElem?.2 h, ?_⟩
      simp [hc]
    obtain ⟨z, hz⟩ := Option.isSome_iff_exists.1 (List.find?_isSome (p := fun x : Nat × Nat => decide (x.1 = j)) |>.2
      ⟨_, hin, by simp⟩)
    rw [hz]
    have h1 := List.find?_some hz
    simp only [decide_eq_true_eq] at h1
    obtain ⟨m, h2, -⟩ := hmem z.1 z.2 (List.mem_of_find?_eq_some hz)
    rw [h1, h] at h2
    cases h2
    rfl
  · rename_i hc
    rw [Option.map_eq_none_iff, List.find?_eq_none]
    intro z hz hj
    simp only [decide_eq_true_eq] at hj
    obtain ⟨m, h2, h3⟩ := hmem z.1 z.2 hz
    rw [hj, h] at h2
    cases h2
    exact hc h3

/-- What a party makes of the items of the other that are common. -/
theorem adopt_exact (own xs : List (α × Nat)) (hn : (xs.map Prod.fst).Nodup) (hpos : ∀ x ∈ xs, 0 < x.2) :
    ExactIndex own xs (adopt own (xs.map Prod.fst)
      (xs.zipIdx.filterMap fun x => if 1 < x.1.2 then some (x.2, x.1.2) else none)) := by
  unfold adopt
  simp only [Option.map_map, Function.comp_def]
  set f : α × Nat → Option Nat := fun x =>
    (((xs.map Prod.fst).zipIdx.reverse.find? fun y => y.1 = x.1).map fun z =>
      (at? (xs.zipIdx.filterMap fun x => if 1 < x.1.2 then some (x.2, x.1.2) else none) z.2).getD 1) with hf
  have he : (own.zipIdx.filterMap fun x => (((xs.map Prod.fst).zipIdx.reverse.find? fun y => y.1 = x.1.1).map fun z =>
      (x.2, (at? (xs.zipIdx.filterMap fun x => if 1 < x.1.2 then some (x.2, x.1.2) else none) z.2).getD 1))) =
      own.zipIdx.filterMap fun x => (f x.1).map fun d => (x.2, d) := by
    apply List.filterMap_congr
    intro x _
    rw [hf, Option.map_map]
    rfl
  rw [he]
  have key : ∀ x d, f x = some d ↔ (x.1, d) ∈ xs := by
    intro x d
    have hval : ∀ j n c, xs[j]? = some (n, c) →
        (at? (xs.zipIdx.filterMap fun x => if 1 < x.1.2 then some (x.2, x.1.2) else none) j).getD 1 = c := by
      intro j n c h
      have := hpos _ (List.mem_of_getElem? h)
      rw [at_dup xs h]
      split
      · rfl
      · show 1 = c
        have : 0 < c := this
        omega
    have hget : ∀ z, z ∈ (xs.map Prod.fst).zipIdx.reverse → ∃ c, xs[z.2]? = some (z.1, c) := by
      intro z hz
      rw [List.mem_reverse, List.mem_zipIdx_iff_getElem?, List.getElem?_map] at hz
      obtain ⟨y, hy, he⟩ := Option.map_eq_some_iff.1 hz
      exact ⟨y.2, by rw [hy, ← he]⟩
    constructor
    · intro h
      obtain ⟨z, hz, hd⟩ := Option.map_eq_some_iff.1 h
      obtain ⟨c, hc⟩ := hget z (List.mem_of_find?_eq_some hz)
      have hx := List.find?_some hz
      simp only [decide_eq_true_eq] at hx
      rw [hval _ _ _ hc] at hd
      rw [← hx, ← hd]
      exact List.mem_of_getElem? hc
    · intro h
      obtain ⟨j, hj⟩ := List.getElem?_of_mem h
      have hin : (x.1, j) ∈ (xs.map Prod.fst).zipIdx.reverse := by
        rw [List.mem_reverse, List.mem_zipIdx_iff_getElem?, List.getElem?_map, hj]
        rfl
      obtain ⟨z, hz⟩ := Option.isSome_iff_exists.1 (List.find?_isSome (p := fun y : α × Nat => decide (y.1 = x.1)) |>.2
        ⟨_, hin, by simp⟩)
      obtain ⟨c, hc⟩ := hget z (List.mem_of_find?_eq_some hz)
      have hx := List.find?_some hz
      simp only [decide_eq_true_eq] at hx
      have hcd : (z.1, c) = (x.1, d) := List.inj_on_of_nodup_map hn (List.mem_of_getElem? hc) h hx
      rw [hf]
      dsimp only
      rw [hz]
      exact congrArg some ((hval _ _ _ hc).trans (Prod.mk.inj hcd).2)
  refine ⟨nodup_lines own f, fun i d => ?_⟩
  rw [mem_lines]
  constructor
  · rintro ⟨x, hx, hd⟩
    exact ⟨x.1, x.2, hx, (key x d).1 hd⟩
  · rintro ⟨x, e, hx, hd⟩
    exact ⟨(x, e), hx, (key (x, e) d).2 hd⟩

omit [DecidableEq α] in
theorem positions_of_exact {own peer : List (α × Nat)} {w : Lines} (h : ExactIndex own peer w) : Positions own peer w := by
  refine ⟨h.nodup, fun i => ?_⟩
  rw [List.mem_map]
  constructor
  · rintro ⟨⟨i', d⟩, hw, rfl⟩
    obtain ⟨x, e, h1, h2⟩ := (h.mem _ _).1 hw
    exact ⟨x, e, h1, List.mem_map.2 ⟨_, h2, rfl⟩⟩
  · rintro ⟨x, e, h1, h2⟩
    obtain ⟨y, hy, rfl⟩ := List.mem_map.1 h2
    exact ⟨(i, y.2), (h.mem _ _).2 ⟨y.1, e, h1, hy⟩, rfl⟩

/-- The items that are announced: the common ones, each once. -/
theorem announce_spec {own peer : List (α × Nat)} {w : Lines} (h : Positions own peer w) (hn : (own.map Prod.fst).Nodup) :
    ∃ xs : List (α × Nat), announce own w = some (xs.map Prod.fst,
        xs.zipIdx.filterMap fun x => if 1 < x.1.2 then some (x.2, x.1.2) else none) ∧ xs.length = w.length ∧
      (xs.map Prod.fst).Nodup ∧ ∀ x, x ∈ xs ↔ x ∈ own ∧ x.1 ∈ peer.map Prod.fst := by
  have hall : ∀ l ∈ w, ∃ x, own[l.1]? = some x ∧ x.1 ∈ peer.map Prod.fst := by
    intro l hl
    obtain ⟨x, e, h1, h2⟩ := (h.mem l.1).1 (List.mem_map_of_mem hl)
    exact ⟨(x, e), h1, h2⟩
  obtain ⟨xs, hxs, hlen, hrel⟩ : ∃ xs : List (α × Nat), (w.mapM fun l => own[l.1]?) = some xs ∧ xs.length = w.length ∧
      (xs.map some = w.map fun l => own[l.1]?) := by
    clear h
    induction w with
    | nil => exact ⟨[], rfl, rfl, rfl⟩
    | cons l w ih =>
      obtain ⟨xs, h1, h2, h3⟩ := ih fun l hl => hall l (List.mem_cons_of_mem _ hl)
      obtain ⟨x, hx, -⟩ := hall l (List.mem_cons_self ..)
      refine ⟨x :: xs, ?_, by rw [List.length_cons, List.length_cons, h2], ?_⟩
      · rw [List.mapM_cons, hx, h1]
        rfl
      · rw [List.map_cons, List.map_cons, hx, h3]
  have hmem : ∀ x, x ∈ xs ↔ x ∈ own ∧ x.1 ∈ peer.map Prod.fst := by
    intro x
    have h1 : x ∈ xs ↔ some x ∈ w.map fun l => own[l.1]? := by
      rw [← hrel, List.mem_map]
      constructor
      · intro hx
        exact ⟨x, hx, rfl⟩
      · rintro ⟨y, hy, he⟩
        cases he
        exact hy
    rw [h1, List.mem_map]
    constructor
    · rintro ⟨l, hl, he⟩
      obtain ⟨y, hy, hp⟩ := hall l hl
      rw [hy] at he
      cases he
      exact ⟨List.mem_of_getElem? hy, hp⟩
    · rintro ⟨hx, hp⟩
      obtain ⟨i, hi⟩ := List.getElem?_of_mem hx
      obtain ⟨l, hl, rfl⟩ := List.mem_map.1 ((h.mem i).2 ⟨x.1, x.2, hi, hp⟩)
      exact ⟨l, hl, hi⟩
  refine ⟨xs, ?_, hlen, ?_, hmem⟩
  · unfold announce
    rw [hxs]
    rfl
  · -- different positions hold different items
    have hnd : xs.Nodup := by
      have hw : (w.map fun l => own[l.1]?).Nodup := by
        have : (w.map fun l => own[l.1]?) = (w.map Prod.fst).map fun i => own[i]? := by rw [List.map_map]; rfl
        rw [this]
        refine List.Nodup.map_on ?_ h.nodup
        intro i hi j hj he
        obtain ⟨x, e, h1, -⟩ := (h.mem i).1 hi
        rw [h1] at he
        have hi' := (List.getElem?_eq_some_iff.1 h1).1
        have hj' := (List.getElem?_eq_some_iff.1 he.symm).1
        have e1 : own[i] = (x, e) := (List.getElem?_eq_some_iff.1 h1).2
        have e2 : own[j] = (x, e) := (List.getElem?_eq_some_iff.1 he.symm).2
        exact (List.Nodup.getElem_inj_iff (List.Nodup.of_map _ hn)).1 (e1.trans e2.symm)
      rw [← hrel] at hw
      exact List.Nodup.of_map _ hw
    refine hnd.map_on ?_
    intro x hx y hy he
    exact List.inj_on_of_nodup_map hn ((hmem x).1 hx).1 ((hmem y).1 hy).1 he

end

/-! ## RR22 -/

theorem preProcess_get (input : Items α) (i : Nat) :
    (preProcess input)[i]? = (input[i]?).map fun x => (i, x.2 - 1, x.1) := by
  unfold preProcess
  rw [List.getElem?_map, List.getElem?_zipIdx, Option.map_map]
  cases input[i]? with
  | none => rfl
  | some x =>
    show some _ = some _
    simp

theorem preProcess_map {β : Type} (input : Items α) (f : Nat × α → β) :
    (preProcess input).map (fun x => f x.2) = input.map fun x => f (x.2 - 1, x.1) := by
  apply List.ext_getElem?
  intro i
  rw [List.getElem?_map, preProcess_get, List.getElem?_map, Option.map_map]
  rfl

theorem preProcess_length (input : Items α) : (preProcess input).length = input.length := by
  unfold preProcess
  rw [List.length_map, List.length_zipIdx]

theorem postProcess_eq (input : Items α) : ∀ w : Lines, (∀ l ∈ w, l.1 < input.length) →
    postProcess (preProcess input) w = some (w.map fun l => (l.1, l.2 + 1))
  | [], _ => rfl
  | l :: w, h => by
    have ih := postProcess_eq input w fun l hl => h l (List.mem_cons_of_mem _ hl)
    have hl := h l (List.mem_cons_self ..)
    unfold postProcess at ih ⊢
    rw [List.mapM_cons, ih, preProcess_get, List.getElem?_eq_getElem hl]
    rfl

theorem exact_bound {own peer : List (α × Nat)} {w : Lines} (h : ExactIndex own peer w) : ∀ l ∈ w, l.1 < own.length := by
  intro l hl
  obtain ⟨x, e, h1, -⟩ := (h.mem l.1 l.2).1 hl
  exact (List.getElem?_eq_some_iff.1 h1).1

theorem exact_nil_left (peer : List (α × Nat)) : ExactIndex [] peer [] := by
  refine ⟨List.nodup_nil, fun i d => ?_⟩
  simp

theorem exact_nil_right (own : List (α × Nat)) : ExactIndex own [] [] := by
  refine ⟨List.nodup_nil, fun i d => ?_⟩
  simp

end Psi.Operator
