import Verif.Threshold.Model
import Verif.Threshold.Spec
import Verif.Bucket.Lemmas

/-! # The limited intersection is a prefix of the full one -/

namespace Psi.Threshold
open Psi.Ecdh (Bytes)
open Psi.Bucket
open Psi.Text

/-- The matches of a bin, in the order of the own items. -/
def matchesOf (p s : List Item) : List (Nat × Nat × Nat) :=
  s.filterMap (fun x => (p.find? (fun y => y.data64 == x.data64)).map (fun y => (x.index, y.index, y.dup)))

theorem scanBin_eq (t : Nat) (p s : List Item) (f : Found) :
    scanBin t (mkSet p) s f = (matchesOf p s).foldl (addMatch t) f := by
  unfold scanBin matchesOf
  induction s generalizing f with
  | nil => rfl
  | cons x s ih =>
    rw [List.foldl_cons, List.filterMap_cons, mkSet_find]
    cases p.find? (fun y => y.data64 == x.data64) with
    | none => exact ih f
    | some y => exact ih _

theorem scanBins_eq (t : Nat) (self peer : Cache) (S P : Nat → List Item) (n : Nat) :
    ∀ b f, (∀ i, b ≤ i → i < b + n → self.load i = some (S i) ∧ peer.load i = some (P i)) →
    scanBins t self peer b n f =
      some (((List.range' b n).flatMap (fun i => matchesOf (P i) (S i))).foldl (addMatch t) f) := by
  induction n with
  | zero => intro b f _; rfl
  | succ n ih =>
    intro b f h
    obtain ⟨h1, h2⟩ := h b (by omega) (by omega)
    rw [scanBins, h1, h2]
    simp only
    rw [ih (b + 1) _ (fun i hi hi' => h i (by omega) (by omega)), scanBin_eq]
    simp [List.range'_succ, List.foldl_append]

/-- A line as it is stored in the `uint32_t` vectors. -/
def cast32 (x : Nat × Nat × Nat) : Nat × Nat × Nat := (x.1 % 2 ^ 32, x.2.1 % 2 ^ 32, x.2.2)

theorem foldl_addMatch (t : Nat) (l : List (Nat × Nat × Nat)) (n : Nat) (acc : List (Nat × Nat × Nat)) :
    l.foldl (addMatch t) ⟨n % 2 ^ 32, acc.take t⟩ =
      ⟨(n + l.length) % 2 ^ 32, (acc ++ l.map cast32).take t⟩ := by
  induction l generalizing n acc with
  | nil => simp
  | cons x l ih =>
    rw [List.foldl_cons]
    have h1 : addMatch t ⟨n % 2 ^ 32, acc.take t⟩ x = ⟨(n + 1) % 2 ^ 32, (acc ++ [cast32 x]).take t⟩ := by
      unfold addMatch
      simp only [Nat.mod_add_mod, Found.mk.injEq, true_and, List.length_take]
      rcases Nat.lt_or_ge acc.length t with h | h
      · rw [if_pos (by omega), List.take_of_length_le (by omega), List.take_of_length_le (by simp; omega)]
        rfl
      · rw [if_neg (by omega), List.take_append_of_le_length h]
    rw [h1, ih]
    simp only [List.append_assoc, List.length_cons, List.map_cons, List.singleton_append, Found.mk.injEq, and_true]
    congr 1; omega

/-- The limited intersection of two stores, by what is loaded from them. -/
theorem found_loads (t : Nat) (hash : List Char → Nat) (n : Nat) (hn : 0 < n) (self peer : Cache)
    (ls lp : List Item)
    (hs : ∀ b, b < n → self.load b = some (ls.filter (fun x => hash x.data64 % n = b)))
    (hp : ∀ b, b < n → peer.load b = some (lp.filter (fun x => hash x.data64 % n = b))) :
    ∃ m : List (Nat × Nat × Nat), m.Perm (matchesOf lp ls) ∧
      scanBins t self peer 0 n ⟨0, []⟩ = some ⟨m.length % 2 ^ 32, (m.map cast32).take t⟩ := by
  refine ⟨(List.range' 0 n).flatMap (fun i => matchesOf
      (lp.filter (fun x => hash x.data64 % n = i)) (ls.filter (fun x => hash x.data64 % n = i))), ?_, ?_⟩
  rotate_left
  · rw [scanBins_eq t self peer (fun b => ls.filter (fun x => hash x.data64 % n = b))
      (fun b => lp.filter (fun x => hash x.data64 % n = b)) n 0 _
      (fun i _ hi => ⟨hs i (by omega), hp i (by omega)⟩)]
    have := foldl_addMatch t ((List.range' 0 n).flatMap (fun i => matchesOf
      (lp.filter (fun x => hash x.data64 % n = i)) (ls.filter (fun x => hash x.data64 % n = i)))) 0 []
    simp only [List.take_nil, Nat.zero_mod, List.nil_append, Nat.zero_add] at this
    rw [this]
  · rw [← List.range_eq_range']
    have h1 : (List.range n).flatMap (fun i => matchesOf (lp.filter (fun x => hash x.data64 % n = i))
        (ls.filter (fun x => hash x.data64 % n = i))) =
        ((List.range n).flatMap (fun i => ls.filter (fun x => hash x.data64 % n = i))).filterMap
          (fun x => (lp.find? (fun y => y.data64 == x.data64)).map (fun y => (x.index, y.index, y.dup))) := by
      rw [List.filterMap_flatMap]
      refine congrArg (fun f => List.flatMap f (List.range n)) (funext fun i => ?_)
      unfold matchesOf
      apply List.filterMap_congr
      intro x hx
      have := (List.mem_filter.mp hx).2
      rw [find?_filter_bucket (fun k => hash k % n) lp x.data64 i (by simpa using this)]
    rw [h1]
    exact (split_perm n _ _ (fun x _ => Nat.mod_lt _ hn)).filterMap _

theorem find_itemsFrom (k : Nat) (ds : List (Bytes × Nat)) (d : Bytes) (y : Item) (hnd : (ds.map Prod.fst).Nodup) :
    (itemsFrom k ds).find? (fun y => y.data64 == base64 d) = some y ↔
      ∃ j e, ds[j]? = some (d, e) ∧ y = ⟨k + j, e, base64 d⟩ := by
  induction ds generalizing k with
  | nil => simp [itemsFrom]
  | cons a ds ih =>
    rw [itemsFrom, List.find?_cons]
    rw [List.map_cons, List.nodup_cons] at hnd
    by_cases h : a.1 = d
    · subst h
      simp only [beq_self_eq_true, Option.some.injEq]
      constructor
      · rintro rfl
        exact ⟨0, a.2, by simp, by simp⟩
      · rintro ⟨j, e, hj, rfl⟩
        cases j with
        | zero => simp only [List.getElem?_cons_zero, Option.some.injEq] at hj; rw [hj]; rfl
        | succ j =>
          rw [List.getElem?_cons_succ] at hj
          exact absurd (List.mem_map.mpr ⟨_, List.mem_of_getElem? hj, rfl⟩) hnd.1
    · have h' : base64 a.1 ≠ base64 d := fun he => h (base64_injective he)
      simp only [beq_eq_false_iff_ne.mpr h']
      rw [ih (k + 1) hnd.2]
      constructor
      · rintro ⟨j, e, hj, rfl⟩
        exact ⟨j + 1, e, by simpa using hj, by simp; omega⟩
      · rintro ⟨j, e, hj, rfl⟩
        cases j with
        | zero => simp only [List.getElem?_cons_zero, Option.some.injEq] at hj; exact absurd (by rw [hj]) h
        | succ j => exact ⟨j, e, by simpa using hj, by simp; omega⟩

theorem mem_matchesOf (self peer : List (Bytes × Nat)) (hnd : (peer.map Prod.fst).Nodup) (i j d : Nat) :
    (i, j, d) ∈ matchesOf (itemsFrom 0 peer) (itemsFrom 0 self) ↔
      ∃ x e, self[i]? = some (x, e) ∧ peer[j]? = some (x, d) := by
  unfold matchesOf
  simp only [List.mem_filterMap, Option.map_eq_some_iff, Prod.mk.injEq]
  constructor
  · rintro ⟨x, hx, y, hy, rfl, rfl, rfl⟩
    obtain ⟨i, hi, rfl⟩ := (mem_itemsFrom 0 self x).mp hx
    obtain ⟨j, e, hj, rfl⟩ := (find_itemsFrom 0 peer _ y hnd).mp hy
    exact ⟨self[i].1, self[i].2, by simp, by simpa using hj⟩
  · rintro ⟨x, e, hi, hj⟩
    obtain ⟨hil, he⟩ := List.getElem?_eq_some_iff.mp hi
    refine ⟨⟨0 + i, self[i].2, base64 self[i].1⟩, (mem_itemsFrom 0 self _).mpr ⟨i, hil, rfl⟩,
      ⟨0 + j, d, base64 x⟩, ?_, by simp, by simp, rfl⟩
    rw [find_itemsFrom 0 peer _ _ hnd]
    exact ⟨j, d, by rw [he]; exact hj, by rw [he]⟩

theorem matchesOf_nodup (self peer : List (Bytes × Nat)) :
    ((matchesOf (itemsFrom 0 peer) (itemsFrom 0 self)).map (·.1)).Nodup := by
  have h : ∀ (l : List Item), (l.map (·.index)).Nodup →
      ((matchesOf (itemsFrom 0 peer) l).map (·.1)).Nodup ∧
      ∀ i ∈ (matchesOf (itemsFrom 0 peer) l).map (·.1), i ∈ l.map (·.index) := by
    intro l
    induction l with
    | nil => intro _; simp [matchesOf]
    | cons x l ih =>
      intro h
      rw [List.map_cons, List.nodup_cons] at h
      obtain ⟨h1, h2⟩ := ih h.2
      unfold matchesOf at h1 h2 ⊢
      rw [List.filterMap_cons]
      cases (itemsFrom 0 peer).find? (fun y => y.data64 == x.data64) with
      | none =>
        refine ⟨h1, fun i hi => ?_⟩
        rw [List.map_cons]
        exact List.mem_cons_of_mem _ (h2 i hi)
      | some y =>
        refine ⟨?_, fun i hi => ?_⟩
        · simp only [Option.map_some, List.map_cons, List.nodup_cons]
          exact ⟨fun hm => h.1 (h2 _ hm), h1⟩
        · simp only [Option.map_some, List.map_cons, List.mem_cons] at hi ⊢
          rcases hi with rfl | hi
          · exact Or.inl rfl
          · exact Or.inr (h2 i hi)
  exact (h _ (itemsFrom_index_nodup 0 self)).1

end Psi.Threshold
