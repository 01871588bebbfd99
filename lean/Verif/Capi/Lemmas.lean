import Mathlib.Data.List.Forall2
import Mathlib.Tactic.Set
import Mathlib.Tactic.Tauto
import Mathlib.Order.Basic
import Mathlib.Order.Defs.LinearOrder
import Mathlib.Algebra.Order.Group.Nat
import Mathlib.Data.List.Nodup
import Verif.Capi.Model

/-!
# The heap behind the C interface
-/

namespace Psi.Capi

open Psi.Spiral (Res)

section
variable {O : Type}

/-! ### Programs -/

theorem bind_ok {α β : Type} {x : Prog O α} {f : α → Prog O β} {h h' : Heap O} {a : α} (e : x h = (h', .ok a)) :
    (x >>= f) h = f a h' := by
  change Prog.bind x f h = _
  rw [Prog.bind, e]

theorem bind_throws {α β : Type} {x : Prog O α} {f : α → Prog O β} {h h' : Heap O} (e : x h = (h', .throws)) :
    (x >>= f) h = (h', .throws) := by
  change Prog.bind x f h = _
  rw [Prog.bind, e]

theorem bind_undef {α β : Type} {x : Prog O α} {f : α → Prog O β} {h h' : Heap O} (e : x h = (h', .undefined)) :
    (x >>= f) h = (h', .undefined) := by
  change Prog.bind x f h = _
  rw [Prog.bind, e]

theorem pure_run {α : Type} (a : α) (h : Heap O) : (pure a : Prog O α) h = (h, .ok a) := rfl

/-! ### Heaps -/

/-- Blocks have numbers that were given out. -/
def Heap.Wf (h : Heap O) : Prop := ∀ p, h.next ≤ p → h.live p = none

/-- Without some blocks. -/
def Heap.drop (h : Heap O) (L : List Nat) : Heap O := ⟨h.next, fun p => if p ∈ L then none else h.live p⟩

/-- `h` is `h0` and new blocks with the numbers `L`. -/
structure Ext (h0 h : Heap O) (L : List Nat) : Prop where
  same : ∀ p, p ∉ L → h.live p = h0.live p
  fresh : ∀ p ∈ L, h0.next ≤ p ∧ p < h.next
  wf0 : h0.Wf
  le : h0.next ≤ h.next

theorem Ext.refl {h : Heap O} (hw : h.Wf) : Ext h h [] :=
  ⟨fun _ _ => rfl, fun _ hp => absurd hp List.not_mem_nil, hw, le_refl _⟩

theorem Ext.wf {h0 h : Heap O} {L : List Nat} (e : Ext h0 h L) : h.Wf := by
  intro p hp
  have hL : p ∉ L := fun hm => absurd (e.fresh p hm).2 (not_lt.mpr hp)
  rw [e.same p hL]
  exact e.wf0 p (le_trans e.le hp)

theorem Ext.live_eq {h0 h : Heap O} (e : Ext h0 h []) : h.live = h0.live :=
  funext fun p => e.same p (by simp)

theorem Ext.trans {h0 h1 h2 : Heap O} {L L' : List Nat} (e : Ext h0 h1 L) (e' : Ext h1 h2 L') :
    Ext h0 h2 (L' ++ L) := by
  refine ⟨fun p hp => ?_, fun p hp => ?_, e.wf0, le_trans e.le e'.le⟩
  · rw [List.mem_append, not_or] at hp
    rw [e'.same p hp.1, e.same p hp.2]
  · rw [List.mem_append] at hp
    rcases hp with hp | hp
    · exact ⟨le_trans e.le (e'.fresh p hp).1, (e'.fresh p hp).2⟩
    · exact ⟨(e.fresh p hp).1, lt_of_lt_of_le (e.fresh p hp).2 e'.le⟩

/-- What was freed is gone. -/
theorem Ext.drop {h0 h : Heap O} {L : List Nat} (e : Ext h0 h L) (D : List Nat) (hD : ∀ p ∈ D, p ∈ L) :
    Ext h0 (h.drop D) (L.filter fun p => p ∉ D) := by
  refine ⟨fun p hp => ?_, fun p hp => ?_, e.wf0, e.le⟩
  · change (if p ∈ D then none else h.live p) = _
    by_cases hm : p ∈ D
    · rw [if_pos hm, e.wf0 p (e.fresh p (hD p hm)).1]
    · rw [if_neg hm]
      refine e.same p fun hL => hp ?_
      rw [List.mem_filter, decide_eq_true_iff]
      exact ⟨hL, hm⟩
  · exact e.fresh p (List.mem_filter.mp hp).1

/-- A new block changes. -/
theorem Ext.put {h0 h : Heap O} {L : List Nat} (e : Ext h0 h L) {a : Nat} (ha : a ∈ L) (b : Option (Block O)) :
    Ext h0 (h.put a b) L := by
  refine ⟨fun p hp => ?_, e.fresh, e.wf0, e.le⟩
  change (if p = a then b else h.live p) = _
  rw [if_neg (fun hpa : p = a => hp (hpa ▸ ha))]
  exact e.same p hp

theorem put_self {h : Heap O} {a : Nat} {b : Option (Block O)} : (h.put a b).live a = b := by
  change (if a = a then b else _) = b
  rw [if_pos rfl]

theorem put_ne {h : Heap O} {a p : Nat} {b : Option (Block O)} (hp : p ≠ a) : (h.put a b).live p = h.live p := by
  change (if p = a then b else _) = _
  rw [if_neg hp]

theorem put_put {h : Heap O} {a : Nat} {b c : Option (Block O)} : (h.put a b).put a c = h.put a c := by
  simp only [Heap.put]
  congr 1
  funext p
  by_cases hp : p = a <;> simp [hp]

/-- The heap after `malloc`. -/
def Heap.add (h : Heap O) (b : Block O) : Heap O := ⟨h.next + 1, fun p => if p = h.next then some b else h.live p⟩

theorem malloc_ok {mem : Nat → Nat → Bool} {n : Nat} {b : Block O} {h : Heap O} (hm : mem h.next n = true) :
    malloc mem n b h = (h.add b, .ok (some h.next)) := by
  rw [malloc, if_pos hm]
  rfl

theorem malloc_null {mem : Nat → Nat → Bool} {n : Nat} {b : Block O} {h : Heap O} (hm : mem h.next n = false) :
    malloc mem n b h = (⟨h.next + 1, h.live⟩, .ok none) := by
  rw [malloc, hm]
  rfl

theorem add_self {h : Heap O} {b : Block O} : (h.add b).live h.next = some b := by
  change (if h.next = h.next then some b else _) = _
  rw [if_pos rfl]

theorem ext_add {h : Heap O} (hw : h.Wf) (b : Block O) : Ext h (h.add b) [h.next] := by
  refine ⟨fun p hp => ?_, fun p hp => ?_, hw, Nat.le_succ _⟩
  · change (if p = h.next then some b else h.live p) = _
    rw [if_neg (by simpa using hp)]
  · rw [List.mem_singleton.mp hp]
    exact ⟨le_refl _, Nat.lt_succ_self _⟩

/-! ### Strings -/

/-- `c` is the string `s`: a block of its own with the bytes of `s` and a zero byte. -/
structure Holds (h : Heap O) (c : CStr) (s : Bytes) (a : Nat) : Prop where
  data : c.data = some a
  size : c.size = s.length
  block : h.live a = some (.chars ((s ++ [0]).map some))

theorem writeChars_ok {a : Nat} : ∀ (s : Bytes) (done : List (Option UInt8)) (todo : List (Option UInt8)) (h : Heap O),
    h.live a = some (.chars (done ++ todo)) → s.length ≤ todo.length →
    writeChars a done.length s h
      = (if s = [] then h else h.put a (some (.chars (done ++ s.map some ++ todo.drop s.length))),
        .ok (done.length + s.length)) := by
  intro s
  induction s with
  | nil =>
    intro done todo h _ _
    rw [writeChars, pure_run]
    rfl
  | cons c r ih =>
    intro done todo h hb hl
    cases todo with
    | nil => simp at hl
    | cons t todo =>
      have hw : writeChar a done.length c h = (h.put a (some (.chars (done ++ some c :: todo))), .ok ()) := by
        rw [writeChar, hb]
        dsimp only
        rw [if_pos (by simp), List.set_append_right _ _ (le_refl _), Nat.sub_self, List.set_cons_zero]
      rw [writeChars, bind_ok hw]
      have hlen : (done ++ [some c]).length = done.length + 1 := by simp
      have := ih (done ++ [some c]) todo (h.put a (some (.chars (done ++ some c :: todo))))
        (by rw [put_self]; simp) (by simpa using hl)
      rw [hlen] at this
      rw [this]
      rw [if_neg (List.cons_ne_nil _ _)]
      by_cases hr : r = []
      · subst hr
        rw [if_pos rfl]
        simp
      · rw [if_neg hr, put_put, List.length_cons, show done.length + 1 + r.length = done.length + (r.length + 1) by omega]
        simp

theorem makeCString_ok {mem : Nat → Nat → Bool} {s : Bytes} {h : Heap O} (hm : mem h.next (s.length + 1) = true) :
    makeCString mem s h = (h.add (.chars ((s ++ [0]).map some)), .ok ⟨some h.next, s.length⟩) := by
  rw [makeCString, bind_ok (malloc_ok hm)]
  dsimp only
  have hb : (h.add (.chars (List.replicate (s.length + 1) none))).live h.next
      = some (.chars ([] ++ List.replicate (s.length + 1) none)) := add_self
  have h1 := writeChars_ok (a := h.next) s [] _ _ hb (by simp)
  rw [List.length_nil, Nat.zero_add] at h1
  rw [bind_ok h1]
  have hrep : (List.replicate (s.length + 1) (none : Option UInt8)).drop s.length = [none] := by
    rw [List.drop_replicate]
    simp
  have h2 : (if s = [] then h.add (.chars (List.replicate (s.length + 1) none)) else
      (h.add (.chars (List.replicate (s.length + 1) none))).put h.next
        (some (.chars ([] ++ s.map some ++ (List.replicate (s.length + 1) none).drop s.length))))
      = h.add (.chars (s.map some ++ [none])) := by
    by_cases hs : s = []
    · subst hs
      rfl
    · rw [if_neg hs, hrep, List.nil_append]
      simp only [Heap.put, Heap.add]
      congr 1
      funext p
      by_cases hp : p = h.next <;> simp [hp]
  rw [h2]
  have h3 : writeChar h.next s.length 0 (h.add (.chars (s.map some ++ [none])))
      = (h.add (.chars ((s ++ [0]).map some)), .ok ()) := by
    rw [writeChar, add_self]
    dsimp only
    rw [if_pos (by simp)]
    congr 1
    simp only [Heap.put, Heap.add]
    congr 1
    funext p
    by_cases hp : p = h.next
    · subst hp
      rw [if_pos rfl, if_pos rfl, List.set_append_right _ _ (by simp)]
      simp
    · rw [if_neg hp, if_neg hp, if_neg hp]
  rw [bind_ok h3]
  rfl

theorem makeCString_null {mem : Nat → Nat → Bool} {s : Bytes} {h : Heap O} (hm : mem h.next (s.length + 1) = false) :
    makeCString mem s h = (⟨h.next + 1, h.live⟩, .throws) := by
  rw [makeCString, bind_ok (malloc_null hm)]
  rfl

theorem written_map (s : Bytes) : written (s.map some) = some s := by
  induction s with
  | nil => rfl
  | cons c r ih => rw [List.map_cons, written, ih]; rfl

theorem Holds.read {h : Heap O} {c : CStr} {s : Bytes} {a : Nat} (hc : Holds h c s a) :
    makeString c h = (h, .ok s) := by
  rw [makeString, hc.data]
  dsimp only
  rw [hc.block]
  dsimp only
  rw [hc.size, if_pos (by simp), List.map_append, List.take_append_of_le_length (by simp),
    List.take_of_length_le (by simp), written_map]

theorem Holds.free {h : Heap O} {c : CStr} {s : Bytes} {a : Nat} (hc : Holds h c s a) :
    free c.data h = (h.drop [a], .ok ()) := by
  rw [hc.data, Capi.free]
  rw [hc.block]
  dsimp only
  congr 1
  simp only [Heap.put, Heap.drop]
  congr 1
  funext p
  by_cases hp : p = a <;> simp [hp]

/-- The block is as it was. -/
theorem Holds.frame {h h' : Heap O} {c : CStr} {s : Bytes} {a : Nat} (hc : Holds h c s a) (he : h'.live a = h.live a) :
    Holds h' c s a := ⟨hc.data, hc.size, he ▸ hc.block⟩

/-! ### Arrays -/

/-- The strings `ss` in blocks of their own. -/
inductive HoldsAll (h : Heap O) : List CStr → List Bytes → List Nat → Prop
  | nil : HoldsAll h [] [] []
  | cons {c : CStr} {s : Bytes} {a : Nat} {cs : List CStr} {ss : List Bytes} {L : List Nat} (hc : Holds h c s a)
      (hr : HoldsAll h cs ss L) : HoldsAll h (c :: cs) (s :: ss) (a :: L)

theorem HoldsAll.frame {h h' : Heap O} {cs : List CStr} {ss : List Bytes} {L : List Nat} (hc : HoldsAll h cs ss L)
    (he : ∀ p ∈ L, h'.live p = h.live p) : HoldsAll h' cs ss L := by
  induction hc with
  | nil => exact .nil
  | cons hc hr ih =>
    exact .cons (hc.frame (he _ List.mem_cons_self)) (ih fun p hp => he p (List.mem_cons_of_mem _ hp))

theorem HoldsAll.length {h : Heap O} {cs : List CStr} {ss : List Bytes} {L : List Nat} (hc : HoldsAll h cs ss L) :
    cs.length = ss.length ∧ L.length = ss.length := by
  induction hc with
  | nil => exact ⟨rfl, rfl⟩
  | cons _ _ ih => exact ⟨by simp [ih.1], by simp [ih.2]⟩

/-- `arr` is the array of the strings `ss`; `L` are its blocks, no two the same. -/
structure Arr (h : Heap O) (arr : CArr) (ss : List Bytes) (L : List Nat) : Prop where
  ex : ∃ (a : Nat) (cs : List CStr) (B : List Nat), L = a :: B ∧ arr.data = some a ∧ h.live a = some (.strs (cs.map some)) ∧
    HoldsAll h cs ss B
  size : arr.size = ss.length
  nodup : L.Nodup

theorem Arr.frame {h h' : Heap O} {arr : CArr} {ss : List Bytes} {L : List Nat} (hc : Arr h arr ss L)
    (he : ∀ p ∈ L, h'.live p = h.live p) : Arr h' arr ss L := by
  obtain ⟨a, cs, B, rfl, h1, h2, h3⟩ := hc.ex
  exact ⟨⟨a, cs, B, rfl, h1, by rw [he a List.mem_cons_self, h2],
    h3.frame fun p hp => he p (List.mem_cons_of_mem _ hp)⟩, hc.size, hc.nodup⟩

/-- Blocks of an array are in use. -/
theorem HoldsAll.live {h : Heap O} {cs : List CStr} {ss : List Bytes} {L : List Nat} (hc : HoldsAll h cs ss L) :
    ∀ p ∈ L, ∃ s : Bytes, h.live p = some (.chars ((s ++ [0]).map some)) := by
  induction hc with
  | nil => intro p hp; cases hp
  | cons hc hr ih =>
    intro p hp
    rcases List.mem_cons.mp hp with rfl | hp
    · exact ⟨_, hc.block⟩
    · exact ih p hp

theorem Arr.live {h : Heap O} {arr : CArr} {ss : List Bytes} {L : List Nat} (hc : Arr h arr ss L) :
    ∀ p ∈ L, ∃ b, h.live p = some b ∧ ∀ o, b ≠ .object o := by
  obtain ⟨a, cs, B, rfl, h1, h2, h3⟩ := hc.ex
  intro p hp
  rcases List.mem_cons.mp hp with rfl | hp
  · exact ⟨_, h2, fun _ hh => by cases hh⟩
  · obtain ⟨s, hs⟩ := h3.live p hp
    exact ⟨_, hs, fun _ hh => by cases hh⟩

theorem writeStrs_ok {mem : Nat → Nat → Bool} {a : Nat} : ∀ (ss : List Bytes)
    (done : List (Option CStr)) (todo : List (Option CStr)) (h : Heap O),
    (∀ i s, ss[i]? = some s → mem (h.next + i) (s.length + 1) = true) → h.Wf → a < h.next →
    h.live a = some (.strs (done ++ todo)) → ss.length = todo.length →
    ∃ h' cs B, writeStrs mem a done.length ss h = (h', .ok ()) ∧ h'.live a = some (.strs (done ++ cs.map some)) ∧
      HoldsAll h' cs ss B ∧ B.Nodup ∧ (∀ p ∈ B, h.next ≤ p ∧ p < h'.next) ∧ h.next ≤ h'.next ∧
      (∀ p, p ≠ a → p ∉ B → h'.live p = h.live p) := by
  intro ss
  induction ss with
  | nil =>
    intro done todo h _ _ _ hb hl
    have : todo = [] := List.length_eq_zero_iff.mp hl.symm
    subst this
    exact ⟨h, [], [], rfl, by simpa using hb, .nil, List.nodup_nil, fun p hp => (by cases hp), le_refl _, fun _ _ _ => rfl⟩
  | cons s r ih =>
    intro done todo h hm hw ha hb hl
    cases todo with
    | nil => simp at hl
    | cons t todo =>
      have hx := ext_add hw (.chars ((s ++ [0]).map some))
      have hne : a ≠ h.next := Nat.ne_of_lt ha
      have hb1 : (h.add (.chars ((s ++ [0]).map some))).live a = some (.strs (done ++ t :: todo)) := by
        rw [hx.same a (by simpa using hne), hb]
      have hws : writeStr a done.length ⟨some h.next, s.length⟩ (h.add (.chars ((s ++ [0]).map some)))
          = ((h.add (.chars ((s ++ [0]).map some))).put a
            (some (.strs (done ++ some ⟨some h.next, s.length⟩ :: todo))), .ok ()) := by
        rw [writeStr, hb1]
        dsimp only
        rw [if_pos (by simp), List.set_append_right _ _ (le_refl _), Nat.sub_self, List.set_cons_zero]
      obtain ⟨h', cs, B, e1, e2, e3, e4, e5, e6, e7⟩ := ih (done ++ [some ⟨some h.next, s.length⟩]) todo
        ((h.add (.chars ((s ++ [0]).map some))).put a (some (.strs (done ++ some ⟨some h.next, s.length⟩ :: todo))))
        (by
          intro i x hi
          have := hm (i + 1) x (by rwa [List.getElem?_cons_succ])
          rwa [show h.next + (i + 1) = h.next + 1 + i by omega] at this)
        (by
          intro p hp
          have hp' : h.next + 1 ≤ p := hp
          rw [put_ne (by omega)]
          exact hx.wf p hp)
        (Nat.lt_succ_of_lt ha) (by rw [put_self]; simp) (by simpa using hl)
      have hlen : (done ++ [some (⟨some h.next, s.length⟩ : CStr)]).length = done.length + 1 := by simp
      rw [hlen] at e1
      have hn : h.next + 1 ≤ h'.next := e6
      have e5' : ∀ p ∈ B, h.next + 1 ≤ p ∧ p < h'.next := e5
      have hnB : h.next ∉ B := fun hm => absurd (e5' _ hm).1 (by omega)
      refine ⟨h', ⟨some h.next, s.length⟩ :: cs, h.next :: B, ?_, ?_, .cons ⟨rfl, rfl, ?_⟩ e3,
        List.nodup_cons.mpr ⟨hnB, e4⟩, ?_, by omega, ?_⟩
      · rw [writeStrs, bind_ok (makeCString_ok (hm 0 s rfl)), bind_ok hws, e1]
      · rw [e2]
        simp
      · rw [e7 _ (Ne.symm hne) hnB, put_ne (Ne.symm hne), add_self]
      · intro p hp
        rcases List.mem_cons.mp hp with rfl | hp
        · exact ⟨le_refl _, by omega⟩
        · have := e5' p hp
          exact ⟨by omega, this.2⟩
      · intro p hp1 hp2
        rw [List.mem_cons, not_or] at hp2
        rw [e7 p hp1 hp2.2, put_ne hp1, hx.same p (by simpa using hp2.1)]

theorem makeCStringArray_fits {mem : Nat → Nat → Bool} (ss : List Bytes) {h : Heap O}
    (hm0 : mem h.next (16 * ss.length) = true)
    (hm : ∀ i s, ss[i]? = some s → mem (h.next + 1 + i) (s.length + 1) = true) (hw : h.Wf) : ∃ h' arr L, makeCStringArray mem ss h = (h', .ok arr) ∧ Arr h' arr ss L ∧ Ext h h' L ∧
      L.length = ss.length + 1 := by
  have hx := ext_add hw (.strs (List.replicate ss.length none))
  obtain ⟨h', cs, B, e1, e2, e3, e4, e5, e6, e7⟩ := writeStrs_ok (a := h.next) ss [] (List.replicate ss.length none)
    (h.add (.strs (List.replicate ss.length none))) hm hx.wf (Nat.lt_succ_self _) add_self (by simp)
  have e5' : ∀ p ∈ B, h.next + 1 ≤ p ∧ p < h'.next := e5
  have e6' : h.next + 1 ≤ h'.next := e6
  have hnB : h.next ∉ B := fun hm => absurd (e5' _ hm).1 (by omega)
  refine ⟨h', ⟨some h.next, ss.length⟩, h.next :: B, ?_, ⟨⟨h.next, cs, B, rfl, rfl, e2, e3⟩, rfl,
    List.nodup_cons.mpr ⟨hnB, e4⟩⟩, ⟨?_, ?_, hw, by omega⟩, by simp [e3.length.2]⟩
  · rw [makeCStringArray, bind_ok (malloc_ok hm0)]
    dsimp only
    rw [List.length_nil] at e1
    rw [bind_ok e1]
    rfl
  · intro p hp
    rw [List.mem_cons, not_or] at hp
    rw [e7 p hp.1 hp.2, hx.same p (by simpa using hp.1)]
  · intro p hp
    rcases List.mem_cons.mp hp with rfl | hp
    · exact ⟨le_refl _, by omega⟩
    · have := e5' p hp
      exact ⟨by omega, this.2⟩

theorem makeCStringArray_ok {mem : Nat → Nat → Bool} (hm : ∀ i n, mem i n = true) (ss : List Bytes) {h : Heap O}
    (hw : h.Wf) : ∃ h' arr L, makeCStringArray mem ss h = (h', .ok arr) ∧ Arr h' arr ss L ∧ Ext h h' L ∧
      L.length = ss.length + 1 :=
  makeCStringArray_fits ss (hm _ _) (fun _ _ _ => hm _ _) hw

/-- The memory ends at the string `s`: the strings before it stay behind. -/
theorem writeStrs_null {mem : Nat → Nat → Bool} {a : Nat} {s : Bytes} {s2 : List Bytes} : ∀ (s1 : List Bytes)
    (done : List (Option CStr)) (todo : List (Option CStr)) (h : Heap O),
    (∀ i s, s1[i]? = some s → mem (h.next + i) (s.length + 1) = true) → mem (h.next + s1.length) (s.length + 1) = false →
    h.Wf → a < h.next → h.live a = some (.strs (done ++ todo)) → (s1 ++ s :: s2).length = todo.length →
    ∃ (h' : Heap O) (B : List Nat), writeStrs mem a done.length (s1 ++ s :: s2) h = (h', .throws) ∧ B.length = s1.length ∧ B.Nodup ∧
      (∀ p ∈ B, h.next ≤ p ∧ p < h'.next) ∧ (∀ p ∈ B, (h'.live p).isSome) ∧ (h'.live a).isSome ∧ h.next ≤ h'.next ∧
      (∀ p, p ≠ a → p ∉ B → h'.live p = h.live p) := by
  intro s1
  induction s1 with
  | nil =>
    intro done todo h _ hf hw ha hb hl
    refine ⟨⟨h.next + 1, h.live⟩, [], ?_, rfl, List.nodup_nil, fun p hp => absurd hp List.not_mem_nil,
      fun p hp => absurd hp List.not_mem_nil, by rw [hb]; rfl, Nat.le_succ _, fun _ _ _ => rfl⟩
    rw [List.nil_append, writeStrs, bind_throws (makeCString_null hf)]
  | cons x r ih =>
    intro done todo h hm hf hw ha hb hl
    cases todo with
    | nil => simp at hl
    | cons t todo =>
      have hx := ext_add hw (.chars ((x ++ [0]).map some))
      have hne : a ≠ h.next := Nat.ne_of_lt ha
      have hb1 : (h.add (.chars ((x ++ [0]).map some))).live a = some (.strs (done ++ t :: todo)) := by
        rw [hx.same a (by simpa using hne), hb]
      have hws : writeStr a done.length ⟨some h.next, x.length⟩ (h.add (.chars ((x ++ [0]).map some)))
          = ((h.add (.chars ((x ++ [0]).map some))).put a
            (some (.strs (done ++ some ⟨some h.next, x.length⟩ :: todo))), .ok ()) := by
        rw [writeStr, hb1]
        dsimp only
        rw [if_pos (by simp), List.set_append_right _ _ (le_refl _), Nat.sub_self, List.set_cons_zero]
      obtain ⟨h', B, e1, e2, e3, e4, e5, e6, e7, e8⟩ := ih (done ++ [some ⟨some h.next, x.length⟩]) todo
        ((h.add (.chars ((x ++ [0]).map some))).put a (some (.strs (done ++ some ⟨some h.next, x.length⟩ :: todo))))
        (by
          intro i y hi
          have := hm (i + 1) y (by rwa [List.getElem?_cons_succ])
          rwa [show h.next + (i + 1) = h.next + 1 + i by omega] at this)
        (by
          rw [List.length_cons, show h.next + (r.length + 1) = h.next + 1 + r.length by omega] at hf
          exact hf)
        (by
          intro p hp
          have hp' : h.next + 1 ≤ p := hp
          rw [put_ne (by omega)]
          exact hx.wf p hp)
        (Nat.lt_succ_of_lt ha) (by rw [put_self]; simp) (by simpa using hl)
      have hlen : (done ++ [some (⟨some h.next, x.length⟩ : CStr)]).length = done.length + 1 := by simp
      rw [hlen] at e1
      have hn : h.next + 1 ≤ h'.next := e7
      have e4' : ∀ p ∈ B, h.next + 1 ≤ p ∧ p < h'.next := e4
      have hnB : h.next ∉ B := fun hm => absurd (e4' _ hm).1 (by omega)
      refine ⟨h', h.next :: B, ?_, by simp [e2], List.nodup_cons.mpr ⟨hnB, e3⟩, ?_, ?_, e6, by omega, ?_⟩
      · rw [List.cons_append, writeStrs, bind_ok (makeCString_ok (hm 0 x rfl)), bind_ok hws, e1]
      · intro p hp
        rcases List.mem_cons.mp hp with rfl | hp
        · exact ⟨le_refl _, by omega⟩
        · have := e4' p hp
          exact ⟨by omega, this.2⟩
      · intro p hp
        rcases List.mem_cons.mp hp with rfl | hp
        · rw [e8 _ (Ne.symm hne) hnB, put_ne (Ne.symm hne), add_self]
          rfl
        · exact e5 p hp
      · intro p hp1 hp2
        rw [List.mem_cons, not_or] at hp2
        rw [e8 p hp1 hp2.2, put_ne hp1, hx.same p (by simpa using hp2.1)]

theorem readStr_ok {h : Heap O} {a : Nat} {cs : List CStr} {i : Nat} {c : CStr}
    (hb : h.live a = some (.strs (cs.map some))) (hi : cs[i]? = some c) : readStr (some a) i h = (h, .ok c) := by
  rw [readStr, hb]
  dsimp only
  rw [List.getElem?_map, hi]
  rfl

theorem readStrs_ok {h : Heap O} {a : Nat} {all : List CStr} (hb : h.live a = some (.strs (all.map some))) :
    ∀ (cs : List CStr) (ss : List Bytes) (B : List Nat) (done : List CStr), all = done ++ cs → HoldsAll h cs ss B →
    readStrs (some a) done.length ss.length h = (h, .ok ss) := by
  intro cs ss B done hd hc
  induction hc generalizing done with
  | nil => rfl
  | @cons c s b cs ss L hc hr ih =>
    have hi : all[done.length]? = some c := by rw [hd]; simp
    have := ih (done ++ [c]) (by rw [hd]; simp)
    rw [List.length_append, List.length_singleton] at this
    rw [List.length_cons, readStrs, bind_ok (readStr_ok hb hi), bind_ok hc.read, bind_ok this]
    rfl

theorem Arr.read {h : Heap O} {arr : CArr} {ss : List Bytes} {L : List Nat} (hc : Arr h arr ss L) :
    makeStringArray arr h = (h, .ok ss) := by
  obtain ⟨a, cs, B, -, h1, h2, h3⟩ := hc.ex
  rw [makeStringArray, h1, hc.size]
  exact readStrs_ok h2 cs ss B [] rfl h3

theorem drop_drop (h : Heap O) (L L' : List Nat) : (h.drop L).drop L' = h.drop (L ++ L') := by
  simp only [Heap.drop]
  congr 1
  funext p
  by_cases h1 : p ∈ L <;> by_cases h2 : p ∈ L' <;> simp [h1, h2]

theorem drop_live {h : Heap O} {L : List Nat} {p : Nat} (hp : p ∉ L) : (h.drop L).live p = h.live p := by
  change (if p ∈ L then none else _) = _
  rw [if_neg hp]

theorem freeStrs_ok {a : Nat} {all : List CStr} (cs : List CStr) (ss : List Bytes) (B : List Nat) :
    ∀ (h : Heap O) (done : List CStr), h.live a = some (.strs (all.map some)) → all = done ++ cs → HoldsAll h cs ss B →
    B.Nodup → a ∉ B → freeStrs (some a) done.length ss.length h = (h.drop B, .ok ()) := by
  induction ss generalizing cs B with
  | nil =>
    intro h done _ _ hc _ _
    cases hc
    rw [List.length_nil, freeStrs, pure_run]
    congr 1
  | cons s ss ih =>
    intro h done hb hd hc hn ha
    cases hc with
    | @cons c _ b cs _ L hc hr =>
      rw [List.nodup_cons] at hn
      rw [List.mem_cons, not_or] at ha
      have hi : all[done.length]? = some c := by rw [hd]; simp
      have := ih cs L (h.drop [b]) (done ++ [c]) (by rw [drop_live (by simpa using ha.1), hb]) (by rw [hd]; simp)
        (hr.frame fun p hp => drop_live (by
          rw [List.mem_singleton]
          rintro rfl
          exact hn.1 hp)) hn.2 ha.2
      rw [List.length_append, List.length_singleton] at this
      rw [List.length_cons, freeStrs, bind_ok (readStr_ok hb hi), bind_ok hc.free, this, drop_drop]
      rfl

theorem Arr.free {h : Heap O} {arr : CArr} {ss : List Bytes} {L : List Nat} (hc : Arr h arr ss L) :
    freeCStringArray arr h = (h.drop L, .ok ⟨arr.data, 0⟩) := by
  obtain ⟨a, cs, B, rfl, h1, h2, h3⟩ := hc.ex
  have hn := List.nodup_cons.mp hc.nodup
  have e1 := freeStrs_ok cs ss B h [] h2 rfl h3 hn.2 hn.1
  rw [List.length_nil, ← hc.size, ← h1] at e1
  have e2 : Capi.free arr.data (h.drop B) = (h.drop (a :: B), .ok ()) := by
    rw [h1, Capi.free]
    rw [drop_live hn.1, h2]
    dsimp only
    congr 1
    simp only [Heap.put, Heap.drop]
    congr 1
    funext p
    by_cases hp : p = a <;> by_cases hB : p ∈ B <;> simp [hp, hB]
  rw [freeCStringArray, bind_ok e1, bind_ok e2]
  rfl

/-! ### What stays when the heap grows -/

theorem Ext.keep {h h' : Heap O} {L : List Nat} (e : Ext h h' L) {p : Nat} {b : Block O} (hp : h.live p = some b) :
    h'.live p = some b := by
  rw [← hp]
  refine e.same p fun hm => ?_
  rw [e.wf0 p (e.fresh p hm).1] at hp
  cases hp

theorem Arr.ext {h h' : Heap O} {arr : CArr} {ss : List Bytes} {L L' : List Nat} (hc : Arr h arr ss L) (e : Ext h h' L') :
    Arr h' arr ss L := by
  refine hc.frame fun p hp => ?_
  obtain ⟨b, hb, -⟩ := hc.live p hp
  rw [hb, e.keep hb]

theorem Arr.put {h : Heap O} {arr : CArr} {ss : List Bytes} {L : List Nat} (hc : Arr h arr ss L) {a : Nat} {o : O}
    (ha : h.live a = some (.object o)) (b : Option (Block O)) : Arr (h.put a b) arr ss L := by
  refine hc.frame fun p hp => put_ne ?_
  rintro rfl
  obtain ⟨b, hb, hn⟩ := hc.live p hp
  rw [ha] at hb
  exact hn o (Option.some.inj hb).symm

theorem Arr.drop {h : Heap O} {arr : CArr} {ss : List Bytes} {L D : List Nat} (hc : Arr h arr ss L)
    (hD : ∀ p ∈ L, p ∉ D) : Arr (h.drop D) arr ss L :=
  hc.frame fun p hp => drop_live (hD p hp)

theorem wf_put {h : Heap O} (hw : h.Wf) {a : Nat} {o : O} (ha : h.live a = some (.object o)) (b : Option (Block O)) :
    (h.put a b).Wf := by
  intro p hp
  have hne : p ≠ a := by
    rintro rfl
    rw [hw p hp] at ha
    cases ha
  rw [put_ne hne]
  exact hw p hp

/-! ### Results -/

/-- `p` is a result with these keys and values; `L` are its blocks, no two the same. -/
structure IsResult (h : Heap O) (p : Ptr) (keys values : List Bytes) (L : List Nat) : Prop where
  ex : ∃ (a : Nat) (k v : CArr) (K V : List Nat), p = some a ∧ L = a :: (K ++ V) ∧
    h.live a = some (.result ⟨some k, some v, some (keys.length % 2 ^ 32), some (!values.isEmpty)⟩) ∧
    Arr h k keys K ∧ (if values.isEmpty then v = ⟨none, 0⟩ ∧ V = [] else Arr h v values V)
  nodup : L.Nodup

theorem writeResult_ok {h : Heap O} {a : Nat} {r : QRes} (f : QRes → QRes) (hb : h.live a = some (.result r)) :
    writeResult a f h = (h.put a (some (.result (f r))), .ok ()) := by
  rw [writeResult, hb]

theorem Arr.putResult {h : Heap O} {arr : CArr} {ss : List Bytes} {L : List Nat} (hc : Arr h arr ss L) {a : Nat}
    (ha : a ∉ L) (b : Option (Block O)) : Arr (h.put a b) arr ss L :=
  hc.frame fun p hp => put_ne (fun hpa : p = a => ha (hpa ▸ hp))

theorem makeQueryResult_ok {mem : Nat → Nat → Bool} (hm : ∀ i n, mem i n = true) {keys values : List Bytes} {h : Heap O}
    (hl : ¬ (keys.length ≠ values.length ∧ values ≠ [])) (hw : h.Wf) :
    ∃ h' p L, makeQueryResult mem keys values h = (h', .ok p) ∧ IsResult h' p keys values L ∧ Ext h h' L := by
  have x0 := ext_add hw (.result ⟨none, none, none, none⟩ : Block O)
  set h1 := h.add (.result ⟨none, none, none, none⟩) with hh1
  have b1 : h1.live h.next = some (.result ⟨none, none, none, none⟩) := add_self
  have w2 := writeResult_ok (fun r => { r with rows := some (keys.length % 2 ^ 32) }) b1
  have x2 := x0.put (List.mem_singleton.mpr rfl) (some (.result ⟨none, none, some (keys.length % 2 ^ 32), none⟩))
  set h2 := h1.put h.next (some (.result ⟨none, none, some (keys.length % 2 ^ 32), none⟩)) with hh2
  have w3 := writeResult_ok (h := h2) (a := h.next) (fun r => { r with labeled := some (!values.isEmpty) }) put_self
  have x3 := x2.put (List.mem_singleton.mpr rfl)
    (some (.result ⟨none, none, some (keys.length % 2 ^ 32), some (!values.isEmpty)⟩))
  set h3 := h2.put h.next (some (.result ⟨none, none, some (keys.length % 2 ^ 32), some (!values.isEmpty)⟩)) with hh3
  obtain ⟨h4, k, K, m4, a4, x4, -⟩ := makeCStringArray_ok hm keys x3.wf
  have hnx : h3.next = h.next + 1 := rfl
  have hK : h.next ∉ K := fun hmem => absurd (x4.fresh _ hmem).1 (by omega)
  have b4 : h4.live h.next = some (.result ⟨none, none, some (keys.length % 2 ^ 32), some (!values.isEmpty)⟩) :=
    x4.keep put_self
  have w5 := writeResult_ok (fun r => { r with keys := some k }) b4
  have x5 := (x3.trans x4).put (a := h.next) (by simp)
    (some (.result ⟨some k, none, some (keys.length % 2 ^ 32), some (!values.isEmpty)⟩))
  have a5 := a4.putResult hK (some (.result ⟨some k, none, some (keys.length % 2 ^ 32), some (!values.isEmpty)⟩))
  set h5 := h4.put h.next (some (.result ⟨some k, none, some (keys.length % 2 ^ 32), some (!values.isEmpty)⟩)) with hh5
  have hn5 : h5.next = h4.next := rfl
  have run : ∀ (h6 : Heap O) (v : CArr) (V : List Nat),
      makeValues mem values h5 = (h6, .ok v) →
      Ext h5 h6 V → (if values.isEmpty then v = ⟨none, 0⟩ ∧ V = [] else Arr h6 v values V) →
      (V.Nodup) →
      ∃ h' p L, makeQueryResult mem keys values h = (h', .ok p) ∧ IsResult h' p keys values L ∧ Ext h h' L := by
    intro h6 v V m6 x6 a6 n6
    have hV : ∀ p ∈ V, h4.next ≤ p := fun p hp => (x6.fresh p hp).1
    have hV' : h.next ∉ V := fun hmem => by
      have := hV _ hmem
      have := x4.le
      omega
    have hKV : ∀ p ∈ K, p ∉ V := fun p hp hp' => by
      have := hV _ hp'
      have := (x4.fresh p hp).2
      omega
    have b6 : h6.live h.next = some (.result ⟨some k, none, some (keys.length % 2 ^ 32), some (!values.isEmpty)⟩) :=
      x6.keep put_self
    have w7 := writeResult_ok (fun r => { r with values := some v }) b6
    refine ⟨_, some h.next, h.next :: (K ++ V), ?_, ⟨⟨h.next, k, v, K, V, rfl, rfl, put_self,
      (a5.ext x6).putResult hK _, ?_⟩, ?_⟩, ?_⟩
    · rw [makeQueryResult, if_neg hl, bind_ok (malloc_ok (hm _ _))]
      dsimp only
      rw [bind_ok w2, bind_ok w3, bind_ok m4, bind_ok w5, bind_ok m6, bind_ok w7]
      rfl
    · by_cases hv : values.isEmpty = true
      · rw [if_pos hv] at a6 ⊢
        exact a6
      · rw [if_neg hv] at a6 ⊢
        exact a6.putResult hV' _
    · rw [List.nodup_cons, List.mem_append, not_or, List.nodup_append]
      refine ⟨⟨hK, hV'⟩, a5.nodup, n6, ?_⟩
      intro p hp q hq hpq
      exact hKV p hp (hpq ▸ hq)
    · have := (x5.trans x6).put (a := h.next) (by simp)
        (some (.result ⟨some k, some v, some (keys.length % 2 ^ 32), some (!values.isEmpty)⟩))
      refine ⟨fun p hp => this.same p ?_, fun p hp => this.fresh p ?_, hw, this.le⟩
      · simp only [List.mem_cons, List.mem_append, not_or, List.not_mem_nil] at hp ⊢
        tauto
      · simp only [List.mem_cons, List.mem_append, List.not_mem_nil] at hp ⊢
        tauto
  by_cases hv : values.isEmpty = true
  · refine run h5 ⟨none, 0⟩ [] ?_ (Ext.refl x5.wf) ?_ List.nodup_nil
    · rw [makeValues, if_pos hv]
      rfl
    · rw [if_pos hv]
      exact ⟨rfl, rfl⟩
  · obtain ⟨h6, v, V, m6, a6, x6, -⟩ := makeCStringArray_ok hm values x5.wf
    refine run h6 v V ?_ x6 ?_ a6.nodup
    · rw [makeValues, if_neg hv]
      exact m6
    · rw [if_neg hv]
      exact a6

theorem freeQueryResult_ok {h : Heap O} {p : Ptr} {keys values : List Bytes} {L : List Nat}
    (hr : IsResult h p keys values L) : freeQueryResult p h = (h.drop L, .ok ()) := by
  obtain ⟨a, k, v, K, V, rfl, rfl, hb, hk, hv⟩ := hr.ex
  have hn := hr.nodup
  rw [List.nodup_cons, List.mem_append, not_or, List.nodup_append] at hn
  obtain ⟨⟨haK, haV⟩, -, -, hKV⟩ := hn
  have r1 : readResult a h = (h, .ok (k, v)) := by rw [readResult, hb]
  have b2 : (h.drop K).live a
      = some (.result ⟨some k, some v, some (keys.length % 2 ^ 32), some (!values.isEmpty)⟩) := by
    rw [drop_live haK, hb]
  have w2 := writeResult_ok (fun r => { r with keys := some ⟨k.data, 0⟩ }) b2
  rw [freeQueryResult, bind_ok r1]
  dsimp only
  rw [bind_ok hk.free, bind_ok w2]
  set h2 := (h.drop K).put a (some (.result ⟨some ⟨k.data, 0⟩, some v, some (keys.length % 2 ^ 32),
    some (!values.isEmpty)⟩)) with hh2
  have hfree : ∀ (h3 : Heap O) (r : QRes), h3.live a = some (.result r) →
      free (some a) h3 = (h3.put a none, .ok ()) := by
    intro h3 r hh
    rw [free, hh]
  by_cases hve : values.isEmpty = true
  · rw [if_pos hve] at hv
    obtain ⟨rfl, rfl⟩ := hv
    have e5 : freeValues a ⟨none, 0⟩ h2 = (h2, .ok ()) := by
      rw [freeValues, if_pos rfl]
      rfl
    rw [bind_ok e5, hfree h2 _ put_self]
    congr 1
    rw [hh2, put_put]
    simp only [Heap.put, Heap.drop]
    congr 1
    funext q
    by_cases hq : q = a <;> by_cases hK : q ∈ K <;> simp [hq, hK]
  · rw [if_neg hve] at hv
    have hvd : v.data ≠ none := by
      obtain ⟨b, cs, B, -, h1, -⟩ := hv.ex
      rw [h1]
      exact fun hh => by cases hh
    have a3 : Arr h2 v values V := (hv.drop fun p hp hp' => hKV p hp' p hp rfl).putResult haV _
    have b4 : (h2.drop V).live a = some (.result ⟨some ⟨k.data, 0⟩, some v, some (keys.length % 2 ^ 32),
        some (!values.isEmpty)⟩) := by
      rw [drop_live haV]
      exact put_self
    have w4 := writeResult_ok (fun r => { r with values := some ⟨v.data, 0⟩ }) b4
    have e5 : freeValues a v h2
        = ((h2.drop V).put a (some (.result ⟨some ⟨k.data, 0⟩, some ⟨v.data, 0⟩, some (keys.length % 2 ^ 32),
          some (!values.isEmpty)⟩)), .ok ()) := by
      rw [freeValues, if_neg hvd, bind_ok a3.free, w4]
    rw [bind_ok e5, hfree _ _ put_self]
    congr 1
    rw [put_put, hh2]
    simp only [Heap.put, Heap.drop]
    congr 1
    funext q
    by_cases hq : q = a <;> by_cases hK : q ∈ K <;> by_cases hV : q ∈ V <;> simp [hq, hK, hV]

end

end Psi.Capi
