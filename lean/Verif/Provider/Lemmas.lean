import Verif.Provider.Model
import Verif.Provider.Spec
import Mathlib.Data.List.Basic
import Mathlib.Tactic.Ring

/-! # Helper lemmas about the batch providers -/

namespace Psi.Provider
open Spec
variable {α β : Type}

/-- A reader whose state determines the rows still to come delivers them. -/
theorem delivers_of_pending {σ E : Type} (read : σ → Except E (List β × σ)) (pending : σ → List β)
    (batch : Nat) (Good : σ → Prop)
    (h : ∀ s, Good s → ∃ s', read s = .ok ((pending s).take batch, s') ∧
      pending s' = (pending s).drop batch ∧ Good s') (n : Nat) (s : σ) (hs : Good s) :
    ∃ outs s', reads read n s = .ok (outs, s') ∧ outs.length = n ∧ Delivers (pending s) batch outs ∧
      pending s' = (pending s).drop (n * batch) ∧ Good s' := by
  induction n generalizing s with
  | zero => exact ⟨[], s, rfl, rfl, ⟨by simp, by simp⟩, by simp, hs⟩
  | succ n ih =>
    obtain ⟨s1, h1, h2, h3⟩ := h s hs
    obtain ⟨outs, s2, h4, h5, h6, h7, h8⟩ := ih s1 h3
    refine ⟨(pending s).take batch :: outs, s2, by simp [reads, h1, h4], by simp [h5], ⟨?_, ?_⟩, ?_, h8⟩
    · rw [List.flatten_cons, h6.concat, h2, List.length_cons, ← List.take_add]
      congr 1; ring
    · intro i b hi
      cases i with
      | zero => simp at hi; subst hi; simp
      | succ i =>
        simp at hi
        rw [h6.size i b hi, h2, List.length_drop]
        congr 1
        rw [Nat.add_mul]; omega
    · rw [h7, h2, List.drop_drop]; congr 1; ring

theorem fill_spec (want : Nat) (cur : List β) (bs : List (List β)) :
    (fill want cur bs).1 = (cur ++ bs.flatten).take want ∧
    (fill want cur bs).2.1 ++ (fill want cur bs).2.2.1.flatten = (cur ++ bs.flatten).drop want ∧
    ((fill want cur bs).2.2.2 = true → (fill want cur bs).2.1 = [] ∧ (fill want cur bs).2.2.1 = []) := by
  induction bs generalizing want cur with
  | nil =>
    unfold fill
    split
    · rename_i h; simp
    · rename_i h; simp only [List.flatten_nil, List.append_nil]; exact ⟨(List.take_of_length_le (by omega)).symm, (List.drop_of_length_le (by omega)).symm, by simp⟩
  | cons b bs ih =>
    unfold fill
    split
    · rename_i h
      refine ⟨?_, ?_, by simp⟩
      · rw [List.take_append_of_le_length h]
      · rw [List.drop_append_of_le_length h]
    · rename_i h
      obtain ⟨h1, h2, h3⟩ := ih (want - cur.length) b
      refine ⟨?_, ?_, h3⟩
      · simp only [h1, List.flatten_cons]
        generalize b ++ bs.flatten = X
        rw [List.take_append, List.take_of_length_le (by omega : cur.length ≤ want)]
      · simp only [h2, List.flatten_cons]
        generalize b ++ bs.flatten = X
        rw [List.drop_append, List.drop_of_length_le (by omega : cur.length ≤ want), List.nil_append]

/-- Rows a CSV provider still has to deliver. -/
def Csv.pending (s : Csv β) : List β := if s.eof then [] else s.cur ++ s.more.flatten

theorem Csv.read_spec (s : Csv β) : s.read.1 = s.pending.take s.batch ∧
    s.read.2.pending = s.pending.drop s.batch ∧ s.read.2.batch = s.batch := by
  unfold Csv.read Csv.pending
  split
  · simp
  · rename_i h
    obtain ⟨h1, h2, h3⟩ := fill_spec s.batch s.cur s.more
    refine ⟨h1, ?_, rfl⟩
    dsimp only
    split
    · rename_i he
      have := h3 he
      rw [← h2, this.1, this.2]; simp
    · exact h2

theorem Csv.readInfo_spec (s : Csv β) (he : s.eof = false) : s.readInfo.1 = s.pending.take s.batch ∧
    s.readInfo.2.pending = s.pending.drop s.batch ∧ s.readInfo.2.batch = s.batch ∧
    s.readInfo.2.eof = false := by
  obtain ⟨h1, h2, h3⟩ := fill_spec s.batch s.cur s.more
  simp only [Csv.readInfo, Csv.pending, he]
  exact ⟨h1, h2, trivial, trivial⟩

theorem mapM_range_some {γ : Type} (n : Nat) (f : Nat → Option γ) (g : Nat → γ)
    (h : ∀ i < n, f i = some (g i)) : (List.range n).mapM f = some ((List.range n).map g) := by
  have : ∀ l : List Nat, (∀ i ∈ l, f i = some (g i)) → l.mapM f = some (l.map g) := by
    intro l hl
    induction l with
    | nil => rfl
    | cons a l ih =>
      rw [List.mapM_cons, hl a (by simp), ih (fun i hi => hl i (by simp [hi]))]
      rfl
  exact this _ (fun i hi => h i (by simpa using hi))

/-- Elements the memory provider delivers in shuffled mode, in order. -/
def Mem.order (items : List α) (perm : List Nat) : List (Shuf α) :=
  perm.zipIdx.filterMap (fun x => (items[x.1]?).map (fun y => ⟨y, x.2, x.1⟩))

theorem filterMap_all {γ δ : Type} (l : List γ) (f : γ → Option δ) (g : γ → δ)
    (h : ∀ x ∈ l, f x = some (g x)) : l.filterMap f = l.map g := by
  induction l with
  | nil => rfl
  | cons a l ih =>
    rw [List.filterMap_cons, h a (by simp), ih (fun x hx => h x (by simp [hx]))]; rfl

theorem mem_zipIdx_lt {γ : Type} {l : List γ} {x : γ × Nat} (h : x ∈ l.zipIdx) : l[x.2]? = some x.1 := by
  obtain ⟨a, i⟩ := x
  simpa [List.mem_zipIdx_iff_getElem?] using h

/-- State of the shuffled memory provider: cursor within the items. -/
def Mem.shufPending (m : Mem α) : List (Shuf α) := (Mem.order m.items m.shuffled).drop m.cursor

structure Mem.Good (m : Mem α) : Prop where
  le : m.cursor ≤ m.items.length
  perm : m.shuffled.Perm (List.range m.items.length)
  ne : m.items ≠ []

theorem Mem.order_get (m : Mem α) (h : m.Good) :
    (Mem.order m.items m.shuffled).length = m.items.length ∧
    ∀ i < m.items.length, ∃ s x, m.shuffled[i]? = some s ∧ m.items[s]? = some x ∧
      (Mem.order m.items m.shuffled)[i]? = some ⟨x, i, s⟩ := by
  obtain ⟨d, hd⟩ : ∃ d : α, d ∈ m.items := List.exists_mem_of_ne_nil _ h.ne
  have hlt : ∀ s ∈ m.shuffled, s < m.items.length := by
    intro s hs; simpa using h.perm.mem_iff.mp hs
  have ho : Mem.order m.items m.shuffled =
      m.shuffled.zipIdx.map (fun x => (⟨m.items.getD x.1 d, x.2, x.1⟩ : Shuf α)) := by
    apply filterMap_all
    intro x hx
    have := hlt x.1 (List.mem_of_getElem? (mem_zipIdx_lt hx))
    simp [List.getElem?_eq_getElem this]
  have hl : m.shuffled.length = m.items.length := by simpa using h.perm.length_eq
  refine ⟨by rw [ho]; simp [hl], ?_⟩
  intro i hi
  have hi' : i < m.shuffled.length := by omega
  have hs := hlt _ (List.getElem_mem hi')
  refine ⟨m.shuffled[i], m.items[m.shuffled[i]], List.getElem?_eq_getElem hi',
    List.getElem?_eq_getElem hs, ?_⟩
  rw [ho]
  simp [hi', hs]

theorem Mem.readShuffled_spec (m : Mem α) (h : m.Good) :
    ∃ m', m.readShuffled = .ok (m.shufPending.take m.batch, m') ∧
      m'.shufPending = m.shufPending.drop m.batch ∧ m'.Good ∧ m'.batch = m.batch ∧
      m'.items = m.items ∧ m'.shuffled = m.shuffled := by
  obtain ⟨hlen, hget⟩ := m.order_get h
  have hle := h.le
  have hne : m.shuffled.isEmpty = false := by
    have h1 : m.shuffled.length = m.items.length := by simpa using h.perm.length_eq
    have h2 := List.length_pos_of_ne_nil h.ne
    cases hs : m.shuffled with
    | nil => simp [hs] at h1; omega
    | cons => rfl
  set n := min m.batch (m.items.length - m.cursor) with hn
  have hb : (List.range n).mapM m.elem =
      some (m.shufPending.take m.batch) := by
    have hlp : (m.shufPending.take m.batch).length = n := by
      simp [Mem.shufPending, hlen, hn]
    have : m.shufPending.take m.batch = (List.range n).map (fun i =>
        (m.shufPending.take m.batch).getD i ⟨(hget 0 (List.length_pos_of_ne_nil h.ne)).choose_spec.choose, 0, 0⟩) := by
      apply List.ext_getElem
      · simp [hlp]
      · intro i h1 h2
        simp only [List.length_map, List.length_range] at h2
        simp [List.getD_eq_getElem?_getD, hlp, h2]
    rw [this]
    apply mapM_range_some
    intro i hi
    have hi2 : m.cursor + i < m.items.length := by omega
    obtain ⟨s, x, e1, e2, e3⟩ := hget _ hi2
    have e4 : (m.shufPending.take m.batch)[i]? = some ⟨x, m.cursor + i, s⟩ := by
      rw [List.getElem?_take_of_lt (by omega), Mem.shufPending, List.getElem?_drop, e3]
    simp [Mem.elem, e1, e2, List.getD_eq_getElem?_getD, e4]
  refine ⟨{ m with cursor := m.cursor + n }, ?_, ?_, ⟨?_, h.perm, h.ne⟩, rfl, rfl, rfl⟩
  · unfold Mem.readShuffled
    rw [hne, if_neg (by simp), if_neg (by omega)]
    simp only [← hn]
    rw [hb]
  · simp only [Mem.shufPending, List.drop_drop]
    by_cases hc : m.batch ≤ m.items.length - m.cursor
    · rw [hn, Nat.min_eq_left hc]
    · rw [List.drop_of_length_le (by omega), List.drop_of_length_le (by omega)]
  · show m.cursor + n ≤ m.items.length
    omega

/-! ### Shuffling provider -/

/-- Elements a raw batch held in the buffer still gives. -/
def emit (base shuffleBase : Nat) (buf : List (α × Nat)) (deque : List Nat) : List (ShufDup α) :=
  deque.zipIdx.filterMap (fun x => (buf[x.1]?).map (fun y => ⟨y.1, base + x.2, shuffleBase + x.1, y.2⟩))

/-- Elements the raw batches not yet read will give. -/
def future (σ : Nat → Nat → List Nat) (base shuffleBase reads : Nat) :
    List (List (α × Nat)) → List (ShufDup α)
  | [] => []
  | b :: bs => emit base shuffleBase b (σ reads b.length) ++
      future σ (base + b.length) (shuffleBase + b.length) (reads + 1) bs

def Sim.pending (σ : Nat → Nat → List Nat) (s : Sim α) : List (ShufDup α) :=
  if s.readEnd then [] else
  emit s.base s.shuffleBase s.buf s.deque ++
    future σ (s.base + s.deque.length) (s.shuffleBase + s.buf.length) s.reads s.more

structure Sim.Good (s : Sim α) : Prop where
  deque : ∀ j ∈ s.deque, j < s.buf.length
  more : ∀ b ∈ s.more, b ≠ []

theorem emit_eq (base sb : Nat) (buf : List (α × Nat)) (d : α × Nat) (deque : List Nat)
    (h : ∀ j ∈ deque, j < buf.length) : emit base sb buf deque =
      deque.zipIdx.map (fun x => (⟨(buf.getD x.1 d).1, base + x.2, sb + x.1, (buf.getD x.1 d).2⟩ : ShufDup α)) := by
  apply filterMap_all
  intro x hx
  have := h x.1 (List.mem_of_getElem? (mem_zipIdx_lt hx))
  simp [List.getElem?_eq_getElem this]

theorem emit_length (base sb : Nat) (buf : List (α × Nat)) (deque : List Nat)
    (h : ∀ j ∈ deque, j < buf.length) : (emit base sb buf deque).length = deque.length := by
  cases buf with
  | nil =>
    cases deque with
    | nil => rfl
    | cons j _ => have := h j (by simp); simp at this
  | cons d _ => rw [emit_eq _ _ _ d _ h]; simp

theorem emit_drop (base sb n : Nat) (buf : List (α × Nat)) (deque : List Nat) (hn : n ≤ deque.length)
    (h : ∀ j ∈ deque, j < buf.length) :
    emit (base + n) sb buf (deque.drop n) = (emit base sb buf deque).drop n := by
  cases buf with
  | nil =>
    cases deque with
    | nil => simp [emit]
    | cons j _ => have := h j (by simp); simp at this
  | cons d _ =>
    rw [emit_eq _ _ _ d _ h, emit_eq _ _ _ d _ (fun j hj => h j (List.mem_of_mem_drop hj))]
    apply List.ext_getElem
    · simp
    · intro i h1 h2; simp; omega

theorem Sim.push_spec (s : Sim α) (h : s.Good) (n : Nat) (hn : n ≤ s.deque.length) :
    s.push n = .ok ((emit s.base s.shuffleBase s.buf s.deque).take n,
      { s with deque := s.deque.drop n, base := s.base + n }) := by
  cases hb : s.buf with
  | nil =>
    have : s.deque = [] := by
      cases hd : s.deque with
      | nil => rfl
      | cons j _ => have := h.deque j (by simp [hd]); simp [hb] at this
    simp [this] at hn
    subst hn
    simp [Sim.push, this, emit, hb]
  | cons d _ =>
    rw [← hb]
    have hlt := h.deque
    have : (List.range n).mapM s.elem =
        some ((emit s.base s.shuffleBase s.buf s.deque).take n) := by
      rw [mapM_range_some n _ (fun i => ⟨(s.buf.getD (s.deque.getD i 0) d).1, s.base + i,
        s.shuffleBase + s.deque.getD i 0, (s.buf.getD (s.deque.getD i 0) d).2⟩)]
      · rw [emit_eq _ _ _ d _ hlt]
        congr 1
        apply List.ext_getElem
        · simp; omega
        · intro i h1 h2
          simp only [List.length_map, List.length_range] at h1
          have h3 : i < s.deque.length := by omega
          simp [List.getD_eq_getElem?_getD, h3]
      · intro i hi
        have h3 : i < s.deque.length := by omega
        have h4 := hlt _ (List.getElem_mem h3)
        simp [Sim.elem, List.getD_eq_getElem?_getD, h3, h4]
    unfold Sim.push
    rw [this]

theorem Sim.loop_spec (σ : Nat → Nat → List Nat) (hσ : ∀ k l, (σ k l).Perm (List.range l)) (fuel want : Nat)
    (s : Sim α) (h : s.Good) (he : s.readEnd = false)
    (hf : 2 * s.more.length + (if s.deque.isEmpty then 0 else 1) + 2 ≤ fuel) :
    ∃ s', Sim.loop σ fuel want s = .ok ((s.pending σ).take want, s') ∧
      s'.pending σ = (s.pending σ).drop want ∧ s'.Good ∧ s'.batch = s.batch := by
  induction fuel generalizing want s with
  | zero => omega
  | succ fuel ih =>
    unfold Sim.loop
    by_cases hw : want = 0
    · subst hw; exact ⟨s, by simp, by simp, h, rfl⟩
    rw [if_neg hw]
    by_cases hd : s.deque.isEmpty = true
    · rw [if_pos hd]
      have hdn : s.deque = [] := by simpa using hd
      rw [if_pos hd] at hf
      set s1 := Sim.next σ { s with shuffleBase := s.shuffleBase + s.buf.length } with hs1
      cases hm : s.more with
      | nil =>
        have hb : s1.buf.isEmpty = true := by simp [hs1, Sim.next, hm]
        have hp : s.pending σ = [] := by simp [Sim.pending, he, hdn, hm, future, emit]
        have hσ0 : σ s.reads 0 = [] := by simpa using (hσ s.reads 0)
        rw [if_pos hb, hp]
        rw [List.take_nil, List.drop_nil]
        refine ⟨_, rfl, by simp [Sim.pending], ⟨?_, ?_⟩, rfl⟩
        · simp [hs1, Sim.next, hm, hσ0]
        · simp [hs1, Sim.next, hm]
      | cons b bs =>
        have hne : b ≠ [] := h.more b (by simp [hm])
        have hb : ¬ s1.buf.isEmpty = true := by simpa [hs1, Sim.next, hm] using hne
        have hlen : (σ s.reads b.length).length = b.length := by simpa using (hσ s.reads b.length).length_eq
        have hp : s1.pending σ = s.pending σ := by
          simp [Sim.pending, he, hdn, hm, hs1, Sim.next, future, emit, hlen]
        have hg : s1.Good := by
          refine ⟨?_, ?_⟩
          · intro j hj
            simp only [hs1, Sim.next, hm, List.headD_cons] at hj ⊢
            simpa using (hσ _ _).mem_iff.mp hj
          · intro c hc
            refine h.more c ?_
            simp only [hs1, Sim.next, hm, List.tail_cons] at hc
            simp [hm, hc]
        rw [if_neg hb]
        obtain ⟨s', e1, e2, e3, e4⟩ := ih want s1 hg (by simp [hs1, Sim.next, he]) (by
          have : s1.more.length + 1 = s.more.length := by simp [hs1, Sim.next, hm]
          split <;> omega)
        exact ⟨s', by rw [e1, hp], by rw [e2, hp], e3, e4⟩
    · rw [if_neg hd]
      rw [if_neg hd] at hf
      have hpos : 0 < s.deque.length := by
        rw [List.length_pos_iff]; simpa using hd
      set n := min want s.deque.length with hn
      dsimp only
      rw [Sim.push_spec s h n (by omega)]
      dsimp only
      set s1 : Sim α := { s with deque := s.deque.drop n, base := s.base + n } with hs1
      have hg : s1.Good := ⟨fun j hj => h.deque j (List.mem_of_mem_drop hj), h.more⟩
      have hel := emit_length s.base s.shuffleBase s.buf s.deque h.deque
      have hp : s1.pending σ = (s.pending σ).drop n := by
        have hdl : s.base + n + (s.deque.drop n).length = s.base + s.deque.length := by
          rw [List.length_drop]; omega
        simp only [Sim.pending, hs1, he, hdl]
        rw [if_neg (by simp), if_neg (by simp), List.drop_append_of_le_length (by omega),
          emit_drop _ _ _ _ _ (by omega) h.deque]
      have ht : (emit s.base s.shuffleBase s.buf s.deque).take n = (s.pending σ).take n := by
        simp only [Sim.pending, he]
        rw [if_neg (by simp), List.take_append_of_le_length (by omega)]
      by_cases hwn : want = n
      · -- the batch is complete: the next round of the loop stops at once
        cases fuel with
        | zero => omega
        | succ f =>
          refine ⟨s1, ?_, by rw [hp, ← hwn], hg, rfl⟩
          rw [← hwn, Nat.sub_self]
          simp only [Sim.loop, if_true, List.append_nil]
          rw [hwn, ht]
      · have hdn : s.deque.drop n = [] := by
          rw [List.drop_eq_nil_iff]; omega
        obtain ⟨s', e1, e2, e3, e4⟩ := ih (want - n) s1 hg he (by
          have : s1.deque.isEmpty = true := by simp [hs1, hdn]
          rw [if_pos this]
          show 2 * s.more.length + 0 + 2 ≤ fuel
          omega)
        refine ⟨s', ?_, ?_, e3, e4⟩
        · rw [e1]
          dsimp only
          rw [ht, hp, ← List.take_add]
          congr 3; omega
        · rw [e2, hp, List.drop_drop]; congr 1; omega

theorem Sim.read_spec (σ : Nat → Nat → List Nat) (hσ : ∀ k l, (σ k l).Perm (List.range l))
    (s : Sim α) (h : s.Good) : ∃ s', Sim.read σ s = .ok ((s.pending σ).take s.batch, s') ∧
      s'.pending σ = (s.pending σ).drop s.batch ∧ s'.Good ∧ s'.batch = s.batch := by
  unfold Sim.read
  by_cases he : s.readEnd = true
  · rw [if_pos he]
    exact ⟨s, by simp [Sim.pending, he], by simp [Sim.pending, he], h, rfl⟩
  · rw [if_neg he]
    refine Sim.loop_spec σ hσ _ _ s h (by simpa using he) ?_
    split <;> omega

theorem Sim.make_good (σ : Nat → Nat → List Nat) (hσ : ∀ k l, (σ k l).Perm (List.range l))
    (more : List (List (α × Nat))) (batch : Nat) (h : ∀ b ∈ more, b ≠ []) : (Sim.make σ more batch).Good := by
  refine ⟨?_, ?_⟩
  · intro j hj
    simp only [Sim.make, Sim.next] at hj ⊢
    simpa using (hσ _ _).mem_iff.mp hj
  · intro b hb
    exact h b (List.mem_of_mem_tail hb)

theorem Sim.make_pending (σ : Nat → Nat → List Nat) (hσ : ∀ k l, (σ k l).Perm (List.range l))
    (more : List (List (α × Nat))) (batch : Nat) : (Sim.make σ more batch).pending σ = future σ 0 0 0 more := by
  have hlen : ∀ l, (σ 0 l).length = l := fun l => by simpa using (hσ 0 l).length_eq
  cases more with
  | nil =>
    have : σ 0 0 = [] := by simpa using hσ 0 0
    simp [Sim.make, Sim.next, Sim.pending, future, emit, this]
  | cons b bs => simp [Sim.make, Sim.next, Sim.pending, future, hlen]

theorem emit_get (base sb : Nat) (buf : List (α × Nat)) (deque : List Nat)
    (h : deque.Perm (List.range buf.length)) (x : ShufDup α) (k : Nat) (hx : (emit base sb buf deque)[k]? = some x) :
    x.pos = base + k ∧ sb ≤ x.orig ∧ deque[k]? = some (x.orig - sb) ∧ buf[x.orig - sb]? = some (x.item, x.dup) := by
  have hlt : ∀ j ∈ deque, j < buf.length := fun j hj => by simpa using h.mem_iff.mp hj
  cases hb : buf with
  | nil => rw [hb] at h; have : deque = [] := by simpa using h
           simp [this, emit] at hx
  | cons d _ =>
    rw [← hb]
    rw [emit_eq _ _ _ d _ hlt] at hx
    simp only [List.getElem?_map, List.getElem?_zipIdx, Option.map_map, Option.map_eq_some_iff] at hx
    obtain ⟨j, hj, rfl⟩ := hx
    have := hlt j (List.mem_of_getElem? hj)
    simp [hj, List.getElem?_eq_getElem this]

theorem emit_orig (base sb : Nat) (buf : List (α × Nat)) (deque : List Nat)
    (h : ∀ j ∈ deque, j < buf.length) : (emit base sb buf deque).map ShufDup.orig = deque.map (sb + ·) := by
  cases buf with
  | nil =>
    cases deque with
    | nil => rfl
    | cons j _ => have := h j (by simp); simp at this
  | cons d _ =>
    rw [emit_eq _ _ _ d _ h]
    apply List.ext_getElem
    · simp
    · intro i h1 h2; simp

theorem future_spec (σ : Nat → Nat → List Nat) (hσ : ∀ k l, (σ k l).Perm (List.range l))
    (more : List (List (α × Nat))) (base sb reads : Nat) :
    ((future σ base sb reads more).map ShufDup.orig).Perm ((List.range more.flatten.length).map (sb + ·)) ∧
    (∀ k x, (future σ base sb reads more)[k]? = some x → x.pos = base + k ∧ sb ≤ x.orig ∧
      more.flatten[x.orig - sb]? = some (x.item, x.dup)) := by
  induction more generalizing base sb reads with
  | nil => simp [future]
  | cons b bs ih =>
    obtain ⟨h1, h2⟩ := ih (base + b.length) (sb + b.length) (reads + 1)
    have hperm := hσ reads b.length
    have hlt : ∀ j ∈ σ reads b.length, j < b.length := fun j hj => by simpa using hperm.mem_iff.mp hj
    have hel : (emit base sb b (σ reads b.length)).length = b.length := by
      rw [emit_length _ _ _ _ hlt]; simpa using hperm.length_eq
    refine ⟨?_, ?_⟩
    · simp only [future, List.map_append, List.flatten_cons, List.length_append, List.range_add]
      rw [emit_orig _ _ _ _ hlt]
      refine (hperm.map _).append (h1.trans ?_)
      rw [List.map_map]
      apply List.Perm.of_eq
      apply List.map_congr_left
      intro i _; simp; omega
    · intro k x hx
      simp only [future] at hx
      by_cases hk : k < b.length
      · rw [List.getElem?_append_left (by omega)] at hx
        obtain ⟨e1, e2, e3, e4⟩ := emit_get _ _ _ _ hperm x k hx
        refine ⟨e1, e2, ?_⟩
        rw [List.flatten_cons, List.getElem?_append_left (by
          obtain ⟨h, _⟩ := List.getElem?_eq_some_iff.mp e4; exact h)]
        exact e4
      · rw [List.getElem?_append_right (by omega), hel] at hx
        obtain ⟨e1, e2, e3⟩ := h2 _ x hx
        refine ⟨by omega, by omega, ?_⟩
        rw [List.flatten_cons, List.getElem?_append_right (by omega)]
        rw [show x.orig - sb - b.length = x.orig - (sb + b.length) by omega]
        exact e3

theorem Mem.readImpl_spec (m : Mem α) (size : Nat) (h : m.cursor ≤ m.items.length) :
    ∃ m', m.readImpl size = .ok ((m.items.drop m.cursor).take size, m') ∧
      m'.items.drop m'.cursor = (m.items.drop m.cursor).drop size ∧ m'.cursor ≤ m'.items.length ∧
      m'.batch = m.batch ∧ m'.labels = m.labels := by
  refine ⟨{ m with cursor := m.cursor + min size (m.items.length - m.cursor) }, ?_, ?_, ?_, rfl, rfl⟩
  · unfold Mem.readImpl
    rw [if_neg (by omega)]
    dsimp only
    congr 2
    by_cases hs : size ≤ m.items.length - m.cursor
    · rw [Nat.min_eq_left hs]
    · rw [List.take_of_length_le (by simp; omega), List.take_of_length_le (by simp; omega)]
  · dsimp only
    rw [List.drop_drop]
    by_cases hs : size ≤ m.items.length - m.cursor
    · rw [Nat.min_eq_left hs]
    · rw [List.drop_of_length_le (by omega), List.drop_of_length_le (by omega)]
  · dsimp only; omega

/-- Calls of `ReadNextImpl` with the given sizes. -/
def readSizes (m : Mem α) : List Nat → Except Err (List (List α) × Mem α)
  | [] => .ok ([], m)
  | k :: ks =>
    match m.readImpl k with
    | .error e => .error e
    | .ok (b, m') =>
      match readSizes m' ks with
      | .error e => .error e
      | .ok (bs, m'') => .ok (b :: bs, m'')

structure Mem.Labelled (m : Mem α) : Prop where
  le : m.cursor ≤ m.items.length
  len : m.labels.length = m.items.length
  ne : m.items ≠ []

theorem Mem.readLabeled_spec (m : Mem α) (h : m.Labelled) :
    ∃ a b m', m.readLabeled = .ok ((a, b), m') ∧ a.length = b.length ∧
      a.zip b = ((m.items.zip m.labels).drop m.cursor).take m.batch ∧
      (m'.items.zip m'.labels).drop m'.cursor = ((m.items.zip m.labels).drop m.cursor).drop m.batch ∧
      m'.Labelled ∧ m'.batch = m.batch := by
  have hl := h.len
  have hle := h.le
  have hne : m.labels.isEmpty = false := by
    have := List.length_pos_of_ne_nil h.ne
    cases hs : m.labels with
    | nil => simp [hs] at hl; omega
    | cons => rfl
  refine ⟨_, _, { m with cursor := m.cursor + min m.batch (m.items.length - m.cursor) }, by
    unfold Mem.readLabeled
    rw [hne, if_neg (by simp), if_neg (by omega)]
    dsimp only
    rw [if_neg (by omega)], ?_, ?_, ?_, ⟨by dsimp only; omega, hl, h.ne⟩, rfl⟩
  · simp [hl]
  · simp only [List.zip, ← List.take_zipWith, ← List.drop_zipWith]
    by_cases hs : m.batch ≤ m.items.length - m.cursor
    · rw [Nat.min_eq_left hs]
    · rw [List.take_of_length_le (by simp; omega), List.take_of_length_le (by simp; omega)]
  · dsimp only
    rw [List.drop_drop]
    by_cases hs : m.batch ≤ m.items.length - m.cursor
    · rw [Nat.min_eq_left hs]
    · rw [List.drop_of_length_le (by simp; omega), List.drop_of_length_le (by simp; omega)]

theorem labelled_reads (n : Nat) (m : Mem α) (h : m.Labelled) :
    ∃ outs s, reads Mem.readLabeled n m = .ok (outs, s) ∧ outs.length = n ∧
      (∀ o ∈ outs, o.1.length = o.2.length) ∧
      Delivers ((m.items.zip m.labels).drop m.cursor) m.batch (outs.map (fun o => o.1.zip o.2)) := by
  induction n generalizing m with
  | zero => exact ⟨[], m, rfl, rfl, by simp, ⟨by simp, by simp⟩⟩
  | succ n ih =>
    obtain ⟨a, b, m1, h1, h2, h3, h4, h5, h6⟩ := m.readLabeled_spec h
    obtain ⟨outs, s2, e1, e2, e3, e4⟩ := ih m1 h5
    refine ⟨(a, b) :: outs, s2, by simp [reads, h1, e1], by simp [e2], ?_, ⟨?_, ?_⟩⟩
    · intro o ho
      rcases List.mem_cons.mp ho with rfl | ho
      · exact h2
      · exact e3 o ho
    · rw [List.map_cons, List.flatten_cons, e4.concat, h4, h6, h3, List.length_cons, ← List.take_add]
      congr 1; ring
    · intro i c hi
      cases i with
      | zero => simp only [List.map_cons, List.getElem?_cons_zero, Option.some.injEq] at hi
                subst hi; rw [h3]; simp
      | succ i =>
        rw [List.map_cons, List.getElem?_cons_succ] at hi
        rw [e4.size i c hi, h4, h6, List.length_drop]
        congr 1
        rw [Nat.add_mul]; omega

theorem uniqueInfo_spec (s : Csv β) (k : Nat) :
    (uniqueInfo s k).1 = ((s.pending.zipIdx k).map (fun x => (x.1, x.2, 0))).take s.batch ∧
    ((uniqueInfo s k).2.1.pending.zipIdx (uniqueInfo s k).2.2).map (fun x => (x.1, x.2, 0)) =
      ((s.pending.zipIdx k).map (fun x => (x.1, x.2, 0))).drop s.batch ∧
    (uniqueInfo s k).2.1.batch = s.batch := by
  obtain ⟨h1, h2, h3⟩ := s.read_spec
  refine ⟨?_, ?_, h3⟩
  · simp only [uniqueInfo, h1]
    apply List.ext_getElem
    · simp
    · intro i _ _; simp
  · simp only [uniqueInfo, h1, h2]
    apply List.ext_getElem
    · simp
    · intro i a b
      simp only [List.length_map, List.length_zipIdx, List.length_drop] at a
      simp only [List.getElem_map, List.getElem_zipIdx, List.getElem_drop, List.length_take]
      congr 2; omega

theorem tail_empty (outs : List (List β))
    (h : ∀ i j : Nat, i ≤ j → ∀ b c, outs[i]? = some b → outs[j]? = some c → b = [] → c = []) :
    ∃ k, outs = outs.filter (fun b => !b.isEmpty) ++ List.replicate k [] := by
  induction outs with
  | nil => exact ⟨0, rfl⟩
  | cons a l ih =>
    cases a with
    | nil =>
      have hall : ∀ c ∈ l, c = [] := by
        intro c hc
        obtain ⟨j, hj, rfl⟩ := List.mem_iff_getElem.mp hc
        exact h 0 (j + 1) (by omega) [] _ rfl (by simp [hj]) rfl
      refine ⟨l.length + 1, ?_⟩
      have : ([] :: l).filter (fun b => !b.isEmpty) = [] := by
        rw [List.filter_eq_nil_iff]
        intro c hc
        rcases List.mem_cons.mp hc with rfl | hc
        · simp
        · simp [hall c hc]
      rw [this, List.nil_append, List.eq_replicate_iff]
      refine ⟨by simp, ?_⟩
      intro c hc
      rcases List.mem_cons.mp hc with rfl | hc
      · rfl
      · exact hall c hc
    | cons x xs =>
      obtain ⟨k, hk⟩ := ih (fun i j hij b c hi hj hb => h (i + 1) (j + 1) (by omega) b c (by simpa using hi)
        (by simpa using hj) hb)
      refine ⟨k, ?_⟩
      conv_lhs => rw [hk]
      simp

theorem sum_zero (l : List Nat) : l.sum = 0 ↔ ∀ x ∈ l, x = 0 := by
  induction l with
  | nil => simp
  | cons a l ih => simp [ih]

theorem keysJoin_count (sep : Char) (l : List (List Char)) :
    (keysJoin sep l).count sep = l.length - 1 + (l.map (List.count sep)).sum := by
  induction l with
  | nil => rfl
  | cons a l ih =>
    cases l with
    | nil => simp [keysJoin]
    | cons b l =>
      simp only [keysJoin, List.count_append, List.count_cons_self, ih, List.length_cons, List.map_cons,
        List.sum_cons]
      omega

theorem split_unique (sep : Char) (x y u v : List Char) (hx : sep ∉ x) (hy : sep ∉ y)
    (h : x ++ sep :: u = y ++ sep :: v) : x = y ∧ u = v := by
  induction x generalizing y with
  | nil =>
    cases y with
    | nil => simpa using h
    | cons c y => simp only [List.nil_append, List.cons_append, List.cons.injEq] at h
                  exact absurd (by simp [h.1]) hy
  | cons c x ih =>
    cases y with
    | nil => simp only [List.nil_append, List.cons_append, List.cons.injEq] at h
             exact absurd (by simp [h.1]) hx
    | cons d y =>
      simp only [List.cons_append, List.cons.injEq] at h
      obtain ⟨e1, e2⟩ := ih y (fun hh => hx (by simp [hh])) (fun hh => hy (by simp [hh])) h.2
      exact ⟨by rw [h.1, e1], e2⟩

theorem keysJoin_inj (sep : Char) (a b : List (List Char)) (hlen : a.length = b.length)
    (ha : ∀ k ∈ a, sep ∉ k) (hb : ∀ k ∈ b, sep ∉ k) (h : keysJoin sep a = keysJoin sep b) : a = b := by
  induction a generalizing b with
  | nil => exact (List.eq_nil_of_length_eq_zero hlen.symm).symm
  | cons x xs ih =>
    cases b with
    | nil => simp at hlen
    | cons y ys =>
      cases xs with
      | nil =>
        have : ys = [] := by
          apply List.eq_nil_of_length_eq_zero; simpa using hlen.symm
        subst this
        simpa [keysJoin] using h
      | cons x' xs =>
        cases ys with
        | nil => simp at hlen
        | cons y' ys =>
          simp only [keysJoin] at h
          obtain ⟨e1, e2⟩ := split_unique sep x y _ _ (ha x (by simp)) (hb y (by simp)) h
          rw [e1, ih (y' :: ys) (by simpa using hlen) (fun k hk => ha k (by simp [hk]))
            (fun k hk => hb k (by simp [hk])) e2]

end Psi.Provider
