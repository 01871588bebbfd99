import Verif.Join.RleLemmas

/-! Helper lemmas about the index merge and the duplicate expansion. -/

namespace Psi.Join
variable {K L : Type}

/-- Flat form of the index merge. -/
def F : List (KeyRec K) → Nat → List (Nat × Nat) → Except JErr (List Inter)
  | _, _, [] => .ok []
  | [], _, (i, c) :: _ => .error (.leftover i c)
  | r :: rs, k, (i, c) :: I =>
    if k = i then
      match F rs (k + 1) I with
      | .error e => .error e
      | .ok infos => .ok (⟨r.start, r.dup, c⟩ :: infos)
    else if i < k then .error (.dupIndex i)
    else F rs (k + 1) ((i, c) :: I)

/-- Indices not consumed yet. -/
def Proc.idx (p : Proc K) : List (Nat × Nat) := p.head.toList ++ p.rest

/-- Well-formed processor state. -/
def Proc.WF (p : Proc K) : Prop :=
  (p.head = none → p.rest = []) ∧ (p.finish = true → p.head = none)

theorem Proc.init_idx (idx : List (Nat × Nat)) (b : List (List (KeyRec K))) :
    (Proc.init idx b).idx = idx := by
  cases idx <;> simp [Proc.init, Proc.idx]

theorem Proc.init_wf (idx : List (Nat × Nat)) (b : List (List (KeyRec K))) :
    (Proc.init idx b).WF := by
  cases idx <;> simp [Proc.init, Proc.WF]

@[simp] theorem F_nil_idx (rs : List (KeyRec K)) (k : Nat) : F rs k [] = .ok [] := by
  cases rs <;> rfl

theorem scan_F (b : List (KeyRec K)) (p : Proc K) (hp : p.WF) (hf : p.finish = false)
    (rest : List (KeyRec K)) :
    (∀ e, scan b p = .error e → F (b ++ rest) p.selfIdx p.idx = .error e) ∧
    (∀ infos p', scan b p = .ok (infos, p') →
      p'.WF ∧ p'.batches = p.batches ∧ (infos = [] → p.head ≠ none → p'.finish = false) ∧
      (infos = [] → p'.head = p.head) ∧
      F (b ++ rest) p.selfIdx p.idx = (F rest p'.selfIdx p'.idx).map (infos ++ ·)) := by
  induction b generalizing p with
  | nil =>
    constructor
    · simp [scan]
    · intro infos p' h
      simp only [scan, Except.ok.injEq, Prod.mk.injEq] at h
      obtain ⟨rfl, rfl⟩ := h
      refine ⟨hp, rfl, fun _ _ => hf, fun _ => rfl, ?_⟩
      cases h : F rest p.selfIdx p.idx <;> simp [h, Except.map]
  | cons r rs ih =>
    obtain ⟨head, restI, batches, k, fin⟩ := p
    simp only at hf
    subst hf
    cases head with
    | none =>
      have hr : restI = [] := hp.1 rfl
      subst hr
      constructor
      · simp [scan]
      · intro infos p' h
        simp only [scan, Except.ok.injEq, Prod.mk.injEq] at h
        obtain ⟨rfl, rfl⟩ := h
        refine ⟨⟨fun _ => rfl, fun _ => rfl⟩, rfl, fun _ h => absurd rfl h, fun _ => rfl, ?_⟩
        simp [Proc.idx, Except.map]
    | some ic =>
      obtain ⟨i, c⟩ := ic
      simp only [scan, Proc.idx, Option.toList_some, List.cons_append, List.nil_append, F]
      by_cases hk : k = i
      · simp only [hk, if_true]
        have hwf : (⟨restI.head?, restI.tail, batches, i + 1, false⟩ : Proc K).WF := by
          cases restI <;> simp [Proc.WF]
        have := ih ⟨restI.head?, restI.tail, batches, i + 1, false⟩ hwf rfl
        have hidx : (⟨restI.head?, restI.tail, batches, i + 1, false⟩ : Proc K).idx = restI := by
          cases restI <;> simp [Proc.idx]
        rw [hidx] at this
        cases hs : scan rs ⟨restI.head?, restI.tail, batches, i + 1, false⟩ with
        | error e =>
          rw [hs] at this
          constructor
          · intro e' he
            simp only [Except.error.injEq] at he
            subst he
            simp [this.1 e rfl]
          · simp
        | ok q =>
          obtain ⟨inf, q⟩ := q
          rw [hs] at this
          obtain ⟨h1, h2, h3, h4, h5⟩ := this.2 inf q rfl
          constructor
          · simp
          · intro infos p' h
            simp only [Except.ok.injEq, Prod.mk.injEq] at h
            obtain ⟨rfl, rfl⟩ := h
            refine ⟨h1, h2, by simp, by simp, ?_⟩
            simp only [h5, Proc.idx]
            cases F rest q.selfIdx (q.head.toList ++ q.rest) <;> simp [Except.map]
      · simp only [hk, if_false]
        by_cases hlt : i < k
        · simp [hlt]
        · simp only [hlt, if_false]
          have := ih ⟨some (i, c), restI, batches, k + 1, false⟩ (by simp [Proc.WF]) rfl
          simpa [Proc.idx] using this

theorem batchLoop_F (bs : List (List (KeyRec K))) (hbs : ∀ b ∈ bs, b ≠ []) (p : Proc K) (hp : p.WF)
    (hf : p.finish = false) (hh : p.head ≠ none) :
    (∀ e, batchLoop bs p = .error e → F bs.flatten p.selfIdx p.idx = .error e) ∧
    (∀ infos p', batchLoop bs p = .ok (infos, p') →
      p'.WF ∧ infos ≠ [] ∧ (∀ b ∈ p'.batches, b ≠ []) ∧ p'.batches.length < bs.length ∧
      F bs.flatten p.selfIdx p.idx = (F p'.batches.flatten p'.selfIdx p'.idx).map (infos ++ ·)) := by
  induction bs generalizing p with
  | nil =>
    obtain ⟨head, restI, batches, k, fin⟩ := p
    cases head with
    | none => exact absurd rfl hh
    | some ic =>
      obtain ⟨i, c⟩ := ic
      simp [batchLoop, endOfKeys, Proc.idx, F]
  | cons b bs ih =>
    cases b with
    | nil => exact absurd rfl (hbs [] (by simp))
    | cons r rs =>
      have hsc := scan_F (r :: rs) p hp hf bs.flatten
      rw [List.flatten_cons]
      simp only [batchLoop]
      have hbs' : ∀ b ∈ bs, b ≠ [] := fun b hb => hbs b (by simp [hb])
      cases hs : scan (r :: rs) p with
      | error e =>
        rw [hs] at hsc
        constructor
        · intro e' he
          simp only [Except.error.injEq] at he
          subst he
          exact hsc.1 e rfl
        · simp
      | ok q =>
        obtain ⟨inf, q⟩ := q
        rw [hs] at hsc
        obtain ⟨h1, h2, h3, h4, h5⟩ := hsc.2 inf q rfl
        cases inf with
        | nil =>
          have hq := ih hbs' q h1 (h3 rfl hh) (by rw [h4 rfl]; exact hh)
          have hmap : F ((r :: rs) ++ bs.flatten) p.selfIdx p.idx
              = F bs.flatten q.selfIdx q.idx := by
            rw [h5]; cases F bs.flatten q.selfIdx q.idx <;> simp [Except.map]
          rw [hmap]
          refine ⟨hq.1, fun infos p' h => ?_⟩
          obtain ⟨a1, a2, a3, a4, a5⟩ := hq.2 infos p' h
          exact ⟨a1, a2, a3, by simp; omega, a5⟩
        | cons i is =>
          constructor
          · simp
          · intro infos p' h
            simp only [Except.ok.injEq, Prod.mk.injEq] at h
            obtain ⟨rfl, rfl⟩ := h
            refine ⟨⟨h1.1, h1.2⟩, by simp, hbs', by simp, ?_⟩
            rw [h5]; rfl

theorem getline_uniq (s : AState L) (u : Nat) :
    ({ s with uniq := u } : AState L).getline = { s.getline with uniq := u } := by
  obtain ⟨l, f, si, d, a, b, c⟩ := s
  cases f <;> rfl

/-- `applyInfo` does not touch the key counter. -/
theorem skipRows_uniq (n : Nat) (s : AState L) (u : Nat) :
    skipRows n { s with uniq := u } = { skipRows n s with uniq := u } := by
  induction n generalizing s with
  | zero => rfl
  | succ n ih =>
    simp only [skipRows, getline_uniq]
    exact ih { s.getline with dumper := s.getline.dumper.toExcept s.getline.line,
                              sortedIdx := s.getline.sortedIdx + 1 }

theorem takeRows_uniq (d n : Nat) (s : AState L) (u : Nat) :
    takeRows d n { s with uniq := u } = { takeRows d n s with uniq := u } := by
  induction n generalizing s with
  | zero => rfl
  | succ n ih =>
    simp only [takeRows, getline_uniq]
    exact ih { s.getline with dumper := s.getline.dumper.toInter s.getline.line d }

theorem applyInfo_uniq (s : AState L) (i : Inter) (u : Nat) :
    applyInfo { s with uniq := u } i = { applyInfo s i with uniq := u } := by
  simp only [applyInfo, skipRows_uniq, takeRows_uniq]

theorem foldl_applyInfo_uniq (is : List Inter) (s : AState L) (u : Nat) :
    is.foldl applyInfo { s with uniq := u } = { is.foldl applyInfo s with uniq := u } := by
  induction is generalizing s with
  | nil => rfl
  | cons i is ih => simp only [List.foldl_cons, applyInfo_uniq]; exact ih _

theorem applyInfo_keeps_uniq (s : AState L) (i : Inter) : (applyInfo s i).uniq = s.uniq := by
  have := applyInfo_uniq s i s.uniq
  rw [show ({ s with uniq := s.uniq } : AState L) = s from rfl] at this
  rw [this]

theorem foldl_keeps_uniq (is : List Inter) (s : AState L) :
    (is.foldl applyInfo s).uniq = s.uniq := by
  induction is generalizing s with
  | nil => rfl
  | cons i is ih => rw [List.foldl_cons, ih, applyInfo_keeps_uniq]

theorem applyLoop_F (n : Nat) (p : Proc K) (s : AState L) (hp : p.WF)
    (hbs : ∀ b ∈ p.batches, b ≠ []) (hn : p.batches.length < n) :
    applyLoop n p s = (F p.batches.flatten p.selfIdx p.idx).map
      (fun infos => infos.foldl applyInfo { s with uniq := s.uniq + infos.length }) := by
  induction n generalizing p s with
  | zero => omega
  | succ n ih =>
    simp only [applyLoop, getBatchInfo]
    by_cases hf : p.finish = true
    · have hh := hp.2 hf
      have hr := hp.1 hh
      simp [hf, Proc.idx, hh, hr, Except.map]
    · simp only [hf, Bool.false_eq_true, if_false]
      cases hh : p.head with
      | none =>
        have hr := hp.1 hh
        simp [Proc.idx, hh, hr, Except.map]
      | some ic =>
        have hbl := batchLoop_F p.batches hbs p hp (by simpa using hf) (by simp [hh])
        simp only
        cases hb : batchLoop p.batches p with
        | error e =>
          rw [hb] at hbl
          rw [hbl.1 e rfl]; rfl
        | ok q =>
          obtain ⟨inf, q⟩ := q
          rw [hb] at hbl
          obtain ⟨h1, h2, h3, h4, h5⟩ := hbl.2 inf q rfl
          cases inf with
          | nil => exact absurd rfl h2
          | cons i is =>
            simp only
            rw [ih q _ h1 h3 (by omega), h5]
            cases hF : F q.batches.flatten q.selfIdx q.idx with
            | error e => rfl
            | ok infos =>
              simp only [Except.map, Except.ok.injEq]
              rw [List.foldl_append]
              congr 1
              rw [show (List.foldl applyInfo { s with uniq := s.uniq + (i :: is).length } (i :: is)).uniq
                = s.uniq + (i :: is).length from foldl_keeps_uniq _ _]
              rw [← foldl_applyInfo_uniq]
              simp only [List.length_append]
              congr 1
              simp; omega

/-- Index list of a list of marks: position `k + j` is listed with count `c` iff mark `j` is
`some c`. -/
def idxOf : Nat → List (Option Nat) → List (Nat × Nat)
  | _, [] => []
  | k, none :: ms => idxOf (k + 1) ms
  | k, some c :: ms => (k, c) :: idxOf (k + 1) ms

/-- Merge result for given marks. -/
def infosOf : List (KeyRec K) → List (Option Nat) → List Inter
  | [], _ => []
  | _, [] => []
  | _ :: rs, none :: ms => infosOf rs ms
  | r :: rs, some c :: ms => ⟨r.start, r.dup, c⟩ :: infosOf rs ms

theorem idxOf_ge (k : Nat) (ms : List (Option Nat)) : ∀ x ∈ idxOf k ms, k ≤ x.1 := by
  induction ms generalizing k with
  | nil => simp [idxOf]
  | cons m ms ih =>
    cases m with
    | none => intro x hx; have := ih (k + 1) x hx; omega
    | some c =>
      intro x hx
      simp only [idxOf, List.mem_cons] at hx
      rcases hx with rfl | hx
      · simp
      · have := ih (k + 1) x hx; omega

theorem idxOf_lt (k : Nat) (ms : List (Option Nat)) : ∀ x ∈ idxOf k ms, x.1 < k + ms.length := by
  induction ms generalizing k with
  | nil => simp [idxOf]
  | cons m ms ih =>
    cases m with
    | none => intro x hx; have := ih (k + 1) x hx; simp; omega
    | some c =>
      intro x hx
      simp only [idxOf, List.mem_cons] at hx
      rcases hx with rfl | hx
      · simp
      · have := ih (k + 1) x hx; simp; omega

theorem idxOf_strict (k : Nat) (ms : List (Option Nat)) :
    (idxOf k ms).Pairwise (fun a b => a.1 < b.1) := by
  induction ms generalizing k with
  | nil => simp [idxOf]
  | cons m ms ih =>
    cases m with
    | none => exact ih _
    | some c =>
      simp only [idxOf, List.pairwise_cons]
      exact ⟨fun x hx => by have := idxOf_ge _ _ x hx; simp; omega, ih _⟩

theorem F_idxOf (rs : List (KeyRec K)) (k : Nat) (ms : List (Option Nat))
    (hl : ms.length = rs.length) : F rs k (idxOf k ms) = .ok (infosOf rs ms) := by
  induction rs generalizing k ms with
  | nil =>
    have : ms = [] := List.length_eq_zero_iff.mp hl
    subst this; rfl
  | cons r rs ih =>
    cases ms with
    | nil => simp at hl
    | cons m ms =>
      have hl' : ms.length = rs.length := by simpa using hl
      cases m with
      | some c => simp [idxOf, F, infosOf, ih _ _ hl']
      | none =>
        simp only [idxOf, infosOf]
        have hge := idxOf_ge (k + 1) ms
        rw [← ih (k + 1) ms hl']
        cases hI : idxOf (k + 1) ms with
        | nil => simp
        | cons x xs =>
          obtain ⟨i, c⟩ := x
          have := hge (i, c) (by simp [hI])
          simp only at this
          rw [F, if_neg (by omega), if_neg (by omega)]

theorem F_ok (rs : List (KeyRec K)) (k : Nat) (I : List (Nat × Nat)) (infos : List Inter)
    (h : F rs k I = .ok infos) :
    ∃ ms : List (Option Nat), ms.length = rs.length ∧ I = idxOf k ms ∧ infos = infosOf rs ms := by
  induction rs generalizing k I infos with
  | nil =>
    cases I with
    | nil => simp [F] at h; exact ⟨[], rfl, rfl, by simp [h, infosOf]⟩
    | cons x xs => simp [F] at h
  | cons r rs ih =>
    cases I with
    | nil =>
      rw [F_nil_idx] at h
      obtain ⟨ms, h1, h2, h3⟩ := ih (k + 1) [] [] (F_nil_idx _ _)
      refine ⟨none :: ms, by simp [h1], h2, ?_⟩
      simp only [Except.ok.injEq] at h
      rw [← h, h3]; rfl
    | cons x xs =>
      obtain ⟨i, c⟩ := x
      rw [F] at h
      by_cases hk : k = i
      · rw [if_pos hk] at h
        cases hF : F rs (k + 1) xs with
        | error e => rw [hF] at h; simp at h
        | ok inf =>
          rw [hF] at h
          simp only [Except.ok.injEq] at h
          obtain ⟨ms, h1, h2, h3⟩ := ih _ _ _ hF
          exact ⟨some c :: ms, by simp [h1], by simp [idxOf, h2, hk], by simp [infosOf, ← h, h3]⟩
      · rw [if_neg hk] at h
        by_cases hlt : i < k
        · rw [if_pos hlt] at h; simp at h
        · rw [if_neg hlt] at h
          obtain ⟨ms, h1, h2, h3⟩ := ih _ _ _ h
          exact ⟨none :: ms, by simp [h1], by simpa [idxOf] using h2, by simp [infosOf, h3]⟩

/-- A strictly increasing in-range index list is the index list of some marks. -/
theorem exists_marks (k n : Nat) (I : List (Nat × Nat)) (hs : I.Pairwise (fun a b => a.1 < b.1))
    (hr : ∀ x ∈ I, k ≤ x.1 ∧ x.1 < k + n) :
    ∃ ms : List (Option Nat), ms.length = n ∧ I = idxOf k ms := by
  induction n generalizing k I with
  | zero =>
    cases I with
    | nil => exact ⟨[], rfl, rfl⟩
    | cons x xs => have := hr x (by simp); omega
  | succ n ih =>
    cases I with
    | nil =>
      obtain ⟨ms, h1, h2⟩ := ih (k + 1) [] (by simp) (by simp)
      exact ⟨none :: ms, by simp [h1], h2⟩
    | cons x xs =>
      rw [List.pairwise_cons] at hs
      have hx := hr x (by simp)
      by_cases hk : x.1 = k
      · obtain ⟨ms, h1, h2⟩ := ih (k + 1) xs hs.2 (fun y hy => by
          have := hs.1 y hy; have := hr y (by simp [hy]); omega)
        exact ⟨some x.2 :: ms, by simp [h1], by rw [idxOf, ← h2, ← hk]⟩
      · obtain ⟨ms, h1, h2⟩ := ih (k + 1) (x :: xs) (by rw [List.pairwise_cons]; exact hs)
          (fun y hy => by
            have h3 := hr y hy
            rcases List.mem_cons.mp hy with rfl | hy'
            · omega
            · have := hs.1 y hy'; omega)
        exact ⟨none :: ms, by simp [h1], h2⟩

/-- Records describing consecutive groups of rows from row `pos` on. -/
def RecsFor : Nat → List (KeyRec K) → List (List L) → Prop
  | _, [], [] => True
  | pos, r :: rs, g :: gs => r.start = pos ∧ r.dup + 1 = g.length ∧ RecsFor (pos + g.length) rs gs
  | _, _, _ => False

/-- Intersection rows for given groups and marks. -/
def interRows : List (List L) → List (Option Nat) → List L
  | g :: gs, some c :: ms => g.flatMap (List.replicate (c + 1)) ++ interRows gs ms
  | _ :: gs, none :: ms => interRows gs ms
  | _, _ => []

/-- Rows outside the intersection for given groups and marks. -/
def exceptRows : List (List L) → List (Option Nat) → List L
  | _ :: gs, some _ :: ms => exceptRows gs ms
  | g :: gs, none :: ms => g ++ exceptRows gs ms
  | _, _ => []

/-- Own rows in the intersection. -/
def selfCount : List (List L) → List (Option Nat) → Nat
  | g :: gs, some _ :: ms => g.length + selfCount gs ms
  | _ :: gs, none :: ms => selfCount gs ms
  | _, _ => 0

/-- Peer rows in the intersection. -/
def peerCount : List (Option Nat) → Nat
  | some c :: ms => (c + 1) + peerCount ms
  | none :: ms => peerCount ms
  | [] => 0

/-- Dumper after writing given rows to both files. -/
def Dumper.add (d : Dumper L) (a b : List L) : Dumper L :=
  { interFile := d.interFile.map (· ++ a), exceptFile := d.exceptFile.map (· ++ b)
    interCnt := d.interCnt + a.length, exceptCnt := d.exceptCnt + b.length }

theorem Dumper.add_nil (d : Dumper L) : d.add [] [] = d := by
  cases d; simp [Dumper.add]

theorem Dumper.add_add (d : Dumper L) (a b a' b' : List L) :
    (d.add a b).add a' b' = d.add (a ++ a') (b ++ b') := by
  obtain ⟨i, e, m, n⟩ := d
  cases i <;> cases e <;> simp [Dumper.add] <;> omega

theorem Dumper.toInter_eq (d : Dumper L) (x : L) (c : Nat) :
    d.toInter x c = d.add (List.replicate (c + 1) x) [] := by
  obtain ⟨i, e, m, n⟩ := d
  cases e <;> simp [Dumper.add, Dumper.toInter] <;> omega

theorem Dumper.toExcept_eq (d : Dumper L) (x : L) : d.toExcept x = d.add [] [x] := by
  obtain ⟨i, e, m, n⟩ := d
  cases i <;> simp [Dumper.add, Dumper.toExcept]

theorem skipRows_eq (pend rest : List L) (s : AState L) (hf : s.file = pend ++ rest) :
    ∃ l, skipRows pend.length s =
      { s with line := l, file := rest, sortedIdx := s.sortedIdx + pend.length,
               dumper := s.dumper.add [] pend } := by
  induction pend generalizing s with
  | nil =>
    refine ⟨s.line, ?_⟩
    simp at hf
    simp [skipRows, Dumper.add_nil, ← hf]
  | cons x xs ih =>
    simp only [List.length_cons, skipRows, AState.getline, hf, List.cons_append]
    obtain ⟨l, hl⟩ := ih { s with line := x, file := xs ++ rest, dumper := s.dumper.toExcept x,
                                  sortedIdx := s.sortedIdx + 1 } rfl
    refine ⟨l, ?_⟩
    rw [hl]
    simp only [Dumper.toExcept_eq, Dumper.add_add]
    simp; omega

theorem takeRows_eq (c : Nat) (rows rest : List L) (s : AState L) (hf : s.file = rows ++ rest) :
    ∃ l, takeRows c rows.length s =
      { s with line := l, file := rest,
               dumper := s.dumper.add (rows.flatMap (List.replicate (c + 1))) [] } := by
  induction rows generalizing s with
  | nil =>
    refine ⟨s.line, ?_⟩
    simp at hf
    simp [takeRows, Dumper.add_nil, ← hf]
  | cons x xs ih =>
    simp only [List.length_cons, takeRows, AState.getline, hf, List.cons_append]
    obtain ⟨l, hl⟩ := ih { s with line := x, file := xs ++ rest, dumper := s.dumper.toInter x c } rfl
    refine ⟨l, ?_⟩
    rw [hl]
    simp only [Dumper.toInter_eq, Dumper.add_add]
    simp

theorem drainRows_eq (xs : List L) (s : AState L) :
    ∃ l, drainRows xs s =
      { s with line := l, file := [], sortedIdx := s.sortedIdx + xs.length,
               dumper := s.dumper.add [] xs } := by
  induction xs generalizing s with
  | nil => exact ⟨s.line, by simp [drainRows, Dumper.add_nil]⟩
  | cons x xs ih =>
    simp only [drainRows]
    obtain ⟨l, hl⟩ := ih { s with line := x, dumper := s.dumper.toExcept x,
                                  sortedIdx := s.sortedIdx + 1 }
    refine ⟨l, ?_⟩
    rw [hl]
    simp only [Dumper.toExcept_eq, Dumper.add_add]
    simp; omega

theorem fold_spec (rs : List (KeyRec K)) (gs : List (List L)) (ms : List (Option Nat)) (pos : Nat)
    (hr : RecsFor pos rs gs) (hm : ms.length = rs.length) (pend : List L) (s : AState L)
    (hf : s.file = pend ++ gs.flatten) (hp : s.sortedIdx + pend.length = pos) :
    let s' := (infosOf rs ms).foldl applyInfo s
    ∃ l, drainRows s'.file s' =
      { s with line := l, file := [], sortedIdx := pos + gs.flatten.length
               dumper := s.dumper.add (interRows gs ms) (pend ++ exceptRows gs ms)
               selfInter := s.selfInter + selfCount gs ms
               peerInter := s.peerInter + peerCount ms } := by
  induction rs generalizing gs ms pos pend s with
  | nil =>
    have : ms = [] := List.length_eq_zero_iff.mp hm
    subst this
    cases gs with
    | cons g gs => exact absurd hr (by simp [RecsFor])
    | nil =>
      simp only [infosOf, List.foldl_nil]
      obtain ⟨l, hl⟩ := drainRows_eq s.file s
      refine ⟨l, ?_⟩
      rw [hl]
      simp at hf
      simp [hf, ← hp, interRows, exceptRows, selfCount, peerCount]
  | cons r rs ih =>
    cases ms with
    | nil => simp at hm
    | cons m ms =>
      have hm' : ms.length = rs.length := by simpa using hm
      cases gs with
      | nil => exact absurd hr (by simp [RecsFor])
      | cons g gs =>
        obtain ⟨h1, h2, h3⟩ := hr
        cases m with
        | none =>
          simp only [infosOf, interRows, exceptRows, selfCount, peerCount]
          have := ih gs ms (pos + g.length) h3 hm' (pend ++ g) s (by simp [hf])
            (by simp; omega)
          simp only [List.append_assoc] at this
          obtain ⟨l, hl⟩ := this
          refine ⟨l, ?_⟩
          rw [hl]
          simp; omega
        | some c =>
          simp only [infosOf, interRows, exceptRows, selfCount, peerCount, List.foldl_cons]
          have hskip : r.start - s.sortedIdx = pend.length := by omega
          obtain ⟨l1, hl1⟩ := skipRows_eq pend (g ++ gs.flatten) s (by simp [hf])
          obtain ⟨l2, hl2⟩ := takeRows_eq c g gs.flatten
            { s with line := l1, file := g ++ gs.flatten, sortedIdx := s.sortedIdx + pend.length,
                     dumper := s.dumper.add [] pend } rfl
          have happ : applyInfo s ⟨r.start, r.dup, c⟩ =
              { s with line := l2, file := gs.flatten, sortedIdx := s.sortedIdx + pend.length + g.length
                       dumper := s.dumper.add (g.flatMap (List.replicate (c + 1))) pend
                       selfInter := s.selfInter + g.length
                       peerInter := s.peerInter + (c + 1) } := by
            simp only [applyInfo, hskip, hl1, h2, hl2, Dumper.add_add]
            simp
          rw [happ]
          have := ih gs ms (pos + g.length) h3 hm' []
            { s with line := l2, file := gs.flatten, sortedIdx := s.sortedIdx + pend.length + g.length
                     dumper := s.dumper.add (g.flatMap (List.replicate (c + 1))) pend
                     selfInter := s.selfInter + g.length
                     peerInter := s.peerInter + (c + 1) } (by simp) (by simp; omega)
          obtain ⟨l, hl⟩ := this
          refine ⟨l, ?_⟩
          rw [hl]
          simp only [Dumper.add_add]
          simp; omega

/-- Complete description of `applyPeerDupCnt` on lawful records. -/
theorem applyPeerDupCnt_spec (header : L) (rs : List (KeyRec K)) (gs : List (List L))
    (ms : List (Option Nat)) (hr : RecsFor 0 rs gs) (hm : ms.length = rs.length)
    (batches : List (List (KeyRec K))) (hb : ∀ b ∈ batches, b ≠ []) (hfl : batches.flatten = rs)
    (d : Dumper L) :
    applyPeerDupCnt header gs.flatten batches (idxOf 0 ms) d =
      .ok (⟨selfCount gs ms, peerCount ms, gs.flatten.length,
            d.interCnt + (interRows gs ms).length, (infosOf rs ms).length⟩,
           d.add (header :: interRows gs ms) (header :: exceptRows gs ms)) := by
  simp only [applyPeerDupCnt]
  rw [applyLoop_F _ _ _ (Proc.init_wf _ _) (by simpa [Proc.init] using hb) (by simp [Proc.init])]
  rw [Proc.init_idx]
  simp only [Proc.init, hfl, F_idxOf rs 0 ms hm, Except.map]
  obtain ⟨l, hl⟩ := fold_spec rs gs ms 0 hr hm []
    ⟨header, gs.flatten, 0, (d.toInter header 0).toExcept header, 0, 0, 0 + (infosOf rs ms).length⟩
    (by simp) (by simp)
  simp only at hl ⊢
  rw [hl]
  simp only [Dumper.toInter_eq, Dumper.toExcept_eq, Dumper.add_add]
  simp [Dumper.add]

theorem applyPeerDupCnt_ok (header : L) (body : List L) (rs : List (KeyRec K))
    (batches : List (List (KeyRec K))) (hb : ∀ b ∈ batches, b ≠ []) (hfl : batches.flatten = rs)
    (idx : List (Nat × Nat)) (d : Dumper L) (res : Stat × Dumper L)
    (h : applyPeerDupCnt header body batches idx d = .ok res) :
    ∃ ms : List (Option Nat), ms.length = rs.length ∧ idx = idxOf 0 ms := by
  simp only [applyPeerDupCnt] at h
  rw [applyLoop_F _ _ _ (Proc.init_wf _ _) (by simpa [Proc.init] using hb) (by simp [Proc.init])] at h
  rw [Proc.init_idx] at h
  simp only [Proc.init, hfl] at h
  cases hF : F rs 0 idx with
  | error e => rw [hF] at h; simp [Except.map] at h
  | ok infos =>
    obtain ⟨ms, h1, h2, _⟩ := F_ok _ _ _ _ hF
    exact ⟨ms, h1, h2⟩

/-- The loop fuel of the model is never exhausted. -/
theorem applyPeerDupCnt_no_diverge (header : L) (body : List L)
    (batches : List (List (KeyRec K))) (hb : ∀ b ∈ batches, b ≠ [])
    (idx : List (Nat × Nat)) (d : Dumper L) :
    applyPeerDupCnt header body batches idx d ≠ .error .diverge := by
  have hF : ∀ (rs : List (KeyRec K)) k I, F rs k I ≠ .error .diverge := by
    intro rs
    induction rs with
    | nil => intro k I; cases I <;> simp [F]
    | cons r rs ih =>
      intro k I
      cases I with
      | nil => simp
      | cons x xs =>
        obtain ⟨i, c⟩ := x
        rw [F]
        split
        · have := ih (k + 1) xs
          cases h : F rs (k + 1) xs with
          | error e => rw [h] at this; simpa using this
          | ok _ => simp
        · split
          · simp
          · exact ih _ _
  simp only [applyPeerDupCnt]
  rw [applyLoop_F _ _ _ (Proc.init_wf _ _) (by simpa [Proc.init] using hb) (by simp [Proc.init])]
  have := hF batches.flatten 0 idx
  rw [Proc.init_idx]
  simp only [Proc.init]
  cases h : F batches.flatten 0 idx with
  | error e => rw [h] at this; simpa [Except.map] using this
  | ok _ => simp [Except.map]

end Psi.Join
