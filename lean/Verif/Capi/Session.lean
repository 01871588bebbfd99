import Verif.Capi.Lemmas

/-!
# A whole query through the C interface
-/

namespace Psi.Capi

open Psi.Spiral (Res)

section
variable {R C S : Type}

/-- An object behind a handle. -/
def Has (h : Heap (Obj R C S)) (p : Nat) (o : Obj R C S) : Prop := h.live p = some (.object o)

theorem Has.ext {h h' : Heap (Obj R C S)} {p : Nat} {o : Obj R C S} {L : List Nat} (ho : Has h p o) (e : Ext h h' L) :
    Has h' p o := e.keep ho

theorem Has.put_ne {h : Heap (Obj R C S)} {p a : Nat} {o : Obj R C S} (ho : Has h p o) (hp : p ≠ a)
    (b : Option (Block (Obj R C S))) : Has (h.put a b) p o := by
  rw [Has, Capi.put_ne hp]
  exact ho

theorem lift_ok {O α : Type} {r : Res α} {a : α} (e : r = .ok a) (h : Heap O) : lift r h = (h, .ok a) := by rw [lift, e]

theorem lift_throws {O α : Type} {r : Res α} (e : r = .throws) (h : Heap O) : lift r h = (h, .throws) := by rw [lift, e]

theorem lift_undef {O α : Type} {r : Res α} (e : r = .undefined) (h : Heap O) : lift r h = (h, .undefined) := by
  rw [lift, e]

theorem getReceiver_ok {h : Heap (Obj R C S)} {p : Nat} {r : R} (ho : Has h p (.receiver r)) :
    getReceiver (some p) h = (h, .ok r) := by
  rw [getReceiver, Option.bind_some, ho]

theorem getCtx_ok {h : Heap (Obj R C S)} {p : Nat} {c : C} (ho : Has h p (.ctx c)) :
    getCtx (some p) h = (h, .ok c) := by
  rw [getCtx, Option.bind_some, ho]

theorem getSender_ok {h : Heap (Obj R C S)} {p : Nat} {s : S} (ho : Has h p (.sender s)) :
    getSender (some p) h = (h, .ok s) := by
  rw [getSender, Option.bind_some, ho]

theorem new_ok (o : Obj R C S) (h : Heap (Obj R C S)) : new o h = (h.add (.object o), .ok (some h.next)) :=
  malloc_ok rfl

theorem delete_ok {h : Heap (Obj R C S)} {p : Nat} {o : Obj R C S} (ho : Has h p o) :
    delete (some p) h = (h.drop [p], .ok ()) := by
  rw [delete, ho]
  dsimp only
  congr 1
  simp only [Heap.put, Heap.drop]
  congr 1
  funext q
  by_cases hq : q = p <;> simp [hq]

/-- The parts of two runs: the same error, or good results that belong together. -/
def Same {α β : Type} (P : Heap (Obj R C S) → α → β → Prop) : Heap (Obj R C S) × Res α → Res β → Prop
  | (h, .ok a), .ok b => P h a b
  | (_, .throws), .throws => True
  | (_, .undefined), .undefined => True
  | _, _ => False

theorem Same.bind {α β γ δ : Type} {P : Heap (Obj R C S) → α → β → Prop} {Q : Heap (Obj R C S) → γ → δ → Prop}
    {x : Prog (Obj R C S) α} {f : α → Prog (Obj R C S) γ} {y : Res β} {g : β → Res δ} {h : Heap (Obj R C S)}
    (hx : Same P (x h) y) (hf : ∀ h' a b, P h' a b → Same Q (f a h') (g b)) : Same Q ((x >>= f) h) (y >>= g) := by
  cases y with
  | ok b =>
    rcases hxe : x h with ⟨h', _ | _ | _⟩ <;> rw [hxe] at hx
    · rw [bind_ok hxe]
      exact hf h' _ b hx
    · exact hx.elim
    · exact hx.elim
  | throws =>
    rcases hxe : x h with ⟨h', _ | _ | _⟩ <;> rw [hxe] at hx
    · exact hx.elim
    · rw [bind_throws hxe]
      trivial
    · exact hx.elim
  | undefined =>
    rcases hxe : x h with ⟨h', _ | _ | _⟩ <;> rw [hxe] at hx
    · exact hx.elim
    · exact hx.elim
    · rw [bind_undef hxe]
      trivial

/-- A result of the class. -/
theorem Same.lift {α : Type} (r : Res α) (h : Heap (Obj R C S)) :
    Same (fun h' a b => h' = h ∧ a = b) (Capi.lift (O := Obj R C S) r h) r := by
  rw [Capi.lift]
  cases r with
  | ok a => exact ⟨rfl, rfl⟩
  | throws => trivial
  | undefined => trivial

/-- A step of the C program that is not there in the C++ program. -/
theorem Same.skip {α γ δ : Type} {Q : Heap (Obj R C S) → γ → δ → Prop} {x : Prog (Obj R C S) α}
    {f : α → Prog (Obj R C S) γ} {g : Res δ} {h h' : Heap (Obj R C S)} {a : α} (hx : x h = (h', .ok a))
    (hf : Same Q (f a h') g) : Same Q ((x >>= f) h) g := by
  rw [bind_ok hx]
  exact hf

variable {mem : Nat → Nat → Bool} {api : Api R C S}

theorem senderLoad_same {h : Heap (Obj R C S)} (hw : h.Wf) :
    Same (fun h' p s => p = some h.next ∧ Has h' h.next (.sender s) ∧ Ext h h' [h.next] ∧ h'.next = h.next + 1)
      (senderLoad api h) api.open_ := by
  have : api.open_ = api.open_ >>= fun s => Res.ok s := by
    cases api.open_ <;> rfl
  rw [this, senderLoad]
  refine (Same.lift _ h).bind ?_
  rintro h' a b ⟨rfl, rfl⟩
  rw [new_ok]
  exact ⟨rfl, add_self, ext_add hw _, rfl⟩

theorem receiverMake_same {h : Heap (Obj R C S)} (hw : h.Wf) (b t : Nat) :
    Same (fun h' p r => p = some h.next ∧ Has h' h.next (.receiver r) ∧ Ext h h' [h.next] ∧ h'.next = h.next + 1)
      (receiverMake api b t h) (api.make b t) := by
  have : api.make b t = api.make b t >>= fun s => Res.ok s := by
    cases api.make b t <;> rfl
  rw [this, receiverMake]
  refine (Same.lift _ h).bind ?_
  rintro h' a b ⟨rfl, rfl⟩
  rw [new_ok]
  exact ⟨rfl, add_self, ext_add hw _, rfl⟩

theorem res_bind_ok {α : Type} (x : Res α) : (x >>= fun s => Res.ok s) = x := by
  cases x <;> rfl

theorem makeQueryCtx_same {h : Heap (Obj R C S)} (hw : h.Wf) {p : Nat} {r : R} (ho : Has h p (.receiver r)) {q : CArr}
    {qs : List Bytes} {L : List Nat} (hq : Arr h q qs L) :
    Same (fun h' p c => p = some h.next ∧ Has h' h.next (.ctx c) ∧ Ext h h' [h.next] ∧ h'.next = h.next + 1)
      (makeQueryCtx api (some p) q h) (api.bucketize r qs) := by
  rw [← res_bind_ok (api.bucketize r qs), makeQueryCtx]
  refine Same.skip hq.read (Same.skip (getReceiver_ok ho) ?_)
  refine (Same.lift _ h).bind ?_
  rintro h' a b ⟨rfl, rfl⟩
  rw [new_ok]
  exact ⟨rfl, add_self, ext_add hw _, rfl⟩

theorem setObj_ok (p : Nat) (o : Obj R C S) (h : Heap (Obj R C S)) :
    setObj (some p) o h = (h.put p (some (.object o)), .ok ()) := rfl

theorem receiverLoadParams_same {h : Heap (Obj R C S)} {p : Nat} {r : R} (ho : Has h p (.receiver r)) {c : CStr}
    {s : Bytes} {a : Nat} (hc : Holds h c s a) :
    Same (fun h' _ r' => h' = h.put p (some (.object (.receiver r')))) (receiverLoadParams api (some p) c h)
      (api.load r s) := by
  rw [← res_bind_ok (api.load r s), receiverLoadParams]
  refine Same.skip hc.read (Same.skip (getReceiver_ok ho) ?_)
  refine (Same.lift _ h).bind ?_
  rintro h' a b ⟨rfl, rfl⟩
  rw [setObj_ok]
  exact rfl

theorem generateParams_same (hm : ∀ i n, mem i n = true) {h : Heap (Obj R C S)} (hw : h.Wf) {p : Nat} {s : S}
    (ho : Has h p (.sender s)) :
    Same (fun h' c x => Holds h' c x.2 h.next ∧ Has h' p (.sender x.1) ∧
        Ext (h.put p (some (.object (.sender x.1)))) h' [h.next] ∧ h'.next = h.next + 1)
      (generateParams mem api (some p) h) (api.params s) := by
  rw [← res_bind_ok (api.params s), generateParams]
  refine Same.skip (getSender_ok ho) ?_
  refine (Same.lift _ h).bind ?_
  rintro h' a b ⟨rfl, rfl⟩
  refine Same.skip (setObj_ok _ _ _) ?_
  rw [makeCString_ok (hm _ _)]
  have he := ext_add (wf_put hw ho (some (.object (.sender a.1)))) (.chars ((a.2 ++ [0]).map some))
  exact ⟨⟨rfl, rfl, add_self⟩, he.keep put_self, he, rfl⟩

/-- What the calls that return an array have in common. -/
def Gives (h : Heap (Obj R C S)) (p : Nat) (f : C ⊕ S) (ss : List Bytes) (h' : Heap (Obj R C S)) (arr : CArr) : Prop :=
  ∃ L, Arr h' arr ss L ∧ Ext (h.put p (some (.object (match f with | .inl c => .ctx c | .inr s => .sender s)))) h' L ∧
    Has h' p (match f with | .inl c => .ctx c | .inr s => .sender s)

theorem give {h : Heap (Obj R C S)} (hm : ∀ i n, mem i n = true) (hw : h.Wf) {p : Nat} {o : Obj R C S} (ho : Has h p o)
    (f : C ⊕ S) (ss : List Bytes) :
    ∃ h' arr, makeCStringArray mem ss (h.put p (some (.object (match f with | .inl c => .ctx c | .inr s => .sender s))))
      = (h', .ok arr) ∧ Gives h p f ss h' arr := by
  obtain ⟨h', arr, L, e1, e2, e3, -⟩ := makeCStringArray_ok hm ss
    (wf_put hw ho (some (.object (match f with | .inl c => .ctx c | .inr s => .sender s))))
  exact ⟨h', arr, e1, L, e2, e3, e3.keep put_self⟩

theorem requestOprf_same (hm : ∀ i n, mem i n = true) {h : Heap (Obj R C S)} (hw : h.Wf) {p q : Nat} {r : R} {c : C}
    (ho : Has h p (.receiver r)) (hc : Has h q (.ctx c)) :
    Same (fun h' arr x => Gives h q (.inl x.1) x.2 h' arr) (requestOprf mem api (some p) (some q) h) (api.reqOprf r c) := by
  rw [← res_bind_ok (api.reqOprf r c), requestOprf]
  refine Same.skip (getReceiver_ok ho) (Same.skip (getCtx_ok hc) ?_)
  refine (Same.lift _ h).bind ?_
  rintro h' a b ⟨rfl, rfl⟩
  refine Same.skip (setObj_ok _ _ _) ?_
  obtain ⟨h2, arr, e1, e2⟩ := give hm hw hc (.inl a.1) a.2
  rw [e1]
  exact e2

theorem requestQuery_same (hm : ∀ i n, mem i n = true) {h : Heap (Obj R C S)} (hw : h.Wf) {p q : Nat} {r : R} {c : C}
    (ho : Has h p (.receiver r)) (hc : Has h q (.ctx c)) {x : CArr} {xs : List Bytes} {L : List Nat} (hx : Arr h x xs L) :
    Same (fun h' arr x => Gives h q (.inl x.1) x.2 h' arr) (requestQuery mem api (some p) (some q) x h)
      (api.reqQuery r c xs) := by
  rw [← res_bind_ok (api.reqQuery r c xs), requestQuery]
  refine Same.skip hx.read (Same.skip (getReceiver_ok ho) (Same.skip (getCtx_ok hc) ?_))
  refine (Same.lift _ h).bind ?_
  rintro h' a b ⟨rfl, rfl⟩
  refine Same.skip (setObj_ok _ _ _) ?_
  obtain ⟨h2, arr, e1, e2⟩ := give hm hw hc (.inl a.1) a.2
  rw [e1]
  exact e2

theorem runOprfBatch_same (hm : ∀ i n, mem i n = true) {h : Heap (Obj R C S)} (hw : h.Wf) {p : Nat} {s : S}
    (ho : Has h p (.sender s)) {x : CArr} {xs : List Bytes} {L : List Nat} (hx : Arr h x xs L) :
    Same (fun h' arr x => Gives h p (.inr x.1) x.2 h' arr) (runOprfBatch mem api (some p) x h) (api.runOprf s xs) := by
  rw [← res_bind_ok (api.runOprf s xs), runOprfBatch]
  refine Same.skip hx.read (Same.skip (getSender_ok ho) ?_)
  refine (Same.lift _ h).bind ?_
  rintro h' a b ⟨rfl, rfl⟩
  refine Same.skip (setObj_ok _ _ _) ?_
  obtain ⟨h2, arr, e1, e2⟩ := give hm hw ho (.inr a.1) a.2
  rw [e1]
  exact e2

theorem runQueryBatch_same (hm : ∀ i n, mem i n = true) {h : Heap (Obj R C S)} (hw : h.Wf) {p : Nat} {s : S}
    (ho : Has h p (.sender s)) {x : CArr} {xs : List Bytes} {L : List Nat} (hx : Arr h x xs L) :
    Same (fun h' arr x => Gives h p (.inr x.1) x.2 h' arr) (runQueryBatch mem api (some p) x h) (api.runQuery s xs) := by
  rw [← res_bind_ok (api.runQuery s xs), runQueryBatch]
  refine Same.skip hx.read (Same.skip (getSender_ok ho) ?_)
  refine (Same.lift _ h).bind ?_
  rintro h' a b ⟨rfl, rfl⟩
  refine Same.skip (setObj_ok _ _ _) ?_
  obtain ⟨h2, arr, e1, e2⟩ := give hm hw ho (.inr a.1) a.2
  rw [e1]
  exact e2

/-- What the caller gets: a null pointer if the numbers of keys and values do not fit, otherwise a result in new blocks. -/
def Got (h : Heap (Obj R C S)) (keys values : List Bytes) (h' : Heap (Obj R C S)) (p : Ptr) (L : List Nat) : Prop :=
  Ext h h' L ∧ (if keys.length ≠ values.length ∧ values ≠ [] then p = none ∧ L = [] else IsResult h' p keys values L)

theorem processResult_same (hm : ∀ i n, mem i n = true) {h : Heap (Obj R C S)} (hw : h.Wf) {p q : Nat} {r : R} {c : C}
    (ho : Has h p (.receiver r)) (hc : Has h q (.ctx c)) {x : CArr} {xs : List Bytes} {L : List Nat} (hx : Arr h x xs L) :
    Same (fun h' res y => ∃ L, Got (h.put q (some (.object (.ctx y.1)))) y.2.1 y.2.2 h' res L ∧ Has h' q (.ctx y.1))
      (processResult mem api (some p) (some q) x h) (api.result r c xs) := by
  rw [← res_bind_ok (api.result r c xs), processResult]
  refine Same.skip hx.read (Same.skip (getReceiver_ok ho) (Same.skip (getCtx_ok hc) ?_))
  refine (Same.lift _ h).bind ?_
  rintro h' a b ⟨rfl, rfl⟩
  refine Same.skip (setObj_ok _ _ _) ?_
  have hw' := wf_put hw hc (some (.object (.ctx a.1)))
  by_cases hl : a.2.1.length ≠ a.2.2.length ∧ a.2.2 ≠ []
  · rw [makeQueryResult, if_pos hl]
    refine ⟨[], ⟨Ext.refl hw', ?_⟩, put_self⟩
    rw [if_pos hl]
    exact ⟨rfl, rfl⟩
  · obtain ⟨h2, res, L, e1, e2, e3⟩ := makeQueryResult_ok hm hl hw'
    rw [e1]
    refine ⟨L, ⟨e3, ?_⟩, e3.keep put_self⟩
    rw [if_neg hl]
    exact e2

theorem IsResult.frame {O : Type} {h h' : Heap O} {p : Ptr} {keys values : List Bytes} {L : List Nat}
    (hr : IsResult h p keys values L) (he : ∀ q ∈ L, h'.live q = h.live q) : IsResult h' p keys values L := by
  obtain ⟨a, k, v, K, V, rfl, rfl, hb, hk, hv⟩ := hr.ex
  refine ⟨⟨a, k, v, K, V, rfl, rfl, by rw [he a List.mem_cons_self, hb], hk.frame fun q hq => he q (by simp [hq]), ?_⟩,
    hr.nodup⟩
  by_cases hve : values.isEmpty = true
  · rw [if_pos hve] at hv ⊢
    exact hv
  · rw [if_neg hve] at hv ⊢
    exact hv.frame fun q hq => he q (by simp [hq])

/-- Blocks of other numbers do not matter. -/
theorem Got.frame {h0 h1 h h' : Heap (Obj R C S)} {keys values : List Bytes} {p : Ptr} {L L' : List Nat}
    (hg : Got h0 keys values h p L) (he : ∀ q ∈ L, h'.live q = h.live q) (hx : Ext h1 h' L')
    (hL : ∀ q, q ∈ L' ↔ q ∈ L) : Got h1 keys values h' p L := by
  refine ⟨⟨fun q hq => hx.same q (fun hm => hq ((hL q).mp hm)), fun q hq => hx.fresh q ((hL q).mpr hq), hx.wf0, hx.le⟩, ?_⟩
  by_cases hl : keys.length ≠ values.length ∧ values ≠ []
  · have := hg.2
    rw [if_pos hl] at this ⊢
    exact this
  · have := hg.2
    rw [if_neg hl] at this ⊢
    exact this.frame he

/-- The heap after a change of an object and new blocks. -/
theorem Ext.step {h0 h h' : Heap (Obj R C S)} {L L' : List Nat} (e : Ext h0 h L) {p : Nat} (hp : p ∈ L)
    {b : Option (Block (Obj R C S))} (e' : Ext (h.put p b) h' L') : Ext h0 h' (L' ++ L) :=
  (e.put hp b).trans e'

theorem session_same (hm : ∀ i n, mem i n = true) {h : Heap (Obj R C S)} (hw : h.Wf) (b t : Nat) {q : CArr}
    {qs : List Bytes} {Q : List Nat} (hq : Arr h q qs Q) :
    Same (fun h' p kv => ∃ L, Got h kv.1 kv.2 h' p L) (session mem api b t q h) (direct api b t qs) := by
  rw [session, direct]
  refine (senderLoad_same hw).bind ?_
  rintro h1 _ s1 ⟨rfl, s1h, x1, n1⟩
  refine (generateParams_same hm x1.wf s1h).bind ?_
  rintro h2 params y2 ⟨p2, s2, x2, n2⟩
  have X2 := x1.step (List.mem_singleton.mpr rfl) x2
  have q2 := (hq.ext x1).put s1h (some (.object (.sender y2.1))) |>.ext x2
  refine (receiverMake_same X2.wf b t).bind ?_
  rintro h3 _ r3 ⟨rfl, r3h, x3, n3⟩
  have X3 := X2.trans x3
  have p3 : Holds h3 params y2.2 h1.next := p2.frame (by rw [x3.keep p2.block, p2.block])
  refine (receiverLoadParams_same r3h p3).bind ?_
  rintro h4 _ r4 rfl
  set h4 := h3.put h2.next (some (.object (.receiver r4))) with hh4
  have X4 := X3.put (a := h2.next) (by simp) (some (.object (.receiver r4)))
  rw [← hh4] at X4
  have r4h : Has h4 h2.next (.receiver r4) := put_self
  have n4 : h4.next = h3.next := rfl
  have s4 : Has h4 h.next (.sender y2.1) := (s2.ext x3).put_ne (by omega) _
  have p4 : Holds h4 params y2.2 h1.next := p3.frame (put_ne (by omega))
  have q4 : Arr h4 q qs Q := (q2.ext x3).put r3h _
  refine (makeQueryCtx_same X4.wf r4h q4).bind ?_
  rintro h5 _ c5 ⟨rfl, c5h, x5, n5⟩
  have X5 := X4.trans x5
  have r5 := r4h.ext x5
  have s5 := s4.ext x5
  have p5 : Holds h5 params y2.2 h1.next := p4.frame (by rw [x5.keep p4.block, p4.block])
  refine (requestOprf_same hm X5.wf r5 c5h).bind ?_
  rintro h6 a6 y6 ⟨L6, A6, x6, c6⟩
  have X6 := X5.step (p := h4.next) (by simp) x6
  have N6 : h5.next ≤ h6.next := x6.le
  have r6 := (r5.put_ne (a := h4.next) (by omega) (some (.object (.ctx y6.1)))).ext x6
  have s6 := (s5.put_ne (a := h4.next) (by omega) (some (.object (.ctx y6.1)))).ext x6
  have p6 : Holds h6 params y2.2 h1.next := by
    have := p5.frame (h' := h5.put h4.next (some (.object (.ctx y6.1)))) (put_ne (by omega))
    exact this.frame (by rw [x6.keep this.block, this.block])
  have F6 : ∀ p ∈ L6, h5.next ≤ p ∧ p < h6.next := x6.fresh
  refine (runOprfBatch_same hm X6.wf s6 A6).bind ?_
  rintro h7 a7 y7 ⟨L7, A7, x7, s7⟩
  have X7 := X6.step (p := h.next) (by simp) x7
  have N7 : h6.next ≤ h7.next := x7.le
  have r7 := (r6.put_ne (a := h.next) (by omega) (some (.object (.sender y7.1)))).ext x7
  have c7 := (c6.put_ne (a := h.next) (by omega) (some (.object (.sender y7.1)))).ext x7
  have B6 := (A6.put s6 (some (.object (.sender y7.1)))).ext x7
  have p7 : Holds h7 params y2.2 h1.next := by
    have := p6.frame (h' := h6.put h.next (some (.object (.sender y7.1)))) (put_ne (by omega))
    exact this.frame (by rw [x7.keep this.block, this.block])
  have F7 : ∀ p ∈ L7, h6.next ≤ p ∧ p < h7.next := x7.fresh
  refine (requestQuery_same hm X7.wf r7 c7 A7).bind ?_
  rintro h8 a8 y8 ⟨L8, A8, x8, c8⟩
  have X8 := X7.step (p := h4.next) (by simp) x8
  have N8 : h7.next ≤ h8.next := x8.le
  have r8 := (r7.put_ne (a := h4.next) (by omega) (some (.object (.ctx y8.1)))).ext x8
  have s8 := (s7.put_ne (a := h4.next) (by omega) (some (.object (.ctx y8.1)))).ext x8
  have B6 := (B6.put c7 (some (.object (.ctx y8.1)))).ext x8
  have B7 := (A7.put c7 (some (.object (.ctx y8.1)))).ext x8
  have p8 : Holds h8 params y2.2 h1.next := by
    have := p7.frame (h' := h7.put h4.next (some (.object (.ctx y8.1)))) (put_ne (by omega))
    exact this.frame (by rw [x8.keep this.block, this.block])
  have F8 : ∀ p ∈ L8, h7.next ≤ p ∧ p < h8.next := x8.fresh
  refine (runQueryBatch_same hm X8.wf s8 A8).bind ?_
  rintro h9 a9 y9 ⟨L9, A9, x9, s9⟩
  have X9 := X8.step (p := h.next) (by simp) x9
  have N9 : h8.next ≤ h9.next := x9.le
  have r9 := (r8.put_ne (a := h.next) (by omega) (some (.object (.sender y9.1)))).ext x9
  have c9 := (c8.put_ne (a := h.next) (by omega) (some (.object (.sender y9.1)))).ext x9
  have B6 := (B6.put s8 (some (.object (.sender y9.1)))).ext x9
  have B7 := (B7.put s8 (some (.object (.sender y9.1)))).ext x9
  have B8 := (A8.put s8 (some (.object (.sender y9.1)))).ext x9
  have p9 : Holds h9 params y2.2 h1.next := by
    have := p8.frame (h' := h8.put h.next (some (.object (.sender y9.1)))) (put_ne (by omega))
    exact this.frame (by rw [x9.keep this.block, this.block])
  have F9 : ∀ p ∈ L9, h8.next ≤ p ∧ p < h9.next := x9.fresh
  refine (processResult_same hm X9.wf r9 c9 A9).bind ?_
  rintro h10 res y10 ⟨L10, G10, c10⟩
  have x10 := G10.1
  have X10 := X9.step (p := h4.next) (by simp) x10
  have N10 : h9.next ≤ h10.next := x10.le
  have r10 := (r9.put_ne (a := h4.next) (by omega) (some (.object (.ctx y10.1)))).ext x10
  have s10 := (s9.put_ne (a := h4.next) (by omega) (some (.object (.ctx y10.1)))).ext x10
  have B6 := (B6.put c9 (some (.object (.ctx y10.1)))).ext x10
  have B7 := (B7.put c9 (some (.object (.ctx y10.1)))).ext x10
  have B8 := (B8.put c9 (some (.object (.ctx y10.1)))).ext x10
  have B9 := (A9.put c9 (some (.object (.ctx y10.1)))).ext x10
  have p10 : Holds h10 params y2.2 h1.next := by
    have := p9.frame (h' := h9.put h4.next (some (.object (.ctx y10.1)))) (put_ne (by omega))
    exact this.frame (by rw [x10.keep this.block, this.block])
  have F10 : ∀ p ∈ L10, h9.next ≤ p ∧ p < h10.next := x10.fresh
  -- what is freed
  have B8 := B8.drop (D := L9) fun p hp hp' => by have := F8 p hp; have := F9 p hp'; omega
  have B7 := B7.drop (D := L9 ++ L8) fun p hp hp' => by
    have := F7 p hp
    rcases List.mem_append.mp hp' with hp' | hp'
    · have := F9 p hp'; omega
    · have := F8 p hp'; omega
  have B6 := B6.drop (D := L9 ++ L8 ++ L7) fun p hp hp' => by
    have := F6 p hp
    simp only [List.mem_append] at hp'
    rcases hp' with (hp' | hp') | hp'
    · have := F9 p hp'; omega
    · have := F8 p hp'; omega
    · have := F7 p hp'; omega
  have hbig : ∀ p, p < h5.next → p ∉ L9 ++ L8 ++ L7 ++ L6 := by
    intro p hp hm
    simp only [List.mem_append] at hm
    rcases hm with ((hm | hm) | hm) | hm
    · have := F9 p hm; omega
    · have := F8 p hm; omega
    · have := F7 p hm; omega
    · have := F6 p hm; omega
  have p11 : Holds (h10.drop (L9 ++ L8 ++ L7 ++ L6)) params y2.2 h1.next :=
    p10.frame (drop_live (hbig _ (by omega)))
  have c11 : Has (h10.drop (L9 ++ L8 ++ L7 ++ L6 ++ [h1.next])) h4.next (.ctx y10.1) := by
    rw [Has, drop_live]
    · exact c10
    · rw [List.mem_append, not_or]
      exact ⟨hbig _ (by omega), by simp; omega⟩
  have s11 : Has (h10.drop (L9 ++ L8 ++ L7 ++ L6 ++ [h1.next] ++ [h4.next])) h.next (.sender y9.1) := by
    rw [Has, drop_live]
    · exact s10
    · simp only [List.mem_append, not_or] at hbig ⊢
      exact ⟨⟨hbig _ (by omega), by simp; omega⟩, by simp; omega⟩
  have r11 : Has (h10.drop (L9 ++ L8 ++ L7 ++ L6 ++ [h1.next] ++ [h4.next] ++ [h.next])) h2.next (.receiver r4) := by
    rw [Has, drop_live]
    · exact r10
    · simp only [List.mem_append, not_or] at hbig ⊢
      exact ⟨⟨⟨hbig _ (by omega), by simp; omega⟩, by simp; omega⟩, by simp; omega⟩
  have f9 := B9.free
  have f8 := B8.free
  have f7 := B7.free
  have f6 := B6.free
  rw [drop_drop] at f8 f7 f6
  have fp : freeCString params (h10.drop (L9 ++ L8 ++ L7 ++ L6))
      = (h10.drop (L9 ++ L8 ++ L7 ++ L6 ++ [h1.next]), .ok ⟨params.data, 0⟩) := by
    rw [freeCString, bind_ok p11.free, drop_drop]
    rfl
  have fc := delete_ok c11
  have fs : senderFree (some (some h.next)) (h10.drop (L9 ++ L8 ++ L7 ++ L6 ++ [h1.next] ++ [h4.next]))
      = (h10.drop (L9 ++ L8 ++ L7 ++ L6 ++ [h1.next] ++ [h4.next] ++ [h.next]), .ok (some none)) := by
    rw [senderFree, bind_ok (delete_ok s11), drop_drop]
    rfl
  have fr : receiverFree (some (some h2.next)) (h10.drop (L9 ++ L8 ++ L7 ++ L6 ++ [h1.next] ++ [h4.next] ++ [h.next]))
      = (h10.drop (L9 ++ L8 ++ L7 ++ L6 ++ [h1.next] ++ [h4.next] ++ [h.next] ++ [h2.next]), .ok (some none)) := by
    rw [receiverFree, bind_ok (delete_ok r11), drop_drop]
    rfl
  rw [drop_drop] at fc
  refine Same.skip f9 (Same.skip f8 (Same.skip f7 (Same.skip f6 (Same.skip fp (Same.skip fc (Same.skip fs
    (Same.skip fr ?_)))))))
  refine ⟨L10, G10.frame (fun p hp => drop_live ?_) (X10.drop
    (L9 ++ L8 ++ L7 ++ L6 ++ [h1.next] ++ [h4.next] ++ [h.next] ++ [h2.next]) ?_) ?_⟩
  · have := F10 p hp
    intro hm
    simp only [List.mem_append, List.mem_singleton] at hm
    rcases hm with ((((((hm | hm) | hm) | hm) | hm) | hm) | hm) | hm
    · have := F9 p hm; omega
    · have := F8 p hm; omega
    · have := F7 p hm; omega
    · have := F6 p hm; omega
    all_goals omega
  · intro p hp
    simp only [List.mem_append, List.mem_singleton] at hp ⊢
    clear * - hp
    tauto
  · intro p
    have hd : p ∈ L10 → p ∉ L9 ++ L8 ++ L7 ++ L6 ++ [h1.next] ++ [h4.next] ++ [h.next] ++ [h2.next] := by
      intro hp hm
      have := F10 p hp
      simp only [List.mem_append, List.mem_singleton] at hm
      rcases hm with ((((((hm | hm) | hm) | hm) | hm) | hm) | hm) | hm
      · have := F9 p hm; omega
      · have := F8 p hm; omega
      · have := F7 p hm; omega
      · have := F6 p hm; omega
      all_goals omega
    rw [List.mem_filter, decide_eq_true_iff]
    constructor
    · rintro ⟨h1', h2'⟩
      simp only [List.mem_append, List.mem_singleton] at h1' h2'
      clear * - h1' h2'
      tauto
    · intro hp
      refine ⟨?_, hd hp⟩
      simp only [List.mem_append, List.mem_singleton]
      exact .inl hp

end

end Psi.Capi
