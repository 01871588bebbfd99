import Verif.Capi.FileLemmas
import Verif.Capi.Session

/-!
# C115: strings, results and handles of the C interface

`h.Wf`: blocks have numbers that were given out.  `Arr h q qs Q`: the caller's array `q` is that of the strings `qs`.  `h.live` is
what is on the heap: two heaps with the same `live` hold the same blocks with the same contents.
-/

namespace Psi.Capi

open Psi.Spiral (Res)
open Psi.DkPir (Str)

section
variable {O : Type} {mem : Nat → Nat → Bool}

/-- C115: a string of any bytes comes back as it was, ends in a zero byte for callers in C, and when it is freed the heap is as
before. -/
theorem C115_string {h : Heap O} (hw : h.Wf) (s : Bytes) (hm : mem h.next (s.length + 1) = true) :
    ∃ h' c a, makeCString mem s h = (h', .ok c) ∧ makeString c h' = (h', .ok s) ∧ c.data = some a ∧ c.size = s.length ∧
      (∃ l, h'.live a = some (.chars l) ∧ l.length = s.length + 1 ∧ l[s.length]? = some (some 0)) ∧
      (∀ p b, h.live p = some b → h'.live p = some b) ∧
      ∃ h'' c', freeCString c h' = (h'', .ok c') ∧ h''.live = h.live := by
  have hx := ext_add hw (.chars ((s ++ [0]).map some))
  have hh : Holds (h.add (.chars ((s ++ [0]).map some))) ⟨some h.next, s.length⟩ s h.next := ⟨rfl, rfl, add_self⟩
  refine ⟨_, _, h.next, makeCString_ok hm, hh.read, rfl, rfl, ⟨_, add_self, by simp, by simp⟩, fun p b => hx.keep,
    (h.add (.chars ((s ++ [0]).map some))).drop [h.next], ⟨some h.next, 0⟩, ?_, ?_⟩
  · rw [freeCString, bind_ok hh.free]
    rfl
  · have := hx.drop [h.next] (fun p hp => hp)
    rw [show ([h.next].filter fun p => p ∉ [h.next]) = [] by simp] at this
    exact this.live_eq

/-- C115: an array of strings comes back as it was, and when it is freed the heap is as before. -/
theorem C115_array {h : Heap O} (hw : h.Wf) (ss : List Bytes) (hm0 : mem h.next (16 * ss.length) = true)
    (hm : ∀ i s, ss[i]? = some s → mem (h.next + 1 + i) (s.length + 1) = true) :
    ∃ h' arr, makeCStringArray mem ss h = (h', .ok arr) ∧ arr.size = ss.length ∧ makeStringArray arr h' = (h', .ok ss) ∧
      (∀ p b, h.live p = some b → h'.live p = some b) ∧
      ∃ h'' arr', freeCStringArray arr h' = (h'', .ok arr') ∧ h''.live = h.live := by
  obtain ⟨h', arr, L, e1, e2, e3, -⟩ := makeCStringArray_fits ss hm0 hm hw
  refine ⟨h', arr, e1, e2.size, e2.read, fun p b => e3.keep, _, _, e2.free, ?_⟩
  have := e3.drop L (fun p hp => hp)
  rw [List.filter_eq_nil_iff.mpr (by simp)] at this
  exact this.live_eq

/-- C115: if the memory ends at a string, the call throws, and the array and the strings before it are never freed. -/
theorem C115_out_of_memory {h : Heap O} (hw : h.Wf) (s1 : List Bytes) (s : Bytes) (s2 : List Bytes)
    (hm0 : mem h.next (16 * (s1 ++ s :: s2).length) = true)
    (hm : ∀ i s, s1[i]? = some s → mem (h.next + 1 + i) (s.length + 1) = true)
    (hf : mem (h.next + 1 + s1.length) (s.length + 1) = false) :
    ∃ (h' : Heap O) (L : List Nat), makeCStringArray mem (s1 ++ s :: s2) h = (h', .throws) ∧ L.Nodup ∧ L.length = s1.length + 1 ∧
      ∀ p, (p ∈ L → h.live p = none ∧ (h'.live p).isSome) ∧ (p ∉ L → h'.live p = h.live p) := by
  have hx := ext_add hw (.strs (List.replicate (s1 ++ s :: s2).length none))
  obtain ⟨h', Bs, e1, e2, e3, e4, e5, e6, e7, e8⟩ := writeStrs_null (a := h.next) (s := s) (s2 := s2) s1 []
    (List.replicate (s1 ++ s :: s2).length none) (h.add (.strs (List.replicate (s1 ++ s :: s2).length none))) hm hf
    hx.wf (Nat.lt_succ_self _) add_self (by simp)
  have e4' : ∀ p ∈ Bs, h.next + 1 ≤ p ∧ p < h'.next := e4
  have hnB : h.next ∉ Bs := fun hm => absurd (e4' _ hm).1 (by omega)
  refine ⟨h', h.next :: Bs, ?_, List.nodup_cons.mpr ⟨hnB, e3⟩, by simp [e2], fun p => ⟨fun hp => ?_, fun hp => ?_⟩⟩
  · rw [makeCStringArray, bind_ok (malloc_ok hm0)]
    dsimp only
    rw [List.length_nil] at e1
    rw [bind_throws e1]
  · rcases List.mem_cons.mp hp with rfl | hp
    · exact ⟨hw _ (le_refl _), e6⟩
    · exact ⟨hw _ (by have := (e4' p hp).1; omega), e5 p hp⟩
  · rw [List.mem_cons, not_or] at hp
    rw [e8 p hp.1 hp.2, hx.same p (by simpa using hp.1)]

/-- C115: with an allocator that has a null pointer for no bytes (which the C standard allows) there is no array without strings:
a query without a match throws instead of returning an empty result. -/
theorem C115_no_bytes {h : Heap O} (hm : ∀ n, mem n 0 = false) (h40 : mem h.next 40 = true) :
    (∃ h', makeCStringArray mem [] h = (h', .throws)) ∧ ∃ h', makeQueryResult mem [] [] h = (h', .throws) := by
  have h1 : ∀ h : Heap O, makeCStringArray mem [] h = (⟨h.next + 1, h.live⟩, .throws) := by
    intro h
    rw [makeCStringArray, bind_ok (malloc_null (n := 16 * ([] : List Bytes).length) (hm _))]
    rfl
  refine ⟨⟨_, h1 h⟩, ?_⟩
  rw [makeQueryResult, if_neg (by simp), bind_ok (malloc_ok h40)]
  dsimp only
  rw [bind_ok (writeResult_ok _ add_self), bind_ok (writeResult_ok _ put_self), bind_throws (h1 _)]
  exact ⟨_, rfl⟩

/-- C115: freeing leaves the pointer in the caller's variable, so that freeing the variable again is undefined: of a string, of an
array and of a result. -/
theorem C115_double_free (h : Heap O) :
    (∀ c h' c', freeCString c h = (h', .ok c') → c.data ≠ none → (freeCString c' h').2 = .undefined) ∧
    (∀ ss arr L, Arr h arr ss L → ∃ h' arr', freeCStringArray arr h = (h', .ok arr') ∧
      (freeCStringArray arr' h').2 = .undefined) ∧
    (∀ p keys values L, IsResult h p keys values L → ∃ h', freeQueryResult p h = (h', .ok ()) ∧
      (freeQueryResult p h').2 = .undefined) := by
  refine ⟨?_, ?_, ?_⟩
  · intro c h' c' hf hc
    obtain ⟨a, ha⟩ := Option.ne_none_iff_exists'.mp hc
    have hdead : ∀ h2 : Heap O, free (some a) h = (h2, .ok ()) → h2.live a = none := by
      intro h2 he
      rw [free] at he
      cases hl : h.live a with
      | none => rw [hl] at he; cases he
      | some b =>
        rw [hl] at he
        cases b with
        | object o => cases he
        | chars l => obtain ⟨rfl, -⟩ := Prod.mk.inj he; exact put_self
        | strs l => obtain ⟨rfl, -⟩ := Prod.mk.inj he; exact put_self
        | result r => obtain ⟨rfl, -⟩ := Prod.mk.inj he; exact put_self
    rw [freeCString] at hf
    rcases hx : free c.data h with ⟨h2, _ | _ | _⟩
    · rw [bind_ok hx] at hf
      obtain ⟨rfl, e⟩ := Prod.mk.inj hf
      obtain rfl := Res.ok.inj e
      rw [ha] at hx
      have hd := hdead h2 hx
      have : free c.data h2 = (h2, .undefined) := by rw [ha, free, hd]
      rw [freeCString, bind_undef this]
    · rw [bind_throws hx] at hf
      cases hf
    · rw [bind_undef hx] at hf
      cases hf
  · intro ss arr L ha
    refine ⟨_, _, ha.free, ?_⟩
    obtain ⟨a, cs, Bs, rfl, h1, -⟩ := ha.ex
    have : free arr.data (h.drop (a :: Bs)) = (h.drop (a :: Bs), .undefined) := by
      rw [h1, free, show (h.drop (a :: Bs)).live a = none by simp [Heap.drop]]
    rw [freeCStringArray]
    dsimp only
    rw [freeStrs, bind_ok (pure_run () _), bind_undef this]
  · intro p keys values L hr
    refine ⟨_, freeQueryResult_ok hr, ?_⟩
    obtain ⟨a, k, v, K, V, rfl, rfl, -⟩ := hr.ex
    have : readResult a (h.drop (a :: (K ++ V))) = (h.drop (a :: (K ++ V)), .undefined) := by
      rw [readResult, show (h.drop (a :: (K ++ V))).live a = none by simp [Heap.drop]]
    rw [freeQueryResult, bind_undef this]

/-- C115: a result says how many rows it has (modulo `2 ^ 32`) and whether there are values; keys and values come back as they
were; freed it leaves the heap as before.  There is no result if there are values, but not as many as keys. -/
theorem C115_result (hm : ∀ i n, mem i n = true) {h : Heap O} (hw : h.Wf) (keys values : List Bytes) :
    if keys.length ≠ values.length ∧ values ≠ [] then makeQueryResult mem keys values h = (h, .ok none)
    else ∃ h' a k v, makeQueryResult mem keys values h = (h', .ok (some a)) ∧
      h'.live a = some (.result ⟨some k, some v, some (keys.length % 2 ^ 32), some (decide (values ≠ []))⟩) ∧
      makeStringArray k h' = (h', .ok keys) ∧ makeStringArray v h' = (h', .ok values) ∧
      (∀ p b, h.live p = some b → h'.live p = some b) ∧
      ∃ h'', freeQueryResult (some a) h' = (h'', .ok ()) ∧ h''.live = h.live := by
  by_cases hl : keys.length ≠ values.length ∧ values ≠ []
  · rw [if_pos hl, makeQueryResult, if_pos hl]
    rfl
  · rw [if_neg hl]
    obtain ⟨h', p, L, e1, e2, e3⟩ := makeQueryResult_ok hm hl hw
    have hd := freeQueryResult_ok e2
    obtain ⟨a, k, v, K, V, rfl, rfl, hb, hk, hv⟩ := e2.ex
    have hflag : (!values.isEmpty) = decide (values ≠ []) := by cases values <;> rfl
    refine ⟨h', a, k, v, e1, by rw [hb, hflag], hk.read, ?_, fun p b => e3.keep, _, hd, ?_⟩
    · by_cases hve : values.isEmpty = true
      · rw [if_pos hve] at hv
        rw [hv.1, List.isEmpty_iff.mp hve]
        rfl
      · rw [if_neg hve] at hv
        exact hv.read
    · have := e3.drop (a :: (K ++ V)) (fun p hp => hp)
      rw [List.filter_eq_nil_iff.mpr (fun p hp => by rw [decide_eq_true_iff]; exact not_not.mpr hp)] at this
      exact this.live_eq

end

section
variable {R C S : Type} {mem : Nat → Nat → Bool}

/-- C115: one query by a program in C has the outcome of the same calls in C++: the same errors, and a result with the same keys
and values.  Nothing else of what the program was given is left, nothing that it had before has changed, and when it frees the
result the heap is as before the query. -/
theorem C115_session (api : Api R C S) (hm : ∀ i n, mem i n = true) {h : Heap (Obj R C S)} (hw : h.Wf) (buckets threads : Nat)
    {q : CArr} {qs : List Bytes} {Q : List Nat} (hq : Arr h q qs Q) :
    match direct api buckets threads qs with
    | .throws => (session mem api buckets threads q h).2 = .throws
    | .undefined => (session mem api buckets threads q h).2 = .undefined
    | .ok (keys, values) =>
      if keys.length ≠ values.length ∧ values ≠ [] then
        ∃ h', session mem api buckets threads q h = (h', .ok none) ∧ h'.live = h.live
      else ∃ h' a k v, session mem api buckets threads q h = (h', .ok (some a)) ∧
        h'.live a = some (.result ⟨some k, some v, some (keys.length % 2 ^ 32), some (decide (values ≠ []))⟩) ∧
        makeStringArray k h' = (h', .ok keys) ∧ makeStringArray v h' = (h', .ok values) ∧
        (∀ p b, h.live p = some b → h'.live p = some b) ∧
        ∃ h'', freeQueryResult (some a) h' = (h'', .ok ()) ∧ h''.live = h.live := by
  have hs := session_same (api := api) hm hw buckets threads hq
  rcases hd : direct api buckets threads qs with ⟨keys, values⟩ | _ | _
  · rcases hx : session mem api buckets threads q h with ⟨h', p | _ | _⟩ <;> rw [hd, hx] at hs
    · obtain ⟨L, e3, hg⟩ := hs
      dsimp only at hg e3 ⊢
      by_cases hl : keys.length ≠ values.length ∧ values ≠ []
      · rw [if_pos hl] at hg ⊢
        obtain ⟨rfl, rfl⟩ := hg
        exact ⟨h', rfl, e3.live_eq⟩
      · rw [if_neg hl] at hg ⊢
        have hfr := freeQueryResult_ok hg
        obtain ⟨a, k, v, K, V, rfl, rfl, hb, hk, hv⟩ := hg.ex
        have hflag : (!values.isEmpty) = decide (values ≠ []) := by cases values <;> rfl
        refine ⟨h', a, k, v, rfl, by rw [hb, hflag], hk.read, ?_, fun p b => e3.keep, _, hfr, ?_⟩
        · by_cases hve : values.isEmpty = true
          · rw [if_pos hve] at hv
            rw [hv.1, List.isEmpty_iff.mp hve]
            rfl
          · rw [if_neg hve] at hv
            exact hv.read
        · have := e3.drop (a :: (K ++ V)) (fun p hp => hp)
          rw [List.filter_eq_nil_iff.mpr (fun p hp => by rw [decide_eq_true_iff]; exact not_not.mpr hp)] at this
          exact this.live_eq
    · exact hs.elim
    · exact hs.elim
  · rcases hx : session mem api buckets threads q h with ⟨h', p | _ | _⟩ <;> rw [hd, hx] at hs <;> first | rfl | exact hs.elim
  · rcases hx : session mem api buckets threads q h with ⟨h', p | _ | _⟩ <;> rw [hd, hx] at hs <;> first | rfl | exact hs.elim

/-- C115: receivers and senders may be freed twice, since the caller's variable is set to a null pointer; a query context, whose
pointer comes by value, may not.  A null pointer to the variable is no matter for a receiver and throws for a sender. -/
theorem C115_handles {h : Heap (Obj R C S)} {a : Nat} {o : Obj R C S} (ha : h.live a = some (.object o)) :
    (∃ h' v, receiverFree (some (some a)) h = (h', .ok v) ∧ receiverFree v h' = (h', .ok v)) ∧
    (∃ h' v, senderFree (some (some a)) h = (h', .ok v) ∧ senderFree v h' = (h', .ok v)) ∧
    (∃ h', freeQueryCtx (some a) h = (h', .ok ()) ∧ (freeQueryCtx (some a) h').2 = .undefined) ∧
    receiverFree none h = (h, .ok none) ∧ senderFree none h = (h, .throws) := by
  have hd := delete_ok (p := a) (o := o) ha
  refine ⟨⟨h.drop [a], some none, ?_, rfl⟩, ⟨h.drop [a], some none, ?_, rfl⟩, ⟨h.drop [a], hd, ?_⟩, rfl, rfl⟩
  · rw [receiverFree, bind_ok hd]
    rfl
  · rw [senderFree, bind_ok hd]
    rfl
  · rw [freeQueryCtx, delete, show (h.drop [a]).live a = none by simp [Heap.drop]]

/-- C115: a C string without memory is the empty string if it says that it has no characters, so that loading parameters from it
does what loading from the empty string does; if it claims to have some, the call throws and changes nothing. -/
theorem C115_null_string (api : Api R C S) {h : Heap (Obj R C S)} {a : Nat} {r : R}
    (ha : h.live a = some (.object (.receiver r))) (n : Nat) :
    (n ≠ 0 → receiverLoadParams api (some a) ⟨none, n⟩ h = (h, .throws)) ∧
    (api.load r [] = .throws → receiverLoadParams api (some a) ⟨none, 0⟩ h = (h, .throws)) ∧
    ∀ r', api.load r [] = .ok r' → ∃ h', receiverLoadParams api (some a) ⟨none, 0⟩ h = (h', .ok ()) ∧
      h'.live a = some (.object (.receiver r')) ∧ ∀ p, p ≠ a → h'.live p = h.live p := by
  have hg : getReceiver (some a) h = (h, .ok r) := by
    simp only [getReceiver, Option.bind_some, ha]
  refine ⟨fun hn => ?_, fun he => ?_, fun r' he => ⟨h.put a (some (.object (.receiver r'))), ?_, ?_, ?_⟩⟩
  · change Prog.bind _ _ h = _
    simp [Prog.bind, makeString, hn]
  · change Prog.bind _ _ h = _
    simp only [Prog.bind]
    change Prog.bind _ _ h = _
    simp only [Prog.bind, hg]
    change Prog.bind _ _ h = _
    simp only [Prog.bind, lift, he]
  · change Prog.bind _ _ h = _
    simp only [Prog.bind]
    change Prog.bind _ _ h = _
    simp only [Prog.bind, hg]
    change Prog.bind _ _ h = _
    simp only [Prog.bind, lift, he]
    rfl
  · simp [Heap.put]
  · intro p hp
    simp [Heap.put, hp]

/-- A receiver, a number here, that counts the bytes it was given. -/
def countingApi : Api Nat Unit Unit :=
  { open_ := .ok ()
    make := fun _ _ => .ok 0
    params := fun s => .ok (s, [])
    load := fun r s => if s.length = 1 then .throws else .ok (r + s.length + 1)
    bucketize := fun _ _ => .ok ()
    reqOprf := fun _ c => .ok (c, [])
    runOprf := fun s _ => .ok (s, [])
    reqQuery := fun _ c _ => .ok (c, [])
    runQuery := fun s _ => .ok (s, [])
    result := fun _ c _ => .ok (c, ([], [])) }

example := C115_null_string countingApi (h := ⟨1, fun p => if p = 0 then some (.object (.receiver 5)) else none⟩) (a := 0) (r := 5)
  rfl 3

end

/-! ### Tables -/

section
variable {B : Type} {w : Psi.Apsi.World B}

open Psi.Apsi (World Server Config Table Sound Runs longest lookStr apiQuery Inv)

/-- C115: the flag of a result tells nothing about the table: on a table with labels it is set if and only if a key was found. -/
theorem C115_flag_partial {mem : Nat → Nat → Bool} (hm : ∀ i n, mem i n = true) {O : Type} {h : Heap O} (hh : h.Wf) (hw : Sound w)
    {c : Config} (hc : c.Fine) {t : Table} (ht : Psi.Apsi.Fine w c.buckets t) (hl : t.labeled = true)
    (draw : Nat → Nat) (newKey : Nat) {s : Server B} (hs : Runs w c t s) {queries : List Str}
    (hq : ∀ q ∈ queries, ∃ r ∈ t.rows, w.hash r.1 % c.buckets = w.hash q % c.buckets) (enc : Str → Bytes) :
    ∃ s' keys vals h' a r, apiQuery w draw newKey s queries = (s', .ok (keys, vals)) ∧
      makeQueryResult mem (keys.map enc) (vals.map enc) h = (h', .ok (some a)) ∧ h'.live a = some (.result r) ∧
      (r.labeled = some true ↔ ∃ k ∈ queries, k ∈ t.rows.map Prod.fst) := by
  obtain ⟨s', keys, vals, e1, -, -, e2, -, e3⟩ := Psi.Apsi.api_answers_partial hw hc ht draw newKey hs hq
  have hlen := (e3 hl).length_eq
  have hres := C115_result (O := O) hm hh (keys.map enc) (vals.map enc)
  rw [if_neg (by simp [hlen])] at hres
  obtain ⟨h', a, k, v, f1, f2, -⟩ := hres
  refine ⟨s', keys, vals, h', a, _, e1, f1, f2, ?_⟩
  have : vals = [] ↔ keys = [] := by
    rw [← List.length_eq_zero_iff, ← List.length_eq_zero_iff, hlen]
  simp only [Option.some.injEq, decide_eq_true_eq, ne_eq, List.map_eq_nil_iff, this]
  constructor
  · intro hk
    obtain ⟨x, r, rfl⟩ := List.exists_cons_of_ne_nil hk
    exact ⟨x, (e2 x).mp List.mem_cons_self⟩
  · rintro ⟨x, hx⟩ rfl
    exact List.not_mem_nil ((e2 x).mpr hx)

/-- C115: the file has a line for every key found and no other, each once, with the key's own label; the number returned is that of
the lines modulo `2 ^ 32`.  The first line has one `,value` for every key found in the first bucket that is gone through.  Only if
no queried key falls in a bucket without rows (`C115_file_empty_bucket`). -/
theorem C115_file_partial (hw : Sound w) {c : Config} (hc : c.Fine) {t : Table} (ht : Psi.Apsi.Fine w c.buckets t)
    (draw : Nat → Nat) (newKey : Nat) {s : Server B} (hs : Runs w c t s) {queries : List Str}
    (hq : ∀ q ∈ queries, ∃ r ∈ t.rows, w.hash r.1 % c.buckets = w.hash q % c.buckets)
    {b : Nat} (hb : (w.shuffle (queries.map fun q => w.hash q % c.buckets).dedup).head? = some b) (file : Option Str) :
    ∃ (s' : Server B) (found : List Str), found.Nodup ∧ (∀ k, k ∈ found ↔ k ∈ queries ∧ k ∈ t.rows.map Prod.fst) ∧
      fileQuery w draw newKey s queries file = (s', some ("key".toList ++ (if t.labeled then
          (found.filter fun k => w.hash k % c.buckets = b).flatMap (fun _ => ",value".toList) else []) ++ ['\n']
        ++ found.flatMap (fun k => k ++ (if t.labeled then ',' :: w.pad
          (longest (t.rows.filter fun r => w.hash r.1 % c.buckets = w.hash k % c.buckets)) ((lookStr k t.rows).getD []) else [])
          ++ ['\n'])), .ok (found.length % 2 ^ 32)) := by
  obtain ⟨K, hK⟩ := hs.inv hw hc ht
  obtain ⟨s', K', e1, -, -⟩ := fileQuery_eq hw hc ht draw newKey hK queries file
  have hne : ∀ x ∈ Psi.Apsi.ctxsOf w c.buckets queries, Psi.Apsi.bucketRows w c.buckets t x.1 ≠ [] := by
    intro x hx
    obtain ⟨q, hq', hh⟩ := (Psi.Apsi.ctxs_bucket hw).mp ⟨x, hx, rfl⟩
    obtain ⟨r, hr, he⟩ := hq q hq'
    have := Psi.Apsi.bucket_ne (w := w) (n := c.buckets) (t := t) (k := r.1) (List.mem_map.mpr ⟨r, hr, rfl⟩)
    have h2 : Psi.Apsi.home w c.buckets r.1 = x.1 := by rw [← hh]; exact he
    rwa [h2] at this
  refine ⟨s', Psi.Apsi.foundAll t (Psi.Apsi.ctxsOf w c.buckets queries), Psi.Apsi.foundAll_nodup hw _ _ _,
    fun k => Psi.Apsi.mem_foundAll hw, ?_⟩
  have hitem : ∀ x ∈ Psi.Apsi.ctxsOf w c.buckets queries, ∀ i ∈ x.2, Psi.Apsi.home w c.buckets i = x.1 :=
    fun x hx => Psi.Apsi.ctxs_item hx
  have hnd := Psi.Apsi.ctxs_nodup (n := c.buckets) hw queries
  have hb' : (Psi.Apsi.ctxsOf w c.buckets queries).head?.map Prod.fst = some b := by
    rw [Psi.Apsi.ctxsOf, List.head?_map, Option.map_map]
    change (w.shuffle (queries.map fun q => w.hash q % c.buckets).dedup).head?.map _ = _
    rw [hb]
    rfl
  rw [e1]
  rcases hctx : Psi.Apsi.ctxsOf w c.buckets queries with _ | ⟨x, xs⟩
  · rw [hctx] at hb'
    cases hb'
  · rw [hctx] at hb' hitem hnd hne
    have hxb : x.1 = b := Option.some.inj hb'
    obtain ⟨ns, f1, f2⟩ := toFile_new ht file hitem hne hnd
    rw [processToFile, f1]
    simp only [Res.bind]
    rw [accumulate_eq, f2, hxb]
    congr 4
    refine List.flatMap_congr fun k hk => ?_
    rw [Psi.Apsi.resultLine]
    by_cases hl : t.labeled = true
    · rw [if_pos hl, if_pos hl, Psi.Apsi.labelOf]
      have hid : Psi.Apsi.rowOf t.labeled = id := by
        funext r
        simp [Psi.Apsi.rowOf, hl]
      have hbr : Psi.Apsi.bucketRows w c.buckets t (Psi.Apsi.home w c.buckets k)
          = t.rows.filter fun r => w.hash r.1 % c.buckets = w.hash k % c.buckets := by
        rw [Psi.Apsi.bucketRows, hid, List.map_id]
        rfl
      have hlk : ∀ rows : List (Str × Str),
          lookStr k (rows.filter fun r => w.hash r.1 % c.buckets = w.hash k % c.buckets) = lookStr k rows := by
        intro rows
        induction rows with
        | nil => rfl
        | cons e r ih =>
          rw [List.filter_cons]
          by_cases he : e.1 = k
          · rw [if_pos (by rw [he]; simp), lookStr, lookStr, if_pos he, if_pos he]
          · by_cases hh : w.hash e.1 % c.buckets = w.hash k % c.buckets
            · rw [if_pos (decide_eq_true hh), lookStr, lookStr, if_neg he, if_neg he, ih]
            · rw [if_neg (by rw [decide_eq_true_iff]; exact hh), ih, lookStr, if_neg he]
      rw [hbr, hlk]
    · rw [if_neg hl, if_neg hl]

/-- C115, where it fails: one queried key whose bucket has no rows and the call throws, whatever else was asked. -/
theorem C115_file_empty_bucket (hw : Sound w) {c : Config} (hc : c.Fine) {t : Table} (ht : Psi.Apsi.Fine w c.buckets t)
    (draw : Nat → Nat) (newKey : Nat) {s : Server B} (hs : Runs w c t s) {queries : List Str} {q : Str} (hq : q ∈ queries)
    (he : ∀ r ∈ t.rows, w.hash r.1 % c.buckets ≠ w.hash q % c.buckets) (file : Option Str) :
    ∃ s' file', fileQuery w draw newKey s queries file = (s', file', .throws) := by
  obtain ⟨K, hK⟩ := hs.inv hw hc ht
  obtain ⟨s', K', e1, -, -⟩ := fileQuery_eq hw hc ht draw newKey hK queries file
  obtain ⟨x, hx, hx'⟩ := (Psi.Apsi.ctxs_bucket (n := c.buckets) hw).mpr ⟨q, hq, rfl⟩
  obtain ⟨f, e2⟩ := toFile_throws (w := w) (c := c) (t := t) (xs := Psi.Apsi.ctxsOf w c.buckets queries) file false ⟨x, hx, by
    rw [hx', Psi.Apsi.bucketRows, List.map_eq_nil_iff, List.filter_eq_nil_iff]
    intro r hr
    rw [decide_eq_true_iff]
    exact he r hr⟩
  refine ⟨s', f, ?_⟩
  rw [e1, processToFile, e2]
  rfl

/-- C115, where it fails: with labels the first line should be `key,value`, but if nothing was found in the first bucket that is
gone through it is `key`, above lines with a key and a value. -/
theorem C115_header_short (hw : Sound w) {c : Config} (hc : c.Fine) {t : Table} (ht : Psi.Apsi.Fine w c.buckets t)
    (hl : t.labeled = true) (draw : Nat → Nat) (newKey : Nat) {s : Server B} (hs : Runs w c t s) {queries : List Str}
    (hq : ∀ q ∈ queries, ∃ r ∈ t.rows, w.hash r.1 % c.buckets = w.hash q % c.buckets)
    {b : Nat} (hb : (w.shuffle (queries.map fun q => w.hash q % c.buckets).dedup).head? = some b)
    (hn : ∀ k ∈ queries, k ∈ t.rows.map Prod.fst → w.hash k % c.buckets ≠ b)
    {k : Str} (hk : k ∈ queries) (hkt : k ∈ t.rows.map Prod.fst) (file : Option Str) :
    ∃ s' pre value post n, fileQuery w draw newKey s queries file
      = (s', some ("key\n".toList ++ (pre ++ k ++ ',' :: value ++ '\n' :: post)), .ok n) := by
  obtain ⟨s', found, -, e2, e3⟩ := C115_file_partial hw hc ht draw newKey hs hq hb file
  have hf : (found.filter fun k => w.hash k % c.buckets = b) = [] := by
    rw [List.filter_eq_nil_iff]
    intro x hx
    rw [decide_eq_true_iff]
    exact hn x ((e2 x).mp hx).1 ((e2 x).mp hx).2
  obtain ⟨l1, l2, hll⟩ := List.append_of_mem ((e2 k).mpr ⟨hk, hkt⟩)
  rw [hf, if_pos hl, hll, List.flatMap_append, List.flatMap_cons, if_pos hl] at e3
  simp only [List.flatMap_nil, List.append_nil, List.append_assoc, List.cons_append, List.nil_append] at e3
  have aux : ∀ (A V P : Str) (n : Nat),
      fileQuery w draw newKey s queries file = (s', some ("key".toList ++ '\n' :: (A ++ (k ++ ',' :: (V ++ '\n' :: P)))), .ok n) →
      ∃ s' pre value post n, fileQuery w draw newKey s queries file
        = (s', some ("key\n".toList ++ (pre ++ k ++ ',' :: value ++ '\n' :: post)), .ok n) := by
    intro A V P n he
    refine ⟨s', A, V, P, n, he.trans ?_⟩
    simp only [List.append_assoc, List.cons_append]
    rfl
  exact aux _ _ _ _ e3

/-- C115: without queries the file is not touched: there is none if there was none before, and an old one stays. -/
theorem C115_file_no_queries (hw : Sound w) {c : Config} (hc : c.Fine) {t : Table} (ht : Psi.Apsi.Fine w c.buckets t)
    (draw : Nat → Nat) (newKey : Nat) {s : Server B} (hs : Runs w c t s) (file : Option Str) :
    ∃ s', fileQuery w draw newKey s [] file = (s', file, .ok 0) := by
  obtain ⟨K, hK⟩ := hs.inv hw hc ht
  obtain ⟨s', K', e1, -, -⟩ := fileQuery_eq hw hc ht draw newKey hK [] file
  have hctx : Psi.Apsi.ctxsOf w c.buckets [] = [] := by
    rw [Psi.Apsi.ctxsOf]
    have := hw.perm ([] : List Nat)
    rw [List.map_nil, List.dedup_nil, List.perm_nil.mp this, List.map_nil]
  refine ⟨s', ?_⟩
  rw [e1, hctx]
  rfl

end

end Psi.Capi
