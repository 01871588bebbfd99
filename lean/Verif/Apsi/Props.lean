import Verif.Apsi.RefuseLemmas

/-!
# C95-C99: keyword PIR with buckets

`Fine w n t`: a table with rows, every key once, no quotes and line ends, and (with labels) no bucket whose labels are all
empty.  `Sound w`: a saved database is loaded again, and an `unordered_map` is gone through in some order.
-/

namespace Psi.Apsi

open Psi.Spiral (Res mapRes)
open Psi.DkPir (Str)

section
variable {B : Type} {w : World B}

/-- Senders of the API: started on a directory, then any number of queries with any draws. -/
inductive Runs (w : World B) (c : Config) (t : Table) : Server B → Prop
  | started {draw : Nat → Nat} {procs : Nat} {d d' : Disk B} {s : Status} (hp : 0 < procs) (hd : Resumable w c t d)
      (h : start w draw procs c (some t) d = (d', .ok s)) : Runs w c t (Server.of s.config d')
  | queried {draw : Nat → Nat} {newKey : Nat} {s s' : Server B} {qs : List Str} {r : Res (List Str × List Str)}
      (hs : Runs w c t s) (h : apiQuery w draw newKey s qs = (s', r)) : Runs w c t s'

theorem Runs.inv (hw : Sound w) {c : Config} (hc : c.Fine) {t : Table} (ht : Fine w c.buckets t) {s : Server B}
    (h : Runs w c t s) : ∃ K, Inv w c t s K := by
  induction h with
  | started hp hd h =>
    obtain ⟨d', s', K, e1, -, -, e4, -, e6, e7, -⟩ := start_ok hw hc ht _ hp hd
    rw [h] at e1
    obtain ⟨rfl, e1'⟩ := Prod.mk.inj e1
    obtain rfl := Res.ok.inj e1'
    exact ⟨K, inv_of e4 e6 e7⟩
  | queried hs h ih =>
    obtain ⟨K, hK⟩ := ih
    obtain ⟨s', K', e1, e2, -⟩ := apiQuery_eq hw hc ht _ _ hK _
    rw [h] at e1
    obtain ⟨rfl, -⟩ := Prod.mk.inj e1
    exact ⟨K', e2⟩

/-! ### C95 -/

/-- C95: on an empty directory the start succeeds. -/
theorem start_fresh (hw : Sound w) {c : Config} (hc : c.Fine) {t : Table} (ht : Fine w c.buckets t) (draw : Nat → Nat)
    {procs : Nat} (hp : 0 < procs) :
    ∃ d s, start w draw procs c (some t) (Disk.fresh : Disk B) = (d, .ok s) ∧ s.state = .generated ∧
      Runs w c t (Server.of s.config d) := by
  have hd : Resumable w c t (Disk.fresh : Disk B) :=
    ⟨⟨fun _ => none, fun _ _ => ⟨fun _ => .inl rfl, fun _ h => by cases h⟩⟩, fun _ _ _ => rfl⟩
  obtain ⟨d', s', K, e1, e2, -⟩ := start_ok hw hc ht draw hp hd
  exact ⟨d', s', e1, e2, .started hp hd e1⟩

/-- C95: the keys found are those queried that are in the table, each once; with labels every one has its own label, filled
up to the longest of its bucket.  Only if no queried key falls in a bucket without rows (`api_empty_bucket`). -/
theorem api_answers_partial (hw : Sound w) {c : Config} (hc : c.Fine) {t : Table} (ht : Fine w c.buckets t)
    (draw : Nat → Nat) (newKey : Nat) {s : Server B} (hs : Runs w c t s) {queries : List Str}
    (hq : ∀ q ∈ queries, ∃ r ∈ t.rows, w.hash r.1 % c.buckets = w.hash q % c.buckets) :
    ∃ s' keys vals, apiQuery w draw newKey s queries = (s', .ok (keys, vals)) ∧ Runs w c t s' ∧ keys.Nodup ∧
      (∀ k, k ∈ keys ↔ k ∈ queries ∧ k ∈ t.rows.map Prod.fst) ∧
      (t.labeled = false → vals = []) ∧
      (t.labeled = true → List.Forall₂ (fun k v => ∃ l, (k, l) ∈ t.rows ∧
        v = w.pad (longest (t.rows.filter fun r => w.hash r.1 % c.buckets = w.hash k % c.buckets)) l) keys vals) := by
  obtain ⟨K, hK⟩ := hs.inv hw hc ht
  obtain ⟨s', K', e1, -, -⟩ := apiQuery_eq hw hc ht draw newKey hK queries
  have hb : ∀ x ∈ ctxsOf w c.buckets queries, bucketRows w c.buckets t x.1 ≠ [] := by
    intro x hx
    obtain ⟨q, hq', hh⟩ := (ctxs_bucket hw).mp ⟨x, hx, rfl⟩
    obtain ⟨r, hr, he⟩ := hq q hq'
    have := bucket_ne (w := w) (n := c.buckets) (t := t) (k := r.1) (List.mem_map.mpr ⟨r, hr, rfl⟩)
    have h2 : home w c.buckets r.1 = x.1 := by rw [← hh]; exact he
    rwa [h2] at this
  rw [processResult_ok ht (fun x hx => ctxs_item hx) hb] at e1
  refine ⟨s', _, _, e1, .queried hs e1, foundAll_nodup hw _ _ _, fun k => mem_foundAll hw, ?_, ?_⟩
  · intro hl
    rw [hl]
    simp
  · intro hl
    rw [hl, if_pos rfl]
    have : ∀ l : List Str, (∀ k ∈ l, inTable t k) →
        List.Forall₂ (fun k v => ∃ l, (k, l) ∈ t.rows ∧
          v = w.pad (longest (t.rows.filter fun r => w.hash r.1 % c.buckets = w.hash k % c.buckets)) l) l
          (l.map (labelOf w c.buckets t)) := by
      intro l
      induction l with
      | nil => exact fun _ => .nil
      | cons k r ih =>
        intro h
        refine .cons ?_ (ih fun x hx => h x (List.mem_cons_of_mem _ hx))
        have hm := (bucket_mem (w := w) (n := c.buckets)).mpr (h k List.mem_cons_self)
        have hs : lookStr k (bucketRows w c.buckets t (home w c.buckets k)) ≠ none := by
          rw [ne_eq, lookStr_none, not_not]
          exact hm
        obtain ⟨l, hl'⟩ := Option.ne_none_iff_exists'.mp hs
        have hbr : bucketRows w c.buckets t (home w c.buckets k)
            = t.rows.filter fun r => w.hash r.1 % c.buckets = w.hash k % c.buckets := by
          have hid : rowOf t.labeled = id := by
            funext r
            simp [rowOf, hl]
          rw [bucketRows, hid, List.map_id]
          rfl
        refine ⟨l, ?_, ?_⟩
        · have := lookStr_mem hl'
          rw [hbr] at this
          exact (List.mem_filter.mp this).1
        · rw [labelOf, hl', ← hbr]
          rfl
    exact this _ (fun k hk => ((mem_foundAll hw).mp hk).2)

/-- C95, where it fails: one queried key whose bucket has no rows and the whole query throws, whatever else was asked. -/
theorem api_empty_bucket (hw : Sound w) {c : Config} (hc : c.Fine) {t : Table} (ht : Fine w c.buckets t)
    (draw : Nat → Nat) (newKey : Nat) {s : Server B} (hs : Runs w c t s) {queries : List Str} {q : Str} (hq : q ∈ queries)
    (he : ∀ r ∈ t.rows, w.hash r.1 % c.buckets ≠ w.hash q % c.buckets) :
    ∃ s', apiQuery w draw newKey s queries = (s', .throws) := by
  obtain ⟨K, hK⟩ := hs.inv hw hc ht
  obtain ⟨s', K', e1, -, -⟩ := apiQuery_eq hw hc ht draw newKey hK queries
  obtain ⟨x, hx, hx'⟩ := (ctxs_bucket (n := c.buckets) hw).mpr ⟨q, hq, rfl⟩
  refine ⟨s', ?_⟩
  rw [e1, processResult_throws]
  refine ⟨x, hx, ?_⟩
  rw [hx', bucketRows, List.map_eq_nil_iff, List.filter_eq_nil_iff]
  intro r hr
  rw [decide_eq_true_iff]
  exact he r hr

/-! ### C96 -/

/-- Dispatchers of the command line: made after the start, then any number of requests of receivers. -/
inductive Listens (w : World B) (c : Config) (t : Table) : Dispatcher B → Prop
  | made {draw draw' : Nat → Nat} {procs : Nat} {d d' : Disk B} {s : Status} {x : Dispatcher B} (hp : 0 < procs)
      (hd : Resumable w c t d) (h : start w draw procs c (some t) d = (d', .ok s))
      (hx : makeDispatcher w draw' (Server.of s.config d') (List.range c.buckets) = .ok x) : Listens w c t x
  | asked {draw : Nat → Nat} {newKey : Nat} {x x' : Dispatcher B} {r : Request} {a : Res Reply} (hx : Listens w c t x)
      (h : dispatch w draw newKey x r = (x', a)) : Listens w c t x'

theorem Listens.inv (hw : Sound w) {c : Config} (hc : c.Fine) {t : Table} (ht : Fine w c.buckets t) {x : Dispatcher B}
    (h : Listens w c t x) : ∃ K, Inv w c t x.server K := by
  induction h with
  | made hp hd h hx =>
    obtain ⟨d', s', K, e1, -, -, e4, -, e6, e7, -⟩ := start_ok hw hc ht _ hp hd
    rw [h] at e1
    obtain ⟨rfl, e1'⟩ := Prod.mk.inj e1
    obtain rfl := Res.ok.inj e1'
    obtain ⟨y, K', f1, f2, -⟩ := makeDispatcher_ok hw hc ht _ _ _ _ (inv_of e4 e6 e7)
      (fun b hb => List.mem_range.mp hb) (some_bucket hc ht)
    rw [hx] at f1
    obtain rfl := Res.ok.inj f1
    exact ⟨K', f2⟩
  | asked _ h ih =>
    obtain ⟨K, hK⟩ := ih
    obtain ⟨s', K', a, e1, e2, -⟩ := dispatch_inv hw hc ht _ _ hK _
    rw [h] at e1
    obtain ⟨rfl, -⟩ := Prod.mk.inj e1
    exact ⟨K', e2⟩

/-- C96: the dispatcher can be made. -/
theorem listens_fresh (hw : Sound w) {c : Config} (hc : c.Fine) {t : Table} (ht : Fine w c.buckets t)
    (draw draw' : Nat → Nat) {procs : Nat} (hp : 0 < procs) :
    ∃ d s x, start w draw procs c (some t) (Disk.fresh : Disk B) = (d, .ok s) ∧
      makeDispatcher w draw' (Server.of s.config d) (List.range c.buckets) = .ok x ∧ Listens w c t x := by
  obtain ⟨d, s, e1, -, hr⟩ := start_fresh hw hc ht draw hp
  obtain ⟨K, hK⟩ := hr.inv hw hc ht
  obtain ⟨x, K', f1, -⟩ := makeDispatcher_ok hw hc ht draw' (List.range c.buckets) _ K hK
    (fun b hb => List.mem_range.mp hb) (some_bucket hc ht)
  exact ⟨d, s, x, e1, f1, .made hp
    ⟨⟨fun _ => none, fun _ _ => ⟨fun _ => .inl rfl, fun _ h => by cases h⟩⟩, fun _ _ _ => rfl⟩ e1 f1⟩

/-- C96: below its first line the result file has a line for every key queried that is in the table and no other, with the
key's own label; the number reported is that of the lines. -/
theorem cli_lines (hw : Sound w) {c : Config} (hc : c.Fine) {t : Table} (ht : Fine w c.buckets t) (draw : Nat → Nat)
    (newKey : Nat) {x : Dispatcher B} (hx : Listens w c t x) {queries : List Str} (hq : queries ≠ []) (hn : queries.Nodup) :
    ∃ (x' : Dispatcher B) (header : Str) (found : List Str), '\n' ∉ header ∧ found.Perm (queries.filter fun k => k ∈ t.rows.map Prod.fst) ∧
      cliQuery w draw newKey x c.buckets queries = (x', .ok (header ++ ['\n'] ++ found.flatMap (fun k =>
        k ++ (if t.labeled then ',' :: w.pad
          (longest (t.rows.filter fun r => w.hash r.1 % c.buckets = w.hash k % c.buckets)) ((lookStr k t.rows).getD []) else [])
          ++ ['\n']), found.length)) := by
  obtain ⟨K, hK⟩ := hx.inv hw hc ht
  obtain ⟨x', K', e1, -, -⟩ := cliQuery_ok hw hc ht draw newKey hK hq hn
  have hcol : ∀ m, '\n' ∉ columns m := by
    intro m
    induction m with
    | zero => decide
    | succ m ih =>
      rw [columns, List.mem_append, not_or]
      exact ⟨ih, by decide⟩
  refine ⟨x', columns (if t.labeled then firstBucket w c.buckets (foundAll t (ctxsOf w c.buckets queries)) else 0),
    foundAll t (ctxsOf w c.buckets queries), hcol _, ?_, ?_⟩
  · rw [List.perm_ext_iff_of_nodup (foundAll_nodup hw _ _ _) (hn.filter _)]
    intro k
    rw [mem_foundAll hw, List.mem_filter, decide_eq_true_iff]
    rfl
  · rw [e1]
    congr 4
    refine List.flatMap_congr fun k hk => ?_
    rw [resultLine]
    by_cases hl : t.labeled = true
    · rw [if_pos hl, if_pos hl, labelOf]
      have hid : rowOf t.labeled = id := by
        funext r
        simp [rowOf, hl]
      have hbr : bucketRows w c.buckets t (home w c.buckets k)
          = t.rows.filter fun r => w.hash r.1 % c.buckets = w.hash k % c.buckets := by
        rw [bucketRows, hid, List.map_id]
        rfl
      have hlk : ∀ rows : List (Str × Str),
          lookStr k (rows.filter fun r => w.hash r.1 % c.buckets = w.hash k % c.buckets) = lookStr k rows := by
        intro rows
        induction rows with
        | nil => rfl
        | cons e r ih =>
          rw [List.filter_cons]
          by_cases he : e.1 = k
          · rw [if_pos (by rw [he]; simp), lookStr, lookStr, if_pos he, if_pos he]
          · by_cases hh : w.hash e.1 % c.buckets = w.hash k % c.buckets
            · rw [if_pos (decide_eq_true hh), lookStr, lookStr, if_neg he, if_neg he, ih]
            · rw [if_neg (by rw [decide_eq_true_iff]; exact hh), ih, lookStr, if_neg he]
      rw [hbr, hlk]
    · rw [if_neg hl, if_neg hl]

/-! ### C97 -/

/-- C97: the first line of the result file is `key`, followed by one `,value` for every key found in the bucket of the first
key found. -/
theorem cli_header (hw : Sound w) {c : Config} (hc : c.Fine) {t : Table} (ht : Fine w c.buckets t) (draw : Nat → Nat)
    (newKey : Nat) {x : Dispatcher B} (hx : Listens w c t x) {queries : List Str} (hq : queries ≠ []) (hn : queries.Nodup) :
    ∃ (x' : Dispatcher B) (found : List Str) (rest : Str), found.Perm (queries.filter fun k => k ∈ t.rows.map Prod.fst) ∧
      cliQuery w draw newKey x c.buckets queries = (x', .ok ("key".toList ++ (if t.labeled then
        (found.filter fun k => some (w.hash k % c.buckets) = found.head?.map fun f => w.hash f % c.buckets).flatMap
          (fun _ => ",value".toList) else []) ++ ['\n'] ++ rest, found.length)) := by
  obtain ⟨K, hK⟩ := hx.inv hw hc ht
  obtain ⟨x', K', e1, -, -⟩ := cliQuery_ok hw hc ht draw newKey hK hq hn
  have hcol : ∀ l : List Str, columns l.length = "key".toList ++ l.flatMap fun _ => ",value".toList := by
    intro l
    have hrep : ∀ m, (List.replicate (m + 1) ",value".toList).flatten = (List.replicate m ",value".toList).flatten ++ ",value".toList := by
      intro m
      rw [List.replicate_succ', List.flatten_append]
      rfl
    have hnum : ∀ m, columns m = "key".toList ++ (List.replicate m ",value".toList).flatten := by
      intro m
      induction m with
      | zero => rfl
      | succ m ih => rw [columns, ih, hrep, List.append_assoc]
    rw [hnum, List.flatMap_def, List.map_const']
  refine ⟨x', foundAll t (ctxsOf w c.buckets queries),
    (foundAll t (ctxsOf w c.buckets queries)).flatMap (resultLine w c.buckets t), ?_, ?_⟩
  · rw [List.perm_ext_iff_of_nodup (foundAll_nodup hw _ _ _) (hn.filter _)]
    intro k
    rw [mem_foundAll hw, List.mem_filter, decide_eq_true_iff]
    rfl
  · rw [e1]
    congr 5
    by_cases hl : t.labeled = true
    · rw [if_pos hl, if_pos hl, ← hcol]
      congr 1
      cases foundAll t (ctxsOf w c.buckets queries) with
      | nil => rfl
      | cons k r =>
        rw [firstBucket]
        simp only [List.head?_cons, Option.map_some, Option.some.injEq]
        rfl
    · rw [if_neg hl, if_neg hl]
      rfl

/-- C97: without labels the first line is `key`; with labels it is `key,value` if something was found and no two keys found
share a bucket. -/
theorem cli_header_partial (hw : Sound w) {c : Config} (hc : c.Fine) {t : Table} (ht : Fine w c.buckets t) (draw : Nat → Nat)
    (newKey : Nat) {x : Dispatcher B} (hx : Listens w c t x) {queries : List Str} (hn : queries.Nodup)
    (hf : ∃ k ∈ queries, k ∈ t.rows.map Prod.fst)
    (hd : t.labeled → ∀ a ∈ queries, ∀ b ∈ queries, a ∈ t.rows.map Prod.fst → b ∈ t.rows.map Prod.fst →
      w.hash a % c.buckets = w.hash b % c.buckets → a = b) :
    ∃ x' rest m, cliQuery w draw newKey x c.buckets queries
      = (x', .ok ((if t.labeled then "key,value".toList else "key".toList) ++ ['\n'] ++ rest, m)) := by
  obtain ⟨k, hk, hkt⟩ := hf
  obtain ⟨x', found, rest, hp, e⟩ := cli_header hw hc ht draw newKey hx (List.ne_nil_of_mem hk) hn
  refine ⟨x', rest, found.length, ?_⟩
  rw [e]
  congr 5
  by_cases hl : t.labeled = true
  · rw [if_pos hl, if_pos hl]
    cases hfd : found with
    | nil =>
      have : k ∈ found := hp.mem_iff.mpr (List.mem_filter.mpr ⟨hk, decide_eq_true hkt⟩)
      rw [hfd] at this
      cases this
    | cons f r =>
      have hnd : (f :: r).Nodup := hfd ▸ (hp.nodup_iff.mpr (hn.filter _))
      have hall : ∀ y ∈ f :: r, y ∈ queries ∧ y ∈ t.rows.map Prod.fst := by
        intro y hy
        rw [← hfd, hp.mem_iff, List.mem_filter, decide_eq_true_iff] at hy
        exact hy
      have : (f :: r).filter (fun k => some (w.hash k % c.buckets) = (f :: r).head?.map fun f => w.hash f % c.buckets) = [f] := by
        rw [List.filter_cons_of_pos (by simp), List.filter_eq_nil_iff.mpr]
        intro y hy
        simp only [List.head?_cons, Option.map_some, Option.some.injEq, decide_eq_true_eq]
        intro hh
        have h1 := hall y (List.mem_cons_of_mem _ hy)
        have h2 := hall f List.mem_cons_self
        have := hd hl y h1.1 f h2.1 h1.2 h2.2 hh
        rw [this] at hy
        exact (List.nodup_cons.mp hnd).1 hy
      rw [this]
      rfl
  · rw [if_neg hl, if_neg hl]
    rfl

/-! ### C98 -/

/-- C98: a query is answered from its own bucket, with whatever requests for other buckets come between it and its OPRF
request, whoever sends them. -/
theorem requests_independent (hw : Sound w) {c : Config} (hc : c.Fine) {t : Table} (ht : Fine w c.buckets t)
    {draw draw1 draw2 : Nat → Nat} {newKey newKey1 newKey2 : Nat} {x x1 x2 : Dispatcher B} (hx : Listens w c t x) {b k : Nat}
    (hb : b < c.buckets) {items : List Str} (hi : ∀ i ∈ items, w.hash i % c.buckets = b)
    (h1 : dispatch w draw newKey x (.oprf b items) = (x1, .ok (.oprf k)))
    {rs : List Request} {r : Res (List Reply)} (h2 : dispatchAll w draw1 newKey1 x1 rs = (x2, r)) :
    ∃ x3 ms, dispatch w draw2 newKey2 x2 (.query b k items) = (x3, .ok (.records ms)) ∧ ms.length = items.length ∧
      ∀ j (hj : j < items.length), (ms[j]?.map fun m => m.found)
        = some (decide (items[j] ∈ t.rows.map Prod.fst ∧ items[j] ∉ items.drop (j + 1))) := by
  obtain ⟨K, hK⟩ := hx.inv hw hc ht
  obtain ⟨y1, K1, k', e1, e2, e3, e4, -⟩ := dispatch_oprf hw hc ht draw newKey hK (x := (b, items)) hb
  rw [h1] at e1
  obtain ⟨rfl, e1'⟩ := Prod.mk.inj e1
  have hk : k = k' := by
    have := Res.ok.inj e1'
    by_cases hi0 : items = []
    · rw [if_pos hi0] at this
      cases this
    · rw [if_neg hi0] at this
      exact Reply.oprf.inj this
  subst hk
  obtain ⟨y2, K2, as, f1, -, f2, f3, -⟩ := dispatchAll_inv hw hc ht draw1 newKey1 rs x1 K1 e2
  rw [h2] at f1
  obtain ⟨rfl, -⟩ := Prod.mk.inj f1
  obtain ⟨x3, K3, ms, g1, -, -, g4, -⟩ := dispatch_query hw hc ht draw2 newKey2 f2 (x := (b, items)) hb k
  obtain rfl := g4 (e4.mono f3)
  refine ⟨x3, _, g1, ?_, ?_⟩
  · clear g1 hi e4 g4 h1 e1 e1'
    induction items with
    | nil => rfl
    | cons i r ih =>
      rw [recs, records, List.length_cons, List.length_cons]
      exact congrArg (· + 1) ih
  · clear g1 e4 g4 h1 e1 e1'
    induction items with
    | nil => intro j hj; simp at hj
    | cons i r ih =>
      intro j hj
      rw [recs_cons ht (hi i List.mem_cons_self)]
      cases j with
      | zero =>
        simp only [List.getElem?_cons_zero, Option.map_some, List.getElem_cons_zero, List.drop_succ_cons, List.drop_zero]
        by_cases hm : inTable t i ∧ i ∉ r
        · rw [if_pos hm]
          exact congrArg some (decide_eq_true hm).symm
        · rw [if_neg hm]
          exact congrArg some (decide_eq_false hm).symm
      | succ j =>
        simp only [List.getElem?_cons_succ, List.getElem_cons_succ, List.drop_succ_cons]
        exact ih (fun y hy => hi y (List.mem_cons_of_mem _ hy)) j (by simpa using hj)

/-- C98: requests for parameters are answered as long as no bucket without rows was asked for. -/
theorem params_answered_partial (hw : Sound w) {c : Config} (hc : c.Fine) {t : Table} (ht : Fine w c.buckets t)
    {draw draw' draw1 draw2 : Nat → Nat} {procs newKey1 newKey2 : Nat} (hp : 0 < procs) {d' : Disk B} {s : Status}
    (hs : start w draw procs c (some t) (Disk.fresh : Disk B) = (d', .ok s)) {x : Dispatcher B}
    (hx : makeDispatcher w draw' (Server.of s.config d') (List.range c.buckets) = .ok x) {rs : List Request}
    (hr : ∀ r ∈ rs, ∀ b, r.bucket = some b → ∃ e ∈ t.rows, w.hash e.1 % c.buckets = b) :
    ∃ x' as, dispatchAll w draw1 newKey1 x rs = (x', .ok as) ∧
      dispatch w draw2 newKey2 x' .params = (x', .ok .params) := by
  obtain ⟨d'', s'', e1, -, hrun⟩ := start_fresh hw hc ht draw hp
  rw [hs] at e1
  obtain ⟨rfl, e1'⟩ := Prod.mk.inj e1
  obtain rfl := Res.ok.inj e1'
  obtain ⟨K, hK⟩ := hrun.inv hw hc ht
  obtain ⟨y, K', f1, f2, -, f4⟩ := makeDispatcher_ok hw hc ht draw' (List.range c.buckets) _ K hK
    (fun b hb => List.mem_range.mp hb) (some_bucket hc ht)
  rw [hx] at f1
  obtain rfl := Res.ok.inj f1
  obtain ⟨x', K2, as, g1, -, -, -, g5⟩ := dispatchAll_inv hw hc ht draw1 newKey1 rs x K' f2
  refine ⟨x', as, g1, ?_⟩
  rw [dispatch, if_neg]
  intro hcur
  rcases g5 hcur with ⟨r, hr', b, hb1, -, hb3⟩ | h0
  · obtain ⟨e, he, hh⟩ := hr r hr' b hb1
    have := bucket_ne (w := w) (n := c.buckets) (t := t) (k := e.1) (List.mem_map.mpr ⟨e, he, rfl⟩)
    rw [show home w c.buckets e.1 = b from hh] at this
    exact this hb3
  · exact f4 h0

/-- C98, where it fails: after a request for a bucket without rows parameter requests are not answered. -/
theorem params_lost (hw : Sound w) {c : Config} (hc : c.Fine) {t : Table} (ht : Fine w c.buckets t) {draw : Nat → Nat}
    {newKey : Nat} {x : Dispatcher B} (hx : Listens w c t x) {b : Nat} (hb : b < c.buckets)
    (he : ∀ r ∈ t.rows, w.hash r.1 % c.buckets ≠ b) (items : List Str) :
    ∃ x' a, dispatch w draw newKey x (.oprf b items) = (x', .ok a) ∧
      dispatch w draw newKey x' .params = (x', .ok .none) := by
  obtain ⟨K, hK⟩ := hx.inv hw hc ht
  obtain ⟨x1, K1, k, e1, -, -, -, e5⟩ := dispatch_oprf hw hc ht draw newKey hK (x := (b, items)) hb
  refine ⟨x1, _, e1, ?_⟩
  rw [dispatch, if_pos (e5.mpr ?_)]
  rw [bucketRows, List.map_eq_nil_iff, List.filter_eq_nil_iff]
  intro r hr
  rw [decide_eq_true_iff]
  exact he r hr

/-! ### C99 -/

/-- C99: a start that was stopped after any number of groups is taken up again: the directory it leaves is one from which
`Runs.started` and `Listens.made` begin. -/
theorem resumed_partial (hw : Sound w) {c : Config} (hc : c.Fine) {t : Table} (ht : Fine w c.buckets t)
    (draw draw' : Nat → Nat) {procs : Nat} (hp : 0 < procs) {d1 : Disk B} {s1 : Status}
    (h1 : divideGroup w ⟨dbVersion, c, .empty⟩ (some t) { (Disk.fresh : Disk B) with status := some ⟨dbVersion, c, .empty⟩ }
      = (d1, .ok s1)) {gs : List Nat} (hg : ∀ g ∈ gs, g < c.groups) {d2 : Disk B} {r : Res Unit}
    (h2 : child w draw c d1 gs = (d2, r)) :
    ∃ d s, start w draw' procs c (some t) d2 = (d, .ok s) ∧ Runs w c t (Server.of s.config d) := by
  have hd0 : GroupsOk w c t ({ (Disk.fresh : Disk B) with status := some ⟨dbVersion, c, .empty⟩ } : Disk B) (fun _ => none) :=
    fun _ _ => ⟨fun _ => .inl rfl, fun _ h => by cases h⟩
  obtain ⟨f, e1, e2⟩ := groupBucketize_ok (w := w) (old := fun _ => none) hc.buckets hc.small hc.groups ht.rows (fun _ _ _ => rfl)
  have hdiv : divideGroup w ⟨dbVersion, c, .empty⟩ (some t)
      ({ (Disk.fresh : Disk B) with status := some ⟨dbVersion, c, .empty⟩ } : Disk B)
      = (⟨some ⟨dbVersion, c, .bucketed⟩, f, fun _ => ⟨none, none⟩⟩, .ok ⟨dbVersion, c, .bucketed⟩) := by
    rw [divideGroup, if_neg (by simp)]
    change (match groupBucketize w c.buckets c.groups t (fun _ => none) with
      | (f, .ok _) => ((⟨some ⟨dbVersion, c, .bucketed⟩, f, fun _ => ⟨none, none⟩⟩ : Disk B),
          (.ok ⟨dbVersion, c, .bucketed⟩ : Res Status))
      | (f, .throws) => (⟨some ⟨dbVersion, c, .empty⟩, f, fun _ => ⟨none, none⟩⟩, .throws)
      | (f, .undefined) => (⟨some ⟨dbVersion, c, .empty⟩, f, fun _ => ⟨none, none⟩⟩, .undefined)) = _
    rw [e1]
  rw [hdiv] at h1
  obtain ⟨rfl, h1⟩ := Prod.mk.inj h1
  have hK1 : GroupsOk w c t (⟨some ⟨dbVersion, c, .bucketed⟩, f, fun _ => ⟨none, none⟩⟩ : Disk B) (fun _ => none) :=
    fun _ _ => ⟨fun _ => .inl rfl, fun _ h => by cases h⟩
  obtain ⟨d', K', f1, f2, f3, -, -, f6⟩ := child_ok hw hc ht draw gs
    (⟨some ⟨dbVersion, c, .bucketed⟩, f, fun _ => ⟨none, none⟩⟩ : Disk B) _ e2 hK1 hg
  rw [h2] at f1
  obtain ⟨rfl, -⟩ := Prod.mk.inj f1
  have hres : Resumable w c t d2 := by
    refine ⟨⟨K', f3⟩, ?_⟩
    rw [f6]
    exact ⟨rfl, ⟨rfl, rfl, rfl, rfl⟩, fun h => (by cases h), fun _ => f2⟩
  obtain ⟨d, s, K, g1, -⟩ := start_ok hw hc ht draw' hp hres
  exact ⟨d, s, g1, .started hp hres g1⟩

/-- C99: whatever was in the directory and whatever the source: a start that succeeds leaves a directory which the constructor
without settings opens, with the settings asked for and the database made. -/
theorem reopen {draw : Nat → Nat} {procs : Nat} {c : Config} {src : Option Table} {d d' : Disk B} {s : Status}
    (h : start w draw procs c src d = (d', .ok s)) :
    openOld d' = .ok s ∧ s.state = .generated ∧ s.config.groups = c.groups ∧ s.config.buckets = c.buckets ∧
      s.config.nonce = c.nonce ∧ s.config.params = c.params := by
  obtain ⟨d1, s1, ho, hv, hc1, hst⟩ : ∃ d1 s1, openNew c d = (d1, .ok s1) ∧ s1.version = dbVersion ∧
      SameConfig s1.config c ∧ d1.status = some s1 := by
    rw [start] at h
    cases ho : openNew c d with
    | mk d1 r =>
      rw [ho] at h
      cases r with
      | throws => cases h
      | undefined => cases h
      | ok s1 =>
        refine ⟨d1, s1, rfl, ?_⟩
        rw [openNew] at ho
        cases hd : d.status with
        | none =>
          rw [hd] at ho
          obtain ⟨rfl, h2⟩ := Prod.mk.inj ho
          obtain rfl := Res.ok.inj h2
          exact ⟨rfl, ⟨rfl, rfl, rfl, rfl⟩, rfl⟩
        | some s0 =>
          rw [hd] at ho
          dsimp only at ho
          split_ifs at ho with hh
          · obtain ⟨rfl, h2⟩ := Prod.mk.inj ho
            obtain rfl := Res.ok.inj h2
            exact ⟨hh.1, hh.2, hd⟩
          · cases (Prod.mk.inj ho).2
  rw [start, ho] at h
  dsimp only at h
  split_ifs at h with hg
  · obtain ⟨rfl, h2⟩ := Prod.mk.inj h
    obtain rfl := Res.ok.inj h2
    refine ⟨?_, hg, hc1⟩
    rw [openOld, hst]
    exact if_pos hv
  · rw [generateAll] at h
    cases hdv : divideGroup w s1 src d1 with
    | mk d2 r =>
      rw [hdv] at h
      cases r with
      | throws => cases h
      | undefined => cases h
      | ok s2 =>
        have hs2 : s2.version = s1.version ∧ s2.config = s1.config := by
          unfold divideGroup at hdv
          split_ifs at hdv
          · obtain rfl := Res.ok.inj (Prod.mk.inj hdv).2
            exact ⟨rfl, rfl⟩
          · cases src with
            | none => cases hdv
            | some t =>
              dsimp only at hdv
              split at hdv
              · obtain rfl := Res.ok.inj (Prod.mk.inj hdv).2
                exact ⟨rfl, rfl⟩
              · cases hdv
              · cases hdv
        dsimp only at h
        split at h
        · obtain ⟨rfl, h2⟩ := Prod.mk.inj h
          obtain rfl := Res.ok.inj h2
          refine ⟨?_, rfl, ?_⟩
          · rw [openOld]
            exact if_pos (hs2.1.trans hv)
          · change SameConfig s2.config c
            rw [hs2.2]
            exact hc1
        · cases h
        · cases h

/-- C99: the constructor without settings never makes a directory: it refuses one without a status file, and one of another
version. -/
theorem reopen_refuses (d : Disk B) (h : ∀ s, d.status = some s → s.version ≠ dbVersion) : openOld d = .throws := by
  rw [openOld]
  cases hd : d.status with
  | none => rfl
  | some s => exact if_neg (h s hd)

/-- C99: a second start on a finished directory changes nothing and serves the table it was made from. -/
theorem restart (hw : Sound w) {c : Config} (hc : c.Fine) {t : Table} (ht : Fine w c.buckets t) (draw draw' : Nat → Nat)
    {procs procs' : Nat} (hp : 0 < procs) {d : Disk B} {s : Status}
    (h : start w draw procs c (some t) (Disk.fresh : Disk B) = (d, .ok s)) (src : Option Table) (compress : Bool) :
    start w draw' procs' { c with compress := compress } src d = (d, .ok s) := by
  have hd : Resumable w c t (Disk.fresh : Disk B) :=
    ⟨⟨fun _ => none, fun _ _ => ⟨fun _ => .inl rfl, fun _ h => by cases h⟩⟩, fun _ _ _ => rfl⟩
  obtain ⟨d', s', K, e1, e2, e3, e4, e5, -⟩ := start_ok hw hc ht draw hp hd
  rw [h] at e1
  obtain ⟨rfl, e1'⟩ := Prod.mk.inj e1
  obtain rfl := Res.ok.inj e1'
  have ho : openNew { c with compress := compress } d = (d, .ok s) := by
    rw [openNew, e5]
    exact if_pos ⟨e3, e4.1, e4.2.1, e4.2.2.1, e4.2.2.2⟩
  rw [start, ho]
  simp only [if_pos e2]

/-- C99, where it fails: a start with another table on the same directory succeeds, and what is served is the old table: a
key of the old table is found and one that is not in it is not, whatever the new table says. -/
theorem stale_source (hw : Sound w) {c : Config} (hc : c.Fine) {t t' : Table} (ht : Fine w c.buckets t)
    (draw draw' draw2 : Nat → Nat) (newKey : Nat) {procs procs' : Nat} (hp : 0 < procs) {d : Disk B} {s : Status}
    (h : start w draw procs c (some t) (Disk.fresh : Disk B) = (d, .ok s)) :
    start w draw' procs' c (some t') d = (d, .ok s) ∧
      ∀ k, (∃ r ∈ t.rows, w.hash r.1 % c.buckets = w.hash k % c.buckets) →
        ∃ s' vals, apiQuery w draw2 newKey (Server.of s.config d) [k]
          = (s', .ok (if k ∈ t.rows.map Prod.fst then [k] else [], vals)) := by
  refine ⟨restart hw hc ht draw draw' hp h (some t') c.compress, ?_⟩
  intro k hk
  have hd : Resumable w c t (Disk.fresh : Disk B) :=
    ⟨⟨fun _ => none, fun _ _ => ⟨fun _ => .inl rfl, fun _ h => by cases h⟩⟩, fun _ _ _ => rfl⟩
  obtain ⟨s', keys, vals, e1, -, e2, e3, -⟩ := api_answers_partial hw hc ht draw2 newKey
    (.started (c := c) (t := t) hp hd h) (queries := [k]) (by simpa using hk)
  refine ⟨s', vals, ?_⟩
  rw [e1]
  have : keys = if k ∈ t.rows.map Prod.fst then [k] else [] := by
    by_cases hm : k ∈ t.rows.map Prod.fst
    · rw [if_pos hm]
      refine List.perm_singleton.mp ((List.perm_ext_iff_of_nodup e2 (List.nodup_singleton k)).mpr ?_)
      intro x
      rw [e3, List.mem_singleton]
      exact ⟨fun hx => hx.1, fun hx => ⟨hx, hx ▸ hm⟩⟩
    · rw [if_neg hm, List.eq_nil_iff_forall_not_mem]
      intro x hx
      obtain ⟨h1, h2⟩ := (e3 x).mp hx
      rw [List.mem_singleton] at h1
      exact hm (h1 ▸ h2)
  rw [this]

/-- C99, where it fails: a table in which a key occurs twice.  The start succeeds, and no key of that key's group of buckets
can be looked up. -/
theorem repeated_key (hw : Sound w) {c : Config} (hc : c.Fine) {t : Table}
    (ht : ∀ r ∈ t.rows, Quiet r.1 ∧ (t.labeled → Quiet r.2)) (draw draw' : Nat → Nat) (newKey : Nat) {procs : Nat} (hp : 0 < procs)
    {k : Str} (hk : 1 < (t.rows.map Prod.fst).count k) :
    ∃ d s, start w draw procs c (some t) (Disk.fresh : Disk B) = (d, .ok s) ∧ s.state = .generated ∧
      ∀ q, w.hash q % c.buckets / perGroup c.buckets c.groups = w.hash k % c.buckets / perGroup c.buckets c.groups →
        ∃ s', apiQuery w draw' newKey (Server.of s.config d) [q] = (s', .throws) := by
  have hrows : t.rows ≠ [] := by
    rintro he
    rw [he] at hk
    simp at hk
  obtain ⟨d, s, e1, e2, e3, e4⟩ := start_half hw hc ht hrows draw hp
  refine ⟨d, s, e1, e2, ?_⟩
  intro q hq
  rw [e3]
  have hr := refuses_of_count (w := w) (n := c.buckets) (G := c.groups) hk
  have hg : home w c.buckets q / perGroup c.buckets c.groups = home w c.buckets k / perGroup c.buckets c.groups := hq
  rw [← hg] at hr
  obtain ⟨s', e5⟩ := getBucket_half hw hc ht draw' e4 (home_lt (w := w) hc.buckets q) hr
  refine ⟨s', ?_⟩
  have hctx : ctxsOf w c.buckets [q] = [(home w c.buckets q, [q])] := by
    have hs : w.shuffle [home w c.buckets q] = [home w c.buckets q] := List.perm_singleton.mp (hw.perm _)
    rw [ctxsOf]
    simp [hs]
  rw [apiQuery]
  change (match bucketizeItems w c.buckets [q] with
    | .throws => _
    | .undefined => _
    | .ok ctxs => _) = _
  rw [bucketizeItems_ok hc.buckets hc.small, hctx]
  dsimp only
  rw [oprfAll, runOprf, e5]

/-! ### The buckets of the groups -/

/-- C95: the ranges that `GetBucketIndexOfGroup` gives for the groups hold every bucket in exactly the group that
`GetBucketGroupIdx` names, and no number that is not a bucket; with more groups than are needed the last ones are empty. -/
theorem group_ranges {buckets groups : Nat} (hg : 0 < groups) (g b : Nat) :
    ((bucketIndexOfGroup buckets groups g).1 ≤ b ∧
      b < (bucketIndexOfGroup buckets groups g).1 + (bucketIndexOfGroup buckets groups g).2) ↔
    bucketGroupIdx buckets groups b = .ok g := by
  unfold bucketIndexOfGroup bucketGroupIdx
  simp only
  by_cases hb : b < buckets
  · rw [if_pos hb]
    have hp : 0 < perGroup buckets groups := Nat.div_pos (by omega) hg
    have h1 := Nat.div_add_mod b (perGroup buckets groups)
    have h2 := Nat.mod_lt b hp
    generalize perGroup buckets groups = k at *
    have e : (g + 1) * k = g * k + k := Nat.succ_mul g k
    rw [e]
    constructor
    · rintro ⟨a, c⟩
      congr 1
      refine Nat.div_eq_of_lt_le ?_ ?_
      · omega
      · rw [e]; omega
    · intro h
      obtain rfl := Res.ok.inj h
      rw [Nat.mul_comm] at h1
      omega
  · rw [if_neg hb]
    constructor
    · intro h; omega
    · intro h; cases h

/-- C95: each bucket is in one of the groups. -/
theorem group_of_bucket {buckets groups b : Nat} (hg : 0 < groups) (hb : b < buckets) :
    ∃ g < groups, bucketGroupIdx buckets groups b = .ok g := by
  refine ⟨b / perGroup buckets groups, ?_, if_pos hb⟩
  have hp : 0 < perGroup buckets groups := Nat.div_pos (by omega) hg
  rw [Nat.div_lt_iff_lt_mul hp]
  unfold perGroup
  have h1 := Nat.div_add_mod (buckets + groups - 1) groups
  have h2 := Nat.mod_lt (buckets + groups - 1) hg
  omega

end

end Psi.Apsi
