import Verif.Apsi.ServerLemmas
import Mathlib.Data.List.Nodup
import Mathlib.Data.List.Forall2

/-! # Answers to queries -/

namespace Psi.Apsi

open Psi.Spiral (Res mapRes)
open Psi.DkPir (Str)

section
variable {B : Type} {w : World B}

/-! ### Records of a bucket -/

/-- The key is in the table. -/
def inTable (t : Table) (k : Str) : Prop := k ∈ t.rows.map Prod.fst

instance (t : Table) (k : Str) : Decidable (inTable t k) := inferInstanceAs (Decidable (_ ∈ _))

/-- The label a key is answered with. -/
def labelOf (w : World B) (n : Nat) (t : Table) (k : Str) : Str :=
  w.pad (longest (bucketRows w n t (home w n k))) ((lookStr k (bucketRows w n t (home w n k))).getD [])

/-- The records of the items of a bucket. -/
def recs (w : World B) (n : Nat) (t : Table) (c : Nat × List Str) : List Match :=
  records w (makeDb t.labeled 0 (bucketRows w n t c.1)) 0 c.2

theorem records_key (labeled : Bool) (rows : List (Str × Str)) (k : Nat) : ∀ items : List Str,
    records w (makeDb labeled k rows) k items = records w (makeDb labeled 0 rows) 0 items
  | [] => rfl
  | i :: r => by
    rw [records, records, records_key labeled rows k r]
    congr 1
    cases labeled <;> simp [recordAt, makeDb]

theorem lookStr_none {k : Str} : ∀ {rows : List (Str × Str)}, lookStr k rows = none ↔ k ∉ rows.map Prod.fst
  | [] => by simp [lookStr]
  | e :: r => by
    rw [lookStr, List.map_cons, List.mem_cons, not_or]
    split_ifs with h
    · simp [h]
    · rw [lookStr_none]
      exact ⟨fun hh => ⟨Ne.symm h, hh⟩, fun hh => hh.2⟩

theorem lookStr_mem {k l : Str} : ∀ {rows : List (Str × Str)}, lookStr k rows = some l → (k, l) ∈ rows
  | [], h => by cases h
  | e :: r, h => by
    rw [lookStr] at h
    split_ifs at h with he
    · obtain rfl := Option.some.inj h
      rw [← he]
      exact List.mem_cons_self
    · exact List.mem_cons_of_mem _ (lookStr_mem h)

theorem lookStr_erase (k : Str) : ∀ rows : List (Str × Str),
    lookStr k (rows.map fun r => (r.1, ([] : Str))) = (lookStr k rows).map fun _ => []
  | [] => rfl
  | e :: r => by
    rw [List.map_cons, lookStr, lookStr]
    split_ifs
    · rfl
    · exact lookStr_erase k r

theorem bucket_mem {n : Nat} {t : Table} {k : Str} :
    k ∈ (bucketRows w n t (home w n k)).map Prod.fst ↔ inTable t k := by
  have h1 (r : Str × Str) : (rowOf t.labeled r).1 = r.1 := by rw [rowOf]; split_ifs <;> rfl
  rw [bucketRows, List.map_map, inTable]
  simp only [List.mem_map, List.mem_filter, decide_eq_true_eq, Function.comp_apply, h1]
  constructor
  · rintro ⟨r, ⟨h, -⟩, rfl⟩
    exact ⟨r, h, rfl⟩
  · rintro ⟨r, h, rfl⟩
    exact ⟨r, ⟨h, rfl⟩, rfl⟩

theorem bucket_ne {n : Nat} {t : Table} {k : Str} (h : inTable t k) : bucketRows w n t (home w n k) ≠ [] := by
  intro he
  have := (bucket_mem (w := w) (n := n)).mpr h
  rw [he] at this
  simp at this

/-- The record of one item. -/
theorem recordAt_home {n : Nat} {t : Table} (ht : Fine w n t) (i : Str) (later : List Str) :
    recordAt w (makeDb t.labeled 0 (bucketRows w n t (home w n i))) 0 i later
      = if inTable t i ∧ i ∉ later then ⟨true, if t.labeled then some (labelOf w n t i) else none⟩ else ⟨false, none⟩ := by
  have hk : (makeDb t.labeled 0 (bucketRows w n t (home w n i))).key = 0 := by rw [makeDb]; split_ifs <;> rfl
  rw [recordAt, hk]
  by_cases hl : i ∈ later
  · rw [if_neg (fun h => h.2 hl), if_neg (fun h => h.2 hl)]
  rw [if_pos ⟨rfl, hl⟩]
  by_cases hm : inTable t i
  · rw [if_pos ⟨hm, hl⟩]
    have hs : lookStr i (bucketRows w n t (home w n i)) ≠ none := by
      rw [ne_eq, lookStr_none, not_not]
      exact bucket_mem.mpr hm
    obtain ⟨l, hl'⟩ := Option.ne_none_iff_exists'.mp hs
    cases hlab : t.labeled with
    | false =>
      have : lookStr i (makeDb false 0 (bucketRows w n t (home w n i))).rows = some [] := by
        rw [makeDb, if_neg Bool.false_ne_true]
        change lookStr i ((bucketRows w n t (home w n i)).map fun r => (r.1, ([] : Str))) = _
        rw [lookStr_erase, hl']
        rfl
      rw [this]
      rfl
    | true =>
      have : lookStr i (makeDb true 0 (bucketRows w n t (home w n i))).rows = some l := hl'
      rw [this]
      dsimp only
      have hb : (makeDb true 0 (bucketRows w n t (home w n i))).labelBytes = longest (bucketRows w n t (home w n i)) := rfl
      have hp := longest_pos ht hlab (bucket_ne (w := w) hm)
      rw [hb, if_neg (by omega), labelOf, hl']
      rfl
  · rw [if_neg (fun h => hm h.1)]
    have hs : lookStr i (makeDb t.labeled 0 (bucketRows w n t (home w n i))).rows = none := by
      have h0 : lookStr i (bucketRows w n t (home w n i)) = none := by
        rw [lookStr_none]
        exact fun h => hm (bucket_mem.mp h)
      cases hlab : t.labeled with
      | false =>
        change lookStr i ((bucketRows w n t (home w n i)).map fun r => (r.1, ([] : Str))) = _
        rw [lookStr_erase, h0]
        rfl
      | true => exact h0
    rw [hs]

/-- The keys found among the items of a request. -/
def foundIn (t : Table) (items : List Str) : List Str := items.dedup.filter (inTable t ·)

theorem foundIn_cons (t : Table) (i : Str) (r : List Str) :
    foundIn t (i :: r) = if inTable t i ∧ i ∉ r then i :: foundIn t r else foundIn t r := by
  rw [foundIn, foundIn]
  by_cases h : i ∈ r
  · rw [List.dedup_cons_of_mem h, if_neg (fun hh => hh.2 h)]
  · rw [List.dedup_cons_of_notMem h, List.filter_cons]
    by_cases hm : inTable t i
    · rw [if_pos (decide_eq_true hm), if_pos ⟨hm, h⟩]
    · rw [if_neg (fun hh => hm (of_decide_eq_true hh)), if_neg (fun hh => hm hh.1)]

theorem recs_cons {n : Nat} {t : Table} (ht : Fine w n t) {b : Nat} {i : Str} (hi : home w n i = b) (r : List Str) :
    recs w n t (b, i :: r)
      = (if inTable t i ∧ i ∉ r then ⟨true, if t.labeled then some (labelOf w n t i) else none⟩ else ⟨false, none⟩)
        :: recs w n t (b, r) := by
  subst hi
  rw [recs, records, recordAt_home ht]
  rfl

theorem streamResults_recs {n : Nat} {t : Table} (ht : Fine w n t) {b : Nat} : ∀ {items : List Str},
    (∀ i ∈ items, home w n i = b) →
    streamResults items (recs w n t (b, items))
      = (foundIn t items, if t.labeled then (foundIn t items).map (labelOf w n t) else [])
  | [], _ => by cases t.labeled <;> rfl
  | i :: r, h => by
    rw [recs_cons ht (h i List.mem_cons_self), streamResults, streamResults_recs ht (fun x hx => h x (List.mem_cons_of_mem _ hx)),
      foundIn_cons]
    by_cases hm : inTable t i ∧ i ∉ r
    · simp only [if_pos hm]
      cases t.labeled <;> simp
    · simp only [if_neg hm]
      simp

/-! ### Items by bucket -/

theorem zip_map_self {α β : Type} (f : α → β) : ∀ l : List α, l.zip (l.map f) = l.map fun a => (a, f a)
  | [] => rfl
  | a :: l => by rw [List.map_cons, List.zip_cons_cons, List.map_cons, zip_map_self f l]

theorem inBucket_home (n : Nat) (queries : List Str) (b : Nat) :
    inBucket (queries.zip (queries.map (home w n))) b = queries.filter fun q => home w n q = b := by
  rw [zip_map_self, inBucket, List.filter_map, List.map_map]
  simp [Function.comp_def]

/-- The requests for a list of items. -/
def ctxsOf (w : World B) (n : Nat) (queries : List Str) : List (Nat × List Str) :=
  (w.shuffle (queries.map (home w n)).dedup).map fun b => (b, queries.filter fun q => home w n q = b)

theorem bucketizeItems_ok {n : Nat} (hn : 0 < n) (hn' : n ≤ 2 ^ 31) (queries : List Str) :
    bucketizeItems w n queries = .ok (ctxsOf w n queries) := by
  rw [bucketizeItems, DkPir.mapRes_all (g := home w n) (fun q _ => bucketIdx_home hn hn' q), bind_ok]
  simp only [inBucket_home]
  rfl

theorem ctxs_item {n : Nat} {queries : List Str} {c : Nat × List Str} (hc : c ∈ ctxsOf w n queries) :
    ∀ i ∈ c.2, home w n i = c.1 := by
  obtain ⟨b, -, rfl⟩ := List.mem_map.mp hc
  intro i hi
  exact of_decide_eq_true (List.mem_filter.mp hi).2

theorem ctxs_lt {n : Nat} (hw : Sound w) (hn : 0 < n) {queries : List Str} {c : Nat × List Str}
    (hc : c ∈ ctxsOf w n queries) : c.1 < n := by
  obtain ⟨b, hb, rfl⟩ := List.mem_map.mp hc
  rw [(hw.perm _).mem_iff, List.mem_dedup] at hb
  obtain ⟨q, -, rfl⟩ := List.mem_map.mp hb
  exact home_lt hn q

theorem ctxs_bucket {n : Nat} (hw : Sound w) {queries : List Str} {b : Nat} :
    (∃ c ∈ ctxsOf w n queries, c.1 = b) ↔ ∃ q ∈ queries, home w n q = b := by
  constructor
  · rintro ⟨c, hc, rfl⟩
    obtain ⟨b, hb, rfl⟩ := List.mem_map.mp hc
    rw [(hw.perm _).mem_iff, List.mem_dedup] at hb
    obtain ⟨q, hq, h⟩ := List.mem_map.mp hb
    exact ⟨q, hq, h⟩
  · rintro ⟨q, hq, rfl⟩
    refine ⟨_, List.mem_map.mpr ⟨home w n q, ?_, rfl⟩, rfl⟩
    rw [(hw.perm _).mem_iff, List.mem_dedup]
    exact List.mem_map.mpr ⟨q, hq, rfl⟩

theorem ctxs_nodup {n : Nat} (hw : Sound w) (queries : List Str) : ((ctxsOf w n queries).map Prod.fst).Nodup := by
  have : (ctxsOf w n queries).map Prod.fst = w.shuffle (queries.map (home w n)).dedup := by
    simp [ctxsOf, Function.comp_def]
  rw [this, (hw.perm _).nodup_iff]
  exact List.nodup_dedup _

/-- All keys found. -/
def foundAll (t : Table) (ctxs : List (Nat × List Str)) : List Str := ctxs.flatMap fun c => foundIn t c.2

theorem mem_foundIn {t : Table} {items : List Str} {x : Str} : x ∈ foundIn t items ↔ x ∈ items ∧ inTable t x := by
  rw [foundIn, List.mem_filter, List.mem_dedup, decide_eq_true_iff]

theorem mem_foundAll (hw : Sound w) {n : Nat} {t : Table} {queries : List Str} {x : Str} :
    x ∈ foundAll t (ctxsOf w n queries) ↔ x ∈ queries ∧ inTable t x := by
  rw [foundAll, List.mem_flatMap]
  constructor
  · rintro ⟨c, hc, hx⟩
    rw [mem_foundIn] at hx
    obtain ⟨b, -, rfl⟩ := List.mem_map.mp hc
    exact ⟨(List.mem_filter.mp hx.1).1, hx.2⟩
  · rintro ⟨hq, ht⟩
    refine ⟨(home w n x, queries.filter fun q => home w n q = home w n x), ?_, ?_⟩
    · refine List.mem_map.mpr ⟨home w n x, ?_, rfl⟩
      rw [(hw.perm _).mem_iff, List.mem_dedup]
      exact List.mem_map.mpr ⟨x, hq, rfl⟩
    · rw [mem_foundIn]
      exact ⟨List.mem_filter.mpr ⟨hq, decide_eq_true rfl⟩, ht⟩

theorem foundAll_nodup_aux {n : Nat} (t : Table) : ∀ {ctxs : List (Nat × List Str)},
    (∀ c ∈ ctxs, ∀ i ∈ c.2, home w n i = c.1) → (ctxs.map Prod.fst).Nodup → (foundAll t ctxs).Nodup
  | [], _, _ => List.nodup_nil
  | c :: cs, h, hn => by
    rw [foundAll, List.flatMap_cons, List.nodup_append]
    rw [List.map_cons, List.nodup_cons] at hn
    refine ⟨(List.nodup_dedup _).filter _, foundAll_nodup_aux t (fun x hx => h x (List.mem_cons_of_mem _ hx)) hn.2, ?_⟩
    rintro x hx y hy rfl
    obtain ⟨c', hc', hy⟩ := List.mem_flatMap.mp hy
    have h1 := h c List.mem_cons_self x (mem_foundIn.mp hx).1
    have h2 := h c' (List.mem_cons_of_mem _ hc') x (mem_foundIn.mp hy).1
    exact hn.1 (List.mem_map.mpr ⟨c', hc', by rw [← h2, h1]⟩)

theorem foundAll_nodup (hw : Sound w) (n : Nat) (t : Table) (queries : List Str) :
    (foundAll t (ctxsOf w n queries)).Nodup :=
  foundAll_nodup_aux t (fun _ hc => ctxs_item hc) (ctxs_nodup hw queries)

/-! ### The API -/

/-- The key a bucket was asked with is the one it was made with. -/
def KeyOk (w : World B) (c : Config) (t : Table) (K : Made) (x : Nat × List Str) (k : Nat) : Prop :=
  bucketRows w c.buckets t x.1 ≠ [] → ∃ dr, K (x.1 / perGroup c.buckets c.groups) = some dr ∧ k = dr x.1

theorem KeyOk.mono {c : Config} {t : Table} {K K' : Made} (h : K.le K') {x : Nat × List Str} {k : Nat}
    (hk : KeyOk w c t K x k) : KeyOk w c t K' x k := by
  intro hx
  obtain ⟨dr, h1, h2⟩ := hk hx
  exact ⟨dr, h _ _ h1, h2⟩

variable (hw : Sound w) {c : Config} (hc : c.Fine) {t : Table} (ht : Fine w c.buckets t) (draw : Nat → Nat)

include hw hc ht in
theorem runOprf_ok (newKey : Nat) {s : Server B} {K : Made} (hs : Inv w c t s K) {x : Nat × List Str} (hx : x.1 < c.buckets) :
    ∃ s' K' k, runOprf w draw newKey s x.1 = (s', .ok k) ∧ Inv w c t s' K' ∧ K.le K' ∧ KeyOk w c t K' x k := by
  obtain ⟨s', K', dr, e1, e2, e3, e4⟩ := getBucket_ok hw hc ht draw hs hx
  rw [runOprf, e1]
  by_cases h : bucketRows w c.buckets t x.1 = []
  · rw [dbOf, if_pos h]
    exact ⟨s', K', newKey, rfl, e2, e3, fun hh => absurd h hh⟩
  · rw [dbOf, if_neg h]
    refine ⟨s', K', dr x.1, ?_, e2, e3, fun _ => ⟨dr, e4, rfl⟩⟩
    dsimp only
    rw [makeDb]
    split_ifs <;> rfl

include hw hc ht in
theorem oprfAll_ok (newKey : Nat) : ∀ (xs : List (Nat × List Str)) (s : Server B) (K : Made), Inv w c t s K →
    (∀ x ∈ xs, x.1 < c.buckets) →
    ∃ s' K' ks, oprfAll w draw newKey s xs = (s', .ok ks) ∧ Inv w c t s' K' ∧ K.le K' ∧ List.Forall₂ (KeyOk w c t K') xs ks
  | [], s, K, h, _ => ⟨s, K, [], rfl, h, K.le_refl, .nil⟩
  | x :: xs, s, K, h, hx => by
    obtain ⟨s1, K1, k, e1, e2, e3, e4⟩ := runOprf_ok hw hc ht draw newKey h (hx x List.mem_cons_self)
    obtain ⟨s2, K2, ks, f1, f2, f3, f4⟩ := oprfAll_ok newKey xs s1 K1 e2 (fun y hy => hx y (List.mem_cons_of_mem _ hy))
    refine ⟨s2, K2, k :: ks, ?_, f2, Made.le_trans e3 f3, .cons (e4.mono f3) f4⟩
    rw [oprfAll, e1]
    dsimp only
    rw [f1]

include hw hc ht in
theorem defaultDb_ok : ∀ (bs : List Nat) (s : Server B) (K : Made), Inv w c t s K → (∀ b ∈ bs, b < c.buckets) →
    (∃ b ∈ bs, bucketRows w c.buckets t b ≠ []) →
    ∃ s' K', defaultDb w draw s bs = (s', .ok ()) ∧ Inv w c t s' K' ∧ K.le K'
  | [], _, _, _, _, h => by simp at h
  | b :: bs, s, K, h, hb, he => by
    obtain ⟨s', K', dr, e1, e2, e3, -⟩ := getBucket_ok hw hc ht draw h (hb b List.mem_cons_self)
    rw [defaultDb, e1]
    by_cases hr : bucketRows w c.buckets t b = []
    · rw [dbOf, if_pos hr]
      obtain ⟨s2, K2, f1, f2, f3⟩ := defaultDb_ok bs s' K' e2 (fun x hx => hb x (List.mem_cons_of_mem _ hx)) (by
        obtain ⟨x, hx, hxr⟩ := he
        rcases List.mem_cons.mp hx with rfl | hx
        · exact absurd hr hxr
        · exact ⟨x, hx, hxr⟩)
      exact ⟨s2, K2, f1, f2, Made.le_trans e3 f3⟩
    · rw [dbOf, if_neg hr]
      exact ⟨s', K', rfl, e2, e3⟩

include hc ht in
theorem some_bucket : ∃ b ∈ List.range c.buckets, bucketRows w c.buckets t b ≠ [] := by
  obtain ⟨r, hr⟩ := List.exists_mem_of_ne_nil _ ht.rows
  exact ⟨home w c.buckets r.1, List.mem_range.mpr (home_lt hc.buckets _), bucket_ne (List.mem_map.mpr ⟨r, hr, rfl⟩)⟩

/-- The answer to the request for a bucket. -/
def answer (w : World B) (c : Config) (t : Table) (x : Nat × List Str) : Option (List Match) :=
  if bucketRows w c.buckets t x.1 = [] then none else some (recs w c.buckets t x)

include hw hc ht in
theorem runQuery_ok {s : Server B} {K : Made} (hs : Inv w c t s K) {x : Nat × List Str} (hx : x.1 < c.buckets) {k : Nat}
    (hk : KeyOk w c t K x k) :
    ∃ s' K', runQuery w draw s x.1 k x.2 = (s', .ok (answer w c t x)) ∧ Inv w c t s' K' ∧ K.le K' := by
  have hr : ∀ b ∈ List.range s.config.buckets, b < c.buckets := by
    intro b hb
    rw [hs.config.1] at hb
    exact List.mem_range.mp hb
  obtain ⟨s1, K1, e1, e2, e3⟩ := defaultDb_ok hw hc ht draw (List.range s.config.buckets) s K hs hr
    (by rw [hs.config.1]; exact some_bucket hc ht)
  obtain ⟨s2, K2, dr, f1, f2, f3, f4⟩ := getBucket_ok hw hc ht draw e2 hx
  refine ⟨s2, K2, ?_, f2, Made.le_trans e3 f3⟩
  rw [runQuery, e1]
  dsimp only
  rw [f1, answer]
  by_cases h : bucketRows w c.buckets t x.1 = []
  · rw [dbOf, if_pos h, if_pos h]
  · rw [dbOf, if_neg h, if_neg h]
    obtain ⟨dr', g1, rfl⟩ := (hk.mono (Made.le_trans e3 f3)) h
    rw [f4] at g1
    obtain rfl := Option.some.inj g1
    dsimp only
    rw [records_key]
    rfl

include hw hc ht in
theorem queryAll_ok : ∀ (xs : List (Nat × List Str)) (ks : List Nat) (s : Server B) (K : Made), Inv w c t s K →
    (∀ x ∈ xs, x.1 < c.buckets) → List.Forall₂ (KeyOk w c t K) xs ks →
    ∃ s' K', queryAll w draw s (xs.zip ks) = (s', .ok (xs.map (answer w c t))) ∧ Inv w c t s' K' ∧ K.le K'
  | [], [], s, K, h, _, _ => ⟨s, K, rfl, h, K.le_refl⟩
  | x :: xs, k :: ks, s, K, h, hx, hk => by
    cases hk with
    | cons hk1 hk2 =>
      obtain ⟨s1, K1, e1, e2, e3⟩ := runQuery_ok hw hc ht draw h (hx x List.mem_cons_self) hk1
      obtain ⟨s2, K2, f1, f2, f3⟩ := queryAll_ok xs ks s1 K1 e2 (fun y hy => hx y (List.mem_cons_of_mem _ hy))
        (hk2.imp fun _ _ hh => hh.mono e3)
      refine ⟨s2, K2, ?_, f2, Made.le_trans e3 f3⟩
      rw [List.zip_cons_cons, queryAll, e1]
      dsimp only
      rw [f1]
      rfl

include ht in
theorem processResult_ok : ∀ {xs : List (Nat × List Str)}, (∀ x ∈ xs, ∀ i ∈ x.2, home w c.buckets i = x.1) →
    (∀ x ∈ xs, bucketRows w c.buckets t x.1 ≠ []) →
    processResult ((xs.map Prod.snd).zip (xs.map (answer w c t)))
      = .ok (foundAll t xs, if t.labeled then (foundAll t xs).map (labelOf w c.buckets t) else [])
  | [], _, _ => by cases t.labeled <;> rfl
  | x :: xs, h, hb => by
    rw [List.map_cons, List.map_cons, List.zip_cons_cons, answer, if_neg (hb x List.mem_cons_self), processResult,
      processResult_ok (fun y hy => h y (List.mem_cons_of_mem _ hy)) (fun y hy => hb y (List.mem_cons_of_mem _ hy)), bind_ok,
      show recs w c.buckets t x = recs w c.buckets t (x.1, x.2) from rfl, streamResults_recs ht (h x List.mem_cons_self)]
    cases t.labeled <;> simp [foundAll]

theorem processResult_throws : ∀ {xs : List (Nat × List Str)}, (∃ x ∈ xs, bucketRows w c.buckets t x.1 = []) →
    processResult ((xs.map Prod.snd).zip (xs.map (answer w c t))) = .throws
  | [], h => by simp at h
  | x :: xs, h => by
    rw [List.map_cons, List.map_cons, List.zip_cons_cons]
    by_cases hx : bucketRows w c.buckets t x.1 = []
    · rw [answer, if_pos hx, processResult]
    · rw [answer, if_neg hx, processResult, processResult_throws]
      · rfl
      · obtain ⟨y, hy, hr⟩ := h
        rcases List.mem_cons.mp hy with rfl | hy
        · exact absurd hr hx
        · exact ⟨y, hy, hr⟩

include hw hc ht in
theorem apiQuery_eq (newKey : Nat) {s : Server B} {K : Made} (hs : Inv w c t s K) (queries : List Str) :
    ∃ s' K', apiQuery w draw newKey s queries
        = (s', processResult (((ctxsOf w c.buckets queries).map Prod.snd).zip
            ((ctxsOf w c.buckets queries).map (answer w c t)))) ∧
      Inv w c t s' K' ∧ K.le K' := by
  have hlt : ∀ x ∈ ctxsOf w c.buckets queries, x.1 < c.buckets := fun x hx => ctxs_lt hw hc.buckets hx
  obtain ⟨s1, K1, ks, e1, e2, e3, e4⟩ := oprfAll_ok hw hc ht draw newKey _ s K hs hlt
  obtain ⟨s2, K2, f1, f2, f3⟩ := queryAll_ok hw hc ht draw _ ks s1 K1 e2 hlt e4
  refine ⟨s2, K2, ?_, f2, Made.le_trans e3 f3⟩
  rw [apiQuery, hs.config.1, bucketizeItems_ok hc.buckets hc.small]
  dsimp only
  rw [e1]
  dsimp only
  rw [f1]

end

end Psi.Apsi
