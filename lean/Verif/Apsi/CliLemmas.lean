import Verif.Apsi.QueryLemmas

/-! # The dispatcher and the result file of the command line -/

namespace Psi.Apsi

open Psi.Spiral (Res mapRes)
open Psi.DkPir (Str)

section
variable {B : Type} {w : World B}

/-! ### The result file -/

/-- A line of the result file. -/
def resultLine (w : World B) (n : Nat) (t : Table) (k : Str) : Str :=
  k ++ (if t.labeled then ',' :: labelOf w n t k else []) ++ ['\n']

theorem printLines_recs {n : Nat} {t : Table} (ht : Fine w n t) {b : Nat} : ∀ {items : List Str},
    (∀ i ∈ items, home w n i = b) →
    printLines items (recs w n t (b, items)) = (foundIn t items).flatMap (resultLine w n t)
  | [], _ => rfl
  | i :: r, h => by
    rw [recs_cons ht (h i List.mem_cons_self), printLines, printLines_recs ht (fun x hx => h x (List.mem_cons_of_mem _ hx)),
      foundIn_cons]
    by_cases hm : inTable t i ∧ i ∉ r
    · simp only [if_pos hm, List.flatMap_cons, printLine, resultLine]
      cases t.labeled <;> simp
    · simp only [if_neg hm, printLine]
      simp

/-- The header with a number of value columns. -/
def columns : Nat → Str
  | 0 => "key".toList
  | m + 1 => columns m ++ ",value".toList

theorem printHeader_recs {n : Nat} {t : Table} (ht : Fine w n t) {b : Nat} : ∀ {items : List Str},
    (∀ i ∈ items, home w n i = b) →
    printHeader (recs w n t (b, items)) = columns (if t.labeled then (foundIn t items).length else 0)
  | [], _ => by cases t.labeled <;> rfl
  | i :: r, h => by
    rw [recs_cons ht (h i List.mem_cons_self), printHeader, printHeader_recs ht (fun x hx => h x (List.mem_cons_of_mem _ hx)),
      foundIn_cons]
    by_cases hm : inTable t i ∧ i ∉ r
    · simp only [if_pos hm]
      cases t.labeled <;> simp [columns]
    · simp only [if_neg hm]
      simp

theorem count_recs {n : Nat} {t : Table} (ht : Fine w n t) {b : Nat} : ∀ {items : List Str},
    (∀ i ∈ items, home w n i = b) →
    ((recs w n t (b, items)).filter fun m => m.found).length = (foundIn t items).length
  | [], _ => rfl
  | i :: r, h => by
    rw [recs_cons ht (h i List.mem_cons_self), List.filter_cons, foundIn_cons]
    by_cases hm : inTable t i ∧ i ∉ r
    · simp only [if_pos hm, if_true, List.length_cons]
      rw [count_recs ht (fun x hx => h x (List.mem_cons_of_mem _ hx))]
    · simp only [if_neg hm, Bool.false_eq_true, if_false]
      rw [count_recs ht (fun x hx => h x (List.mem_cons_of_mem _ hx))]

/-- The loop without the sender. -/
def filePure (w : World B) (n : Nat) (t : Table) : Str → Bool → Nat → List (Nat × List Str) → Str × Nat
  | file, _, total, [] => (file, total)
  | file, appending, total, x :: xs =>
    let out := printResults x.2 (recs w n t x) file appending
    filePure w n t out.1 (appending || decide (0 < out.2)) (total + out.2) xs

theorem filePure_append {n : Nat} {t : Table} (ht : Fine w n t) : ∀ {xs : List (Nat × List Str)} (file : Str) (total : Nat),
    (∀ x ∈ xs, ∀ i ∈ x.2, home w n i = x.1) →
    filePure w n t file true total xs
      = (file ++ (foundAll t xs).flatMap (resultLine w n t), total + (foundAll t xs).length)
  | [], file, total, _ => by simp [filePure, foundAll]
  | x :: xs, file, total, h => by
    have hx := h x List.mem_cons_self
    rw [filePure, printResults]
    simp only [if_true, Bool.true_or]
    rw [show recs w n t x = recs w n t (x.1, x.2) from rfl, printLines_recs ht hx, count_recs ht hx,
      filePure_append ht _ _ (fun y hy => h y (List.mem_cons_of_mem _ hy))]
    simp [foundAll, Nat.add_assoc]

/-- How many keys share the bucket of the first key found. -/
def firstBucket (w : World B) (n : Nat) : List Str → Nat
  | [] => 0
  | k :: r => ((k :: r).filter fun x => home w n x = home w n k).length

theorem filePure_new {n : Nat} {t : Table} (ht : Fine w n t) : ∀ {xs : List (Nat × List Str)} (file : Str) (total : Nat),
    xs ≠ [] → (∀ x ∈ xs, ∀ i ∈ x.2, home w n i = x.1) → (xs.map Prod.fst).Nodup →
    filePure w n t file false total xs
      = (columns (if t.labeled then firstBucket w n (foundAll t xs) else 0) ++ ['\n']
          ++ (foundAll t xs).flatMap (resultLine w n t), total + (foundAll t xs).length)
  | [], _, _, h, _, _ => absurd rfl h
  | x :: xs, file, total, _, h, hn => by
    have hx := h x List.mem_cons_self
    have hxs := fun y hy => h y (List.mem_cons_of_mem x hy)
    rw [List.map_cons, List.nodup_cons] at hn
    have hall : foundAll t (x :: xs) = foundIn t x.2 ++ foundAll t xs := by simp [foundAll]
    rw [filePure, printResults]
    simp only [Bool.false_eq_true, if_false, Bool.false_or]
    rw [show recs w n t x = recs w n t (x.1, x.2) from rfl, printLines_recs ht hx, count_recs ht hx,
      printHeader_recs ht hx, hall]
    cases hf : foundIn t x.2 with
    | nil =>
      simp only [List.length_nil, Nat.lt_irrefl, decide_false, List.nil_append, Nat.add_zero]
      cases xs with
      | nil => cases t.labeled <;> simp [filePure, foundAll, firstBucket]
      | cons y ys =>
        rw [filePure_new ht _ _ (List.cons_ne_nil _ _) hxs hn.2]
    | cons k ks =>
      simp only [List.length_cons, Nat.zero_lt_succ, decide_true]
      rw [filePure_append ht _ _ hxs]
      have hb : firstBucket w n ((k :: ks) ++ foundAll t xs) = (k :: ks).length := by
        have hk : home w n k = x.1 := hx k (mem_foundIn.mp (hf ▸ List.mem_cons_self)).1
        rw [List.cons_append, firstBucket, ← List.cons_append, List.filter_append, hk, List.filter_eq_self.mpr,
          List.filter_eq_nil_iff.mpr, List.append_nil]
        · intro y hy
          obtain ⟨c, hc, hy⟩ := List.mem_flatMap.mp hy
          have := hxs c hc y (mem_foundIn.mp hy).1
          rw [this, decide_eq_true_iff]
          exact fun he => hn.1 (List.mem_map.mpr ⟨c, hc, he⟩)
        · intro y hy
          rw [← hf] at hy
          exact decide_eq_true (hx y (mem_foundIn.mp hy).1)
      rw [hb]
      simp [Nat.add_assoc]
      omega

/-! ### Requests -/

theorem recs_none {n : Nat} {t : Table} {x : Nat × List Str} (h : bucketRows w n t x.1 = []) :
    recs w n t x = noRecords x.2 := by
  rw [recs, h]
  have : ∀ items : List Str, records w (makeDb t.labeled 0 []) 0 items = noRecords items := by
    intro items
    induction items with
    | nil => rfl
    | cons i r ih =>
      rw [records, ih, noRecords, noRecords, List.map_cons]
      congr 1
      rw [recordAt]
      have : lookStr i (makeDb t.labeled 0 []).rows = none := by cases t.labeled <;> rfl
      rw [this]
      simp
  exact this _

variable (hw : Sound w) {c : Config} (hc : c.Fine) {t : Table} (ht : Fine w c.buckets t) (draw : Nat → Nat)

include hw hc ht in
theorem dispatch_oprf (newKey : Nat) {d : Dispatcher B} {K : Made} (hs : Inv w c t d.server K) {x : Nat × List Str}
    (hx : x.1 < c.buckets) :
    ∃ d' K' k, dispatch w draw newKey d (.oprf x.1 x.2) = (d', .ok (if x.2 = [] then .none else .oprf k)) ∧
      Inv w c t d'.server K' ∧ K.le K' ∧ KeyOk w c t K' x k ∧
      (d'.current = none ↔ bucketRows w c.buckets t x.1 = []) := by
  obtain ⟨s', K', dr, e1, e2, e3, e4⟩ := getBucket_ok hw hc ht draw hs hx
  rw [dispatch, e1]
  by_cases h : bucketRows w c.buckets t x.1 = []
  · rw [dbOf, if_pos h]
    exact ⟨⟨s', none⟩, K', newKey, rfl, e2, e3, fun hh => absurd h hh, by simp [h]⟩
  · rw [dbOf, if_neg h]
    refine ⟨⟨s', some (makeDb t.labeled (dr x.1) (bucketRows w c.buckets t x.1))⟩, K', dr x.1, ?_, e2, e3,
      fun _ => ⟨dr, e4, rfl⟩, by simp [h]⟩
    dsimp only
    have : (makeDb t.labeled (dr x.1) (bucketRows w c.buckets t x.1)).key = dr x.1 := by rw [makeDb]; split_ifs <;> rfl
    rw [this]

include hw hc ht in
theorem dispatch_query (newKey : Nat) {d : Dispatcher B} {K : Made} (hs : Inv w c t d.server K) {x : Nat × List Str}
    (hx : x.1 < c.buckets) (k : Nat) :
    ∃ d' K' ms, dispatch w draw newKey d (.query x.1 k x.2) = (d', .ok (.records ms)) ∧
      Inv w c t d'.server K' ∧ K.le K' ∧ (KeyOk w c t K x k → ms = recs w c.buckets t x) ∧
      (d'.current = none ↔ bucketRows w c.buckets t x.1 = []) := by
  obtain ⟨s', K', dr, e1, e2, e3, e4⟩ := getBucket_ok hw hc ht draw hs hx
  rw [dispatch, e1]
  by_cases h : bucketRows w c.buckets t x.1 = []
  · rw [dbOf, if_pos h]
    refine ⟨⟨s', none⟩, K', noRecords x.2, rfl, e2, e3, fun _ => (recs_none h).symm, by simp [h]⟩
  · rw [dbOf, if_neg h]
    refine ⟨⟨s', some (makeDb t.labeled (dr x.1) (bucketRows w c.buckets t x.1))⟩, K', _, rfl, e2, e3, ?_, by simp [h]⟩
    intro hk
    obtain ⟨dr', g1, rfl⟩ := (hk.mono e3) h
    rw [e4] at g1
    obtain rfl := Option.some.inj g1
    exact records_key _ _ _ _

/-- A bucket that is asked for outside the range changes nothing. -/
theorem getBucket_range {s : Server B} {K : Made} (hs : Inv w c t s K) {b : Nat} (hb : ¬ b < c.buckets) :
    getBucket w draw s b = (s, .throws) := by
  rw [getBucket, hs.config.1, hs.config.2, bucketGroupIdx, if_neg hb]

/-- The bucket of a request. -/
def Request.bucket : Request → Option Nat
  | .params => none
  | .oprf b _ => some b
  | .query b _ _ => some b

include hw hc ht in
theorem dispatch_inv (newKey : Nat) {d : Dispatcher B} {K : Made} (hs : Inv w c t d.server K) (r : Request) :
    ∃ d' K' a, dispatch w draw newKey d r = (d', .ok a) ∧ Inv w c t d'.server K' ∧ K.le K' ∧
      (d'.current = none →
        (∃ b, r.bucket = some b ∧ b < c.buckets ∧ bucketRows w c.buckets t b = []) ∨ d.current = none) := by
  cases r with
  | params => exact ⟨d, K, _, rfl, hs, K.le_refl, fun h => .inr h⟩
  | oprf b items =>
    by_cases hb : b < c.buckets
    · obtain ⟨d', K', k, e1, e2, e3, -, e5⟩ := dispatch_oprf hw hc ht draw newKey hs (x := (b, items)) hb
      exact ⟨d', K', _, e1, e2, e3, fun h => .inl ⟨b, rfl, hb, e5.mp h⟩⟩
    · refine ⟨⟨d.server, d.current⟩, K, .none, ?_, hs, K.le_refl, fun h => .inr h⟩
      rw [dispatch, getBucket_range draw hs hb]
  | query b k items =>
    by_cases hb : b < c.buckets
    · obtain ⟨d', K', ms, e1, e2, e3, -, e5⟩ := dispatch_query hw hc ht draw newKey hs (x := (b, items)) hb k
      exact ⟨d', K', _, e1, e2, e3, fun h => .inl ⟨b, rfl, hb, e5.mp h⟩⟩
    · refine ⟨⟨d.server, d.current⟩, K, .none, ?_, hs, K.le_refl, fun h => .inr h⟩
      rw [dispatch, getBucket_range draw hs hb]

include hw hc ht in
theorem dispatchAll_inv (newKey : Nat) : ∀ (rs : List Request) (d : Dispatcher B) (K : Made), Inv w c t d.server K →
    ∃ d' K' as, dispatchAll w draw newKey d rs = (d', .ok as) ∧ as.length = rs.length ∧ Inv w c t d'.server K' ∧ K.le K' ∧
      (d'.current = none →
        (∃ r ∈ rs, ∃ b, r.bucket = some b ∧ b < c.buckets ∧ bucketRows w c.buckets t b = []) ∨ d.current = none)
  | [], d, K, h => ⟨d, K, [], rfl, rfl, h, K.le_refl, fun hh => .inr hh⟩
  | r :: rs, d, K, h => by
    obtain ⟨d1, K1, a, e1, e2, e3, e4⟩ := dispatch_inv hw hc ht draw newKey h r
    obtain ⟨d2, K2, as, f1, f1', f2, f3, f4⟩ := dispatchAll_inv newKey rs d1 K1 e2
    refine ⟨d2, K2, a :: as, ?_, by simp [f1'], f2, Made.le_trans e3 f3, ?_⟩
    · rw [dispatchAll, e1]
      dsimp only
      rw [f1]
    · intro hh
      rcases f4 hh with ⟨r', hr', hb⟩ | h1
      · exact .inl ⟨r', List.mem_cons_of_mem _ hr', hb⟩
      · rcases e4 h1 with hb | h0
        · exact .inl ⟨r, List.mem_cons_self, hb⟩
        · exact .inr h0

include hw hc ht in
theorem makeDispatcher_ok : ∀ (bs : List Nat) (s : Server B) (K : Made), Inv w c t s K → (∀ b ∈ bs, b < c.buckets) →
    (∃ b ∈ bs, bucketRows w c.buckets t b ≠ []) →
    ∃ d K', makeDispatcher w draw s bs = .ok d ∧ Inv w c t d.server K' ∧ K.le K' ∧ d.current ≠ none
  | [], _, _, _, _, h => by simp at h
  | b :: bs, s, K, h, hb, he => by
    obtain ⟨s', K', dr, e1, e2, e3, -⟩ := getBucket_ok hw hc ht draw h (hb b List.mem_cons_self)
    rw [makeDispatcher, e1]
    by_cases hr : bucketRows w c.buckets t b = []
    · rw [dbOf, if_pos hr]
      obtain ⟨d2, K2, f1, f2, f3, f4⟩ := makeDispatcher_ok bs s' K' e2 (fun x hx => hb x (List.mem_cons_of_mem _ hx)) (by
        obtain ⟨x, hx, hxr⟩ := he
        rcases List.mem_cons.mp hx with rfl | hx
        · exact absurd hr hxr
        · exact ⟨x, hx, hxr⟩)
      exact ⟨d2, K2, f1, f2, Made.le_trans e3 f3, f4⟩
    · rw [dbOf, if_neg hr]
      exact ⟨_, K', rfl, e2, e3, by simp⟩

include hw hc ht in
theorem cliLoop_ok (newKey : Nat) : ∀ (xs : List (Nat × List Str)) (d : Dispatcher B) (K : Made) (file : Str)
    (appending : Bool) (total : Nat), Inv w c t d.server K → (∀ x ∈ xs, x.1 < c.buckets ∧ x.2 ≠ []) →
    ∃ d' K', cliLoop w draw newKey d file appending total xs
        = (d', .ok (filePure w c.buckets t file appending total xs)) ∧ Inv w c t d'.server K' ∧ K.le K'
  | [], d, K, _, _, _, h, _ => ⟨d, K, rfl, h, K.le_refl⟩
  | x :: xs, d, K, file, appending, total, h, hx => by
    have hx0 := hx x List.mem_cons_self
    obtain ⟨d1, K1, k, e1, e2, e3, e4, -⟩ := dispatch_oprf hw hc ht draw newKey h hx0.1
    obtain ⟨d2, K2, ms, f1, f2, f3, f4, -⟩ := dispatch_query hw hc ht draw newKey e2 hx0.1 k
    obtain rfl := f4 e4
    obtain ⟨d3, K3, g1, g2, g3⟩ := cliLoop_ok newKey xs d2 K2
      (printResults x.2 (recs w c.buckets t x) file appending).1
      (appending || decide (0 < (printResults x.2 (recs w c.buckets t x) file appending).2))
      (total + (printResults x.2 (recs w c.buckets t x) file appending).2) f2 (fun y hy => hx y (List.mem_cons_of_mem _ hy))
    refine ⟨d3, K3, ?_, g2, Made.le_trans e3 (Made.le_trans f3 g3)⟩
    rw [cliLoop, e1, if_neg hx0.2]
    dsimp only
    rw [f1]
    dsimp only
    rw [g1]
    rfl

theorem ctxs_ne {n : Nat} (hw : Sound w) {queries : List Str} {x : Nat × List Str} (hx : x ∈ ctxsOf w n queries) : x.2 ≠ [] := by
  obtain ⟨b, hb, rfl⟩ := List.mem_map.mp hx
  rw [(hw.perm _).mem_iff, List.mem_dedup] at hb
  obtain ⟨q, hq, rfl⟩ := List.mem_map.mp hb
  intro he
  have : q ∈ queries.filter fun q' => home w n q' = home w n q := List.mem_filter.mpr ⟨hq, decide_eq_true rfl⟩
  dsimp only at he
  rw [he] at this
  cases this

include hw hc ht in
theorem cliQuery_ok (newKey : Nat) {d : Dispatcher B} {K : Made} (hs : Inv w c t d.server K) {queries : List Str}
    (hq : queries ≠ []) (hn : queries.Nodup) :
    ∃ d' K', cliQuery w draw newKey d c.buckets queries
        = (d', .ok (columns (if t.labeled then firstBucket w c.buckets (foundAll t (ctxsOf w c.buckets queries)) else 0)
            ++ ['\n'] ++ (foundAll t (ctxsOf w c.buckets queries)).flatMap (resultLine w c.buckets t),
            (foundAll t (ctxsOf w c.buckets queries)).length)) ∧ Inv w c t d'.server K' ∧ K.le K' := by
  obtain ⟨d', K', e1, e2, e3⟩ := cliLoop_ok hw hc ht draw newKey (ctxsOf w c.buckets queries) d K [] false 0 hs
    (fun x hx => ⟨ctxs_lt hw hc.buckets hx, ctxs_ne hw hx⟩)
  refine ⟨d', K', ?_, e2, e3⟩
  rw [cliQuery, if_neg (by rintro (h | h); exacts [hq h, h hn]), bucketizeItems_ok hc.buckets hc.small]
  dsimp only
  rw [e1, filePure_new ht [] 0 ?_ (fun x hx => ctxs_item hx) (ctxs_nodup hw queries), Nat.zero_add]
  intro he
  obtain ⟨q, hq'⟩ := List.exists_mem_of_ne_nil _ hq
  obtain ⟨x, hx, -⟩ := (ctxs_bucket (n := c.buckets) hw (b := home w c.buckets q)).mpr ⟨q, hq', rfl⟩
  rw [he] at hx
  cases hx

end

end Psi.Apsi
