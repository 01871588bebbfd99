import Verif.Apsi.CliLemmas

/-! # A start over a table with buckets that are refused -/

namespace Psi.Apsi

open Psi.Spiral (Res mapRes)
open Psi.DkPir (Str)

section
variable {B : Type} {w : World B}

theorem readGroup_quiet {n G : Nat} {t : Table} (ht : ∀ r ∈ t.rows, Quiet r.1 ∧ (t.labeled → Quiet r.2)) (g : Nat) :
    readGroup (groupText t.labeled (groupRows w n G t.rows g)) = .ok (t.labeled, readBack w n G t g) := by
  rw [readGroup_text]
  · rfl
  · intro r hr
    obtain ⟨x, hx, rfl⟩ := List.mem_map.mp hr
    exact ht x (List.mem_of_mem_filter hx)

/-- The group has a bucket that is refused. -/
def Refuses (w : World B) (n G : Nat) (t : Table) (g : Nat) : Bool :=
  ((readBack w n G t g).map Prod.fst).dedup.any fun b => refused t.labeled (rowsOf (readBack w n G t g) b)

theorem generate_quiet {n G : Nat} (hn : 0 < n) (hG : 0 < G) {t : Table}
    (ht : ∀ r ∈ t.rows, Quiet r.1 ∧ (t.labeled → Quiet r.2)) (g : Nat) (draw : Nat → Nat) {f : GroupFiles B} (hf : f.index = none) :
    generate w draw (perGroup n G) (some (groupText t.labeled (groupRows w n G t.rows g))) f
      = if Refuses w n G t g then (⟨some [], none⟩, .throws)
        else (doneFiles w n G t g draw, .ok (offsetsFrom w 0 (groupDbs w draw t.labeled (readBack w n G t g)))) := by
  rcases f with ⟨db, ix⟩
  dsimp only at hf
  subst hf
  have key : (match readGroup (groupText t.labeled (groupRows w n G t.rows g)) with
      | .throws => ((⟨db, none⟩ : GroupFiles B), (.throws : Res Offsets))
      | .undefined => (⟨db, none⟩, .undefined)
      | .ok (labeled, rows) =>
        if perGroup n G < (rows.map Prod.fst).dedup.length then (⟨db, none⟩, .throws)
        else if (rows.map Prod.fst).dedup.any (fun b => refused labeled (rowsOf rows b)) then
          (⟨some [], none⟩, .throws)
        else (groupFiles w draw labeled rows, .ok (offsetsFrom w 0 (groupDbs w draw labeled rows))))
      = if Refuses w n G t g then (⟨some [], none⟩, .throws)
        else (doneFiles w n G t g draw, .ok (offsetsFrom w 0 (groupDbs w draw t.labeled (readBack w n G t g)))) := by
    rw [readGroup_quiet ht]
    simp only [if_neg (Nat.not_lt.mpr (ids_le hn hG t g))]
    rfl
  rw [generate]
  cases db <;> exact key

/-- What holds while groups are made, some of which are refused. -/
structure Half (w : World B) (c : Config) (t : Table) (d : Disk B) : Prop where
  csv : CsvOk w c t d
  files : ∀ g < c.groups, (d.group g).index = none ∨ ∃ dr, d.group g = doneFiles w c.buckets c.groups t g dr
  bad : ∀ g < c.groups, Refuses w c.buckets c.groups t g = true → (d.group g).index = none

variable (hw : Sound w) {c : Config} (hc : c.Fine) {t : Table} (ht : ∀ r ∈ t.rows, Quiet r.1 ∧ (t.labeled → Quiet r.2))

include hw hc ht in
theorem generateGroup_half (draw : Nat → Nat) {d : Disk B} (hd : Half w c t d) {g : Nat} (hg : g < c.groups) :
    ∃ d' r, generateGroup w draw c d g = (d', r) ∧ r ≠ .undefined ∧ Half w c t d' ∧ d'.status = d.status ∧
      (Refuses w c.buckets c.groups t g = true → r = .throws) := by
  have keep : ∀ f : GroupFiles B, (f.index = none ∨ ∃ dr, f = doneFiles w c.buckets c.groups t g dr) →
      (Refuses w c.buckets c.groups t g = true → f.index = none) → Half w c t (d.setGroup g f) := by
    intro f h1 h2
    refine ⟨hd.csv, ?_, ?_⟩
    · intro j hj
      simp only [Disk.setGroup]
      by_cases h : j = g
      · subst h
        simpa using h1
      · simp only [if_neg h]
        exact hd.files j hj
    · intro j hj hr
      simp only [Disk.setGroup]
      by_cases h : j = g
      · subst h
        simpa using h2 hr
      · simp only [if_neg h]
        exact hd.bad j hj hr
  rcases hd.files g hg with hi | ⟨dr, hdr⟩
  · have e := generate_quiet (w := w) (n := c.buckets) (G := c.groups) hc.buckets hc.groups ht g draw hi
    rw [generateGroup, hd.csv g hg, e]
    by_cases hr : Refuses w c.buckets c.groups t g = true
    · rw [if_pos hr]
      exact ⟨_, _, rfl, by simp, keep _ (.inl rfl) (fun _ => rfl), rfl, fun _ => rfl⟩
    · rw [if_neg hr]
      exact ⟨_, _, rfl, by simp, keep _ (.inr ⟨draw, rfl⟩) (fun h => absurd h hr), rfl, fun h => absurd h hr⟩
  · obtain ⟨o, e, -⟩ := generate_done hw hc.buckets hc.groups t g dr draw (d.csv g)
    have hnr : Refuses w c.buckets c.groups t g ≠ true := by
      intro hr
      have := hd.bad g hg hr
      rw [hdr] at this
      cases this
    rw [generateGroup, hdr, e]
    exact ⟨_, _, rfl, by simp, keep _ (.inr ⟨dr, rfl⟩) (fun h => absurd h hnr), rfl, fun h => absurd h hnr⟩

include hw hc ht in
theorem child_half (draw : Nat → Nat) : ∀ (gs : List Nat) (d : Disk B), Half w c t d → (∀ g ∈ gs, g < c.groups) →
    ∃ d' r, child w draw c d gs = (d', r) ∧ r ≠ .undefined ∧ Half w c t d' ∧ d'.status = d.status
  | [], d, h, _ => ⟨d, .ok (), rfl, by simp, h, rfl⟩
  | g :: gs, d, h, hg => by
    obtain ⟨d1, r, e1, e2, e3, e4, -⟩ := generateGroup_half hw hc ht draw h (hg g List.mem_cons_self)
    rw [child, e1]
    cases r with
    | undefined => exact absurd rfl e2
    | throws => exact ⟨d1, .throws, rfl, by simp, e3, e4⟩
    | ok o =>
      obtain ⟨d2, r2, f1, f2, f3, f4⟩ := child_half draw gs d1 e3 (fun x hx => hg x (List.mem_cons_of_mem _ hx))
      exact ⟨d2, r2, f1, f2, f3, f4.trans e4⟩

include hw hc ht in
theorem children_half (draw : Nat → Nat) : ∀ (rs : List (List Nat)) (d : Disk B), Half w c t d →
    (∀ r ∈ rs, ∀ g ∈ r, g < c.groups) →
    ∃ d', children w draw c d rs = (d', .ok ()) ∧ Half w c t d' ∧ d'.status = d.status
  | [], d, h, _ => ⟨d, rfl, h, rfl⟩
  | r :: rs, d, h, hr => by
    obtain ⟨d1, x, e1, e2, e3, e4⟩ := child_half hw hc ht draw r d h (hr r List.mem_cons_self)
    obtain ⟨d2, f1, f2, f3⟩ := children_half draw rs d1 e3 (fun y hy => hr y (List.mem_cons_of_mem _ hy))
    refine ⟨d2, ?_, f2, f3.trans e4⟩
    rw [children, e1]
    cases x with
    | undefined => exact absurd rfl e2
    | throws => exact f1
    | ok _ => exact f1

include hw hc ht in
/-- A start on an empty directory succeeds whatever buckets are refused. -/
theorem start_half (hrows : t.rows ≠ []) (draw : Nat → Nat) {procs : Nat} (hp : 0 < procs) :
    ∃ d' s', start w draw procs c (some t) (Disk.fresh : Disk B) = (d', .ok s') ∧ s'.state = .generated ∧
      s'.config = c ∧ Half w c t d' := by
  obtain ⟨f, e1, e2⟩ := groupBucketize_ok (w := w) (old := fun _ => none) hc.buckets hc.small hc.groups hrows (fun _ _ _ => rfl)
  have hh : Half w c t (⟨some ⟨dbVersion, c, .bucketed⟩, f, fun _ => ⟨none, none⟩⟩ : Disk B) :=
    ⟨e2, fun _ _ => .inl rfl, fun _ _ _ => rfl⟩
  obtain ⟨d', g1, g2, -⟩ := children_half hw hc ht draw ((List.range procs).map (rangeOf c.groups procs)) _ hh
    (by
      intro r hr g hg
      obtain ⟨i, -, rfl⟩ := List.mem_map.mp hr
      exact (mem_rangeOf.mp hg).1)
  refine ⟨{ d' with status := some ⟨dbVersion, c, .generated⟩ }, ⟨dbVersion, c, .generated⟩, ?_, rfl, rfl,
    ⟨g2.csv, g2.files, g2.bad⟩⟩
  have hdiv : divideGroup w ⟨dbVersion, c, .empty⟩ (some t)
      ({ (Disk.fresh : Disk B) with status := some ⟨dbVersion, c, .empty⟩ } : Disk B)
      = (⟨some ⟨dbVersion, c, .bucketed⟩, f, fun _ => ⟨none, none⟩⟩, .ok ⟨dbVersion, c, .bucketed⟩) := by
    rw [divideGroup, if_neg (by simp)]
    change (match groupBucketize w c.buckets c.groups t (fun _ => none) with
      | (f, .ok _) => ((⟨some ⟨dbVersion, c, .bucketed⟩, f, fun _ => ⟨none, none⟩⟩ : Disk B),
          (.ok ⟨dbVersion, c, .bucketed⟩ : Res Status))
      | (f, .throws) => (⟨some ⟨dbVersion, c, .empty⟩, f, fun _ => ⟨none, none⟩⟩, .throws)
      | (f, .undefined) => (⟨some ⟨dbVersion, c, .empty⟩, f, fun _ => ⟨none, none⟩⟩, .undefined)) = _
    rw [e1]
  have hop : openNew c (Disk.fresh : Disk B)
      = ({ (Disk.fresh : Disk B) with status := some ⟨dbVersion, c, .empty⟩ }, .ok ⟨dbVersion, c, .empty⟩) := rfl
  rw [start, hop]
  simp only [reduceCtorEq, if_false]
  rw [generateAll, hdiv]
  dsimp only
  rw [processGroups, if_neg (Nat.ne_of_gt hp), g1]

include hw hc ht in
/-- The buckets of a group with a refused bucket cannot be had. -/
theorem getBucket_half (draw : Nat → Nat) {d : Disk B} (hd : Half w c t d) {b : Nat} (hb : b < c.buckets)
    (hr : Refuses w c.buckets c.groups t (b / perGroup c.buckets c.groups) = true) :
    ∃ s', getBucket w draw (Server.of c d) b = (s', .throws) := by
  have hg : b / perGroup c.buckets c.groups < c.groups := group_lt hc.groups hb
  obtain ⟨d', r, e1, -, -, -, e5⟩ := generateGroup_half hw hc ht draw hd hg
  obtain rfl := e5 hr
  refine ⟨⟨c, d', fun _ => none⟩, ?_⟩
  rw [getBucket]
  change (match bucketGroupIdx c.buckets c.groups b with
      | .throws => _
      | .undefined => _
      | .ok g => _) = _
  rw [bucketGroupIdx, if_pos hb]
  change (match generateGroup w draw c d (b / perGroup c.buckets c.groups) with
      | (d, .ok o) => _
      | (d, .throws) => _
      | (d, .undefined) => _) = _
  rw [e1]
  rfl

theorem refuses_of_count {n G : Nat} {t : Table} {k : Str} (hk : 1 < (t.rows.map Prod.fst).count k) :
    Refuses w n G t (home w n k / perGroup n G) = true := by
  have hin : inTable t k := List.count_pos_iff.mp (by omega)
  rw [Refuses, List.any_eq_true]
  refine ⟨home w n k, mem_ids.mpr ⟨rfl, bucket_ne hin⟩, ?_⟩
  rw [rowsOf_readBack t rfl, refused]
  have : ¬ ((bucketRows w n t (home w n k)).map Prod.fst).Nodup := by
    intro hnd
    have h1 := List.nodup_iff_count_le_one.mp hnd k
    have h2 : (bucketRows w n t (home w n k)).map Prod.fst
        = (t.rows.map Prod.fst).filter fun x => home w n x = home w n k := by
      rw [bucketRows, List.map_map, List.filter_map]
      congr 1
      funext r
      simp only [Function.comp_apply, rowOf]
      split_ifs <;> rfl
    rw [h2, List.count_filter (by simp)] at h1
    omega
  rw [decide_eq_true this]
  rfl

end

end Psi.Apsi
