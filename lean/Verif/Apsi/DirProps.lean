import Verif.Apsi.Props

/-! # C99: directories left behind by a start that did not end well -/

namespace Psi.Apsi

open Psi.Spiral (Res mapRes)
open Psi.DkPir (Str readRows readLine fieldsFrom)

section
variable {B : Type} {w : World B}

/-- C99, where it fails: the index of a group is complete and its databases are not (the index file is closed first).  The
next start succeeds and changes nothing, and queries for the keys of the group are answered with "not found". -/
theorem lost_databases (hw : Sound w) (hl : w.load [] = none) {c : Config} (hc : c.Fine) {t : Table} (ht : Fine w c.buckets t)
    (draw draw' draw2 : Nat → Nat) (newKey : Nat) {procs procs' : Nat} (hp : 0 < procs) {d : Disk B} {s : Status}
    (h : start w draw procs c (some t) (Disk.fresh : Disk B) = (d, .ok s)) {g : Nat}
    (current : Option Stored) (k : Nat) (items : List Str) {b : Nat} (hb : b < c.buckets)
    (hg : b / perGroup c.buckets c.groups = g) (x : Disk B) (hx : x = d.setGroup g ⟨some [], (d.group g).index⟩) :
    start w draw' procs' c (some t) x = (x, .ok s) ∧
      ∃ y, dispatch w draw2 newKey ⟨Server.of s.config x, current⟩ (.query b k items)
        = (y, .ok (.records (items.map fun _ => ⟨false, none⟩))) := by
  have hd : Resumable w c t (Disk.fresh : Disk B) :=
    ⟨⟨fun _ => none, fun _ _ => ⟨fun _ => .inl rfl, fun _ h => by cases h⟩⟩, fun _ _ _ => rfl⟩
  obtain ⟨d', s', K, e1, e2, e3, e4, e5, e6, e7, e8⟩ := start_ok hw hc ht draw hp hd
  rw [h] at e1
  obtain ⟨rfl, e1'⟩ := Prod.mk.inj e1
  obtain rfl := Res.ok.inj e1'
  have hgl : g < c.groups := hg ▸ group_lt hc.groups hb
  obtain ⟨index, hi, hmeta⟩ : ∃ index, (d.group g).index = some index ∧
      ∃ o, loadMeta (perGroup c.buckets c.groups) index = .ok o := by
    obtain ⟨dr, hK⟩ := Option.ne_none_iff_exists'.mp (e8 rfl g hgl)
    obtain ⟨x1, y1, o, f1, f2, -⟩ := loadMeta_done hw hc.buckets hc.groups t g dr
    rw [(e7 g hgl).2 dr hK, f1]
    exact ⟨y1, rfl, o, f2⟩
  rw [hi] at hx
  subst hx
  constructor
  · have ho : openNew c (d.setGroup g ⟨some [], some index⟩) = (d.setGroup g ⟨some [], some index⟩, .ok s) := by
      rw [openNew]
      change (match d.status with
        | some s => _
        | none => _) = _
      rw [e5]
      exact if_pos ⟨e3, e4.1, e4.2.1, e4.2.2.1, e4.2.2.2⟩
    rw [start, ho]
    simp only [if_pos e2]
  · obtain ⟨o, ho⟩ := hmeta
    have hgen : generateGroup w draw2 s.config (d.setGroup g ⟨some [], some index⟩) g
        = ((d.setGroup g ⟨some [], some index⟩).setGroup g ⟨some [], some index⟩, .ok o) := by
      rw [generateGroup]
      have : (d.setGroup g ⟨some [], some index⟩).group g = ⟨some [], some index⟩ := by simp [Disk.setGroup]
      rw [this, e4.1, e4.2.1]
      change ((d.setGroup g ⟨some [], some index⟩).setGroup g ⟨some [], some index⟩,
        loadMeta (perGroup c.buckets c.groups) index) = _
      rw [ho]
    have hbi : bucketGroupIdx s.config.buckets s.config.groups b = .ok g := by
      rw [e4.1, e4.2.1, bucketGroupIdx, if_pos hb, hg]
    have hget : ∃ y, getBucket w draw2 (Server.of s.config (d.setGroup g ⟨some [], some index⟩)) b = (y, .ok none) := by
      refine ⟨(Server.of s.config (d.setGroup g ⟨some [], some index⟩)).load
        ((d.setGroup g ⟨some [], some index⟩).setGroup g ⟨some [], some index⟩) g o, ?_⟩
      rw [getBucket]
      change (match bucketGroupIdx s.config.buckets s.config.groups b with
        | .throws => _
        | .undefined => _
        | .ok g => _) = _
      rw [hbi]
      change (match generateGroup w draw2 s.config (d.setGroup g ⟨some [], some index⟩) g with
        | (d, .ok o) => _
        | (d, .throws) => _
        | (d, .undefined) => _) = _
      rw [hgen]
      dsimp only
      have hdb : (((d.setGroup g ⟨some [], some index⟩).setGroup g ⟨some [], some index⟩).group g).db = some [] := by
        simp [Disk.setGroup]
      rw [hdb]
      have : loadBucket w o (some []) b = none := by
        rw [loadBucket]
        cases look b o with
        | none => rfl
        | some pos =>
          change w.load (([] : List B).drop pos) = none
          rw [List.drop_nil, hl]
      rw [this]
    obtain ⟨y, hy⟩ := hget
    refine ⟨⟨y, none⟩, ?_⟩
    rw [dispatch]
    change (match getBucket w draw2 (Server.of s.config (d.setGroup g ⟨some [], some index⟩)) b with
      | (s, .ok (some db)) => _
      | (s, .ok none) => _
      | (s, .throws) => _
      | (s, .undefined) => _) = _
    rw [hy]
    rfl

/-- C99, where it fails: the index of a group was created and not written.  Looking up a key of the group reads numbers that
were never set. -/
theorem empty_index (w : World B) (draw : Nat → Nat) {c : Config} {d : Disk B} {b : Nat} (hb : b < c.buckets) {x : List B}
    (hd : d.group (b / perGroup c.buckets c.groups) = ⟨some x, some []⟩) :
    ∃ s, getBucket w draw (Server.of c d) b = (s, .undefined) := by
  refine ⟨⟨c, d.setGroup (b / perGroup c.buckets c.groups) ⟨some x, some []⟩, fun _ => none⟩, ?_⟩
  rw [getBucket]
  change (match bucketGroupIdx c.buckets c.groups b with
    | .throws => _
    | .undefined => _
    | .ok g => _) = _
  rw [bucketGroupIdx, if_pos hb]
  change (match generateGroup w draw c d (b / perGroup c.buckets c.groups) with
    | (d, .ok o) => _
    | (d, .throws) => _
    | (d, .undefined) => _) = _
  rw [generateGroup, hd]
  rfl

/-! ### A second attempt -/

theorem readLine_header (labeled : Bool) : ∃ fs, readLine (if labeled then 3 else 2) (groupHeader' labeled) = .ok fs ∧
    groupRow fs = .throws := by
  cases labeled
  · exact ⟨["bucket_id".toList, "key".toList], by decide +kernel, by decide +kernel⟩
  · exact ⟨["bucket_id".toList, "key".toList, "value".toList], by decide +kernel, by decide +kernel⟩

/-- A file with two first lines cannot be read. -/
theorem readGroup_twice {labeled : Bool} {rows : List (Nat × (Str × Str))}
    (h : ∀ r ∈ rows, Quiet r.2.1 ∧ (labeled → Quiet r.2.2)) :
    readGroup (groupHeader labeled ++ groupText labeled rows) = .throws := by
  have hl : Text.lines (groupHeader labeled ++ groupText labeled rows)
      = groupHeader' labeled :: groupHeader' labeled :: rows.map fun r => groupLine' labeled r.1 r.2 := by
    rw [groupHeader_eq, List.append_assoc, List.singleton_append, Text.lines_line _ _ (by cases labeled <;> decide),
      lines_group h]
  obtain ⟨fs, h1, h2⟩ := readLine_header labeled
  have hr : readRows (if labeled then 3 else 2) (groupHeader labeled ++ groupText labeled rows)
      = .ok (fs :: rows.map fun r => fieldsOf labeled r.1 r.2) := by
    rw [readRows, hl, List.drop_one, List.tail_cons, List.filter_eq_self.mpr, mapRes, h1, bind_ok, DkPir.mapRes_map',
      DkPir.mapRes_all (g := fun r : Nat × (Str × Str) => fieldsOf labeled r.1 r.2), bind_ok]
    · exact fun r hr => readLine_group (h r hr).1 (h r hr).2
    · intro l hl
      rcases List.mem_cons.mp hl with rfl | hl
      · cases labeled <;> rfl
      · obtain ⟨r, -, rfl⟩ := List.mem_map.mp hl
        have := groupLine_ne_nil labeled r.1 r.2
        simpa [List.isEmpty_iff] using this
  rw [readGroup, hl]
  simp only [hasValue_header]
  rw [hr, bind_ok, mapRes, h2]
  rfl

/-- Every group file begins with two first lines, and nothing was made. -/
structure Twice (w : World B) (c : Config) (t : Table) (d : Disk B) : Prop where
  csv : ∀ g < c.groups, d.csv g = some (groupHeader t.labeled ++ groupText t.labeled (groupRows w c.buckets c.groups t.rows g))
  files : ∀ g, d.group g = ⟨none, none⟩

theorem generateGroup_twice {c : Config} {t : Table} (ht : ∀ r ∈ t.rows, Quiet r.1 ∧ (t.labeled → Quiet r.2))
    (draw : Nat → Nat) {d : Disk B} (hd : Twice w c t d) {g : Nat} (hg : g < c.groups) :
    ∃ d', generateGroup w draw c d g = (d', .throws) ∧ Twice w c t d' ∧ d'.status = d.status := by
  have hr : readGroup (groupHeader t.labeled ++ groupText t.labeled (groupRows w c.buckets c.groups t.rows g)) = .throws := by
    refine readGroup_twice ?_
    intro r hr
    obtain ⟨x, hx, rfl⟩ := List.mem_map.mp hr
    exact ht x (List.mem_of_mem_filter hx)
  refine ⟨d.setGroup g ⟨none, none⟩, ?_, ⟨hd.csv, ?_⟩, rfl⟩
  · rw [generateGroup, hd.csv g hg, hd.files g]
    have : generate w draw (perGroup c.buckets c.groups)
        (some (groupHeader t.labeled ++ groupText t.labeled (groupRows w c.buckets c.groups t.rows g)))
        (⟨none, none⟩ : GroupFiles B) = (⟨none, none⟩, .throws) := by
      change (match readGroup (groupHeader t.labeled ++ groupText t.labeled (groupRows w c.buckets c.groups t.rows g)) with
        | .throws => _
        | .undefined => _
        | .ok (labeled, rows) => _) = _
      rw [hr]
    rw [this]
  · intro j
    simp only [Disk.setGroup]
    split_ifs
    · rfl
    · exact hd.files j

theorem child_twice {c : Config} {t : Table} (ht : ∀ r ∈ t.rows, Quiet r.1 ∧ (t.labeled → Quiet r.2)) (draw : Nat → Nat)
    {d : Disk B} (hd : Twice w c t d) {gs : List Nat} (hg : ∀ g ∈ gs, g < c.groups) :
    ∃ d' r, child w draw c d gs = (d', r) ∧ r ≠ .undefined ∧ Twice w c t d' ∧ d'.status = d.status := by
  cases gs with
  | nil => exact ⟨d, .ok (), rfl, by simp, hd, rfl⟩
  | cons g gs =>
    obtain ⟨d', e1, e2, e3⟩ := generateGroup_twice ht draw hd (hg g List.mem_cons_self)
    refine ⟨d', .throws, ?_, by simp, e2, e3⟩
    rw [child, e1]

theorem children_twice {c : Config} {t : Table} (ht : ∀ r ∈ t.rows, Quiet r.1 ∧ (t.labeled → Quiet r.2)) (draw : Nat → Nat) :
    ∀ (rs : List (List Nat)) (d : Disk B), Twice w c t d → (∀ r ∈ rs, ∀ g ∈ r, g < c.groups) →
    ∃ d', children w draw c d rs = (d', .ok ()) ∧ Twice w c t d' ∧ d'.status = d.status
  | [], d, h, _ => ⟨d, rfl, h, rfl⟩
  | r :: rs, d, h, hr => by
    obtain ⟨d1, x, e1, e2, e3, e4⟩ := child_twice ht draw h (hr r List.mem_cons_self)
    obtain ⟨d2, f1, f2, f3⟩ := children_twice ht draw rs d1 e3 (fun y hy => hr y (List.mem_cons_of_mem _ hy))
    refine ⟨d2, ?_, f2, f3.trans e4⟩
    rw [children, e1]
    cases x with
    | undefined => exact absurd rfl e2
    | throws => exact f1
    | ok _ => exact f1

/-- C99, where it fails, if the stream keeps what a file held: a start that failed while it divided (here: over a table
without rows) leaves first lines behind; the next start, with a table that is right, succeeds, and no bucket can be had. -/
theorem second_attempt (hkeep : w.keepOld = true) {c : Config} (hc : c.Fine) {t : Table} (ht : Fine w c.buckets t)
    (draw draw' draw2 : Nat → Nat) {procs procs' : Nat} (hp : 0 < procs') :
    ∃ d1 d2 s, start w draw procs c (some ⟨t.labeled, []⟩) (Disk.fresh : Disk B) = (d1, .throws) ∧
      start w draw' procs' c (some t) d1 = (d2, .ok s) ∧ s.state = .generated ∧
      ∀ b < c.buckets, ∃ y, getBucket w draw2 (Server.of s.config d2) b = (y, .throws) := by
  have hfirst : start w draw procs c (some ⟨t.labeled, []⟩) (Disk.fresh : Disk B)
      = (⟨some ⟨dbVersion, c, .empty⟩, openStreams w c.groups t.labeled (fun _ => none), fun _ => ⟨none, none⟩⟩, .throws) := by
    have hop : openNew c (Disk.fresh : Disk B)
        = ({ (Disk.fresh : Disk B) with status := some ⟨dbVersion, c, .empty⟩ }, .ok ⟨dbVersion, c, .empty⟩) := rfl
    rw [start, hop]
    simp only [reduceCtorEq, if_false]
    have hdiv : divideGroup w ⟨dbVersion, c, .empty⟩ (some ⟨t.labeled, []⟩)
        ({ (Disk.fresh : Disk B) with status := some ⟨dbVersion, c, .empty⟩ } : Disk B)
        = (⟨some ⟨dbVersion, c, .empty⟩, openStreams w c.groups t.labeled (fun _ => none), fun _ => ⟨none, none⟩⟩, .throws) := by
      rw [divideGroup, if_neg (by simp)]
      have hb : groupBucketize w c.buckets c.groups ⟨t.labeled, []⟩ (fun _ => none)
          = (openStreams w c.groups t.labeled (fun _ => none), .throws) := by
        rw [groupBucketize, if_neg (Nat.ne_of_gt hc.groups)]
        rfl
      change (match groupBucketize w c.buckets c.groups ⟨t.labeled, []⟩ (fun _ => none) with
        | (f, .ok _) => ((⟨some ⟨dbVersion, c, .bucketed⟩, f, fun _ => ⟨none, none⟩⟩ : Disk B),
            (.ok ⟨dbVersion, c, .bucketed⟩ : Res Status))
        | (f, .throws) => (⟨some ⟨dbVersion, c, .empty⟩, f, fun _ => ⟨none, none⟩⟩, .throws)
        | (f, .undefined) => (⟨some ⟨dbVersion, c, .empty⟩, f, fun _ => ⟨none, none⟩⟩, .undefined)) = _
      rw [hb]
    rw [generateAll, hdiv]
  obtain ⟨f, e1, e2⟩ := divideRows_ok (w := w) hc.buckets hc.small hc.groups t.labeled t.rows
    (openStreams w c.groups t.labeled (openStreams w c.groups t.labeled (fun _ => none)))
  have hcsv : ∀ g < c.groups,
      f g = some (groupHeader t.labeled ++ groupText t.labeled (groupRows w c.buckets c.groups t.rows g)) := by
    intro g hg
    rw [groupText_eq, ← List.append_assoc]
    refine e2 g _ ?_
    simp only [openStreams, if_pos hg, hkeep, if_true]
    rfl
  have hb : groupBucketize w c.buckets c.groups t (openStreams w c.groups t.labeled (fun _ => none)) = (f, .ok ()) := by
    rw [groupBucketize, if_neg (Nat.ne_of_gt hc.groups), e1]
    simp only [if_neg ht.rows]
  have hT : Twice w c t (⟨some ⟨dbVersion, c, .bucketed⟩, f, fun _ => ⟨none, none⟩⟩ : Disk B) := ⟨hcsv, fun _ => rfl⟩
  obtain ⟨d', g1, g2, -⟩ := children_twice ht.quiet draw' ((List.range procs').map (rangeOf c.groups procs')) _ hT
    (by
      intro r hr g hg
      obtain ⟨i, -, rfl⟩ := List.mem_map.mp hr
      exact (mem_rangeOf.mp hg).1)
  refine ⟨_, { d' with status := some ⟨dbVersion, c, .generated⟩ }, ⟨dbVersion, c, .generated⟩, hfirst, ?_, rfl, ?_⟩
  · have hop : openNew c (⟨some ⟨dbVersion, c, .empty⟩, openStreams w c.groups t.labeled (fun _ => none),
        fun _ => ⟨none, none⟩⟩ : Disk B)
        = (⟨some ⟨dbVersion, c, .empty⟩, openStreams w c.groups t.labeled (fun _ => none), fun _ => ⟨none, none⟩⟩,
          .ok ⟨dbVersion, c, .empty⟩) := by
      rw [openNew]
      exact if_pos ⟨rfl, rfl, rfl, rfl, rfl⟩
    rw [start, hop]
    simp only [reduceCtorEq, if_false]
    have hdiv : divideGroup w ⟨dbVersion, c, .empty⟩ (some t)
        (⟨some ⟨dbVersion, c, .empty⟩, openStreams w c.groups t.labeled (fun _ => none), fun _ => ⟨none, none⟩⟩ : Disk B)
        = (⟨some ⟨dbVersion, c, .bucketed⟩, f, fun _ => ⟨none, none⟩⟩, .ok ⟨dbVersion, c, .bucketed⟩) := by
      rw [divideGroup, if_neg (by simp)]
      simp only [hb]
    rw [generateAll, hdiv]
    dsimp only
    rw [processGroups, if_neg (Nat.ne_of_gt hp), g1]
  · intro b hb'
    have hT' : Twice w c t { d' with status := some ⟨dbVersion, c, .generated⟩ } := ⟨g2.csv, g2.files⟩
    obtain ⟨d3, k1, -, -⟩ := generateGroup_twice ht.quiet draw2 hT' (group_lt hc.groups hb')
    refine ⟨⟨c, d3, fun _ => none⟩, ?_⟩
    rw [getBucket]
    change (match bucketGroupIdx c.buckets c.groups b with
      | .throws => _
      | .undefined => _
      | .ok g => _) = _
    rw [bucketGroupIdx, if_pos hb']
    change (match generateGroup w draw2 c { d' with status := some ⟨dbVersion, c, .generated⟩ }
        (b / perGroup c.buckets c.groups) with
      | (d, .ok o) => _
      | (d, .throws) => _
      | (d, .undefined) => _) = _
    rw [k1]
    rfl

/-! ### Quotes -/

/-- **C99.** A group whose file is empty or missing, as a run leaves it that stopped before the header reached the disk, is
refused, and nothing is written; unless the database of the group is already there. -/
theorem empty_group_refused {B : Type} (w : World B) (draw : Nat → Nat) (cap : Nat) {csv : Option Str}
    (hcsv : csv = none ∨ csv = some []) {f : GroupFiles B} (hf : f.db = none ∨ f.index = none) :
    generate w draw cap csv f = (f, .throws) := by
  obtain ⟨db, index⟩ := f
  rcases hf with h | h <;> simp only at h <;> subst h <;> rcases hcsv with rfl | rfl <;>
    first | rfl | (cases db <;> rfl)

example {B : Type} (w : World B) (draw : Nat → Nat) (old : List B) :
    generate w draw 100 (some []) ⟨some old, none⟩ = (⟨some old, none⟩, .throws) :=
  empty_group_refused w draw 100 (.inr rfl) (.inr rfl)

/-- C99, where it fails: quotes in keys are not doubled, so that the key is another one when it is read back. -/
theorem quoted_key : ∃ k k' : Str, k ≠ k' ∧ ∀ b, readGroup (groupText false [(b, (k, []))]) = .ok (false, [(b, (k', []))]) := by
  refine ⟨"a\"b".toList, "ab\"".toList, by decide, ?_⟩
  intro b
  have hq : fieldsFrom .start "\"a\"b\"".toList = some ["ab\"".toList] := by decide +kernel
  have hn : '\n' ∉ groupLine' false b ("a\"b".toList, []) := by
    have hd : '\n' ∉ Text.dec b := Text.dec_not_mem b _ (by decide)
    simp [groupLine', hd]
  have hl : Text.lines (groupText false [(b, ("a\"b".toList, []))])
      = [groupHeader' false, groupLine' false b ("a\"b".toList, [])] := by
    rw [groupText, groupHeader_eq, List.append_assoc, List.singleton_append, Text.lines_line _ _ (by decide),
      List.flatMap_cons, List.flatMap_nil, List.append_nil, groupLine_eq]
    have := Text.lines_line _ [] hn
    rw [this]
    rfl
  have hr : readLine 2 (groupLine' false b ("a\"b".toList, [])) = .ok [Text.dec b, "ab\"".toList] := by
    rw [readLine, groupLine', DkPir.fields_start_cons _ _ (dec_plain b)]
    have : '"' :: ("a\"b".toList ++ '"' :: (if false = true then ',' :: '"' :: (([] : Str) ++ ['"']) else []))
        = "\"a\"b\"".toList := by decide
    rw [this, hq]
    rfl
  rw [readGroup, hl]
  simp only [hasValue_header, Bool.false_eq_true, if_false]
  have hne : (groupLine' false b ("a\"b".toList, [])).isEmpty = false := by
    have := groupLine_ne_nil false b ("a\"b".toList, [])
    cases h : groupLine' false b ("a\"b".toList, []) with
    | nil => exact absurd h this
    | cons _ _ => rfl
  rw [readRows, hl]
  simp only [List.drop_succ_cons, List.drop_zero, List.filter_cons, hne, Bool.not_false, if_true, List.filter_nil]
  rw [mapRes, hr, bind_ok, mapRes, bind_ok, bind_ok, mapRes]
  have := groupRow_fields false b ("ab\"".toList, [])
  rw [show fieldsOf false b ("ab\"".toList, []) = [Text.dec b, "ab\"".toList] from rfl] at this
  rw [this]
  rfl

end

end Psi.Apsi
