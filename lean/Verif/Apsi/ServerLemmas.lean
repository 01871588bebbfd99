import Verif.Apsi.GroupLemmas

/-! # The directory after the start, and the buckets a running sender loads -/

namespace Psi.Apsi

open Psi.Spiral (Res mapRes)
open Psi.DkPir (Str)

section
variable {B : Type} {w : World B}

/-- The draws with which the groups were made, as far as they were. -/
abbrev Made := Nat → Option (Nat → Nat)

/-- Nothing made is made again. -/
def Made.le (K K' : Made) : Prop := ∀ g dr, K g = some dr → K' g = some dr

theorem Made.le_refl (K : Made) : K.le K := fun _ _ h => h

theorem Made.le_trans {K K' K'' : Made} (h : K.le K') (h' : K'.le K'') : K.le K'' := fun g dr hg => h' g dr (h g dr hg)

/-- One more group. -/
def Made.add (K : Made) (g : Nat) (dr : Nat → Nat) : Made := fun j => if j = g then some dr else K j

/-- The database files of a directory. -/
def GroupsOk (w : World B) (c : Config) (t : Table) (d : Disk B) (K : Made) : Prop :=
  ∀ g < c.groups, (K g = none → (d.group g).db = none ∨ (d.group g).index = none) ∧
    ∀ dr, K g = some dr → d.group g = doneFiles w c.buckets c.groups t g dr

/-- The divided table. -/
def CsvOk (w : World B) (c : Config) (t : Table) (d : Disk B) : Prop :=
  ∀ g < c.groups, d.csv g = some (groupText t.labeled (groupRows w c.buckets c.groups t.rows g))

/-- Settings that work. -/
structure Config.Fine (c : Config) : Prop where
  buckets : 0 < c.buckets
  small : c.buckets ≤ 2 ^ 31
  groups : 0 < c.groups

theorem generateGroup_ok (hw : Sound w) {c : Config} (hc : c.Fine) {t : Table} (ht : Fine w c.buckets t) (draw : Nat → Nat)
    {d : Disk B} {K : Made} (hcsv : CsvOk w c t d) (hd : GroupsOk w c t d K) {g : Nat} (hg : g < c.groups) :
    ∃ o dr, generateGroup w draw c d g = (d.setGroup g (doneFiles w c.buckets c.groups t g dr), .ok o) ∧
      Serves w c.buckets c.groups t g dr o ∧ K.le (K.add g dr) ∧
      GroupsOk w c t (d.setGroup g (doneFiles w c.buckets c.groups t g dr)) (K.add g dr) := by
  have keep : ∀ dr, (∀ x, K g = some x → x = dr) → K.le (K.add g dr) ∧
      GroupsOk w c t (d.setGroup g (doneFiles w c.buckets c.groups t g dr)) (K.add g dr) := by
    intro dr hdr
    constructor
    · intro j x hx
      rw [Made.add]
      split_ifs with h
      · subst h
        rw [hdr x hx]
      · exact hx
    · intro j hj
      simp only [Made.add, Disk.setGroup]
      by_cases h : j = g
      · subst h
        simp
      · simp only [if_neg h]
        exact hd j hj
  cases hK : K g with
  | none =>
    obtain ⟨o, h1, h2⟩ := generate_new hw hc.buckets hc.groups ht g draw ((hd g hg).1 hK)
    refine ⟨o, draw, ?_, h2, keep draw (by rw [hK]; simp)⟩
    rw [generateGroup, hcsv g hg, h1]
  | some dr =>
    obtain ⟨o, h1, h2⟩ := generate_done hw hc.buckets hc.groups t g dr draw (d.csv g)
    refine ⟨o, dr, ?_, h2, keep dr (by rw [hK]; simp)⟩
    rw [generateGroup, (hd g hg).2 dr hK, h1]

theorem child_ok (hw : Sound w) {c : Config} (hc : c.Fine) {t : Table} (ht : Fine w c.buckets t) (draw : Nat → Nat) :
    ∀ (gs : List Nat) (d : Disk B) (K : Made), CsvOk w c t d → GroupsOk w c t d K → (∀ g ∈ gs, g < c.groups) →
      ∃ d' K', child w draw c d gs = (d', .ok ()) ∧ CsvOk w c t d' ∧ GroupsOk w c t d' K' ∧ K.le K' ∧
        (∀ g ∈ gs, K' g ≠ none) ∧ d'.status = d.status
  | [], d, K, h1, h2, _ => ⟨d, K, rfl, h1, h2, K.le_refl, by simp, rfl⟩
  | g :: gs, d, K, h1, h2, h3 => by
    obtain ⟨o, dr, e1, -, e2, e3⟩ := generateGroup_ok hw hc ht draw h1 h2 (h3 g List.mem_cons_self)
    obtain ⟨d', K', f1, f2, f3, f4, f5, f6⟩ := child_ok hw hc ht draw gs
      (d.setGroup g (doneFiles w c.buckets c.groups t g dr)) (K.add g dr) h1 e3 (fun x hx => h3 x (List.mem_cons_of_mem _ hx))
    refine ⟨d', K', ?_, f2, f3, Made.le_trans e2 f4, ?_, f6⟩
    · rw [child, e1]
      exact f1
    · intro x hx
      rcases List.mem_cons.mp hx with rfl | hx
      · have := f4 x dr (by simp [Made.add])
        rw [this]
        exact Option.some_ne_none _
      · exact f5 x hx

theorem children_ok (hw : Sound w) {c : Config} (hc : c.Fine) {t : Table} (ht : Fine w c.buckets t) (draw : Nat → Nat) :
    ∀ (rs : List (List Nat)) (d : Disk B) (K : Made), CsvOk w c t d → GroupsOk w c t d K →
      (∀ r ∈ rs, ∀ g ∈ r, g < c.groups) →
      ∃ d' K', children w draw c d rs = (d', .ok ()) ∧ CsvOk w c t d' ∧ GroupsOk w c t d' K' ∧ K.le K' ∧
        (∀ r ∈ rs, ∀ g ∈ r, K' g ≠ none) ∧ d'.status = d.status
  | [], d, K, h1, h2, _ => ⟨d, K, rfl, h1, h2, K.le_refl, by simp, rfl⟩
  | r :: rs, d, K, h1, h2, h3 => by
    obtain ⟨d1, K1, e1, e2, e3, e4, e5, e6⟩ := child_ok hw hc ht draw r d K h1 h2 (h3 r List.mem_cons_self)
    obtain ⟨d', K', f1, f2, f3, f4, f5, f6⟩ := children_ok hw hc ht draw rs d1 K1 e2 e3
      (fun x hx => h3 x (List.mem_cons_of_mem _ hx))
    refine ⟨d', K', ?_, f2, f3, Made.le_trans e4 f4, ?_, f6.trans e6⟩
    · rw [children, e1]
      exact f1
    · intro x hx g hg
      rcases List.mem_cons.mp hx with rfl | hx
      · cases hK : K1 g with
        | none => exact absurd hK (e5 g hg)
        | some dr =>
          rw [f4 g dr hK]
          simp
      · exact f5 x hx g hg

theorem mem_rangeOf {G p i g : Nat} : g ∈ rangeOf G p i ↔ g < G ∧ (G + p - 1) / p * i ≤ g ∧ g < (G + p - 1) / p * (i + 1) := by
  rw [rangeOf]
  simp only [List.mem_filter, List.mem_range, decide_eq_true_eq, Nat.lt_min]
  tauto

/-- Every group has a process. -/
theorem rangeOf_cover {G p g : Nat} (hp : 0 < p) (hg : g < G) : ∃ i < p, g ∈ rangeOf G p i := by
  have hG : 0 < G := by omega
  have hper : 0 < (G + p - 1) / p := by
    have := perGroup_pos (n := G) (G := p) hG hp
    exact this
  have hle : G ≤ (G + p - 1) / p * p := le_perGroup (n := G) hp
  refine ⟨g / ((G + p - 1) / p), ?_, mem_rangeOf.mpr ⟨hg, ?_, ?_⟩⟩
  · exact Nat.div_lt_of_lt_mul (by omega)
  · exact Nat.mul_div_le _ _
  · have h1 := Nat.div_add_mod g ((G + p - 1) / p)
    have h2 := Nat.mod_lt g hper
    rw [Nat.mul_add, Nat.mul_one]
    omega

theorem processGroups_ok (hw : Sound w) {c : Config} (hc : c.Fine) {t : Table} (ht : Fine w c.buckets t) (draw : Nat → Nat)
    {procs : Nat} (hp : 0 < procs) {d : Disk B} {K : Made} (h1 : CsvOk w c t d) (h2 : GroupsOk w c t d K) :
    ∃ d' K', processGroups w draw c procs d = (d', .ok ()) ∧ CsvOk w c t d' ∧ GroupsOk w c t d' K' ∧
      (∀ g < c.groups, K' g ≠ none) ∧ d'.status = d.status := by
  obtain ⟨d', K', e1, e2, e3, -, e5, e6⟩ := children_ok hw hc ht draw ((List.range procs).map (rangeOf c.groups procs)) d K h1 h2
    (by
      intro r hr g hg
      obtain ⟨i, -, rfl⟩ := List.mem_map.mp hr
      exact (mem_rangeOf.mp hg).1)
  refine ⟨d', K', ?_, e2, e3, ?_, e6⟩
  · rw [processGroups, if_neg (Nat.ne_of_gt hp), e1]
  · intro g hg
    obtain ⟨i, hi, hm⟩ := rangeOf_cover hp hg
    exact e5 _ (List.mem_map.mpr ⟨i, List.mem_range.mpr hi, rfl⟩) g hm

/-- Settings the directory was made with are the same but for `compress`. -/
def SameConfig (a c : Config) : Prop :=
  a.groups = c.groups ∧ a.buckets = c.buckets ∧ a.nonce = c.nonce ∧ a.params = c.params

/-- A directory in which the work for a table may be begun or taken up again. -/
def Resumable (w : World B) (c : Config) (t : Table) (d : Disk B) : Prop :=
  (∃ K, GroupsOk w c t d K) ∧
  match d.status with
  | none => ∀ i < c.groups, w.keepOld = true → (d.csv i).getD [] = []
  | some s => s.version = dbVersion ∧ SameConfig s.config c ∧
      (s.state = .empty → ∀ i < c.groups, w.keepOld = true → (d.csv i).getD [] = []) ∧
      (s.state ≠ .empty → CsvOk w c t d)

theorem divideGroup_ok {c : Config} (hc : c.Fine) {t : Table} (ht : Fine w c.buckets t) {s : Status} {d : Disk B}
    (hs : SameConfig s.config c)
    (h1 : s.state = .empty → ∀ i < c.groups, w.keepOld = true → (d.csv i).getD [] = [])
    (h2 : s.state ≠ .empty → CsvOk w c t d) :
    ∃ d' s', divideGroup w s (some t) d = (d', .ok s') ∧ s'.config = s.config ∧ s'.version = s.version ∧
      CsvOk w c t d' ∧ d'.group = d.group := by
  by_cases he : s.state = .empty
  · obtain ⟨f, e1, e2⟩ := groupBucketize_ok (w := w) hc.buckets hc.small hc.groups ht.rows (h1 he)
    refine ⟨{ d with csv := f, status := some { s with state := .bucketed } }, { s with state := .bucketed }, ?_, rfl, rfl,
      e2, rfl⟩
    rw [divideGroup, if_neg (by rw [he]; decide), hs.1, hs.2.1]
    simp only [e1]
  · refine ⟨d, s, ?_, rfl, rfl, h2 he, rfl⟩
    rw [divideGroup, if_pos]
    cases h : s.state <;> simp_all

theorem generateAll_ok (hw : Sound w) {c : Config} (hc : c.Fine) {t : Table} (ht : Fine w c.buckets t) (draw : Nat → Nat)
    {procs : Nat} (hp : 0 < procs) {s : Status} {d : Disk B} (hs : SameConfig s.config c)
    (h1 : s.state = .empty → ∀ i < c.groups, w.keepOld = true → (d.csv i).getD [] = [])
    (h2 : s.state ≠ .empty → CsvOk w c t d) {K : Made} (hK : GroupsOk w c t d K) :
    ∃ d' s' K', generateAll w draw procs s (some t) d = (d', .ok s') ∧ s'.state = .generated ∧ s'.version = s.version ∧
      SameConfig s'.config c ∧ d'.status = some s' ∧ CsvOk w c t d' ∧ GroupsOk w c t d' K' ∧
      ∀ g < c.groups, K' g ≠ none := by
  obtain ⟨d1, s1, e1, e2, e2', e3, e4⟩ := divideGroup_ok hc ht hs h1 h2
  have hc1 : s1.config.Fine := by
    rw [e2]
    refine ⟨?_, ?_, ?_⟩
    · rw [hs.2.1]; exact hc.buckets
    · rw [hs.2.1]; exact hc.small
    · rw [hs.1]; exact hc.groups
  have hb : s1.config.buckets = c.buckets := by rw [e2, hs.2.1]
  have hg : s1.config.groups = c.groups := by rw [e2, hs.1]
  have hcsv : CsvOk w s1.config t d1 := by
    intro g h
    rw [hb, hg]
    exact e3 g (hg ▸ h)
  have hgr : GroupsOk w s1.config t d1 K := by
    intro g h
    rw [hb, hg, e4]
    exact hK g (hg ▸ h)
  obtain ⟨d2, K', f1, f2, f3, f4, -⟩ := processGroups_ok hw hc1 (hb.symm ▸ ht) draw hp hcsv hgr
  refine ⟨{ d2 with status := some { s1 with state := .generated } }, { s1 with state := .generated }, K', ?_, rfl, e2', ?_,
    rfl, ?_, ?_, fun g h => f4 g (hg.symm ▸ h)⟩
  · rw [generateAll, e1]
    simp only [f1]
  · change SameConfig s1.config c
    rw [e2]
    exact hs
  · intro g h
    have := f2 g (hg.symm ▸ h)
    rw [hb, hg] at this
    exact this
  · intro g h
    have := f3 g (hg.symm ▸ h)
    rw [hb, hg] at this
    exact this

/-- The start succeeds and leaves the finished files of the table. -/
theorem start_ok (hw : Sound w) {c : Config} (hc : c.Fine) {t : Table} (ht : Fine w c.buckets t) (draw : Nat → Nat)
    {procs : Nat} (hp : 0 < procs) {d : Disk B} (hd : Resumable w c t d) :
    ∃ d' s' K, start w draw procs c (some t) d = (d', .ok s') ∧ s'.state = .generated ∧ s'.version = dbVersion ∧
      SameConfig s'.config c ∧ d'.status = some s' ∧ CsvOk w c t d' ∧ GroupsOk w c t d' K ∧
      (d.status = none → ∀ g < c.groups, K g ≠ none) := by
  obtain ⟨⟨K, hK⟩, hst⟩ := hd
  cases hs : d.status with
  | none =>
    rw [hs] at hst
    have ho : openNew c d = ({ d with status := some ⟨dbVersion, c, .empty⟩ }, .ok ⟨dbVersion, c, .empty⟩) := by
      rw [openNew, hs]
    rw [start, ho]
    simp only [reduceCtorEq, if_false]
    obtain ⟨d', s', K', e1, e2, e3, e4, e5, e6, e7, e8⟩ := generateAll_ok hw hc ht draw hp (s := ⟨dbVersion, c, .empty⟩)
      (d := { d with status := some ⟨dbVersion, c, .empty⟩ }) ⟨rfl, rfl, rfl, rfl⟩ (fun _ => hst) (fun h => absurd rfl h) hK
    exact ⟨d', s', K', e1, e2, e3, e4, e5, e6, e7, fun _ => e8⟩
  | some s =>
    rw [hs] at hst
    obtain ⟨hv, hsc, h1, h2⟩ := hst
    have ho : openNew c d = (d, .ok s) := by
      rw [openNew, hs]
      exact if_pos ⟨hv, hsc.1, hsc.2.1, hsc.2.2.1, hsc.2.2.2⟩
    rw [start, ho]
    by_cases hg : s.state = .generated
    · refine ⟨d, s, K, ?_, hg, hv, hsc, hs, h2 (by rw [hg]; decide), hK, fun h => by cases h⟩
      simp only [if_pos hg]
    · simp only [if_neg hg]
      rw [← hv]
      obtain ⟨d', s', K', e1, e2, e3, e4, e5, e6, e7, -⟩ := generateAll_ok hw hc ht draw hp hsc h1 h2 hK
      exact ⟨d', s', K', e1, e2, e3, e4, e5, e6, e7, fun h => by cases h⟩

/-! ### A running sender -/

/-- What holds of a running sender. -/
structure Inv (w : World B) (c : Config) (t : Table) (s : Server B) (K : Made) : Prop where
  config : s.config.buckets = c.buckets ∧ s.config.groups = c.groups
  csv : CsvOk w c t s.disk
  files : GroupsOk w c t s.disk K
  loaded : ∀ g < c.groups, ∀ o, s.groups g = some o → ∃ dr, K g = some dr ∧ Serves w c.buckets c.groups t g dr o

theorem inv_of {c c' : Config} (hc : SameConfig c' c) {t : Table} {d : Disk B} {K : Made} (h1 : CsvOk w c t d)
    (h2 : GroupsOk w c t d K) : Inv w c t (Server.of c' d) K :=
  ⟨⟨hc.2.1, hc.1⟩, h1, h2, fun _ _ _ h => by cases h⟩

theorem getBucket_ok (hw : Sound w) {c : Config} (hc : c.Fine) {t : Table} (ht : Fine w c.buckets t) (draw : Nat → Nat)
    {s : Server B} {K : Made} (hs : Inv w c t s K) {b : Nat} (hb : b < c.buckets) :
    ∃ s' K' dr, getBucket w draw s b = (s', .ok (dbOf w c.buckets t dr b)) ∧ Inv w c t s' K' ∧ K.le K' ∧
      K' (b / perGroup c.buckets c.groups) = some dr := by
  have hg : b / perGroup c.buckets c.groups < c.groups := group_lt hc.groups hb
  have hbi : bucketGroupIdx s.config.buckets s.config.groups b = .ok (b / perGroup c.buckets c.groups) := by
    rw [hs.config.1, hs.config.2, bucketGroupIdx, if_pos hb]
  rw [getBucket, hbi]
  dsimp only
  cases ho : s.groups (b / perGroup c.buckets c.groups) with
  | some o =>
    obtain ⟨dr, h1, h2⟩ := hs.loaded _ hg o ho
    refine ⟨s, K, dr, ?_, hs, K.le_refl, h1⟩
    dsimp only
    rw [(hs.files _ hg).2 dr h1, h2 b rfl]
  | none =>
    have e0 : generateGroup w draw s.config s.disk (b / perGroup c.buckets c.groups)
        = generateGroup w draw c s.disk (b / perGroup c.buckets c.groups) := by
      rw [generateGroup, generateGroup, hs.config.1, hs.config.2]
    obtain ⟨o, dr, e1, e2, e3, e4⟩ := generateGroup_ok hw hc ht draw hs.csv hs.files hg
    refine ⟨s.load (s.disk.setGroup (b / perGroup c.buckets c.groups)
      (doneFiles w c.buckets c.groups t (b / perGroup c.buckets c.groups) dr)) (b / perGroup c.buckets c.groups) o,
      K.add (b / perGroup c.buckets c.groups) dr, dr, ?_, ⟨hs.config, hs.csv, e4, ?_⟩, e3, by simp [Made.add]⟩
    · dsimp only
      rw [e0, e1]
      dsimp only
      have : ((s.disk.setGroup (b / perGroup c.buckets c.groups)
        (doneFiles w c.buckets c.groups t (b / perGroup c.buckets c.groups) dr)).group (b / perGroup c.buckets c.groups))
        = doneFiles w c.buckets c.groups t (b / perGroup c.buckets c.groups) dr := by
        simp [Disk.setGroup]
      rw [this, e2 b rfl]
    · intro g hg' o' ho'
      rw [Server.load] at ho'
      dsimp only at ho'
      by_cases h : g = b / perGroup c.buckets c.groups
      · rw [if_pos h] at ho'
        obtain rfl := Option.some.inj ho'
        exact ⟨dr, by rw [Made.add, if_pos h], h ▸ e2⟩
      · rw [if_neg h] at ho'
        obtain ⟨dr', x1, x2⟩ := hs.loaded g hg' o' ho'
        exact ⟨dr', e3 _ _ x1, x2⟩

end

end Psi.Apsi
