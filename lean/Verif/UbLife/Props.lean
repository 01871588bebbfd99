import Verif.UbLife.Lemmas
import Verif.UbPsi.Props

/-!
# C107: the files of the unbalanced PSI server over its runs

C107 asks that a cache, once generated, serves the table it was made from, whatever happens to the input
afterwards; that a generation does not depend on what was in the directory before; that an interrupted generation
is never taken for a cache; and that a start that is refused leaves the cache as it was.  The first three hold
(`C107_generation`, `C107_later_runs`, `C107_interrupted`), the last one does not
(`C107_refused_start_loses_cache`).
-/

namespace Psi.UbLife

variable {T I R : Type} (o : Ops T I R)

/-- What the run that makes a cache delivers, in the three modes that do. -/
def delivered (c : Cfg) (s : T) (i : I) (rs : List R) (key : List UInt8) : Out T I R :=
  match c.mode with
  | .offline => ⟨some rs, none⟩
  | .full => ⟨some rs, some ⟨key, s, i, if c.serverGets then some rs else none⟩⟩
  | _ => ⟨none, none⟩

/-- **C107** Whatever was on the disk before (an old cache, the rest of an interrupted generation, anything): a
generation from a table that lies outside the cache directory succeeds, the directory then holds the five files
made from this table and nothing else, and no other file changed. -/
theorem C107_generation (c : Cfg) (fresh : List UInt8) (d : Disk T I R) (t s : T)
    (hmode : c.mode = .genCache ∨ c.mode = .offline ∨ c.mode = .full) (hne : c.cache ≠ []) (hi : c.input ≠ [])
    (hcsv : c.inputCsv = true) (hside : c.sideMissing = false)
    (hres : c.mode = .full → c.serverGets = true → c.outputCsv = true)
    (hin : d c.input = some (.file (.table t))) (hs : o.sort c.keys t = some s) (hout : ¬ c.cache <+: c.input)
    (hl : (o.recs (c.keyFile.getD fresh) (o.info c.keys s)).length < 2 ^ 32) :
    let key := c.keyFile.getD fresh
    let i := o.info c.keys s
    let rs := o.recs key i
    ∃ d', run o c fresh d = (.ok (delivered c s i rs key), d') ∧
      (∀ l, d' (c.cache ++ l) = contents o.size s i rs key l) ∧
      (∀ q, ¬ c.cache <+: q → ¬ q <+: c.cache → d' q = d q) ∧
      (∀ q n, ¬ c.cache <+: q → d q = some n → d' q = some n) := by
  intro key i rs
  have hb := made_below o c s key d hl
  refine ⟨made o c s key d, ?_, hb, ?_, ?_⟩
  · have h1 := init_gen c d hne (by rcases hmode with h | h | h <;> simp [needsInput, h]) hcsv hside
      (by simp [present, hin]) hres
    have h2 := gen_fresh o c fresh d hi hin hs hout
    have h3 := transfer_complete (o := o) hb
    have h4 := online_complete c c.input rfl hb
    have h5 : c.keyFile.getD key = key := by
      simp only [key]
      cases c.keyFile <;> rfl
    rw [h5] at h4
    rcases hmode with h | h | h <;>
      simp [run, andThen, h1, h, h2, delivered, h3, h4, key, i, rs]
  · intro q hq hq'
    rw [made_kept o c s key d q hq, mkdirs_other _ _ _ hq']
  · intro q n hq hn
    rw [made_kept o c s key d q hq, mkdirs_some _ _ _ _ hn]

/-- **C107** A complete cache serves the table it was made from: a later run sends its records and joins with its
table, its summary and its key.  The input it names, and the key columns it names, do not matter, and no file
changes. -/
theorem C107_later_runs (c : Cfg) (fresh : List UInt8) (d : Disk T I R) (s : T) (i : I) (rs : List R)
    (key : List UInt8) (h : ∀ l, d (c.cache ++ l) = contents o.size s i rs key l) (hne : c.cache ≠ [])
    (hside : c.sideMissing = false) (hres : c.mode = .online → c.serverGets = true → c.outputCsv = true) :
    (c.mode = .transferCache → run o c fresh d = (.ok ⟨some rs, none⟩, d)) ∧
    (c.mode = .online → run o c fresh d = (.ok ⟨none, some ⟨c.keyFile.getD key, s, i,
      if c.serverGets then some rs else none⟩⟩, d)) := by
  constructor <;> intro hm
  · have h1 := init_complete c rfl h hne hside (by simp [needsInput, hm]) (by simp [hm]) hres
    simp [run, andThen, h1, hm, transfer_complete (o := o) h]
  · have h1 := init_complete c rfl h hne hside (by simp [needsInput, hm]) (by simp [hm]) hres
    simp [run, andThen, h1, hm, online_complete c [] rfl h]

/-- Runs one after the other; between them something else may change the disk. -/
def history (fresh : List UInt8) : List ((Disk T I R → Disk T I R) × Cfg) → Disk T I R →
    List (Except Err (Out T I R)) × Disk T I R
  | [], d => ([], d)
  | (f, c) :: hs, d =>
    let r := run o c fresh (f d)
    let rest := history fresh hs r.2
    (r.1 :: rest.1, rest.2)

/-- **C107** After a generation any number of transfers and online phases serve the table of the generation,
although the input may be replaced or deleted in between: only what happens below the cache directory matters. -/
theorem C107_any_history (cache : Path) (hne : cache ≠ []) (fresh : List UInt8) (s : T) (i : I) (rs : List R)
    (key : List UInt8) (hs : List ((Disk T I R → Disk T I R) × Cfg)) (d : Disk T I R)
    (h : ∀ l, d (cache ++ l) = contents o.size s i rs key l)
    (hf : ∀ x ∈ hs, ∀ d' l, x.1 d' (cache ++ l) = d' (cache ++ l))
    (hc : ∀ x ∈ hs, x.2.cache = cache ∧ x.2.sideMissing = false ∧ (x.2.mode = .transferCache ∨ x.2.mode = .online) ∧
      (x.2.mode = .online → x.2.serverGets = true → x.2.outputCsv = true)) :
    (history o fresh hs d).1 = hs.map (fun x => .ok (if x.2.mode = .online then
      ⟨none, some ⟨x.2.keyFile.getD key, s, i, if x.2.serverGets then some rs else none⟩⟩ else ⟨some rs, none⟩)) ∧
    ∀ l, (history o fresh hs d).2 (cache ++ l) = contents o.size s i rs key l := by
  induction hs generalizing d with
  | nil => exact ⟨rfl, h⟩
  | cons x hs ih =>
    obtain ⟨f, c⟩ := x
    obtain ⟨h1, h2, h3, h4⟩ := hc (f, c) (by simp)
    dsimp only at h1 h2 h3 h4
    have hd : ∀ l, f d (cache ++ l) = contents o.size s i rs key l := fun l =>
      (hf (f, c) (by simp) d l).trans (h l)
    have hd' := hd
    rw [← h1] at hd' hne
    obtain ⟨ht, hon⟩ := C107_later_runs o c fresh (f d) s i rs key hd' hne h2 h4
    have hr : run o c fresh (f d) = (.ok (if c.mode = .online then
      ⟨none, some ⟨c.keyFile.getD key, s, i, if c.serverGets then some rs else none⟩⟩ else ⟨some rs, none⟩), f d) := by
      rcases h3 with h3 | h3
      · rw [ht h3, h3, if_neg (by decide)]
      · rw [hon h3, h3, if_pos rfl]
    obtain ⟨ih1, ih2⟩ := ih (f d) hd (fun x hx => hf x (by simp [hx])) (fun x hx => hc x (by simp [hx]))
    simp only [history, hr, List.map_cons]
    exact ⟨by rw [ih1], ih2⟩

/-! ### Interruption -/

/-- The states of `genStates` end with that of the run. -/
theorem genStates_last (c : Cfg) (key : List UInt8) (s : T) (sorts : List T) (infos : List I) (fl : List Nat)
    (d : Disk T I R) :
    made o c s key d ∈ genStates o c key s sorts infos fl
      [(o.recs key (o.info c.keys s)).length * recSize] d := by
  simp [genStates, made]

/-- **C107** At whatever moment a generation is interrupted, the directory is either refused as a cache or
complete. -/
theorem C107_interrupted (c : Cfg) (key : List UInt8) (s : T) (sorts : List T) (infos : List I) (fl fl' : List Nat)
    (d d' : Disk T I R) (hl : (o.recs key (o.info c.keys s)).length < 2 ^ 32)
    (hd : d' ∈ genStates o c key s sorts infos fl fl' d) :
    (∃ e, openCache c.cache d' = (.error e, d')) ∨
      ∀ l, d' (c.cache ++ l) = contents o.size s (o.info c.keys s) (o.recs key (o.info c.keys s)) key l := by
  have hnone : ∀ e : Disk T I R, e (binMetaPath c.cache) = none → ∃ x, openCache c.cache e = (.error x, e) := by
    intro e he
    unfold openCache
    rw [he]
    cases e (binPath c.cache) with
    | none => exact ⟨_, rfl⟩
    | some n => exact ⟨_, rfl⟩
  have htorn : ∀ e : Disk T I R, e (binMetaPath c.cache) = some (.file .torn) →
      ∃ x, openCache c.cache e = (.error x, e) := by
    intro e he
    unfold openCache
    rw [he]
    cases e (binPath c.cache) with
    | none => exact ⟨_, rfl⟩
    | some n => exact ⟨_, rfl⟩
  have h1 : removeAll c.cache d (binMetaPath c.cache) = none := removeAll_below _ _ _
  have h2 : mkdirs c.cache (removeAll c.cache d) (binMetaPath c.cache) = none := by
    rw [binMetaPath, mkdirs_below, removeAll_below]
  simp only [genStates, List.mem_append, List.mem_cons, List.mem_map, List.not_mem_nil, or_false] at hd
  rcases hd with ((((((((hd | hd | hd) | ⟨t, -, hd⟩) | hd) | ⟨t, -, hd⟩) | hd) | hd | hd) | ⟨n, -, hd⟩) |
    ⟨n, -, hd⟩) | ⟨n, -, hd⟩
  · exact .inl (hd ▸ hnone _ h1)
  · exact .inl (hd ▸ hnone _ h2)
  all_goals try
    refine .inl (hd ▸ hnone _ ?_)
    simp only [binPath, sortedPath, infoPath, infoMetaPath, binMetaPath, put_below] at h2 ⊢
    simpa using h2
  · refine .inl (hd ▸ htorn _ ?_)
    simp only [binPath, sortedPath, infoPath, infoMetaPath, binMetaPath, put_below]
    simp
  · by_cases hn : (o.recs key (o.info c.keys s)).length * recSize ≤ n
    · right
      intro l
      rw [Nat.min_eq_right hn] at hd
      have hm := made_below o c s key d hl l
      rw [← hd]
      exact hm
    · left
      refine ⟨.count, ?_⟩
      rw [← hd]
      unfold openCache
      simp only [binPath, sortedPath, infoPath, infoMetaPath, binMetaPath, put_below]
      simp only [if_true, Nat.mod_eq_of_lt hl]
      simp only [List.cons.injEq, String.reduceEq, and_true, if_false]
      rw [if_neg]
      have : min n ((o.recs key (o.info c.keys s)).length * recSize) = n := by omega
      rw [this]
      intro h
      have h3 := Nat.div_mul_le_self n recSize
      rw [h] at h3
      omega

/-- **C107** What an interrupted generation left behind does not disturb: the next generation makes the cache of
its own table. -/
theorem C107_after_interruption (c c' : Cfg) (key fresh : List UInt8) (s₀ : T) (sorts : List T) (infos : List I)
    (fl fl' : List Nat) (d d' : Disk T I R) (hd : d' ∈ genStates o c' key s₀ sorts infos fl fl' d)
    (hcache : c'.cache = c.cache) (t s : T) (hmode : c.mode = .genCache) (hne : c.cache ≠ []) (hi : c.input ≠ [])
    (hcsv : c.inputCsv = true) (hside : c.sideMissing = false)
    (hin : d c.input = some (.file (.table t))) (hs : o.sort c.keys t = some s) (hout : ¬ c.cache <+: c.input)
    (hl : (o.recs (c.keyFile.getD fresh) (o.info c.keys s)).length < 2 ^ 32) :
    ∃ d'', run o c fresh d' = (.ok {}, d'') ∧
      ∀ l, d'' (c.cache ++ l) = contents o.size s (o.info c.keys s)
        (o.recs (c.keyFile.getD fresh) (o.info c.keys s)) (c.keyFile.getD fresh) l := by
  have hb : ∀ l : Path, c.input ≠ c.cache ++ l := fun l h => hout ⟨l, h.symm⟩
  have h1 : removeAll c.cache d c.input = some (.file (.table t)) := by simp [removeAll, hout, hin]
  have h2 : mkdirs c.cache (removeAll c.cache d) c.input = some (.file (.table t)) := mkdirs_some _ _ _ _ h1
  have hin' : d' c.input = some (.file (.table t)) := by
    simp only [genStates, List.mem_append, List.mem_cons, List.mem_map, List.not_mem_nil, or_false, hcache,
      binPath, sortedPath, infoPath, infoMetaPath, binMetaPath] at hd
    rcases hd with ((((((((hd | hd | hd) | ⟨t, -, hd⟩) | hd) | ⟨t, -, hd⟩) | hd) | hd | hd) | ⟨n, -, hd⟩) |
      ⟨n, -, hd⟩) | ⟨n, -, hd⟩ <;> subst hd <;>
      first
        | exact h1
        | exact h2
        | (simp only [put, hb, if_false]; exact h2)
  obtain ⟨d'', h3, h4, -, -⟩ := C107_generation o c fresh d' t s (.inl hmode) hne hi hcsv hside (by simp [hmode]) hin'
    hs hout hl
  refine ⟨d'', ?_, h4⟩
  rw [h3]
  simp [delivered, hmode]

/-! ### What a run leaves alone -/

/-- A run keeps what is at `q`. -/
def Keeps {α : Type} (m : Run T I R α) (q : Path) : Prop := ∀ d n, d q = some n → (m d).2 q = some n

section keeps

variable {o} {α β : Type} {q : Path}

theorem keeps_andThen {m : Run T I R α} {k : α → Run T I R β} (hm : Keeps m q) (hk : ∀ a, Keeps (k a) q) :
    Keeps (andThen m k) q := by
  intro d n h
  have h1 := hm d n h
  unfold andThen
  cases hmd : m d with
  | mk r d' =>
    rw [hmd] at h1
    cases r with
    | error e => exact h1
    | ok a => exact hk a d' n h1

theorem keeps_pure (x : Except Err α) : Keeps (fun d : Disk T I R => (x, d)) q := fun _ _ h => h

theorem keeps_openCache (c : Path) : Keeps (openCache (T := T) (I := I) (R := R) c) q := by
  intro d n h
  unfold openCache
  repeat' split
  all_goals exact h

theorem keeps_transfer (c : Path) : Keeps (transfer (T := T) (I := I) (R := R) c) q :=
  keeps_andThen (keeps_openCache c) (fun _ => keeps_pure _)

theorem keeps_sortedTable (c : Cfg) (inp : Path) (hq : inp = [] ∨ q ≠ sortedPath c.cache) :
    Keeps (sortedTable o c inp) q := by
  intro d n h
  unfold sortedTable
  split
  · exact h
  · split
    · exact h
    · rename_i t ht
      split
      · exact h
      · rcases hq with hq | hq
        · simp [tableAt, hq] at ht
        · exact (put_ne _ _ _ _ hq).trans h

theorem keeps_keyInfo (c : Cfg) (s : T) (h1 : q ≠ infoPath c.cache) (h2 : q ≠ infoMetaPath c.cache) :
    Keeps (keyInfo o c s) q := by
  intro d n h
  have h3 : put (infoMetaPath c.cache) (.infoMeta (o.size s)) (put (infoPath c.cache) (.info (o.info c.keys s)) d) q
      = some n := by
    rw [put_ne _ _ _ _ h2, put_ne _ _ _ _ h1]
    exact h
  unfold keyInfo
  dsimp only
  split
  · split
    · exact h
    · exact h3
  · exact h
  · exact h3

theorem keeps_uniqueKeys (c : Cfg) (inp : Path) (h0 : inp = [] ∨ q ≠ sortedPath c.cache) (h1 : q ≠ infoPath c.cache)
    (h2 : q ≠ infoMetaPath c.cache) : Keeps (uniqueKeys o c inp) q :=
  keeps_andThen (keeps_sortedTable c inp h0) (fun s => keeps_andThen (keeps_keyInfo c s h1 h2) (fun _ => keeps_pure _))

theorem keeps_online (c : Cfg) (inp : Path) (h0 : inp = [] ∨ q ≠ sortedPath c.cache) (h1 : q ≠ infoPath c.cache)
    (h2 : q ≠ infoMetaPath c.cache) : Keeps (online o c inp) q := by
  refine keeps_andThen ?_ (fun key => keeps_andThen (keeps_uniqueKeys c inp h0 h1 h2) (fun k => ?_))
  · intro d n h
    dsimp only
    split
    · exact h
    · exact keeps_andThen (keeps_openCache c.cache) (fun _ => keeps_pure _) d n h
  · split
    · exact keeps_andThen (keeps_openCache c.cache) (fun _ => keeps_pure _)
    · exact keeps_pure _

theorem keeps_genCache (c : Cfg) (fresh : List UInt8) (inp : Path) (hq : ¬ c.cache <+: q) :
    Keeps (genCache o c fresh inp) q := by
  have hb : ∀ l : Path, q ≠ c.cache ++ l := fun l h => hq ⟨l, h.symm⟩
  intro d n h
  have h1 : put (binPath c.cache) (.bin [] 0) d q = some n := by
    rw [binPath, put_ne _ _ _ _ (hb _)]
    exact h
  exact keeps_andThen (keeps_uniqueKeys c inp (.inr (hb _)) (hb _) (hb _)) (fun k d n h => by
    dsimp only
    rw [binPath, put_ne _ _ _ _ (hb _), binMetaPath, put_ne _ _ _ _ (hb _)]
    exact h) _ n h1

/-- `init` deletes nothing outside the cache directory, and nothing at all in the modes that need no input. -/
theorem keeps_init (c : Cfg) (hq : ¬ c.cache <+: q ∨ needsInput c.mode = false) :
    Keeps (init (T := T) (I := I) (R := R) c) q := by
  intro d n h
  unfold init construct
  split
  · exact h
  split
  · exact h
  refine keeps_andThen (m := checkServer c) ?_ (fun inp => ?_) d n h
  · intro d n h
    unfold checkServer
    split
    · exact h
    split
    · rename_i hm
      split
      · exact h
      · rcases hq with hq | hq
        · simpa [removeAll, hq] using h
        · simp [hq] at hm
    · exact h
  · intro d n h
    dsimp only
    split
    · exact h
    · have h1 : (if present d c.cache then d else mkdirs c.cache d) q = some n := by
        split
        · exact h
        · exact mkdirs_some _ _ _ _ h
      split
      · exact h1
      · exact h1

theorem init_input (c : Cfg) (d d' : Disk T I R) (p : Path) (hm : needsInput c.mode = false)
    (h : init c d = (.ok p, d')) : p = [] := by
  unfold init construct andThen checkServer at h
  simp only [hm] at h
  split at h
  · simp at h
  split at h
  · simp at h
  split at h <;> rename_i hx
  · simp at h
  · split at h
    · simp at h
    · split at h
      · simp at h
      · simp only [Prod.mk.injEq, Except.ok.injEq] at h
        split at hx
        · simp at hx
        · simp at hx
          rw [← h.1, hx.1]

end keeps

/-- **C107** No run, in any mode and with any outcome, touches an existing file outside its cache directory
(apart from the result, which is written to the path the user named). -/
theorem C107_outside_kept (c : Cfg) (fresh : List UInt8) (d : Disk T I R) (q : Path) (n : Node T I R)
    (hq : ¬ c.cache <+: q) (h : d q = some n) : (run o c fresh d).2 q = some n := by
  have hb : ∀ l : Path, q ≠ c.cache ++ l := fun l h => hq ⟨l, h.symm⟩
  refine keeps_andThen (keeps_init c (.inl hq)) (fun inp => ?_) d n h
  have hon := keeps_online (o := o) c inp (.inr (hb _)) (hb _) (hb _)
  have hgen := keeps_genCache (o := o) c fresh inp hq
  split
  · exact keeps_andThen hgen (fun _ => keeps_pure _)
  · exact keeps_andThen (keeps_transfer _) (fun _ => keeps_pure _)
  · exact keeps_andThen hgen (fun _ => keeps_andThen (keeps_transfer _) (fun _ => keeps_pure _))
  · exact keeps_andThen hon (fun _ => keeps_pure _)
  · exact keeps_andThen hgen (fun _ => keeps_andThen (keeps_transfer _) (fun _ =>
      keeps_andThen hon (fun _ => keeps_pure _)))
  · exact keeps_pure _

/-- **C107** (partial: the modes that use a cache.)  A transfer or an online phase, refused or not, keeps the
table, the records and the meta file of the cache, and everything else on the disk except the key summary, which
an online phase may write anew.  For the modes that make a cache the claim is false
(`C107_refused_start_loses_cache`). -/
theorem C107_cache_kept_partial (c : Cfg) (fresh : List UInt8) (d : Disk T I R)
    (hmode : c.mode = .transferCache ∨ c.mode = .online) (q : Path) (n : Node T I R)
    (h1 : q ≠ c.cache ++ ["join_sorted_input_key_info.csv"])
    (h2 : q ≠ c.cache ++ ["join_sorted_input_key_info.csv.meta"]) (h : d q = some n) :
    (run o c fresh d).2 q = some n := by
  have hn : needsInput c.mode = false := by rcases hmode with h | h <;> simp [needsInput, h]
  have h3 := keeps_init c (.inr hn) d n h
  unfold run andThen
  cases hi : init c d with
  | mk r d' =>
    rw [hi] at h3
    cases r with
    | error e => exact h3
    | ok p =>
      have hp := init_input c d d' p hn hi
      subst hp
      rcases hmode with hm | hm
      · simp only [hm]
        exact keeps_andThen (keeps_transfer _) (fun _ => keeps_pure _) d' n h3
      · simp only [hm]
        exact keeps_andThen (keeps_online (o := o) c [] (.inl rfl) h1 h2) (fun _ => keeps_pure _) d' n h3

/-! ### What goes wrong -/

/-- Starting a mode that needs no input does not change what is below the cache directory. -/
theorem init_below (c : Cfg) (d : Disk T I R) (hm : needsInput c.mode = false) (x : String) (l : Path) :
    (init c d).2 (c.cache ++ x :: l) = d (c.cache ++ x :: l) := by
  have hd : (if present d c.cache then d else mkdirs c.cache d) (c.cache ++ x :: l) = d (c.cache ++ x :: l) := by
    split
    · rfl
    · exact mkdirs_below _ _ _ _
  unfold init construct
  split
  · rfl
  split
  · rfl
  by_cases hp : (!present d c.cache && !present d c.input) = true
  · simp [andThen, checkServer, hp]
  · have hch : checkServer c d = (.ok [], d) := by simp [checkServer, hp, hm]
    simp only [andThen, hch]
    split
    · rfl
    · split
      · exact hd
      · exact hd

/-- Without a meta file no transfer and no online phase with the key of the cache starts. -/
theorem refused_without_meta (c : Cfg) (fresh : List UInt8) (d : Disk T I R) (hk : c.keyFile = none)
    (hmode : c.mode = .transferCache ∨ c.mode = .online) (h : d (c.cache ++ ["ub_psi_cache.meta"]) = none) :
    ∃ e, (run o c fresh d).1 = .error e := by
  have hn : needsInput c.mode = false := by rcases hmode with h | h <;> simp [needsInput, h]
  have h1 := init_below c d hn "ub_psi_cache.meta" []
  rw [h] at h1
  unfold run andThen
  cases hi : init c d with
  | mk r d' =>
    rw [hi] at h1
    cases r with
    | error e => exact ⟨e, rfl⟩
    | ok p =>
      have ho : ∃ e, openCache c.cache d' = (.error e, d') := by
        unfold openCache
        dsimp only at h1
        rw [binMetaPath, h1]
        cases d' (binPath c.cache) with
        | none => exact ⟨_, rfl⟩
        | some n => exact ⟨_, rfl⟩
      obtain ⟨e, he⟩ := ho
      refine ⟨e, ?_⟩
      rcases hmode with hm | hm
      · simp [hm, transfer, andThen, he]
      · simp [hm, online, andThen, he, hk]

/-- **C107, negation**: a start that is refused has deleted the cache, whatever it held: the input is missing and
nothing can be generated, or the type of the output is not supported, or the join has no left side. -/
theorem C107_refused_start_loses_cache (c : Cfg) (fresh : List UInt8) (d : Disk T I R)
    (hmode : c.mode = .genCache ∨ c.mode = .offline ∨ c.mode = .full) (hne : c.cache ≠ []) (hcsv : c.inputCsv = true)
    (hold : d c.cache = some .dir)
    (hbad : d c.input = none ∨ c.sideMissing = true ∨
      (c.mode = .full ∧ c.serverGets = true ∧ c.outputCsv = false)) :
    ∃ e d', run o c fresh d = (.error e, d') ∧ d' (c.cache ++ ["join_sorted_input.csv"]) = none ∧
      d' (c.cache ++ ["ub_psi_cache.meta"]) = none ∧
      ∀ c' : Cfg, c'.cache = c.cache → c'.keyFile = none → (c'.mode = .transferCache ∨ c'.mode = .online) →
        ∃ e', (run o c' fresh d').1 = .error e' := by
  suffices hsuff : ∃ e d', run o c fresh d = (.error e, d') ∧ d' (c.cache ++ ["join_sorted_input.csv"]) = none ∧
      d' (c.cache ++ ["ub_psi_cache.meta"]) = none by
    obtain ⟨e, d', h1, h2, h3⟩ := hsuff
    exact ⟨e, d', h1, h2, h3, fun c' hc hk hm => refused_without_meta o c' fresh d' hk hm (hc ▸ h3)⟩
  have hn : needsInput c.mode = true := by rcases hmode with h | h | h <;> simp [needsInput, h]
  have hu : c.mode ≠ .unspecified := by rcases hmode with h | h | h <;> simp [h]
  have hp : present d c.cache = true := by simp [present, hold]
  have hq : present (removeAll c.cache d) c.cache = false := by
    have := removeAll_below c.cache d []
    rw [List.append_nil] at this
    simp [present, this]
  have hb : ∀ x l, mkdirs c.cache (removeAll c.cache d) (c.cache ++ x :: l) = none := fun x l => by
    rw [mkdirs_below, removeAll_below]
  by_cases hfmt : (c.serverGets && (c.mode = .online || c.mode = .full) && !c.outputCsv) = true
  · refine ⟨.outputFormat, removeAll c.cache d, ?_, removeAll_below _ _ _, removeAll_below _ _ _⟩
    unfold run andThen init construct andThen checkServer
    rw [if_neg hu, if_neg hne]
    simp [hp, hn, hcsv, hfmt]
  · by_cases hside : c.sideMissing = true
    · refine ⟨.leftSide, mkdirs c.cache (removeAll c.cache d), ?_, hb _ _, hb _ _⟩
      unfold run andThen init construct andThen checkServer
      rw [if_neg hu, if_neg hne]
      simp [hp, hn, hcsv, hfmt, hside, hq]
    · have hnone : d c.input = none := by
        rcases hbad with h | h | ⟨h1, h2, h3⟩
        · exact h
        · exact absurd h hside
        · exact absurd (by simp [h1, h2, h3]) hfmt
      have hinit : init c d = (.ok c.input, mkdirs c.cache (removeAll c.cache d)) := by
        unfold init construct andThen checkServer
        rw [if_neg hu, if_neg hne]
        simp [hp, hn, hcsv, hfmt, hside, hq]
      have htab : tableAt (put (binPath c.cache) (.bin [] 0) (mkdirs c.cache (removeAll c.cache d))) c.input
          = .error .noTable := by
        have : ∀ t, put (binPath c.cache) (.bin [] 0) (mkdirs c.cache (removeAll c.cache d)) c.input
            ≠ some (.file (.table t)) := by
          intro t
          simp only [put, mkdirs, removeAll, hnone]
          split
          · simp
          · split
            · simp
            · simp
        unfold tableAt
        split
        · rfl
        · split
          · rename_i t ht
            exact absurd ht (this t)
          · rfl
      have hsort : present (put (binPath c.cache) (.bin [] 0) (mkdirs c.cache (removeAll c.cache d)))
          (sortedPath c.cache) = false := by
        simp only [present, sortedPath, binPath, put_below, hb]
        simp
      have hgen : genCache o c fresh c.input (mkdirs c.cache (removeAll c.cache d)) = (.error .noTable,
          put (binPath c.cache) (.bin [] 0) (mkdirs c.cache (removeAll c.cache d))) := by
        simp [genCache, andThen, uniqueKeys, sortedTable, hsort, htab]
      refine ⟨.noTable, put (binPath c.cache) (.bin [] 0) (mkdirs c.cache (removeAll c.cache d)), ?_, ?_, ?_⟩
      · rcases hmode with h | h | h <;> simp [run, andThen, hinit, h, hgen]
      · simp only [binPath, put_below, hb]
        simp
      · simp only [binPath, put_below, hb]
        simp

/-- **C107, negation**: a table kept in the cache directory is deleted by the run that should read it. -/
theorem C107_input_in_cache_deleted (c : Cfg) (fresh : List UInt8) (d : Disk T I R)
    (hmode : c.mode = .genCache ∨ c.mode = .offline ∨ c.mode = .full) (hne : c.cache ≠ []) (hcsv : c.inputCsv = true)
    (hside : c.sideMissing = false) (hres : c.mode = .full → c.serverGets = true → c.outputCsv = true)
    (hin : present d c.input = true) (x : String) (l : Path) (hbelow : c.input = c.cache ++ x :: l) :
    ∃ d', run o c fresh d = (.error .noTable, d') ∧ ∀ t, d' c.input ≠ some (.file (.table t)) := by
  have hb : ∀ x l, mkdirs c.cache (removeAll c.cache d) (c.cache ++ x :: l) = none := fun x l => by
    rw [mkdirs_below, removeAll_below]
  have hinit := init_gen c d hne (by rcases hmode with h | h | h <;> simp [needsInput, h]) hcsv hside hin hres
  have hnot : ∀ t, put (binPath c.cache) (.bin [] 0) (mkdirs c.cache (removeAll c.cache d)) c.input
      ≠ some (.file (.table t)) := by
    intro t
    rw [hbelow]
    simp only [binPath, put_below, hb]
    split <;> simp
  have hsort : present (put (binPath c.cache) (.bin [] 0) (mkdirs c.cache (removeAll c.cache d)))
      (sortedPath c.cache) = false := by
    simp only [present, sortedPath, binPath, put_below, hb]
    simp
  have htab : tableAt (put (binPath c.cache) (.bin [] 0) (mkdirs c.cache (removeAll c.cache d))) c.input
      = .error .noTable := by
    unfold tableAt
    split
    · rfl
    · split
      · rename_i t ht
        exact absurd ht (hnot t)
      · rfl
  have hgen : genCache o c fresh c.input (mkdirs c.cache (removeAll c.cache d)) = (.error .noTable,
      put (binPath c.cache) (.bin [] 0) (mkdirs c.cache (removeAll c.cache d))) := by
    simp [genCache, andThen, uniqueKeys, sortedTable, hsort, htab]
  refine ⟨_, ?_, hnot⟩
  rcases hmode with h | h | h <;> simp [run, andThen, hinit, h, hgen]

/-! ### The client -/

/-- **C107** (limit) A client that never received a cache runs the online phase to the end and reports that
nothing is common: `psi/utils/ec_point_store.cc:383-413` makes an empty cache. -/
theorem C107_client_without_cache :
    ∃ cache ms, Psi.UbPsi.Ex.cache 2 = .ok cache ∧ Psi.UbPsi.transferMsgs cache 1 = .ok ms ∧
      (Psi.UbPsi.online Psi.UbPsi.Ex.curve (Psi.UbPsi.Ex.session true true) none cache ⟨none, none⟩).1
        = .ok ⟨some ([], 0), some ([], 4)⟩ :=
  Psi.UbPsi.Ex.of_chain (P := fun cache _ =>
    (Psi.UbPsi.online Psi.UbPsi.Ex.curve (Psi.UbPsi.Ex.session true true) none cache ⟨none, none⟩).1
      = .ok ⟨some ([], 0), some ([], 4)⟩) (by decide +kernel)

/-- **C107** A client that was killed in a transfer: the meta file on disk is the one the constructor wrote
(`psi/utils/ec_point_store.cc:410-412`), with no items, so whatever whole records are in the data file make the next
online phase refuse it. -/
theorem C107_killed_transfer_refused (file : List UInt8) (len : Nat) (h1 : 36 ≤ file.length)
    (h2 : file.length < 36 * 2 ^ 32) :
    Psi.UbPsi.openStore ⟨some file, some (0, 0, len)⟩ len = .error .throw := by
  have h : file.length / 36 % 2 ^ 32 ≠ 0 := by omega
  unfold Psi.UbPsi.openStore
  split
  · rfl
  · simp only [Option.getD_some]
    rw [if_neg (by simp)]
    exact if_pos h

/-! ### Instances -/

namespace Ex

/-- Tables are lists of keys and rows; sorting wants the key column `id`. -/
def ops : Ops (List (Nat × Nat)) (List (Nat × Nat)) (Nat × Nat) where
  sort := fun ks t => if ks = ["id"] then some (t.foldr (fun a l =>
    l.filter (fun b => b.1 < a.1) ++ a :: l.filter (fun b => a.1 ≤ b.1)) []) else none
  size := List.length
  info := fun _ t => (t.map Prod.fst).dedup.map (fun k => (k, t.countP (fun r => r.1 = k)))
  recs := fun key i => i.reverse.zipIdx.map (fun x => (x.1.1 * key.length + 5, x.2))

def cfg (m : Mode) : Cfg := { mode := m, cache := ["data", "cache"], input := ["data", "in.csv"], keys := ["id"] }

def table : List (Nat × Nat) := [(3, 1), (2, 7), (3, 4)]

/-- The input, and an old cache with a torn meta file and something else. -/
def disk : Disk (List (Nat × Nat)) (List (Nat × Nat)) (Nat × Nat) := fun p =>
  if p = ["data"] ∨ p = ["data", "cache"] then some .dir
  else if p = ["data", "in.csv"] then some (.file (.table table))
  else if p = ["data", "cache", "ub_psi_cache.bin"] then some (.file (.bin [(1, 1)] 44))
  else if p = ["data", "cache", "ub_psi_cache.meta"] then some (.file .torn)
  else if p = ["data", "cache", "join_sorted_input.csv"] then some (.file (.table [(9, 9)]))
  else none

end Ex

example := C107_generation Ex.ops (Ex.cfg .full) [8] Ex.disk Ex.table [(2, 7), (3, 1), (3, 4)] (.inr (.inr rfl))
  (by decide) (by decide) rfl rfl (by decide) rfl (by decide +kernel) (by decide) (by decide +kernel)

/-- What the run of the example delivers. -/
example : (run Ex.ops (Ex.cfg .full) [8] Ex.disk).1 = .ok ⟨some [(8, 0), (7, 1)],
    some ⟨[8], [(2, 7), (3, 1), (3, 4)], [(2, 1), (3, 2)], none⟩⟩ := by decide +kernel

/-- The disk after a generation, then the input is deleted. -/
def Ex.later : Disk (List (Nat × Nat)) (List (Nat × Nat)) (Nat × Nat) :=
  removeAll ["data", "in.csv"] (run Ex.ops (Ex.cfg .genCache) [8] Ex.disk).2

theorem Ex.later_complete (l : Path) : Ex.later (["data", "cache"] ++ l)
    = contents Ex.ops.size [(2, 7), (3, 1), (3, 4)] [(2, 1), (3, 2)] [(8, 0), (7, 1)] [8] l := by
  obtain ⟨d', h1, h2, -, -⟩ := C107_generation Ex.ops (Ex.cfg .genCache) [8] Ex.disk Ex.table [(2, 7), (3, 1), (3, 4)]
    (.inl rfl) (by decide) (by decide) rfl rfl (by decide) rfl (by decide +kernel) (by decide) (by decide +kernel)
  have h3 : Ex.later (["data", "cache"] ++ l) = d' (["data", "cache"] ++ l) := by
    simp [Ex.later, h1, removeAll]
  rw [h3]
  exact h2 l

example := C107_later_runs Ex.ops { Ex.cfg .online with serverGets := true, input := ["gone"], keys := ["x"] } [1]
  Ex.later _ _ _ _ Ex.later_complete (by decide) rfl (by decide)

example := C107_any_history Ex.ops ["data", "cache"] (by decide) [1] _ _ _ _
  [(removeAll ["data", "in.csv"], Ex.cfg .transferCache), (put ["x"] .torn, Ex.cfg .online)] Ex.later
  Ex.later_complete (by simp [removeAll, put]) (by decide)

example : (run Ex.ops (Ex.cfg .online) [1] Ex.later).1 = .ok ⟨none,
    some ⟨[8], [(2, 7), (3, 1), (3, 4)], [(2, 1), (3, 2)], none⟩⟩ := by decide +kernel

example := C107_interrupted Ex.ops (Ex.cfg .genCache) [8] [(2, 7), (3, 1), (3, 4)] [[(2, 7)]] [[]] [0, 50] [44, 87, 88]
  Ex.disk _ (by decide +kernel) (by simp only [genStates, List.mem_append, List.map_cons]; right; exact List.mem_cons_self ..)

example := C107_after_interruption Ex.ops (Ex.cfg .genCache) (Ex.cfg .genCache) [8] [1] [(2, 7), (3, 1), (3, 4)]
  [[(2, 7)]] [[]] [0, 50] [44, 87, 88] Ex.disk _
  (by simp only [genStates, List.mem_append, List.map_cons]; right; exact List.mem_cons_self ..) rfl Ex.table _ rfl
  (by decide) (by decide) rfl rfl rfl rfl (by decide) (by decide +kernel)

example := C107_outside_kept Ex.ops (Ex.cfg .full) [8] Ex.disk ["data", "in.csv"] _ (by decide) rfl

example := C107_cache_kept_partial Ex.ops (Ex.cfg .online) [8] Ex.disk (.inr rfl)
  ["data", "cache", "join_sorted_input.csv"] _ (by decide) (by decide) rfl

example := C107_refused_start_loses_cache Ex.ops { Ex.cfg .full with input := ["nowhere"] } [1] Ex.later
  (.inr (.inr rfl)) (by decide) rfl (by decide +kernel) (.inl (by decide +kernel))

example := C107_input_in_cache_deleted Ex.ops
  { Ex.cfg .genCache with input := ["data", "cache", "join_sorted_input.csv"] } [1] Ex.disk (.inl rfl) (by decide) rfl
  rfl (by decide) (by decide +kernel) "join_sorted_input.csv" [] rfl

example := C107_killed_transfer_refused (List.replicate 80 1) 12 (by decide) (by decide)

end Psi.UbLife
