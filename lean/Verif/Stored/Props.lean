import Verif.Stored.Model
import Mathlib.Data.List.Basic
import Mathlib.Data.List.Nodup

/-!
# C111: a stored data base answers like the table it was made from
-/

namespace Psi.Stored

open Psi.Spiral (Res)

variable {H Params Key : Type}

/-- The format of the library: what is saved can be loaded, whatever follows it; a data base that is cut short is refused; a key has
32 bytes. -/
structure Laws (L : Lib H Params Key) : Prop where
  load : ∀ db rest, L.loadDb (L.saveDb db ++ rest) = some (db, rest)
  short : ∀ db n, n < (L.saveDb db).length → L.loadDb ((L.saveDb db).take n) = none
  keyLen : ∀ k, (L.saveKey k).length = 32
  key : ∀ k, L.readKey (L.saveKey k) = k

/-- Under one key, different items have different hashes. -/
def OneKey (L : Lib H Params Key) : Prop := ∀ k x y, L.oprf k x = L.oprf k y → x = y

/-- Different keys give different hashes. -/
def TwoKeys (L : Lib H Params Key) : Prop := ∀ k k' x y, L.oprf k x = L.oprf k' y → k = k'

/-- What a user looks for in the table: the label of the item, or the empty label in a table without labels. -/
def Table.find (t : Table) (q : Bytes) : Option Bytes :=
  (t.rows.find? fun r => r.1 = q).map fun r => if t.labeled then r.2 else []

/-! ## Lemmas -/

theorem tryLoad_full (L : Lib H Params Key) (hL : Laws L) (key : Key) (db : Db H Params) (k : Key) :
    tryLoad L key (L.saveDb db ++ L.saveKey k) = (some db, k) := by
  unfold tryLoad loadKey
  rw [hL.load]
  have h : (L.saveKey k).take 32 = L.saveKey k := List.take_of_length_le (by rw [hL.keyLen]; exact Nat.le_refl 32)
  simp [hL.keyLen, h, hL.key]

theorem tryLoad_short (L : Lib H Params Key) (hL : Laws L) (key : Key) (db : Db H Params) (k : Key) (n : Nat)
    (hn : n < (L.saveDb db).length) : tryLoad L key ((L.saveDb db ++ L.saveKey k).take n) = (none, key) := by
  unfold tryLoad
  rw [List.take_append_of_le_length (by omega), hL.short db n hn]

theorem tryLoad_no_key (L : Lib H Params Key) (hL : Laws L) (key : Key) (db : Db H Params) (k : Key) (n : Nat)
    (h1 : (L.saveDb db).length ≤ n) (h2 : n < (L.saveDb db ++ L.saveKey k).length) :
    tryLoad L key ((L.saveDb db ++ L.saveKey k).take n) = (some db, L.spoil key ((L.saveKey k).take (n - (L.saveDb db).length))) := by
  have e : (L.saveDb db ++ L.saveKey k).take n = L.saveDb db ++ (L.saveKey k).take (n - (L.saveDb db).length) := by
    rw [List.take_append, List.take_of_length_le h1]
  have hl := hL.keyLen k
  rw [List.length_append] at h2
  rw [e]
  unfold tryLoad loadKey
  rw [hL.load]
  have : ((L.saveKey k).take (n - (L.saveDb db).length)).length < 32 := by rw [List.length_take]; omega
  simp only [this, if_true]

theorem createDb_rows (L : Lib H Params Key) {key : Key} {t : Table} {ps : Params} {n : Nat} {c : Bool} {db : Db H Params} {k : Key}
    (h : createDb L key t ps n c = .ok (db, k)) :
    k = key ∧ db.rows = t.rows.map fun r => (L.oprf key r.1, if t.labeled then r.2 else []) := by
  unfold createDb at h
  by_cases hl : t.labeled = true
  · rw [if_pos hl] at h
    cases hr : longest t.rows with
    | ok m =>
      rw [hr] at h
      simp only [Res.bind, Res.ok.injEq, Prod.mk.injEq] at h
      obtain ⟨rfl, rfl⟩ := h
      simp [hl]
    | throws => rw [hr] at h; simp [Res.bind] at h
    | undefined => rw [hr] at h; simp [Res.bind] at h
  · rw [if_neg hl] at h
    simp only [Res.ok.injEq, Prod.mk.injEq] at h
    obtain ⟨rfl, rfl⟩ := h
    simp [hl]

theorem createDb_ne_throws (L : Lib H Params Key) (key : Key) (t : Table) (ps : Params) (n : Nat) (c : Bool) :
    createDb L key t ps n c ≠ .throws := by
  unfold createDb
  split
  · cases hr : t.rows <;> simp [longest, Res.bind]
  · simp

theorem createDb_defined (L : Lib H Params Key) (key : Key) (t : Table) (ps : Params) (n : Nat) (c : Bool) (ht : t.rows ≠ []) :
    createDb L key t ps n c ≠ .undefined := by
  unfold createDb
  split
  · cases hr : t.rows with
    | nil => exact absurd hr ht
    | cons a l => simp [longest, Res.bind]
  · simp

theorem answer_created [DecidableEq H] (L : Lib H Params Key) (hone : OneKey L) {key : Key} {t : Table} {ps : Params} {n : Nat} {c : Bool}
    {db : Db H Params} {k : Key} (h : createDb L key t ps n c = .ok (db, k)) (q : Bytes) : answer L (db, k) q = t.find q := by
  obtain ⟨rfl, hr⟩ := createDb_rows L h
  unfold answer Table.find
  rw [hr]
  generalize t.rows = rows
  induction rows with
  | nil => rfl
  | cons a l ih =>
    by_cases ha : a.1 = q
    · simp [ha]
    · have : L.oprf k a.1 ≠ L.oprf k q := fun e => ha (hone _ _ _ e)
      simpa [List.find?_cons, ha, this] using ih

theorem answer_other_key [DecidableEq H] (L : Lib H Params Key) (htwo : TwoKeys L) {key : Key} {t : Table} {ps : Params} {n : Nat} {c : Bool}
    {db : Db H Params} {k k' : Key} (h : createDb L key t ps n c = .ok (db, k)) (hk : k' ≠ k) (q : Bytes) : answer L (db, k') q = none := by
  obtain ⟨rfl, hr⟩ := createDb_rows L h
  unfold answer
  rw [hr]
  generalize t.rows = rows
  induction rows with
  | nil => rfl
  | cons a l ih =>
    have : L.oprf k a.1 ≠ L.oprf k' q := fun e => hk (htwo _ _ _ _ e).symm
    simpa [List.find?_cons, this] using ih

theorem loadTable_rows (L : Lib H Params Key) {d : Disk} {p : String} {t : Table} (h : loadTable L d p = some t) : t.rows ≠ [] := by
  unfold loadTable at h
  obtain ⟨b, -, hb⟩ := Option.bind_eq_some_iff.1 h
  unfold readCsv at hb
  split at hb
  · simp at hb
  · split at hb
    · simp at hb
    · split at hb
      · rename_i hne _
        simp only [Option.some.injEq] at hb
        subst hb
        exact hne
      · simp at hb

theorem generate_inv (L : Lib H Params Key) {key : Key} {d : Disk} {source params : String} {n : Nat} {c : Bool} {db : Db H Params} {k : Key}
    (h : generateDb L key d source params n c = .ok (some (db, k))) :
    ∃ t ps, loadTable L d source = some t ∧ buildParams L d params = some ps ∧ createDb L key t ps n c = .ok (db, k) := by
  unfold generateDb at h
  cases hp : buildParams L d params with
  | none => simp [hp] at h
  | some ps =>
    simp only [hp] at h
    by_cases hs : source = ""
    · simp [hs] at h
    · rw [if_neg hs] at h
      cases ht : loadTable L d source with
      | none => simp [ht] at h
      | some t =>
        simp only [ht] at h
        cases hc : createDb L key t ps n c with
        | ok x =>
          rw [hc] at h
          simp only [Res.bind, Res.ok.injEq, Option.some.injEq] at h
          subst h
          exact ⟨t, ps, rfl, rfl, hc⟩
        | throws => rw [hc] at h; simp [Res.bind] at h
        | undefined => rw [hc] at h; simp [Res.bind] at h

theorem obtain_source (L : Lib H Params Key) {fresh draw : Key} {o : Options} {d : Disk} (h0 : o.dbFile = "") {db : Db H Params} {k : Key}
    (h : getDb L fresh draw o d = .ok (db, k)) :
    ∃ t ps, loadTable L d o.sourceFile = some t ∧ buildParams L d o.paramsFile = some ps
      ∧ createDb L draw t ps o.nonceByteCount o.compress = .ok (db, k) := by
  unfold getDb at h
  by_cases hs : o.sourceFile = ""
  · simp [h0, hs] at h
  · rw [if_neg (by simp [hs]), if_neg (by simp [h0])] at h
    cases hg : generateDb L draw d o.sourceFile o.paramsFile o.nonceByteCount o.compress with
    | ok x =>
      rw [hg] at h
      cases x with
      | none => simp [Res.bind, enforce] at h
      | some y =>
        simp only [Res.bind, enforce, Res.ok.injEq] at h
        subst h
        exact generate_inv L hg
    | throws => rw [hg] at h; simp [Res.bind] at h
    | undefined => rw [hg] at h; simp [Res.bind] at h

theorem obtain_file (L : Lib H Params Key) (fresh draw : Key) (o : Options) (d : Disk) (h0 : o.dbFile ≠ "") (b : Bytes)
    (hb : d o.dbFile = some b) : getDb L fresh draw o d = match tryLoad L fresh b with
      | (some db, k) => .ok (db, k)
      | (none, _) => .throws := by
  unfold getDb tryLoadFile
  rw [if_neg (by simp [h0]), if_pos h0, hb]
  rfl

/-! ## The properties -/

/-- A sender makes a data base from a table and saves it; a later sender that loads the file answers every query with what the table
held then, whatever has become of all other files, of the parameters file and of the other settings. -/
theorem C111_second_run [DecidableEq H] (L : Lib H Params Key) (hL : Laws L) (hone : OneKey L) (fresh draw fresh' draw' : Key) (r r' : Room)
    (c c' : Config) (d d1 d' : Disk) (x : Option (Db H Params × Key)) (hsrc : c.dbFile = "") (hout : c.sdbOutFile ≠ "")
    (h1 : runSender L fresh draw r c d = (d1, .ok x))
    (hroom : ∀ db k, getDb L fresh draw (options c) d = .ok (db, k) → (L.saveDb db ++ L.saveKey k).length ≤ r.cap)
    (hfile : c'.dbFile = c.sdbOutFile) (hsame : d' c.sdbOutFile = d1 c.sdbOutFile) (hserve : c'.saveDbOnly = false)
    (hnoout : c'.sdbOutFile = "") :
    ∃ t s, loadTable L d c.sourceFile = some t ∧ runSender L fresh' draw' r' c' d' = (d', .ok (some s)) ∧ ∀ q, answer L s q = t.find q := by
  unfold runSender dealSingle at h1
  cases ho : getDb L fresh draw (options c) d with
  | throws => simp [ho] at h1
  | undefined => simp [ho] at h1
  | ok y =>
    obtain ⟨db, k⟩ := y
    rw [ho] at h1
    simp only [options, ne_eq, hout, not_false_eq_true, if_true, trySave] at h1
    obtain ⟨t, ps, ht, -, hc⟩ := obtain_source L (o := options c) hsrc ho
    have hlen := hroom db k ho
    have hd1 : d1 c.sdbOutFile = some (L.saveDb db ++ L.saveKey k) := by
      by_cases hf : r.flushed ≤ r.cap
      · simp only [hf, decide_true, if_true, Prod.mk.injEq] at h1
        rw [← h1.1]
        simp [Disk.set, List.take_of_length_le hlen]
      · simp [hf] at h1
    refine ⟨t, (db, k), ht, ?_, answer_created L hone hc⟩
    unfold runSender dealSingle
    rw [obtain_file L fresh' draw' (options c') d' (by simp [options, hfile, hout]) (L.saveDb db ++ L.saveKey k)
      (by simp only [options]; rw [hfile, hsame, hd1]), tryLoad_full L hL]
    simp [options, hnoout, hserve]

/-- No configuration and no files lead to undefined behaviour (the longest label is looked for only in tables with rows). -/
theorem C111_defined (L : Lib H Params Key) (fresh draw : Key) (r : Room) (c : Config) (d : Disk) :
    (runSender L fresh draw r c d).2 ≠ .undefined := by
  have h : getDb L fresh draw (options c) d ≠ .undefined := by
    unfold getDb
    split
    · simp
    · split
      · unfold tryLoadFile
        split
        · simp [Res.bind]
        · rename_i b _
          simp only [Res.bind]
          cases tryLoad L fresh b with
          | mk x k => cases x <;> simp
      · unfold generateDb
        split
        · simp [Res.bind, enforce]
        · split
          · simp [Res.bind, enforce]
          · split
            · simp [Res.bind, enforce]
            · rename_i ps _ _ _ t ht
              have := createDb_defined L draw t ps (options c).nonceByteCount (options c).compress (loadTable_rows L ht)
              cases hc : createDb L draw t ps (options c).nonceByteCount (options c).compress with
              | ok x => simp [Res.bind, enforce]
              | throws => simp [Res.bind]
              | undefined => exact absurd hc this
  unfold runSender dealSingle
  split
  · simp
  · rename_i hu
    exact absurd hu h
  · split
    · dsimp only
      split <;> simp
    · simp

/-- A file whose data base is cut short is refused, and nothing on the disk is changed. -/
theorem C111_incomplete_refused_partial (L : Lib H Params Key) (hL : Laws L) (fresh draw : Key) (r : Room) (c : Config) (d : Disk)
    (hc : c.dbFile ≠ "") (db : Db H Params) (k : Key) (n : Nat) (hn : n < (L.saveDb db).length)
    (hd : d c.dbFile = some ((L.saveDb db ++ L.saveKey k).take n)) : runSender L fresh draw r c d = (d, .throws) := by
  unfold runSender dealSingle
  rw [obtain_file L fresh draw (options c) d (by simpa [options] using hc) _ (by simpa [options] using hd), tryLoad_short L hL _ _ _ _ hn]

/-- A file that holds the data base and not the whole key is not refused: the sender serves the data base with another key, and no
query finds anything. -/
theorem C111_key_missing_served [DecidableEq H] (L : Lib H Params Key) (hL : Laws L) (htwo : TwoKeys L) (fresh draw : Key) (r : Room)
    (c : Config) (d : Disk) (hc : c.dbFile ≠ "") (hserve : c.saveDbOnly = false) (hnoout : c.sdbOutFile = "")
    (key k : Key) (t : Table) (ps : Params) (nonce : Nat) (comp : Bool) (db : Db H Params)
    (hdb : createDb L key t ps nonce comp = .ok (db, k)) (n : Nat) (h1 : (L.saveDb db).length ≤ n)
    (h2 : n < (L.saveDb db ++ L.saveKey k).length) (hd : d c.dbFile = some ((L.saveDb db ++ L.saveKey k).take n))
    (hfresh : ∀ b, L.spoil fresh b ≠ k) :
    ∃ s, runSender L fresh draw r c d = (d, .ok (some s)) ∧ ∀ q, answer L s q = none := by
  refine ⟨(db, L.spoil fresh ((L.saveKey k).take (n - (L.saveDb db).length))), ?_, answer_other_key L htwo hdb (hfresh _)⟩
  unfold runSender dealSingle
  rw [obtain_file L fresh draw (options c) d (by simpa [options] using hc) _ (by simpa [options] using hd),
    tryLoad_no_key L hL _ _ _ _ h1 h2]
  simp [options, hnoout, hserve]

/-- When the disk is full, a sender may report that it has saved the data base although the end of the file, with the key, is missing.
The next sender takes the file, and no query finds anything. -/
theorem C111_full_disk [DecidableEq H] (L : Lib H Params Key) (hL : Laws L) (htwo : TwoKeys L) (fresh draw fresh' draw' : Key) (r r' : Room)
    (c c' : Config) (d : Disk) (hsrc : c.dbFile = "") (hout : c.sdbOutFile ≠ "") (honly : c.saveDbOnly = true) (db : Db H Params) (k : Key)
    (ho : getDb L fresh draw (options c) d = .ok (db, k)) (hfl : r.flushed ≤ r.cap) (h1 : (L.saveDb db).length ≤ r.cap)
    (h2 : r.cap < (L.saveDb db ++ L.saveKey k).length) (hfile : c'.dbFile = c.sdbOutFile) (hserve : c'.saveDbOnly = false)
    (hnoout : c'.sdbOutFile = "") (hfresh : ∀ b, L.spoil fresh' b ≠ k) :
    ∃ d1 s, runSender L fresh draw r c d = (d1, .ok none) ∧ runSender L fresh' draw' r' c' d1 = (d1, .ok (some s))
      ∧ ∀ q, answer L s q = none := by
  obtain ⟨t, ps, -, -, hc⟩ := obtain_source L (o := options c) hsrc ho
  obtain ⟨s, hs, hq⟩ := C111_key_missing_served L hL htwo fresh' draw' r' c' (d.set c.sdbOutFile ((L.saveDb db ++ L.saveKey k).take r.cap))
    (by rw [hfile]; exact hout) hserve hnoout draw k t ps _ _ db hc r.cap h1 h2 (by rw [hfile]; simp [Disk.set]) hfresh
  refine ⟨_, s, ?_, hs, hq⟩
  unfold runSender dealSingle
  rw [ho]
  simp [options, hout, trySave, hfl, honly]

/-- If the stream has handed on everything before the result is reported, a run that reports success has written the whole file. -/
theorem C111_save_complete_partial (L : Lib H Params Key) (fresh draw : Key) (r : Room) (c : Config) (d d1 : Disk)
    (x : Option (Db H Params × Key)) (hout : c.sdbOutFile ≠ "") (db : Db H Params) (k : Key)
    (ho : getDb L fresh draw (options c) d = .ok (db, k)) (hfl : r.flushed = (L.saveDb db ++ L.saveKey k).length)
    (h : runSender L fresh draw r c d = (d1, .ok x)) :
    d1 c.sdbOutFile = some (L.saveDb db ++ L.saveKey k) ∧ ∀ p, p ≠ c.sdbOutFile → d1 p = d p := by
  unfold runSender dealSingle at h
  rw [ho] at h
  simp only [options, ne_eq, hout, not_false_eq_true, if_true, trySave] at h
  by_cases hc : r.flushed ≤ r.cap
  · simp only [hc, decide_true, if_true, Prod.mk.injEq] at h
    rw [← h.1]
    exact ⟨by simp [Disk.set, List.take_of_length_le (hfl ▸ hc)], fun p hp => by simp [Disk.set, hp]⟩
  · simp [hc] at h

/-- "Save only" without a name for the file: the run reports success and saves nothing. -/
theorem C111_save_only_nowhere (L : Lib H Params Key) (fresh draw : Key) (r : Room) (c : Config) (d : Disk) (hout : c.sdbOutFile = "")
    (honly : c.saveDbOnly = true) (x : Db H Params × Key) (ho : getDb L fresh draw (options c) d = .ok x) :
    runSender L fresh draw r c d = (d, .ok none) := by
  unfold runSender dealSingle
  rw [ho]
  simp [options, hout, honly]

/-- A table given as `db_file`, which the description of the option allows, is refused. -/
theorem C111_table_as_db_file (L : Lib H Params Key) (fresh draw : Key) (r : Room) (c : Config) (d : Disk) (hc : c.dbFile ≠ "") (b : Bytes)
    (hd : d c.dbFile = some b) (hb : L.loadDb b = none) : runSender L fresh draw r c d = (d, .throws) := by
  unfold runSender dealSingle
  rw [obtain_file L fresh draw (options c) d (by simpa [options] using hc) b (by simpa [options] using hd)]
  simp [tryLoad, hb]

/-- Settings that are given are used; a setting that is left out has the value of the description for the size of the nonce and not for
the log level (`info`) and the number of groups (1024). -/
theorem C111_settings (c : Config) :
    (c.nonceByteCount ≠ 0 → (options c).nonceByteCount = c.nonceByteCount) ∧ (c.nonceByteCount = 0 → (options c).nonceByteCount = 16)
      ∧ (c.bucketGroupCnt ≠ 0 → (options c).bucketGroupCnt = c.bucketGroupCnt) ∧ (c.bucketGroupCnt = 0 → (options c).bucketGroupCnt ≠ 1024)
      ∧ (c.logLevel ∈ levels → (options c).logLevel = c.logLevel) ∧ (c.logLevel = "" → (options c).logLevel ≠ "info") := by
  refine ⟨fun h => by simp [options, h], fun h => by simp [options, h], fun h => by simp [options, h], fun h => by simp [options, h],
    fun h => by simp [options, h], fun h => ?_⟩
  have : "" ∉ levels := by decide
  simp [options, h, this]

/-! ## Two data bases -/

theorem dkGenerate_inv (L : Lib H Params Key) {draw : Key} {r r' : Room} {o : DkOptions} {values : Table} {counts : Option Table} {d d1 : Disk}
    (h : dkGenerate L draw r r' o values counts d = (d1, .ok ())) :
    ∃ ps db, createDb L draw values ps o.nonce o.compress = .ok (db, draw)
      ∧ if o.skip then d1 = d.set o.valueFile ((L.saveDb db ++ L.saveKey draw).take r.cap)
        else ∃ t cdb, counts = some t ∧ createDb L draw t ps o.nonce o.compress = .ok (cdb, draw)
          ∧ d1 = (d.set o.valueFile ((L.saveDb db ++ L.saveKey draw).take r.cap)).set o.countFile
            ((L.saveDb cdb ++ L.saveKey draw).take r'.cap) := by
  unfold dkGenerate at h
  cases hp : buildParams L d o.paramsFile with
  | none => simp [hp] at h
  | some ps =>
    simp only [hp] at h
    cases hc : createDb L draw values ps o.nonce o.compress with
    | throws => simp [hc] at h
    | undefined => simp [hc] at h
    | ok x =>
      obtain ⟨db, k⟩ := x
      obtain ⟨rfl, -⟩ := createDb_rows L hc
      simp only [hc, trySave] at h
      refine ⟨ps, db, hc, ?_⟩
      by_cases hf : r.flushed ≤ r.cap
      · simp only [hf, decide_true, if_true] at h
        by_cases hs : o.skip = true
        · simp only [hs, if_true, Prod.mk.injEq, and_true] at h ⊢
          exact h.symm
        · rw [if_neg hs] at h ⊢
          cases counts with
          | none => simp at h
          | some t =>
            simp only at h
            cases hc' : createDb L k t ps o.nonce o.compress with
            | throws => simp [hc'] at h
            | undefined => simp [hc'] at h
            | ok y =>
              obtain ⟨cdb, k'⟩ := y
              obtain ⟨rfl, -⟩ := createDb_rows L hc'
              simp only [hc'] at h
              by_cases hf' : r'.flushed ≤ r'.cap
              · simp only [hf', decide_true, if_true, Prod.mk.injEq, and_true] at h
                exact ⟨t, cdb, rfl, hc', h.symm⟩
              · simp [hf'] at h
      · simp [hf] at h

/-- What the offline phase has stored, the online phase serves: every key gets its rows and its count, as they were in the tables. -/
theorem C111_dk_round_trip [DecidableEq H] (L : Lib H Params Key) (hL : Laws L) (hone : OneKey L) (draw fresh : Key) (r r' : Room)
    (o : DkOptions) (values counts : Table) (d d1 d' : Disk) (hfiles : o.valueFile ≠ o.countFile)
    (h : dkGenerate L draw r r' o values (some counts) d = (d1, .ok ()))
    (hroom : ∀ t ∈ [values, counts], ∀ ps db k, createDb L draw t ps o.nonce o.compress = .ok (db, k) →
      (L.saveDb db ++ L.saveKey k).length ≤ min r.cap r'.cap)
    (hv : d' o.valueFile = d1 o.valueFile) (hcnt : d' o.countFile = d1 o.countFile) :
    ∃ db cdb k, dkLoad L fresh o d' = .ok (db, cdb, k) ∧ (∀ q, answer L (db, k) q = values.find q)
      ∧ if o.skip then cdb = none else ∃ x, cdb = some x ∧ ∀ q, answer L (x, k) q = counts.find q := by
  obtain ⟨ps, db, hc, hd⟩ := dkGenerate_inv L h
  have l1 : (L.saveDb db ++ L.saveKey draw).length ≤ r.cap := by
    have := hroom values (by simp) _ db draw hc
    omega
  by_cases hs : o.skip = true
  · rw [if_pos hs] at hd
    have e : d' o.valueFile = some (L.saveDb db ++ L.saveKey draw) := by rw [hv, hd]; simp [Disk.set, List.take_of_length_le l1]
    refine ⟨db, none, draw, ?_, answer_created L hone hc, by simp [hs]⟩
    unfold dkLoad tryLoadFile
    rw [e]
    simp [Res.bind, tryLoad_full L hL, hs]
  · rw [if_neg hs] at hd
    obtain ⟨t, cdb, ht, hc', hd⟩ := hd
    obtain rfl := Option.some.inj ht
    have l2 : (L.saveDb cdb ++ L.saveKey draw).length ≤ r'.cap := by
      have := hroom counts (by simp) _ cdb draw hc'
      omega
    have e : d' o.valueFile = some (L.saveDb db ++ L.saveKey draw) := by
      rw [hv, hd]; simp [Disk.set, List.take_of_length_le l1, hfiles]
    have e' : d' o.countFile = some (L.saveDb cdb ++ L.saveKey draw) := by
      rw [hcnt, hd]; simp [Disk.set, List.take_of_length_le l2]
    refine ⟨db, some cdb, draw, ?_, answer_created L hone hc, ?_⟩
    · unfold dkLoad tryLoadFile
      rw [e, e']
      simp [Res.bind, tryLoad_full L hL, hs]
    · rw [if_neg hs]
      exact ⟨cdb, rfl, answer_created L hone hc'⟩

/-- An offline phase ends well; a second one fails after it has replaced the first of the two files.  The online phase takes the two
files, with the key of the first phase for both: no query finds any row, while the old counts are still served. -/
theorem C111_dk_mixed [DecidableEq H] (L : Lib H Params Key) (hL : Laws L) (hone : OneKey L) (htwo : TwoKeys L) (draw1 draw2 fresh : Key)
    (hne : draw1 ≠ draw2) (r r' r2 r2' : Room) (o : DkOptions) (hs : o.skip = false) (hfiles : o.valueFile ≠ o.countFile)
    (values1 counts1 values2 : Table) (d d1 : Disk) (ps : Params)
    (h1 : dkGenerate L draw1 r r' o values1 (some counts1) d = (d1, .ok ()))
    (hroom : ∀ ps db k, createDb L draw1 counts1 ps o.nonce o.compress = .ok (db, k) → (L.saveDb db ++ L.saveKey k).length ≤ r'.cap)
    (hroom2 : ∀ ps db k, createDb L draw2 values2 ps o.nonce o.compress = .ok (db, k) → (L.saveDb db ++ L.saveKey k).length ≤ r2.cap)
    (hp : buildParams L d1 o.paramsFile = some ps) (hrows : values2.rows ≠ []) (hfl : r2.flushed ≤ r2.cap) :
    ∃ d2 db cdb k, dkGenerate L draw2 r2 r2' o values2 none d1 = (d2, .throws) ∧ dkLoad L fresh o d2 = .ok (db, some cdb, k)
      ∧ (∀ q, answer L (db, k) q = none) ∧ ∀ q, answer L (cdb, k) q = counts1.find q := by
  obtain ⟨ps1, db1, hc1, hd⟩ := dkGenerate_inv L h1
  rw [if_neg (by simp [hs])] at hd
  obtain ⟨t, cdb, ht, hc', hd⟩ := hd
  obtain rfl := Option.some.inj ht
  cases hc2 : createDb L draw2 values2 ps o.nonce o.compress with
  | throws => exact absurd hc2 (createDb_ne_throws L _ _ _ _ _)
  | undefined => exact absurd hc2 (createDb_defined L _ _ _ _ _ hrows)
  | ok x =>
    obtain ⟨db2, k2⟩ := x
    have hk2 := (createDb_rows L hc2).1
    subst hk2
    refine ⟨d1.set o.valueFile ((L.saveDb db2 ++ L.saveKey k2).take r2.cap), db2, cdb, draw1, ?_, ?_,
      answer_other_key L htwo hc2 hne, answer_created L hone hc'⟩
    · unfold dkGenerate
      simp [hp, hc2, trySave, hfl, hs]
    · have l2 : (L.saveDb db2 ++ L.saveKey k2).length ≤ r2.cap := hroom2 _ _ _ hc2
      have l1 : (L.saveDb cdb ++ L.saveKey draw1).length ≤ r'.cap := hroom _ _ _ hc'
      unfold dkLoad tryLoadFile
      have e : (d1.set o.valueFile ((L.saveDb db2 ++ L.saveKey k2).take r2.cap)) o.valueFile = some (L.saveDb db2 ++ L.saveKey k2) := by
        simp [Disk.set, List.take_of_length_le l2]
      have e' : (d1.set o.valueFile ((L.saveDb db2 ++ L.saveKey k2).take r2.cap)) o.countFile = some (L.saveDb cdb ++ L.saveKey draw1) := by
        rw [hd]
        simp [Disk.set, Ne.symm hfiles, List.take_of_length_le l1]
      rw [e, e']
      simp [Res.bind, tryLoad_full L hL, hs]

end Psi.Stored
