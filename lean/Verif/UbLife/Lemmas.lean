import Verif.UbLife.Model

/-! # Lemmas on the files of the unbalanced PSI server -/

namespace Psi.UbLife

variable {T I R : Type}

/-- What is in the directory of a complete cache, by the path below it. -/
def contents (size : T → Nat) (s : T) (i : I) (rs : List R) (key : List UInt8) : Path → Option (Node T I R)
  | [] => some .dir
  | ["join_sorted_input.csv"] => some (.file (.table s))
  | ["join_sorted_input_key_info.csv"] => some (.file (.info i))
  | ["join_sorted_input_key_info.csv.meta"] => some (.file (.infoMeta (size s)))
  | ["ub_psi_cache.bin"] => some (.file (.bin rs (44 * rs.length)))
  | ["ub_psi_cache.meta"] => some (.file (.binMeta rs.length key))
  | _ => none

section paths

theorem not_above {c : Path} {x : String} {l : Path} : ¬ (c ++ x :: l) <+: c := by
  intro h
  have := h.length_le
  simp only [List.length_append, List.length_cons] at this
  omega

theorem mkdirs_below (c : Path) (d : Disk T I R) (x : String) (l : Path) : mkdirs c d (c ++ x :: l) = d (c ++ x :: l) :=
  if_neg not_above

theorem removeAll_below (c : Path) (d : Disk T I R) (l : Path) : removeAll c d (c ++ l) = none :=
  if_pos (List.prefix_append _ _)

theorem put_ne (p q : Path) (f : File T I R) (d : Disk T I R) (h : q ≠ p) : put p f d q = d q := if_neg h

theorem put_eq (p : Path) (f : File T I R) (d : Disk T I R) : put p f d p = some (.file f) := if_pos rfl

theorem put_below (c l l' : Path) (f : File T I R) (d : Disk T I R) :
    put (c ++ l) f d (c ++ l') = if l' = l then some (.file f) else d (c ++ l') := by
  simp [put]

theorem below_of_prefix {c q : Path} (h : c <+: q) : ∃ l, q = c ++ l := by
  obtain ⟨l, hl⟩ := h
  exact ⟨l, hl.symm⟩

end paths

variable (o : Ops T I R)

/-- The disk after a generation. -/
def made (c : Cfg) (s : T) (key : List UInt8) (d : Disk T I R) : Disk T I R :=
  let i := o.info c.keys s
  let rs := o.recs key i
  put (binPath c.cache) (.bin rs (rs.length * recSize))
    (put (binMetaPath c.cache) (.binMeta (rs.length % 2 ^ 32) key)
    (put (infoMetaPath c.cache) (.infoMeta (o.size s))
    (put (infoPath c.cache) (.info i)
    (put (sortedPath c.cache) (.table s)
    (put (binPath c.cache) (.bin [] 0) (mkdirs c.cache (removeAll c.cache d)))))))

theorem made_below (c : Cfg) (s : T) (key : List UInt8) (d : Disk T I R)
    (hl : (o.recs key (o.info c.keys s)).length < 2 ^ 32) (l : Path) :
    made o c s key d (c.cache ++ l) =
      contents o.size s (o.info c.keys s) (o.recs key (o.info c.keys s)) key l := by
  simp only [made, binPath, binMetaPath, infoMetaPath, infoPath, sortedPath, put_below]
  by_cases h1 : l = ["ub_psi_cache.bin"]
  · subst h1
    simp [contents, recSize, Nat.mul_comm]
  by_cases h2 : l = ["ub_psi_cache.meta"]
  · subst h2
    simp [contents, Nat.mod_eq_of_lt hl]
  by_cases h3 : l = ["join_sorted_input_key_info.csv.meta"]
  · subst h3
    simp [contents]
  by_cases h4 : l = ["join_sorted_input_key_info.csv"]
  · subst h4
    simp [contents]
  by_cases h5 : l = ["join_sorted_input.csv"]
  · subst h5
    simp [contents]
  rw [if_neg h1, if_neg h2, if_neg h3, if_neg h4, if_neg h5, if_neg h1]
  match l with
  | [] =>
    have h := removeAll_below c.cache d []
    simp only [List.append_nil] at h ⊢
    simp [mkdirs, h, contents]
  | x :: l =>
    rw [mkdirs_below, removeAll_below]
    symm
    unfold contents
    split <;> first | rfl | simp_all

theorem made_kept (c : Cfg) (s : T) (key : List UInt8) (d : Disk T I R) (q : Path) (hq : ¬ c.cache <+: q) :
    made o c s key d q = mkdirs c.cache d q := by
  have hne : ∀ l : Path, q ≠ c.cache ++ l := fun l h => hq ⟨l, h.symm⟩
  simp only [made, binPath, binMetaPath, infoMetaPath, infoPath, sortedPath]
  rw [put_ne _ _ _ _ (hne _), put_ne _ _ _ _ (hne _), put_ne _ _ _ _ (hne _), put_ne _ _ _ _ (hne _),
    put_ne _ _ _ _ (hne _), put_ne _ _ _ _ (hne _)]
  simp [mkdirs, removeAll, hq]

theorem mkdirs_some (c : Path) (d : Disk T I R) (q : Path) (n : Node T I R) (h : d q = some n) :
    mkdirs c d q = some n := by
  simp [mkdirs, h]

theorem mkdirs_other (c : Path) (d : Disk T I R) (q : Path) (h : ¬ q <+: c) : mkdirs c d q = d q := if_neg h

/-! ### Reading a complete cache -/

section reading

variable {o} {d : Disk T I R} {s : T} {i : I} {rs : List R} {key : List UInt8} {cache : Path}

theorem openCache_complete (h : ∀ l, d (cache ++ l) = contents o.size s i rs key l) :
    openCache cache d = (.ok (rs, key), d) := by
  have h1 := h ["ub_psi_cache.bin"]
  have h2 := h ["ub_psi_cache.meta"]
  simp only [contents] at h1 h2
  simp [openCache, binPath, binMetaPath, h1, h2, recSize]

theorem uniqueKeys_complete (c : Cfg) (inp : Path) (hc : c.cache = cache)
    (h : ∀ l, d (cache ++ l) = contents o.size s i rs key l) :
    uniqueKeys o c inp d = (.ok (s, i), d) := by
  have h1 := h ["join_sorted_input.csv"]
  have h2 := h ["join_sorted_input_key_info.csv"]
  have h3 := h ["join_sorted_input_key_info.csv.meta"]
  simp only [contents] at h1 h2 h3
  simp [uniqueKeys, andThen, sortedTable, keyInfo, tableAt, present, sortedPath, infoPath, infoMetaPath, hc, h1, h2,
    h3]

theorem transfer_complete (h : ∀ l, d (cache ++ l) = contents o.size s i rs key l) :
    transfer cache d = (.ok rs, d) := by
  simp [transfer, andThen, openCache_complete (o := o) h]

theorem online_complete (c : Cfg) (inp : Path) (hc : c.cache = cache)
    (h : ∀ l, d (cache ++ l) = contents o.size s i rs key l) :
    online o c inp d =
      (.ok ⟨c.keyFile.getD key, s, i, if c.serverGets then some rs else none⟩, d) := by
  subst hc
  have hu := uniqueKeys_complete c inp rfl h
  have ho := openCache_complete (o := o) h
  unfold online
  cases hk : c.keyFile with
  | none => cases hg : c.serverGets <;> simp [andThen, ho, hu]
  | some k => cases hg : c.serverGets <;> simp [andThen, ho, hu]

theorem init_complete (c : Cfg) (hc : c.cache = cache) (h : ∀ l, d (cache ++ l) = contents o.size s i rs key l)
    (hne : cache ≠ []) (hside : c.sideMissing = false) (hm : needsInput c.mode = false) (hu : c.mode ≠ .unspecified)
    (hout : c.mode = .online → c.serverGets = true → c.outputCsv = true) : init c d = (.ok [], d) := by
  subst hc
  have h0 : present d c.cache = true := by
    have := h []
    rw [List.append_nil] at this
    simp [present, this, contents]
  have h1 : (c.serverGets && (c.mode = .online || c.mode = .full) && !c.outputCsv) = false := by
    cases hmode : c.mode <;> simp_all [needsInput]
  unfold init construct
  rw [if_neg hu, if_neg hne]
  simp only [andThen, checkServer, h0, hm]
  simp [h1, hside, h0]

end reading

/-! ### Generation -/

theorem gen_fresh (c : Cfg) (fresh : List UInt8) (d : Disk T I R) {t s : T} (hi : c.input ≠ [])
    (hin : d c.input = some (.file (.table t))) (hs : o.sort c.keys t = some s)
    (hout : ¬ c.cache <+: c.input) :
    genCache o c fresh c.input (mkdirs c.cache (removeAll c.cache d)) =
      (.ok (), made o c s (c.keyFile.getD fresh) d) := by
  have hb : ∀ l : Path, c.input ≠ c.cache ++ l := fun l h => hout ⟨l, h.symm⟩
  have h1 : put (binPath c.cache) (.bin [] 0) (mkdirs c.cache (removeAll c.cache d)) c.input
      = some (.file (.table t)) := by
    rw [binPath, put_ne _ _ _ _ (hb _)]
    exact mkdirs_some _ _ _ _ (by simp [removeAll, hout, hin])
  have h2 : present (put (binPath c.cache) (.bin [] 0) (mkdirs c.cache (removeAll c.cache d)))
      (sortedPath c.cache) = false := by
    simp only [present, sortedPath, binPath, put_below]
    rw [mkdirs_below, removeAll_below]
    simp
  have h3 : ∀ f, put (sortedPath c.cache) f (put (binPath c.cache) (.bin [] 0)
      (mkdirs c.cache (removeAll c.cache d))) (infoPath c.cache) = none := by
    intro f
    simp only [infoPath, sortedPath, binPath, put_below]
    rw [mkdirs_below, removeAll_below]
    simp
  simp only [genCache, andThen, uniqueKeys, sortedTable, h2, tableAt, hi, h1, keyInfo, made]
  simp [hs, h3]

theorem init_gen (c : Cfg) (d : Disk T I R) (hne : c.cache ≠ []) (hm : needsInput c.mode = true)
    (hcsv : c.inputCsv = true) (hside : c.sideMissing = false) (hin : present d c.input = true)
    (hout : c.mode = .full → c.serverGets = true → c.outputCsv = true) :
    init c d = (.ok c.input, mkdirs c.cache (removeAll c.cache d)) := by
  have hu : c.mode ≠ .unspecified := by
    intro h
    simp [h, needsInput] at hm
  have h0 : present (removeAll c.cache d) c.cache = false := by
    have := removeAll_below c.cache d []
    rw [List.append_nil] at this
    simp [present, this]
  have h1 : (c.serverGets && (c.mode = .online || c.mode = .full) && !c.outputCsv) = false := by
    cases hmode : c.mode <;> simp_all [needsInput]
  unfold init construct
  rw [if_neg hu, if_neg hne]
  simp only [andThen, checkServer, hin, hm, hcsv]
  simp [h1, h0, hside]

end Psi.UbLife
