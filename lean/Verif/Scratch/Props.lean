import Verif.Scratch.Lemmas

/-!
# C126: scratch places

The names, the directory of a disk cache, the directories of the resource manager, and the temporary files of DkPir and
of the CSV checker: what a run leaves on the disk and what it deletes.
-/

namespace Psi.Scratch

/-! ### Names -/

/-- **C126.** A name of `n` characters is made of the `(n + 1) / 2` random bytes without a read past their end;
character `i` is the one of `kPathChars` that the upper two (even `i`) or the lower six bits (odd `i`) of byte `i / 2`
select. -/
theorem C126_name (n : Nat) (bs : List UInt8) (h : bs.length = (n + 1) / 2) : ∃ r, nameFrom n bs = some r ∧
    r.length = n ∧ ∀ i < n, ∃ b, bs[i / 2]? = some b ∧
      r[i]? = pathChars[if i % 2 = 0 then b.toNat / 64 else b.toNat % 64]? :=
  nameFrom_spec n bs h

/-- **C126.** A name is one component of a path: no character of it is `/` or `.`; and it does not begin with `-` or `_`
but with one of the letters A to D. -/
theorem C126_name_safe (n : Nat) (bs : List UInt8) (h : bs.length = (n + 1) / 2) (r : Name)
    (hr : nameFrom n bs = some r) : '/' ∉ r ∧ '.' ∉ r ∧ ∀ c, r.head? = some c → c ∈ ['A', 'B', 'C', 'D'] := by
  refine ⟨fun hc => absurd (nameFrom_chars n bs r hr _ hc) (by decide +kernel),
    fun hc => absurd (nameFrom_chars n bs r hr _ hc) (by decide +kernel), ?_⟩
  intro c hc
  obtain ⟨r', hr', hl, hs⟩ := nameFrom_spec n bs h
  obtain rfl : r' = r := by rw [hr'] at hr; exact Option.some.inj hr
  have hn : 0 < n := by
    rcases Nat.eq_zero_or_pos n with rfl | hn
    · rw [List.length_eq_zero_iff.1 hl] at hc; cases hc
    · exact hn
  obtain ⟨b, -, hb⟩ := hs 0 hn
  rw [← List.head?_eq_getElem?, hc] at hb
  simp only [Nat.zero_mod, if_true] at hb
  have h4 : ∀ j < 4, ∀ c, some c = pathChars[j]? → c ∈ ['A', 'B', 'C', 'D'] := by
    intro j hj c hc
    have : ∀ j < 4, ∃ x, pathChars[j]? = some x ∧ x ∈ ['A', 'B', 'C', 'D'] := by decide +kernel
    obtain ⟨x, hx, hm⟩ := this j hj
    rw [hx] at hc
    rwa [Option.some.inj hc]
  exact h4 _ (byte_div b) c hb

/-- **C126.** Names of even length are different for different random bytes. -/
theorem C126_name_injective (k : Nat) (a b : List UInt8) (ha : a.length = k) (hb : b.length = k)
    (h : nameFrom (2 * k) a = nameFrom (2 * k) b) : a = b := nameFrom_even_inj k a b ha hb h

/-- **C126.** Of the last byte of a name of odd length only the upper two bits count. -/
theorem C126_name_odd (a : List UInt8) (x y : UInt8) :
    nameFrom (2 * a.length + 1) (a ++ [x]) = nameFrom (2 * a.length + 1) (a ++ [y]) ↔ x.toNat / 64 = y.toNat / 64 := by
  have key : ∀ a : List UInt8, ∃ r, ∀ x : UInt8,
      nameFrom (2 * a.length + 1) (a ++ [x]) = some (r ++ [pathChar (x.toNat / 64)]) := by
    intro a
    induction a with
    | nil => exact ⟨[], fun x => rfl⟩
    | cons z a ih =>
      obtain ⟨r, hr⟩ := ih
      refine ⟨pathChar (z.toNat / 64) :: pathChar (z.toNat % 64) :: r, fun x => ?_⟩
      rw [List.length_cons, show 2 * (a.length + 1) + 1 = (2 * a.length + 1) + 2 by omega, List.cons_append, nameFrom,
        hr x]
      rfl
  obtain ⟨r, hr⟩ := key a
  rw [hr, hr]
  constructor
  · intro h
    have h1 : pathChar (x.toNat / 64) = pathChar (y.toNat / 64) := by simpa using h
    exact pathChar_inj _ (by have := byte_div x; omega) _ (by have := byte_div y; omega) h1
  · intro h; rw [h]

/-- **C126.** The names of the scratch places, 16 characters of an alphabet of 64, are `2 ^ 64` and not `2 ^ 96`. -/
theorem C126_name_count : Set.ncard {s : Name | ∃ bs : List UInt8, bs.length = 8 ∧ nameFrom 16 bs = some s} = 2 ^ 64 ∧
    2 ^ 64 * 2 ^ 32 = 64 ^ 16 := by
  refine ⟨?_, by decide +kernel⟩
  have himg : {s : Name | ∃ bs : List UInt8, bs.length = 8 ∧ nameFrom 16 bs = some s} =
      randomName '' {bs : List UInt8 | bs.length = 8} := by
    ext s
    constructor
    · rintro ⟨bs, hl, hs⟩
      exact ⟨bs, hl, by rw [randomName, hs]; rfl⟩
    · rintro ⟨bs, hl, rfl⟩
      exact ⟨bs, hl, randomName_some hl⟩
  rw [himg, Set.InjOn.ncard_image]
  · rw [← Nat.card_coe_set_eq]
    let e : UInt8 ≃ Fin 256 := ⟨UInt8.toFin, UInt8.ofFin, fun _ => rfl, fun _ => rfl⟩
    let e8 : {bs : List UInt8 | bs.length = 8} ≃ (Fin 8 → Fin 256) :=
      (Equiv.vectorEquivFin UInt8 8).trans (Equiv.arrowCongr (Equiv.refl _) e)
    rw [Nat.card_congr e8, Nat.card_eq_fintype_card, Fintype.card_fun, Fintype.card_fin, Fintype.card_fin]
    decide +kernel
  · intro a ha b hb h
    refine nameFrom_even_inj 8 a b ha hb ?_
    rw [show 2 * 8 = 16 from rfl, randomName_some ha, randomName_some hb, h]

/-- **C126.** Two runs whose random bytes differ do not meet: deleting the scratch directory of one leaves all in that of
the other as it is. -/
theorem C126_two_runs (tmp : Path) (a b : List UInt8) (ha : a.length = 8) (hb : b.length = 8) (hab : a ≠ b) (d : Disk)
    (q : Path) (hq : tmp ++ [randomName b] <+: q) : removeAll (tmp ++ [randomName a]) d q = d q := by
  rw [removeAll, if_neg]
  intro h
  refine hab (nameFrom_even_inj 8 a b ha hb ?_)
  rw [show 2 * 8 = 16 from rfl, randomName_some ha, randomName_some hb]
  have h1 := List.prefix_of_prefix_length_le h hq (by simp)
  simpa using h1.eq_of_length (by simp)

/-! ### The directory of a disk cache -/

/-- **C126.** A disk cache with a directory of its own leaves the disk as it was, whatever is written into it, if one
of the ten names that are tried is free.  Missing: see `C126_cache_foreign` and `C126_cache_race`. -/
theorem C126_cache_restores_partial (path : Path) (draw : Nat → Name) (use : Path → Disk → Disk) (d : Disk)
    (ht : Tree d) (hu : ∀ p, Inside p (use p)) (hf : ∃ i < 10, d (path ++ [draw i]) = none) :
    cacheLife path true draw (fun _ d => d) use d = d := by
  obtain ⟨j, hj, h⟩ := cacheLife_free hu hf
  funext q
  rw [h q]
  by_cases hq : path ++ [draw j] <+: q
  · rw [if_pos hq, tree_below ht hj hq]
  · rw [if_neg hq]

/-- **C126.** If all ten names are taken, the exception that follows deletes what the tenth of them names, with all that
is below it. -/
theorem C126_cache_foreign (path : Path) (draw : Nat → Name) (race : Nat → Disk → Disk) (use : Path → Disk → Disk)
    (d : Disk) (h : ∀ i < 10, d (path ++ [draw i]) ≠ none) :
    (openCache path true draw race d).1 = none ∧
    ∀ q, cacheLife path true draw race use d q = if path ++ [draw 9] <+: q then none else d q := by
  have ht := tryDirs_taken path draw race d maxTries 0 [] fun j _ hj => h j (by simpa [maxTries] using hj)
  simp only [maxTries, Nat.reduceEqDiff, if_false, Nat.reduceAdd, Nat.reduceSub] at ht
  have ho : openCache path true draw race d = (none, removeAll (path ++ [draw 9]) d) := by
    simp only [openCache, maxTries, ht, if_true, dropScoped]
    rw [if_neg (by simp), if_neg (by simp)]
  refine ⟨by rw [ho], fun q => ?_⟩
  unfold cacheLife
  rw [ho]
  rfl

/-- **C126.** If another process makes the directory between the test and the creation, the exception that follows
deletes the directory of the other process, with all that is in it. -/
theorem C126_cache_race (path : Path) (draw : Nat → Name) (race : Nat → Disk → Disk) (use : Path → Disk → Disk)
    (d : Disk) (h0 : d (path ++ [draw 0]) = none) (hr : race 0 d (path ++ [draw 0]) = some .dir) :
    (openCache path true draw race d).1 = none ∧
    ∀ q, cacheLife path true draw race use d q = if path ++ [draw 0] <+: q then none else race 0 d q := by
  have ho : openCache path true draw race d = (none, removeAll (path ++ [draw 0]) (race 0 d)) := by
    simp only [openCache, maxTries, tryDirs, present, h0, Option.isSome_none, Bool.false_eq_true, if_false, createDir,
      hr, if_true, dropScoped]
    rw [if_neg (by simp), if_neg (by simp)]
  refine ⟨by rw [ho], fun q => ?_⟩
  unfold cacheLife
  rw [ho]
  rfl

/-- A disk with the directories and files of a list. -/
def ofList (l : List (Path × Node)) : Disk := fun q => l.lookup q

/-- `tmp/D/keep`, of somebody else. -/
def foreign : Disk := ofList [([], .dir), (["tmp".toList], .dir), (["tmp".toList, "D".toList], .dir),
  (["tmp".toList, "D".toList, "keep".toList], .file [7])]

/-- **C126.** So the claim that a disk cache deletes nothing it has not made is false. -/
theorem C126_cache_keeps_fails : ¬ ∀ (path : Path) (draw : Nat → Name) (use : Path → Disk → Disk) (d : Disk),
    (∀ p, Inside p (use p)) → ∀ q, d q ≠ none → cacheLife path true draw (fun _ d => d) use d q = d q := by
  intro h
  have h1 := h ["tmp".toList] (fun _ => "D".toList) (fun _ d => d) foreign (fun _ _ _ _ => rfl)
    ["tmp".toList, "D".toList, "keep".toList] (by decide)
  rw [(C126_cache_foreign ["tmp".toList] (fun _ => "D".toList) (fun _ d => d) (fun _ d => d) foreign
    fun i _ => by decide).2] at h1
  revert h1
  decide

/-! ### The resource manager -/

/-- What a step has to find so that the disk can be as before at the end: a directory that is added is not there but all
above it is, a write stays in a directory of the manager, a disk cache finds a free name and writes in its directory. -/
def StepOk (s : Step) (m : Mgr) : Prop :=
  match s with
  | .addDir p => m.disk p = none ∧ ∀ q, q <+: p → q ≠ p → m.disk q = some .dir
  | .write f => ∃ p, (Key.dir p, Res.dir p) ∈ m.held ∧ Inside p f
  | .cache path draw use => (∀ p, Inside p (use p)) ∧ ∃ i < 10, m.disk (path ++ [draw i]) = none

/-- All steps find that. -/
def Fits : List Step → Mgr → Prop
  | [], _ => True
  | s :: ss, m => StepOk s m ∧ ∀ m', step s m = some m' → Fits ss m'

/-- What holds all the time: what is not below a directory of the manager is as it was, what is was not there; under
the path of a directory the manager holds that directory. -/
def Keeps (d0 : Disk) (m : Mgr) : Prop :=
  (∀ q, ¬ Covers m.held q → m.disk q = d0 q) ∧ (∀ q, Covers m.held q → d0 q = none) ∧
    ∀ p r, (Key.dir p, r) ∈ m.held → r = Res.dir p

theorem keeps_step {d0 : Disk} (ht : Tree d0) {s : Step} {m m' : Mgr} (hk : Keeps d0 m) (ho : StepOk s m)
    (h : step s m = some m') : Keeps d0 m' := by
  obtain ⟨k1, k2, k3⟩ := hk
  cases s with
  | addDir p =>
    obtain ⟨h1, h2⟩ := ho
    have hd0 : ∀ q, p <+: q → d0 q = none := by
      intro q hq
      by_cases hc : Covers m.held p
      · obtain ⟨e, he, p', hp', hp''⟩ := hc
        exact k2 q ⟨e, he, p', hp', hp''.trans hq⟩
      · exact tree_below ht (by rw [← k1 p hc, h1]) hq
    have hacq : acquireDir p m.disk = some fun q => if q <+: p then some .dir else m.disk q := by
      rw [acquireDir, if_neg (by simp [present, h1]), createDirs, if_neg]
      rw [List.any_eq_true]
      rintro ⟨q, hq, hf⟩
      have hq' := List.mem_inits _ _ |>.1 hq
      by_cases e : q = p
      · subst e; simp [isFile, h1] at hf
      · simp [isFile, h2 q hq' e] at hf
    simp only [step, addDir, hacq, Option.map_some, Option.some.injEq] at h
    have hdisk : ∀ q, ¬ p <+: q → m'.disk q = m.disk q := by
      intro q hq
      have : m'.disk q = if q <+: p then some .dir else m.disk q := by
        rw [← h]; unfold addResource; split <;> rfl
      rw [this]
      by_cases hqp : q <+: p
      · rw [if_pos hqp, h2 q hqp]
        rintro rfl
        exact hq (List.prefix_refl _)
      · rw [if_neg hqp]
    have hmono : ∀ q, Covers m.held q → Covers m'.held q := by
      rintro q ⟨e, he, hp⟩
      refine ⟨e, ?_, hp⟩
      rw [← h]
      unfold addResource
      split
      · exact he
      · exact List.mem_append_left _ he
    have hcov : ∀ q, Covers m'.held q → Covers m.held q ∨ p <+: q := by
      rintro q ⟨e, he, p', hp', hq⟩
      rw [← h] at he
      unfold addResource at he
      split at he
      · exact Or.inl ⟨e, he, p', hp', hq⟩
      · rcases List.mem_append.1 he with he | he
        · exact Or.inl ⟨e, he, p', hp', hq⟩
        · rw [List.mem_singleton.1 he] at hp'
          cases hp'
          exact Or.inr hq
    refine ⟨fun q hq => ?_, fun q hq => ?_, fun p' r he => ?_⟩
    · by_cases hpq : p <+: q
      · by_cases hkey : Key.dir p ∈ m.held.map Prod.fst
        · obtain ⟨⟨k, r⟩, he, rfl⟩ := List.mem_map.1 hkey
          exact absurd (hmono q ⟨_, he, p, k3 p r he, hpq⟩) hq
        · exact absurd ⟨(.dir p, .dir p), by rw [← h]; unfold addResource; rw [if_neg hkey]; simp, p, rfl, hpq⟩ hq
      · rw [hdisk q hpq]
        exact k1 q fun hc => hq (hmono q hc)
    · rcases hcov q hq with hc | hc
      · exact k2 q hc
      · exact hd0 q hc
    · rw [← h] at he
      unfold addResource at he
      split at he
      · exact k3 p' r he
      · rcases List.mem_append.1 he with he | he
        · exact k3 p' r he
        · cases List.mem_singleton.1 he
          rfl
  | write f =>
    obtain ⟨p, hp, hf⟩ := ho
    simp only [step, Option.some.injEq] at h
    subst h
    refine ⟨fun q hq => ?_, k2, k3⟩
    show f m.disk q = d0 q
    rw [hf m.disk q fun hpq => hq ⟨_, hp, p, rfl, hpq⟩]
    exact k1 q hq
  | cache path draw use =>
    obtain ⟨hu, hf⟩ := ho
    obtain ⟨j, hj, hl⟩ := cacheLife_free hu hf
    have hm' : m'.held = m.held ∧ m'.disk = cacheLife path true draw (fun _ d => d) use m.disk := by
      simp only [step] at h
      unfold cacheLife
      split at h
      · simp only [Option.some.injEq] at h; subst h; exact ⟨rfl, rfl⟩
      · cases h
    refine ⟨fun q hq => ?_, fun q hq => k2 q (by rwa [hm'.1] at hq), fun p r he => k3 p r (by rwa [hm'.1] at he)⟩
    rw [hm'.1] at hq
    rw [hm'.2, hl q]
    by_cases hpq : path ++ [draw j] <+: q
    · rw [if_pos hpq]
      have hn : ¬ Covers m.held (path ++ [draw j]) := fun ⟨e, he, p', hp', hp''⟩ => hq ⟨e, he, p', hp', hp''.trans hpq⟩
      exact (tree_below ht (by rw [← k1 _ hn, hj]) hpq).symm
    · rw [if_neg hpq]
      exact k1 q hq

theorem keeps_steps {d0 : Disk} (ht : Tree d0) : ∀ (ss : List Step) (m m' : Mgr), Keeps d0 m → Fits ss m →
    steps ss m = some m' → Keeps d0 m' := by
  intro ss
  induction ss with
  | nil => intro m m' hk _ h; cases h; exact hk
  | cons s ss ih =>
    intro m m' hk hf h
    obtain ⟨m1, h1, h2⟩ := Option.bind_eq_some_iff.1 h
    exact ih m1 m' (keeps_step ht hk hf.1 h1) (hf.2 m1 h1) h2

/-- **C126.** A run that comes to its end, started with nothing but links in the manager, leaves the disk as it was, in
whatever order the resources are released, if it made its directories itself and wrote into them only.  Missing: a
directory that was there before (`C126_existing_lost`), a run that fails (`C126_failed_run`), the trace
(`C126_trace_left`). -/
theorem C126_run_restores_partial (d0 : Disk) (ht : Tree d0) (links : List (Key × Res))
    (hl : ∀ e ∈ links, ∃ id i, e = (Key.link id, Res.link i)) (w : List Nat) (ss : List Step) (m : Mgr)
    (hf : Fits ss ⟨links, d0, w⟩) (hs : steps ss ⟨links, d0, w⟩ = some m) (hm : Tree m.disk)
    (order : List (Key × Res)) (ho : order.Perm m.held) : launcher true order m = d0 := by
  have hk0 : Keeps d0 ⟨links, d0, w⟩ := by
    refine ⟨fun _ _ => rfl, ?_, ?_⟩
    · rintro q ⟨e, he, p, hp, -⟩
      obtain ⟨id, i, rfl⟩ := hl e he
      cases hp
    · intro p r he
      obtain ⟨id, i, h⟩ := hl _ he
      cases h
  obtain ⟨k1, k2, -⟩ := keeps_steps ht ss _ m hk0 hf hs
  funext q
  obtain ⟨r1, r2⟩ := releaseAll_disk order m hm q
  show (order.foldl (fun m e => release e.2 m) m).disk q = d0 q
  by_cases hc : Covers m.held q
  · rw [r1 ((covers_perm ho q).2 hc), k2 q hc]
  · rw [r2 fun h => hc ((covers_perm ho q).1 h), k1 q hc]

/-- **C126.** A directory that is given to the manager is deleted at the end with all that is below it, whether it was
there before or not. -/
theorem C126_existing_lost (p : Path) (d : Disk) (m : Mgr) (h : addDir p { disk := d } = some m) (hm : Tree m.disk)
    (q : Path) (hq : p <+: q) : launcher true m.held m q = none := by
  obtain ⟨d', -, rfl⟩ := Option.map_eq_some_iff.1 h
  refine (releaseAll_disk _ _ hm q).1 ⟨(.dir p, .dir p), ?_, p, rfl, hq⟩
  simp [addResource]

/-- **C126.** The order in which the manager goes through its resources does not matter: the disk is the same, and the
same links are waited for. -/
theorem C126_any_order (m : Mgr) (hm : Tree m.disk) (o o' : List (Key × Res)) (ho : o.Perm m.held)
    (ho' : o'.Perm m.held) : (removeAllResource o m).disk = (removeAllResource o' m).disk ∧
    ((removeAllResource o m).waited).Perm (removeAllResource o' m).waited := by
  constructor
  · funext q
    obtain ⟨r1, r2⟩ := releaseAll_disk o m hm q
    obtain ⟨s1, s2⟩ := releaseAll_disk o' m hm q
    show (o.foldl (fun m e => release e.2 m) m).disk q = (o'.foldl (fun m e => release e.2 m) m).disk q
    have hiff : Covers o q ↔ Covers o' q := (covers_perm ho q).trans (covers_perm ho' q).symm
    by_cases hc : Covers o q
    · rw [r1 hc, s1 (hiff.1 hc)]
    · rw [r2 hc, s2 fun h => hc (hiff.2 h)]
  · show ((o.foldl (fun m e => release e.2 m) m).waited).Perm ((o'.foldl (fun m e => release e.2 m) m).waited)
    rw [waited_fold, waited_fold]
    exact (List.Perm.refl _).append ((ho.trans ho'.symm).filterMap _)

/-- **C126.** One resource can be given back before the others: a directory goes with all that is below it, a link is
waited for, the other resources stay, and nothing happens if there is no such resource. -/
theorem C126_remove_one (m : Mgr) (hm : Tree m.disk) (k : Key) :
    (∀ p, m.held.lookup k = some (.dir p) → ∀ q, (removeResource k m).disk q = if p <+: q then none else m.disk q) ∧
    (∀ i, m.held.lookup k = some (.link i) → (removeResource k m).waited = m.waited ++ [i] ∧
      (removeResource k m).disk = m.disk) ∧
    (∀ e, e ∈ (removeResource k m).held ↔ e ∈ m.held ∧ e.1 ≠ k) ∧
    (m.held.lookup k = none → removeResource k m = m) := by
  have hheld : ∀ r, (release r m).held = m.held := by
    intro r
    cases r with
    | link i => rfl
    | dir p => simp only [release]; split <;> rfl
  refine ⟨fun p hp q => ?_, fun i hi => ?_, fun e => ?_, fun hn => ?_⟩
  · simp only [removeResource, hp]
    obtain ⟨h1, h2, -⟩ := release_disk hm (.dir p) q
    by_cases hq : p <+: q
    · rw [if_pos hq, h1 ⟨p, rfl, hq⟩]
    · rw [if_neg hq, h2]
      rintro ⟨p', he, hq'⟩
      cases he
      exact hq hq'
  · simp only [removeResource, hi, release, and_self]
  · unfold removeResource
    split
    · simp [hheld]
    · next hn =>
      refine ⟨fun he => ⟨he, ?_⟩, fun h => h.1⟩
      rintro rfl
      rw [List.lookup_eq_none_iff] at hn
      have := hn e he
      simp at this
  · simp only [removeResource, hn]

/-- **C126.** A second link of the same id is not kept: only the tasks of the first are waited for at the end. -/
theorem C126_second_link (id : Name) (i j : Nat) (d : Disk) (order : List (Key × Res))
    (ho : order.Perm (addLink id j (addLink id i { disk := d })).held) :
    (removeAllResource order (addLink id j (addLink id i { disk := d }))).waited = [i] := by
  have hh : (addLink id j (addLink id i { disk := d })).held = [(.link id, .link i)] := by
    simp [addLink, addResource]
  have hw : (addLink id j (addLink id i { disk := d })).waited = [] := by simp [addLink, addResource]
  rw [hh, List.perm_singleton] at ho
  subst ho
  show (List.foldl (fun m (e : Key × Res) => release e.2 m) _ _).waited = _
  rw [waited_fold, hw]
  rfl

/-- **C126.** The directory of a task stays the same for the whole run. -/
theorem C126_task_dir_stable (tmp : Path) (name name' : Name) (p p' : Party) (m m' : Mgr) (dir : Path)
    (h : taskDir tmp name p m = some (dir, p', m')) : taskDir tmp name' p' m' = some (dir, p', m') := by
  unfold taskDir at h
  split at h
  · next folder hr => cases h; simp [taskDir, hr]
  · next hr =>
    split at h
    · next dir' hd => cases h; simp [taskDir, hr, hd]
    · obtain ⟨m1, h1, h2⟩ := Option.map_eq_some_iff.1 h
      cases h2
      simp [taskDir, hr]

/-- **C126.** With recovery the folder of the user is the directory of the task and nothing of it is deleted at the end,
whatever was written meanwhile. -/
theorem C126_recovery_kept (tmp folder : Path) (name : Name) (d : Disk) (links : List (Key × Res))
    (hl : ∀ e ∈ links, ∃ id i, e = (Key.link id, Res.link i)) (f : Disk → Disk) (hf : Tree (f d))
    (order : List (Key × Res)) : ∃ p' m', taskDir tmp name ⟨some folder, none⟩ ⟨links, d, []⟩ = some (folder, p', m') ∧
      (order.Perm m'.held → launcher true order { m' with disk := f m'.disk } = f d) := by
  refine ⟨_, _, rfl, fun ho => ?_⟩
  funext q
  refine (releaseAll_disk order _ hf q).2 ?_
  rintro ⟨e, he, p, hp, -⟩
  obtain ⟨id, i, rfl⟩ := hl e (ho.mem_iff.1 he)
  cases hp

/-- **C126.** A run that writes `content` into a file of its scratch directory: if it fails afterwards, the file stays;
if not, the disk is as before. -/
theorem C126_failed_run (tmp : Path) (bytes : List UInt8) (file : Name) (content : List UInt8) (d : Disk)
    (ht : Tree d) (hroot : ∀ q, q <+: tmp → d q = some .dir) (hfree : d (tmp ++ [randomName bytes]) = none) :
    ∃ m, steps [.addDir (tmp ++ [randomName bytes]), .write (put (tmp ++ [randomName bytes, file]) content)]
      { disk := d } = some m ∧
      (∀ order, launcher false order m (tmp ++ [randomName bytes, file]) = some (.file content)) ∧
      launcher true m.held m = d := by
  set s := tmp ++ [randomName bytes] with hs
  have hsf : tmp ++ [randomName bytes, file] = s ++ [file] := by rw [hs, List.append_assoc]; rfl
  rw [hsf]
  have habove : ∀ q, q <+: s → q ≠ s → d q = some .dir := by
    intro q hq hne
    refine hroot q ?_
    rcases List.prefix_concat_iff.1 hq with h | h
    · exact absurd h hne
    · exact h
  have hany : ¬ s.inits.any (isFile d) = true := by
    rw [List.any_eq_true]
    rintro ⟨q, hq, hf⟩
    have hq' := List.mem_inits _ _ |>.1 hq
    by_cases e : q = s
    · subst e; simp [isFile, hfree] at hf
    · simp [isFile, habove q hq' e] at hf
  have hstep : steps [.addDir s, .write (put (s ++ [file]) content)] { disk := d } =
      some ⟨[(.dir s, .dir s)], put (s ++ [file]) content fun q => if q <+: s then some .dir else d q, []⟩ := by
    simp [steps, step, addDir, acquireDir, present, hfree, createDirs, hany, addResource]
  have hin : Inside s (put (s ++ [file]) content) := by
    intro d q hq
    rw [put, if_neg]
    rintro rfl
    exact hq (List.prefix_append _ _)
  refine ⟨_, hstep, fun order => by simp [launcher, put], ?_⟩
  refine C126_run_restores_partial d ht [] (by simp) [] _ _ ?_ hstep ?_ _ (List.Perm.refl _)
  · refine ⟨⟨hfree, habove⟩, fun m' hm' => ⟨⟨s, ?_, hin⟩, fun _ _ => trivial⟩⟩
    simp only [step, addDir, acquireDir, present, hfree, createDirs, hany] at hm'
    cases hm'
    simp [addResource]
  · intro p c hpc
    simp only [put] at hpc ⊢
    have hp1 : p ≠ s ++ [file] := by
      rintro rfl
      have h1 : ¬ (s ++ [file] ++ [c] = s ++ [file]) := by simp
      have h2 : ¬ (s ++ [file] ++ [c] <+: s) := fun h => by have := h.length_le; simp at this
      rw [if_neg h1, if_neg h2] at hpc
      exact hpc (tree_below ht hfree (by rw [List.append_assoc]; exact List.prefix_append _ _))
    rw [if_neg hp1]
    by_cases hps : p <+: s
    · rw [if_pos hps]
    · rw [if_neg hps]
      have h1 : ¬ (p ++ [c] = s ++ [file]) := fun h => hps (by
        rw [(List.append_inj' h rfl).1])
      have h2 : ¬ (p ++ [c] <+: s) := fun h => hps ((List.prefix_append p [c]).trans h)
      rw [if_neg h1, if_neg h2] at hpc
      exact ht p c hpc

/-- **C126.** Every run of PSI for which no place of the trace is given leaves a file in `/tmp`, also if it comes to its
end and the scratch directory, if there is one, is deleted. -/
theorem C126_trace_left (bytes : List UInt8) (hb : bytes.length = 8) (name : Name) (trace : List UInt8) (d : Disk)
    (ht : Tree (writeTrace [] name trace d)) (order : List (Key × Res))
    (ho : order.Perm [(Key.dir ["tmp".toList, randomName bytes], Res.dir ["tmp".toList, randomName bytes])]) :
    launcher true order ⟨[(Key.dir ["tmp".toList, randomName bytes], Res.dir ["tmp".toList, randomName bytes])],
      writeTrace [] name trace d, []⟩ ["tmp".toList, "psi_".toList ++ name ++ ".trace".toList] =
        some (.file trace) := by
  rw [show launcher true order _ _ = _ from (releaseAll_disk order _ ht _).2 ?_]
  · simp [writeTrace, put, tracePath]
  · rw [covers_perm ho]
    rintro ⟨e, he, p, hp, hq⟩
    rw [List.mem_singleton.1 he] at hp
    cases hp
    have h1 : randomName bytes = "psi_".toList ++ name ++ ".trace".toList := by
      have := hq.eq_of_length (by simp)
      simpa using this
    refine (C126_name_safe 16 bytes (by rw [hb]) _ (randomName_some hb)).2.1 ?_
    rw [h1]
    exact List.mem_append_right _ (by decide)

/-! ### Temporary files -/

theorem files_ne (tmp : Path) (name : Name) : queryFile tmp name ≠ resultFile tmp name := by
  simp [queryFile, resultFile]

theorem files_ne' (tmp : Path) (name : Name) : valueFile tmp name ≠ countFile tmp name := by
  simp [valueFile, countFile]

/-- **C126.** A receiver of DkPir that comes to its end leaves nothing but the result. -/
theorem C126_dk_receiver_partial (tmp : Path) (name : Name) (query rows : List UInt8) (out : Path × List UInt8)
    (d : Disk) (hq : d (queryFile tmp name) = none) (hr : d (resultFile tmp name) = none)
    (ho : out.1 ≠ queryFile tmp name) (ho' : out.1 ≠ resultFile tmp name) :
    dkReceiver tmp name query rows out .none d = fun q => if q = out.1 then some (.file out.2) else d q := by
  funext q
  simp only [dkReceiver, removeFile, put]
  by_cases h1 : q = resultFile tmp name
  · subst h1; rw [if_pos rfl, if_neg (Ne.symm ho'), hr]
  · by_cases h2 : q = queryFile tmp name
    · subst h2; rw [if_neg h1, if_pos rfl, if_neg (Ne.symm ho), hq]
    · rw [if_neg h1, if_neg h2, if_neg h1, if_neg h2]

/-- **C126.** A receiver of DkPir that fails after it has read its query leaves the query in the temporary folder, in
plain text. -/
theorem C126_dk_receiver_leaves (tmp : Path) (name : Name) (query rows : List UInt8) (out : Path × List UInt8)
    (d : Disk) (stop : Stop) (h : stop ∈ [.query true, .oprf, .answer, .save]) :
    dkReceiver tmp name query rows out stop d (queryFile tmp name) = some (.file query) := by
  simp only [List.mem_cons, List.not_mem_nil, or_false] at h
  rcases h with rfl | rfl | rfl | rfl
  · simp [dkReceiver, put]
  · simp [dkReceiver, put]
  · simp [dkReceiver, put]
  · simp [dkReceiver, put, files_ne]

/-- **C126.** A sender of DkPir whose database is built leaves none of its two temporary files; one whose database cannot
be built leaves its data, in plain text, and the counts if there are any. -/
theorem C126_dk_sender (tmp : Path) (name : Name) (values counts : List UInt8) (skipCount : Bool) (db : Disk → Disk)
    (d : Disk) (hdb : ∀ d, db d (countFile tmp name) = d (countFile tmp name)) (hc : d (countFile tmp name) = none) :
    (dkSender tmp name values counts skipCount true db d (valueFile tmp name) = none ∧
      dkSender tmp name values counts skipCount true db d (countFile tmp name) = none) ∧
    dkSender tmp name values counts skipCount false db d (valueFile tmp name) = some (.file values) ∧
    (skipCount = false → dkSender tmp name values counts skipCount false db d (countFile tmp name) =
      some (.file counts)) := by
  have hne := files_ne' tmp name
  cases skipCount
  · refine ⟨⟨?_, ?_⟩, ?_, fun _ => ?_⟩ <;> simp [dkSender, put, removeFile, hne]
  · refine ⟨⟨?_, ?_⟩, ?_, fun h => by cases h⟩
    · simp [dkSender, removeFile]
    · simp [dkSender, removeFile, hdb, put, Ne.symm hne, hc]
    · simp [dkSender, put]

/-- **C126.** The CSV checker leaves none of its files, however it ends. -/
theorem C126_checker_clean (cwd : Path) (name name' : Name) (keys dups : List UInt8) (skip : Bool) (how : Checked)
    (d : Disk) (h : d (cwd ++ ["selected-keys.".toList ++ name]) = none)
    (h' : d (cwd ++ ["duplicate-keys.".toList ++ name']) = none) :
    checker cwd name name' keys dups skip how d = d := by
  funext q
  unfold checker
  by_cases h1 : q = cwd ++ ["selected-keys.".toList ++ name]
  · subst h1
    show removeFile _ _ _ = _
    rw [removeFile, if_pos rfl, h]
  · show removeFile _ _ _ = _
    rw [removeFile, if_neg h1]
    split
    · rw [put, if_neg h1]
    · by_cases h2 : q = cwd ++ ["duplicate-keys.".toList ++ name']
      · subst h2
        rw [removeFile, if_pos rfl, h']
      · rw [removeFile, if_neg h2, put, if_neg h2, put, if_neg h1]

/-! ### Examples -/

theorem tree_ofList (l : List (Path × Node)) (h : ∀ e ∈ l, e.1 ≠ [] → ofList l e.1.dropLast = some .dir) :
    Tree (ofList l) := by
  intro p c hpc
  have hkey : ∀ (l : List (Path × Node)) (q : Path), l.lookup q ≠ none → ∃ e ∈ l, e.1 = q := by
    intro l q
    induction l with
    | nil => intro h; exact absurd rfl h
    | cons e l ih =>
      intro h
      rcases e with ⟨k, n⟩
      rw [List.lookup_cons] at h
      by_cases hk : q = k
      · exact ⟨_, List.mem_cons_self, hk.symm⟩
      · have hb : (q == k) = false := by simpa using hk
        rw [hb] at h
        obtain ⟨e, he, hq⟩ := ih h
        exact ⟨e, List.mem_cons_of_mem _ he, hq⟩
  obtain ⟨e, he, hq⟩ := hkey l _ hpc
  have := h e he (by rw [hq]; simp)
  rwa [hq, List.dropLast_concat] at this

/-- A disk with a directory for temporary files and an input. -/
def homeList : List (Path × Node) := [([], .dir), (["tmp".toList], .dir), (["data".toList], .dir),
  (["data".toList, "in.csv".toList], .file [1, 2])]

/-- Random bytes. -/
def coins : List UInt8 := [0, 255, 64, 1, 200, 63, 128, 7]

example := C126_name 16 coins rfl
example : nameFrom 16 coins = some "AAD_BAABDIA_CAAH".toList := by decide +kernel
example : nameFrom 5 [0, 255, 127] = some "AAD_B".toList := by decide +kernel
example := C126_name_safe 16 coins rfl "AAD_BAABDIA_CAAH".toList (by decide +kernel)
example : coins ≠ coins.reverse ∧ nameFrom 16 coins ≠ nameFrom 16 coins.reverse :=
  ⟨by decide, fun h => absurd (C126_name_injective 8 coins coins.reverse rfl rfl h) (by decide)⟩
example : nameFrom 5 [0, 255, 64] = nameFrom 5 [0, 255, 127] := (C126_name_odd [0, 255] 64 127).2 (by decide)
example := C126_two_runs ["tmp".toList] coins coins.reverse rfl rfl (by decide) (ofList homeList)
  ["tmp".toList, randomName coins.reverse, "0".toList] (by decide +kernel)
example := C126_cache_restores_partial ["tmp".toList] (fun _ => randomName coins)
  (fun p => put (p ++ ["0".toList]) [5]) (ofList homeList) (tree_ofList _ (by decide))
  (fun p d q hq => by
    rw [put, if_neg]
    rintro rfl
    exact hq (List.prefix_append _ _)) ⟨0, by decide, by decide +kernel⟩
example := C126_cache_foreign ["tmp".toList] (fun _ => "D".toList) (fun _ d => d) (fun _ d => d) foreign
  fun _ _ => by decide
example := C126_cache_race ["tmp".toList] (fun _ => "D".toList) (fun _ _ => foreign) (fun _ d => d) (ofList homeList)
  (by decide) (by decide)
example := C126_failed_run ["tmp".toList] coins "sorted.csv".toList [1, 2] (ofList homeList)
  (tree_ofList _ (by decide)) (by
    intro q hq
    have hq' := (List.mem_inits _ _).2 hq
    simp only [List.inits, List.map, List.mem_cons, List.not_mem_nil, or_false] at hq'
    rcases hq' with rfl | rfl <;> decide) (by decide +kernel)
example : foreign ["tmp".toList, "D".toList, "keep".toList] = some (.file [7]) := by decide
example := C126_existing_lost ["tmp".toList, "D".toList] foreign _ rfl (tree_ofList _ (by decide))
  ["tmp".toList, "D".toList, "keep".toList] (by decide)
example := C126_any_order ⟨[(.dir ["tmp".toList, "D".toList], .dir ["tmp".toList, "D".toList]),
    (.link "alice".toList, .link 0), (.dir ["data".toList], .dir ["data".toList])], foreign, []⟩
  (tree_ofList _ (by decide)) _ _ (List.Perm.refl _) (List.reverse_perm _)
example := C126_remove_one ⟨[(.dir ["tmp".toList, "D".toList], .dir ["tmp".toList, "D".toList]),
    (.link "alice".toList, .link 0)], foreign, []⟩ (tree_ofList _ (by decide)) (.dir ["tmp".toList, "D".toList])
example := C126_second_link "alice".toList 0 1 (ofList homeList) _ (List.Perm.refl _)
example := C126_task_dir_stable ["tmp".toList] (randomName coins) "other".toList ⟨none, none⟩ _ { disk := ofList homeList }
  _ _ rfl
example := C126_recovery_kept ["tmp".toList] ["data".toList] (randomName coins) (ofList homeList)
  [(.link "alice".toList, .link 0)] (by simp) (fun _ => foreign) (tree_ofList _ (by decide))
  [(.link "alice".toList, .link 0)]
example := C126_trace_left coins rfl "X".toList [9] (ofList homeList) (by
  have : writeTrace [] "X".toList [9] (ofList homeList) =
      ofList ((["tmp".toList, "psi_X.trace".toList], .file [9]) :: homeList) := by
    funext q
    show (if q = _ then _ else ofList homeList q) = List.lookup q (_ :: homeList)
    rw [List.lookup_cons]
    by_cases h : q = ["tmp".toList, "psi_X.trace".toList]
    · subst h; decide
    · have hb : (q == ["tmp".toList, "psi_X.trace".toList]) = false := by simpa using h
      rw [hb, if_neg (by exact h)]
      rfl
  rw [this]
  exact tree_ofList _ (by decide)) _ (List.Perm.refl _)
example := C126_dk_receiver_partial ["tmp".toList] (randomName coins) [1] [2] (["data".toList, "out.csv".toList], [3])
  (ofList homeList) (by decide +kernel) (by decide +kernel) (by decide +kernel) (by decide +kernel)
example := C126_dk_receiver_leaves ["tmp".toList] (randomName coins) [1] [2] (["data".toList, "out.csv".toList], [3])
  (ofList homeList) .oprf (by decide)
example := C126_dk_sender ["tmp".toList] (randomName coins) [1] [2] false id (ofList homeList) (fun _ => rfl)
  (by decide +kernel)
example := C126_checker_clean ["data".toList] (randomName coins) (randomName coins) [1] [2] false .dups
  (ofList homeList) (by decide +kernel) (by decide +kernel)

end Psi.Scratch
