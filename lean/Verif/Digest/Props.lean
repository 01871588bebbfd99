import Verif.Digest.Lemmas

/-!
# The equal-input shortcut: properties

C18 asks that the shortcut is taken only if both parties have the same keys.  The digest is a hash of the
concatenated keys without separators, so it does not have it (`C18_different_keys_accepted`).

C39 asks that the key summary kept beside the input file is only reused for the keys it was computed from.
It is reused whenever the size of the file is the same (`C39_stale_summary`).
-/

namespace Psi.Digest
open Psi.Spec

/-- **C18, negation**: two parties without any common key take the shortcut and both report all their
keys, whatever the hash function. -/
theorem C18_different_keys_accepted {D : Type} [DecidableEq D] (H : List Char → D) :
    let a : List (Key × Nat) := [(['1'], 0), (['2', '3'], 0)]
    let b : List (Key × Nat) := [(['1', '2'], 0), (['3'], 0)]
    shortcut H true a b = true ∧ shortcutIndex a = [(0, 0), (1, 0)] ∧
      (∀ w, ExactIndex a b w → w = []) := by
  refine ⟨by simp [shortcut, digest], rfl, ?_⟩
  intro w hw
  rw [List.eq_nil_iff_forall_not_mem]
  rintro ⟨i, d⟩ hm
  obtain ⟨x, e, hi, hx⟩ := (hw.mem i d).mp hm
  match i with
  | 0 => simp at hi; simp [← hi.1] at hx
  | 1 => simp at hi; simp [← hi.1] at hx
  | i + 2 => simp at hi

/-- **C18, partial**: if no key is empty and none is a proper prefix of another one (keys of a fixed
length, for instance), then the shortcut is taken only if both parties have the same keys, and the lines
written are the exact intersection.  `H` is assumed not to collide on the two inputs.  Missing: other key sets, for
which it is false. -/
theorem C18_shortcut_sound_partial {D : Type} [DecidableEq D] (H : List Char → D)
    (check : Bool) (a b : List (Key × Nat))
    (hH : H (a.map Prod.fst).flatten = H (b.map Prod.fst).flatten →
      (a.map Prod.fst).flatten = (b.map Prod.fst).flatten)
    (hp : ∀ x ∈ (a ++ b).map Prod.fst, ∀ y ∈ (a ++ b).map Prod.fst, x <+: y → x = y)
    (hne : [] ∉ (a ++ b).map Prod.fst)
    (hs : shortcut H check a b = true) : a = b ∧ ExactIndex a b (shortcutIndex a) := by
  simp only [shortcut, Bool.and_eq_true, List.all_cons, List.all_nil, Bool.and_true,
    List.all_eq_true, beq_iff_eq, decide_eq_true_eq] at hs
  obtain ⟨⟨_, ha, hb⟩, he⟩ := hs
  have hk : a.map Prod.fst = b.map Prod.fst := by
    refine flatten_inj (fun x => x ∈ (a ++ b).map Prod.fst)
      (fun x y hx hy => hp x hx y hy) hne _ _ ?_ ?_ (hH he)
    · intro x hx; rw [List.map_append, List.mem_append]; exact Or.inl hx
    · intro x hx; rw [List.map_append, List.mem_append]; exact Or.inr hx
  have hz : ∀ l : List (Key × Nat), (∀ x ∈ l, x.2 = 0) → l = (l.map Prod.fst).map (fun k => (k, 0)) := by
    intro l hl
    induction l with
    | nil => rfl
    | cons x l ih =>
      have := hl x (by simp)
      simp only [List.map_cons]
      rw [← ih (fun y hy => hl y (by simp [hy]))]
      congr 1
      exact Prod.ext rfl this
  have hab : a = b := by rw [hz a ha, hz b hb, hk]
  subst hab
  exact ⟨rfl, shortcutIndex_exact a ha⟩

/-- **C18** (the other direction): with the check switched on, equal inputs without duplicate keys do take
the shortcut; without the check, or if some key has further rows, nobody takes it. -/
theorem C18_shortcut_taken {D : Type} [DecidableEq D] (H : List Char → D) (a b : List (Key × Nat)) :
    ((∀ x ∈ a, x.2 = 0) → shortcut H true a a = true) ∧ shortcut H false a b = false ∧
      (∀ x ∈ a ++ b, x.2 ≠ 0 → shortcut H true a b = false) := by
  refine ⟨fun h => by simpa [shortcut] using fun x y hx => h (x, y) hx, by simp [shortcut], ?_⟩
  intro x hx h0
  rw [Bool.eq_false_iff]
  intro hs
  simp only [shortcut, Bool.and_eq_true, List.all_cons, List.all_nil, Bool.and_true,
    List.all_eq_true, beq_iff_eq, decide_eq_true_eq] at hs
  rcases List.mem_append.mp hx with hx | hx
  · exact h0 (hs.1.2.1 x hx)
  · exact h0 (hs.1.2.2 x hx)

/-- **C18** (restart of ECDH-PSI): however often a task that takes the shortcut is started, the index file
is that of one start. -/
theorem C18_restart_truncates (a : List (Key × Nat)) (n : Nat) (file : List (Nat × Nat)) :
    (startIndex true a)^[n + 1] file = shortcutIndex a := by
  rw [Function.iterate_succ_apply']
  rfl

/-- **C18, negation** (restart of KKRT and RR22): the second start of a task that takes the shortcut
appends all lines again. -/
theorem C18_restart_appends :
    let a : List (Key × Nat) := [(['1'], 0)]
    (startIndex false a)^[2] [] = [(0, 0), (0, 0)] ∧ ExactIndex a a [(0, 0)] ∧
      ¬ ExactIndex a a [(0, 0), (0, 0)] := by
  refine ⟨rfl, shortcutIndex_exact [(['1'], 0)] (by simp), ?_⟩
  intro h
  have := h.nodup
  simp at this

/-- **C39, negation**: the file was replaced by one of the same size, or other key columns were chosen:
the old summary is used, for whatever hash function that tells the two key lists apart.  With C18 this
makes two parties with different inputs take the shortcut. -/
theorem C39_stale_summary {D : Type} [DecidableEq D] (H : List Char → D) :
    let old : Table Bool := ⟨4, fun c => if c then [['1'], ['2']] else [['8'], ['9']]⟩
    let new : Table Bool := ⟨4, fun _ => [['5'], ['6']]⟩
    summary H (runs H [(true, old)]) true new = fresh H true old ∧
      summary H (runs H [(true, old)]) false old = fresh H true old ∧
      (summary H (runs H [(true, old)]) true new).hash =
        digest H [['1'], ['2']] ∧ new.keys true = [['5'], ['6']] := by
  simp [summary, runs, fresh]

/-- **C39, partial**: after any sequence of runs on the same path, the summary used is the one of the
present file and key columns if every earlier run with a file of the same size had the same keys.
Missing: files of the same size with other keys. -/
theorem C39_summary_partial {C D : Type} (H : List Char → D) (hist : List (C × Table C)) (cols : C)
    (t : Table C)
    (h : ∀ x ∈ hist, x.2.size = t.size → x.2.keys x.1 = t.keys cols) :
    summary H (runs H hist) cols t = fresh H cols t := by
  unfold summary
  cases hs : runs H hist with
  | none => rfl
  | some m =>
    obtain ⟨x, hx, rfl⟩ := runs_source H hist m hs
    by_cases hsz : (fresh H x.1 x.2).size = t.size
    · simp only [hsz, if_true]
      have hsz' : x.2.size = t.size := hsz
      simp [fresh, h x hx hsz', hsz']
    · simp [hsz]

/-! ## Examples -/

def ids : List (Key × Nat) := [(['1', '2'], 0), (['3', '4'], 0), (['5', '6'], 0)]

example : ids = ids ∧ ExactIndex ids ids (shortcutIndex ids) :=
  C18_shortcut_sound_partial id true ids ids id (by decide) (by decide)
    (by decide)

example : shortcut id true ids ids = true := (C18_shortcut_taken id ids ids).1 (by decide)

example : shortcut id true ids [(['1', '2'], 1)] = false :=
  (C18_shortcut_taken id ids [(['1', '2'], 1)]).2.2 (['1', '2'], 1) (by decide) (by decide)

example : (startIndex true ids)^[3] [(7, 7)] = [(0, 0), (1, 0), (2, 0)] := C18_restart_truncates ids 2 _

example :
    let small : Table Unit := ⟨2, fun _ => [['1']]⟩
    let big : Table Unit := ⟨4, fun _ => [['1'], ['2']]⟩
    summary id (runs id [((), small), ((), big), ((), small)]) () big = fresh id () big :=
  C39_summary_partial id _ () _ (by decide)

end Psi.Digest
