import Verif.ShellSort.Lemmas

/-!
# Lemmas on sorting and on running the command line
-/

namespace Psi.ShellSort

open Psi.Text (dec digit? digitsVal split lines)

/-! ### Order of lines -/

theorem char_lt (a b : Char) : a < b ↔ a.toNat < b.toNat := Iff.rfl

theorem char_eq {a b : Char} (h1 : ¬a.toNat < b.toNat) (h2 : ¬b.toNat < a.toNat) : a = b :=
  le_antisymm (not_lt.1 fun h => h2 h) (not_lt.1 fun h => h1 h)

theorem cmpText_spec : ∀ (a b : Text), (cmpText a b = .lt ↔ a < b) ∧ (cmpText a b = .gt ↔ b < a)
  | [], [] => by simp [cmpText]
  | [], _ :: _ => by simp [cmpText]
  | _ :: _, [] => by simp [cmpText]
  | a :: x, b :: y => by
    obtain ⟨h1, h2⟩ := cmpText_spec x y
    rw [List.cons_lt_cons_iff, List.cons_lt_cons_iff, cmpText]
    by_cases hab : a.toNat < b.toNat
    · rw [if_pos hab]
      have hne : a ≠ b := fun e => by rw [e] at hab; omega
      refine ⟨⟨fun _ => Or.inl hab, fun _ => rfl⟩, ⟨fun h => (by cases h), fun h => ?_⟩⟩
      rcases h with h | h
      · exact absurd ((char_lt _ _).1 h) (by omega)
      · exact absurd h.1.symm hne
    · rw [if_neg hab]
      by_cases hba : b.toNat < a.toNat
      · rw [if_pos hba]
        have hne : a ≠ b := fun e => by rw [e] at hba; omega
        refine ⟨⟨fun h => (by cases h), fun h => ?_⟩, ⟨fun _ => Or.inl hba, fun _ => rfl⟩⟩
        rcases h with h | h
        · exact absurd ((char_lt _ _).1 h) hab
        · exact absurd h.1 hne
      · rw [if_neg hba, h1, h2]
        have he : a = b := char_eq hab hba
        subst he
        simp

/-- The texts a line is sorted by. -/
def textKeys (ks : List Nat) (line : Text) : List Text := ks.map (field line)

/-- The numbers a line is sorted by. -/
def numKeys (ks : List Nat) (line : Text) : List Nat := ks.map fun k => number (field line k)

theorem cmpKeys_text : ∀ (ks : List Nat) (x y : Text),
    (cmpKeys false ks x y = .lt ↔ textKeys ks x < textKeys ks y) ∧
      (cmpKeys false ks x y = .gt ↔ textKeys ks y < textKeys ks x)
  | [], x, y => by simp [cmpKeys, textKeys]
  | k :: ks, x, y => by
    obtain ⟨h1, h2⟩ := cmpKeys_text ks x y
    obtain ⟨t1, t2⟩ := cmpText_spec (field x k) (field y k)
    unfold textKeys at h1 h2 ⊢
    rw [List.map_cons, List.map_cons, List.cons_lt_cons_iff, List.cons_lt_cons_iff, cmpKeys, if_neg (by decide)]
    cases hc : cmpText (field x k) (field y k) with
    | lt =>
      have h := t1.1 hc
      simp only [true_iff, reduceCtorEq, false_iff]
      exact ⟨Or.inl h, fun h' => h'.elim (fun g => absurd h (not_lt.2 (le_of_lt g))) fun g => absurd g.1.symm (ne_of_lt h)⟩
    | gt =>
      have h := t2.1 hc
      simp only [true_iff, reduceCtorEq, false_iff]
      exact ⟨fun h' => h'.elim (fun g => absurd h (not_lt.2 (le_of_lt g))) fun g => absurd g.1.symm (ne_of_lt h), Or.inl h⟩
    | eq =>
      have he : field x k = field y k := by
        rcases lt_trichotomy (field x k) (field y k) with h | h | h
        · rw [t1.2 h] at hc; cases hc
        · exact h
        · rw [t2.2 h] at hc; cases hc
      simp only [he, lt_irrefl, false_or, true_and]
      exact ⟨h1, h2⟩

theorem cmpKeys_num : ∀ (ks : List Nat) (x y : Text),
    (cmpKeys true ks x y = .lt ↔ numKeys ks x < numKeys ks y) ∧
      (cmpKeys true ks x y = .gt ↔ numKeys ks y < numKeys ks x)
  | [], x, y => by simp [cmpKeys, numKeys]
  | k :: ks, x, y => by
    obtain ⟨h1, h2⟩ := cmpKeys_num ks x y
    unfold numKeys at h1 h2 ⊢
    rw [List.map_cons, List.map_cons, List.cons_lt_cons_iff, List.cons_lt_cons_iff, cmpKeys, if_pos rfl, cmpNum]
    by_cases ha : number (field x k) < number (field y k)
    · rw [if_pos ha]
      simp only [true_iff, reduceCtorEq, false_iff]
      exact ⟨Or.inl ha, fun h' => h'.elim (fun g => by omega) fun g => by omega⟩
    · rw [if_neg ha]
      by_cases hb : number (field y k) < number (field x k)
      · rw [if_pos hb]
        simp only [true_iff, reduceCtorEq, false_iff]
        exact ⟨fun h' => h'.elim (fun g => by omega) fun g => by omega, Or.inl hb⟩
      · rw [if_neg hb]
        have he : number (field x k) = number (field y k) := by omega
        simp only [he, lt_irrefl, false_or, true_and]
        exact ⟨h1, h2⟩

/-! ### Insertion sort -/

theorem insert_perm (cmp : Text → Text → Ordering) (x : Text) : ∀ l, (insert cmp x l).Perm (x :: l)
  | [] => List.Perm.refl _
  | y :: l => by
    rw [insert]
    split_ifs with h
    · exact ((insert_perm cmp x l).cons y).trans (List.Perm.swap x y l)
    · exact List.Perm.refl _

theorem isort_perm (cmp : Text → Text → Ordering) : ∀ l, (isort cmp l).Perm l
  | [] => List.Perm.refl _
  | x :: l => by
    show (insert cmp x (isort cmp l)).Perm _
    exact (insert_perm cmp x _).trans ((isort_perm cmp l).cons x)

section
variable {β : Type} [LinearOrder β] {cmp : Text → Text → Ordering} {κ : Text → β}

theorem insert_sorted (h : ∀ x y, cmp x y = .gt ↔ κ y < κ x) (x : Text) : ∀ {l : List Text},
    l.Pairwise (fun a b => κ a ≤ κ b) → (insert cmp x l).Pairwise fun a b => κ a ≤ κ b
  | [], _ => by simp [insert]
  | y :: l, hl => by
    obtain ⟨h1, h2⟩ := List.pairwise_cons.1 hl
    rw [insert]
    split_ifs with hc
    · refine List.pairwise_cons.2 ⟨fun z hz => ?_, insert_sorted h x h2⟩
      rcases List.mem_cons.1 ((insert_perm cmp x l).mem_iff.1 hz) with rfl | hz
      · exact le_of_lt ((h _ _).1 hc)
      · exact h1 z hz
    · have hxy : κ x ≤ κ y := not_lt.1 fun g => hc ((h _ _).2 g)
      refine List.pairwise_cons.2 ⟨fun z hz => ?_, hl⟩
      rcases List.mem_cons.1 hz with rfl | hz
      · exact hxy
      · exact le_trans hxy (h1 z hz)

theorem isort_sorted (h : ∀ x y, cmp x y = .gt ↔ κ y < κ x) : ∀ l : List Text,
    (isort cmp l).Pairwise fun a b => κ a ≤ κ b
  | [] => List.Pairwise.nil
  | x :: l => insert_sorted h x (isort_sorted h l)

theorem insert_filter (h : ∀ x y, cmp x y = .gt ↔ κ y < κ x) (x : Text) (v : β)
    [DecidablePred fun a => κ a = v] : ∀ l : List Text,
    (insert cmp x l).filter (fun a => κ a = v) = (x :: l).filter fun a => κ a = v
  | [] => rfl
  | y :: l => by
    rw [insert]
    split_ifs with hc
    · have hlt := (h _ _).1 hc
      rw [List.filter_cons, insert_filter h x v l, List.filter_cons (x := x) (xs := l),
        List.filter_cons (x := x) (xs := y :: l), List.filter_cons (x := y) (xs := l)]
      by_cases h1 : κ x = v
      · have h2 : ¬κ y = v := fun e => by rw [h1, e] at hlt; exact lt_irrefl _ hlt
        simp [h1, h2]
      · simp [h1]
    · rfl

theorem isort_filter (h : ∀ x y, cmp x y = .gt ↔ κ y < κ x) (v : β)
    [DecidablePred fun a => κ a = v] : ∀ l : List Text,
    (isort cmp l).filter (fun a => κ a = v) = l.filter fun a => κ a = v
  | [] => rfl
  | x :: l => by
    show (insert cmp x (isort cmp l)).filter _ = _
    rw [insert_filter h x v, List.filter_cons, List.filter_cons, isort_filter h v l]

end

theorem mem_isort {cmp : Text → Text → Ordering} {l : List Text} {x : Text} : x ∈ isort cmp l ↔ x ∈ l :=
  (isort_perm cmp l).mem_iff

/-! ### Texts and lines -/

theorem unlines_cons (l : Text) (ls : List Text) : unlines (l :: ls) = l ++ '\n' :: unlines ls := by
  simp [unlines]

theorem lines_unlines {ls : List Text} (h : ∀ l ∈ ls, '\n' ∉ l) : lines (unlines ls) = ls :=
  Psi.Text.lines_flatMap ls h

theorem lines_no_nl : ∀ (t : Text), ∀ l ∈ lines t, '\n' ∉ l
  | [], l, h => by simp [lines] at h
  | x :: xs, l, h => by
    have ih := lines_no_nl xs
    rw [lines] at h
    split_ifs at h with hx
    · rcases List.mem_cons.1 h with rfl | h
      · simp
      · exact ih l h
    · cases hl : lines xs with
      | nil =>
        rw [hl] at h
        rw [List.mem_singleton.1 h]
        simpa using fun e => hx e.symm
      | cons m ms =>
        rw [hl] at h
        rcases List.mem_cons.1 h with rfl | h
        · have := ih m (by rw [hl]; simp)
          simpa [this] using fun e => hx e.symm
        · exact ih l (by rw [hl]; simp [h])

theorem header_line {h b : Text} (hh : '\n' ∉ h) : header (h ++ '\n' :: b) = h := by
  unfold header
  rw [List.takeWhile_append_of_pos (by
    intro c hc
    have : c ≠ '\n' := fun e => hh (e ▸ hc)
    simpa using this)]
  simp

theorem afterFirst_line {h b : Text} (hh : '\n' ∉ h) : afterFirst (h ++ '\n' :: b) = b := by
  unfold afterFirst
  rw [List.dropWhile_append_of_pos (by
    intro c hc
    have : c ≠ '\n' := fun e => hh (e ▸ hc)
    simpa using this)]
  simp

/-! ### Running the command -/

theorem set_set (fs : Fs) (p a b : Text) : (fs.set p a).set p b = fs.set p b := by
  funext q
  unfold Fs.set
  by_cases h : q = p <;> simp [h]

theorem set_same (fs : Fs) (p a : Text) : (fs.set p a) p = some a := by simp [Fs.set]

theorem set_other (fs : Fs) {p q : Text} (h : q ≠ p) (a : Text) : (fs.set p a) q = fs q := by simp [Fs.set, h]

theorem cmpLines_stable (numeric sep : Bool) (n : Nat) (idx : List Nat) (files : List Text) :
    cmpLines ⟨numeric, true, sep, n, idx, files⟩ = cmpKeys numeric idx := by
  funext x y
  unfold cmpLines
  cases cmpKeys numeric idx x y <;> simp

theorem exec_sort (E : Env) (fs : Fs) (idx : List Nat) (numeric : Bool) (cpus : Nat) (input : Text) :
    exec E fs (sortWords idx numeric cpus) input =
      some (fs, if cpus = 0 then ([], 2) else (unlines (isort (cmpKeys numeric idx) (lines input)), 0)) := by
  have hw : sortWords idx numeric cpus = "LC_ALL=C".toList :: "sort".toList ::
      ((if numeric then ["-n".toList] else []) ++
      ["--parallel=".toList ++ dec cpus, "--buffer-size=1G".toList, "--stable".toList, "--field-separator=,".toList] ++
      idx.map keyWord) := by
    unfold sortWords
    simp only [List.append_assoc, List.cons_append, List.nil_append]
  unfold exec
  rw [hw, List.head?_cons, if_pos rfl, List.tail_cons]
  show (if '=' ∈ "sort".toList then _ else if "sort".toList = "tail".toList then _ else if "sort".toList = "sort".toList then
    (match sortArgs _ with | none => none | some a => if a.sep then some (fs, sortRun fs a input) else none) else _) = _
  rw [if_neg (by decide), if_neg (by decide), if_pos rfl, sortArgs_words]
  show some (fs, sortRun fs ⟨numeric, true, true, cpus, idx, []⟩ input) = _
  unfold sortRun
  rw [cmpLines_stable]
  rfl

theorem exec_tail (E : Env) (fs : Fs) {W : List Text} (hne : W ≠ []) (hW : ∀ w ∈ W, w.head? ≠ some '-') (input : Text) :
    exec E fs (["tail".toList, "-n".toList, "+2".toList] ++ W) input = some (fs, tailFiles E fs W) := by
  unfold exec
  have hhead : (["tail".toList, "-n".toList, "+2".toList] ++ W).head? ≠ some "LC_ALL=C".toList := by
    rw [List.cons_append, List.head?_cons]
    decide
  rw [if_neg hhead]
  show (if '=' ∈ "tail".toList then _ else if "tail".toList = "tail".toList then
    (if "-n".toList = "-n".toList ∧ "+2".toList = "+2".toList then
      (if W = [] then _ else if W.any (fun f => f.head? = some '-') then none else some (fs, tailFiles E fs W))
      else none) else _) = _
  rw [if_neg (by decide), if_pos rfl, if_pos ⟨rfl, rfl⟩, if_neg hne, if_neg]
  intro h
  obtain ⟨w, hw, hd⟩ := List.any_eq_true.1 h
  exact hW w hw (by simpa using hd)

/-- A pipeline that ends in `sort`. -/
theorem pipe_sort (E : Env) {fs fs' : Fs} {tl : List Text} {input o : Text} {s : Nat} {out : Text} {cpus : Nat}
    (h : exec E fs tl input = some (fs', o, s)) (hw : E.writable out = true) (hc : cpus ≠ 0) (idx : List Nat) (numeric : Bool) :
    pipeline E fs input [⟨tl, []⟩, ⟨sortWords idx numeric cpus, [out]⟩] =
      some (fs'.set out ((fs' out).getD [] ++ unlines (isort (cmpKeys numeric idx) (lines o))), 0) := by
  show (exec E fs tl input).bind (fun r => pipeline E r.1 r.2.1 [⟨sortWords idx numeric cpus, [out]⟩]) = _
  rw [h, Option.bind_some]
  show (if E.writable out then ((exec E _ _ _).map _) else _).map _ = _
  rw [if_pos hw, exec_sort, if_neg hc]
  show some (((fs'.set out ((fs' out).getD [])).set out (((fs'.set out ((fs' out).getD [])) out).getD [] ++ _)), 0) = _
  rw [set_same]
  simp only [Option.getD_some]
  rw [set_set]

/-- Without a processor `sort` fails. -/
theorem pipe_sort_zero (E : Env) {fs fs' : Fs} {tl : List Text} {input o : Text} {s : Nat} {out : Text}
    (h : exec E fs tl input = some (fs', o, s)) (hw : E.writable out = true) (idx : List Nat) (numeric : Bool) :
    ∃ fs'', pipeline E fs input [⟨tl, []⟩, ⟨sortWords idx numeric 0, [out]⟩] = some (fs'', 2) := by
  refine ⟨fs'.set out ((fs' out).getD []), ?_⟩
  show (exec E fs tl input).bind (fun r => pipeline E r.1 r.2.1 [⟨sortWords idx numeric 0, [out]⟩]) = _
  rw [h, Option.bind_some]
  show (if E.writable out then ((exec E _ _ _).map _) else _).map _ = _
  rw [if_pos hw, exec_sort, if_pos rfl]
  show some (((fs'.set out ((fs' out).getD [])).set out (((fs'.set out ((fs' out).getD [])) out).getD [] ++ [])), 2) = _
  rw [set_same]
  simp only [Option.getD_some]
  rw [set_set, List.append_nil]

/-- `system` on the command of a path that is split into the words `W`. -/
theorem system_words (E : Env) (fs : Fs) {inp out : Text} {W : List Text}
    (hT : ∀ t, lexGo [] (inp ++ ' ' :: t) = (lexGo [] t).map (W.map .word ++ ·)) (ho : out ≠ []) (hp : ∀ c ∈ out, plain c = true) (idx : List Nat) (numeric : Bool) :
    system E fs (command inp out idx numeric false E.cpus) =
      pipeline E fs [] [⟨["tail".toList, "-n".toList, "+2".toList] ++ W, []⟩, ⟨sortWords idx numeric E.cpus, [out]⟩] := by
  unfold system
  rw [lex_command hT ho hp, Option.bind_some, ← List.map_append, parse_words]
  rfl

/-- `MultiKeySort` of a path that is split into the words `W`. -/
theorem multiKeySort_words {E : Env} {fs : Fs} {inp out t : Text} {W keys : List Text} {idx : List Nat} (numeric : Bool)
    (hT : ∀ t, lexGo [] (inp ++ ' ' :: t) = (lexGo [] t).map (W.map .word ++ ·)) (hne : W ≠ [])
    (hW : ∀ w ∈ W, w.head? ≠ some '-') (ho : out ≠ []) (hp : ∀ c ∈ out, plain c = true)
    (hf : fs inp = some t) (ht : t ≠ []) (hw : E.writable out = true)
    (hk : keys.mapM (fieldIndex (E.columns (header t))) = some idx) (hc : E.cpus ≠ 0) :
    multiKeySort E fs inp out keys numeric false = .done (fs.set out (header t ++ '\n' ::
      unlines (isort (cmpKeys numeric (idx.map (· + 1)))
        (lines (tailFiles E (fs.set out (header t ++ ['\n'])) W).1)))) := by
  unfold multiKeySort
  rw [hf]
  show (if t = [] then _ else if E.writable out = false then _ else _) = _
  rw [if_neg ht, if_neg (by rw [hw]; decide)]
  simp only [hk]
  rw [system_words E _ hT ho hp, pipe_sort E (exec_tail E _ hne hW []) hw hc]
  simp only [if_pos, set_same, Option.getD_some, set_set]
  congr 2
  rw [List.append_assoc]
  rfl

end Psi.ShellSort
