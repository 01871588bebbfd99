import Verif.ShellSort.Model
import Verif.Text.Lemmas
import Mathlib.Data.List.Lex
import Mathlib.Data.Char

/-!
# Lemmas on the command line of `MultiKeySort` and on sorting
-/

namespace Psi.ShellSort

open Psi.Text (dec digit? digitsVal split lines)

/-! ### Tokens -/

theorem lexGo_cons (cur : Text) (c : Char) (t : Text) : lexGo cur (c :: t) =
    if plain c then lexGo (cur ++ [c]) t
    else if c = ' ' ∨ c = '\t' then (lexGo [] t).map (flush cur)
    else if c = ';' ∨ c = '\n' then (lexGo [] t).map fun l => flush cur (.semi :: l)
    else if c = '|' then (lexGo [] t).map fun l => flush cur (.pipe :: l)
    else if c = '>' then
      match t with
      | '>' :: t' =>
        if cur ≠ [] ∧ cur.all Char.isDigit then none
        else (lexGo [] t').map fun l => flush cur (.append :: l)
      | _ => none
    else none := by
  rw [lexGo.eq_def]
  rfl

theorem lex_plain : ∀ (w cur t : Text), (∀ c ∈ w, plain c = true) → lexGo cur (w ++ t) = lexGo (cur ++ w) t
  | [], cur, t, _ => by simp
  | c :: w, cur, t, h => by
    rw [List.cons_append, lexGo_cons, if_pos (h c (by simp)), lex_plain w _ t fun d hd => h d (by simp [hd])]
    simp

theorem lex_blank (cur t : Text) : lexGo cur (' ' :: t) = (lexGo [] t).map (flush cur) := by
  rw [lexGo_cons, if_neg (by decide), if_pos (Or.inl rfl)]

theorem lex_blanks (t : Text) : lexGo [] (' ' :: t) = lexGo [] t := by
  rw [lex_blank]
  cases lexGo [] t <;> rfl

theorem lex_word {w : Text} (hw : w ≠ []) (h : ∀ c ∈ w, plain c = true) (t : Text) :
    lexGo [] (w ++ ' ' :: t) = (lexGo [] t).map (.word w :: ·) := by
  rw [lex_plain w [] _ h, List.nil_append, lex_blank]
  congr 1
  funext l
  rw [flush, if_neg hw]

theorem lex_last {w : Text} (hw : w ≠ []) (h : ∀ c ∈ w, plain c = true) : lexGo [] w = some [.word w] := by
  have := lex_plain w [] [] h
  rw [List.append_nil, List.nil_append] at this
  rw [this, lexGo, flush, if_neg hw]

theorem lex_pipe (t : Text) : lexGo [] ('|' :: t) = (lexGo [] t).map (.pipe :: ·) := by
  rw [lexGo_cons, if_neg (by decide), if_neg (by decide), if_neg (by decide), if_pos rfl]
  rfl

theorem lex_append (t : Text) : lexGo [] ('>' :: '>' :: t) = (lexGo [] t).map (.append :: ·) := by
  rw [lexGo_cons, if_neg (by decide), if_neg (by decide), if_neg (by decide), if_neg (by decide), if_pos rfl]
  rfl

theorem lex_semi {w : Text} (hw : w ≠ []) (h : ∀ c ∈ w, plain c = true) (t : Text) :
    lexGo [] (w ++ ';' :: t) = (lexGo [] t).map fun l => .word w :: .semi :: l := by
  rw [lex_plain w [] _ h, List.nil_append, lexGo_cons, if_neg (by decide), if_neg (by decide), if_pos (Or.inl rfl)]
  congr 1
  funext l
  rw [flush, if_neg hw]

theorem lex_words : ∀ (ws : List Text), (∀ w ∈ ws, w ≠ [] ∧ ∀ c ∈ w, plain c = true) → ∀ t,
    lexGo [] ([' '].intercalate ws ++ ' ' :: t) = (lexGo [] t).map (ws.map .word ++ ·)
  | [], _, t => by
    show lexGo [] (' ' :: t) = _
    rw [lex_blanks]
    cases lexGo [] t <;> rfl
  | [w], h, t => by
    have : [' '].intercalate [w] = w := by simp [List.intercalate, List.intersperse]
    rw [this, lex_word (h w (by simp)).1 (h w (by simp)).2]
    rfl
  | w :: v :: ws, h, t => by
    have : [' '].intercalate (w :: v :: ws) = w ++ ' ' :: [' '].intercalate (v :: ws) := by
      simp [List.intercalate, List.intersperse]
    rw [this, List.append_assoc, List.cons_append, lex_word (h w (by simp)).1 (h w (by simp)).2,
      lex_words (v :: ws) (fun x hx => h x (by simp [hx])) t]
    cases lexGo [] t <;> rfl

theorem dec_plain (n : Nat) : ∀ c ∈ dec n, plain c = true := by
  intro c hc
  have := Psi.Text.dec_digits n c hc
  have hd : c.isAlphanum = true := by
    unfold Char.isAlphanum Char.isDigit
    have h1 : c.val ≥ 48 := by
      show (48 : UInt32).toNat ≤ c.val.toNat
      exact this.1
    have h2 : c.val ≤ 57 := by
      show c.val.toNat ≤ (57 : UInt32).toNat
      exact this.2
    simp [h1, h2]
  unfold plain
  rw [hd]
  rfl

theorem keyWord_plain (i : Nat) : ∀ c ∈ keyWord i, plain c = true := by
  intro c hc
  unfold keyWord at hc
  simp only [List.mem_append] at hc
  rcases hc with ((hc | hc) | hc) | hc
  · revert c
    decide
  · exact dec_plain i c hc
  · rw [List.mem_singleton.1 hc]
    decide
  · exact dec_plain i c hc

theorem keyWord_ne (i : Nat) : keyWord i ≠ [] := by
  unfold keyWord
  simp

theorem lit_plain (s : String) (h : s.toList.all plain = true) : ∀ c ∈ s.toList, plain c = true :=
  List.all_eq_true.1 h

theorem lit (s : String) (h1 : s.toList.isEmpty = false) (h : s.toList.all plain = true) (t : Text) :
    lexGo [] (s.toList ++ ' ' :: t) = (lexGo [] t).map (.word s.toList :: ·) :=
  lex_word (by intro e; rw [e] at h1; simp at h1) (lit_plain s h) t

/-- The words of `sort`. -/
def sortWords (idx : List Nat) (numeric : Bool) (cpus : Nat) : List Text :=
  ["LC_ALL=C".toList, "sort".toList] ++ (if numeric then ["-n".toList] else []) ++
    ["--parallel=".toList ++ dec cpus, "--buffer-size=1G".toList, "--stable".toList, "--field-separator=,".toList] ++
    idx.map keyWord

theorem command_eq (inp out : Text) (idx : List Nat) (numeric : Bool) (cpus : Nat) : command inp out idx numeric false cpus =
      "tail".toList ++ ' ' :: ("-n".toList ++ ' ' :: ("+2".toList ++ ' ' :: (inp ++ ' ' :: '|' :: ' ' ::
        ("LC_ALL=C".toList ++ ' ' :: ("sort".toList ++ ' ' :: ((if numeric then "-n".toList else []) ++ ' ' ::
        (("--parallel=".toList ++ dec cpus) ++ ' ' :: ("--buffer-size=1G".toList ++ ' ' :: ("--stable".toList ++ ' ' ::
        ("--field-separator=,".toList ++ ' ' :: ([' '].intercalate (idx.map keyWord) ++ ' ' ::
        (' ' :: '>' :: '>' :: out)))))))))))) := by
  unfold command
  rw [if_neg (c := false = true) (by decide), List.append_nil]
  generalize dec cpus = x, (if numeric = true then "-n".toList else []) = y, [' '].intercalate (idx.map keyWord) = z
  simp only [List.append_assoc]
  rfl

/-- The tokens of the command, if those of the first path are `T`. -/
theorem lex_command {inp out : Text} {T : List Tok} (hT : ∀ t, lexGo [] (inp ++ ' ' :: t) = (lexGo [] t).map (T ++ ·))
    (ho : out ≠ []) (hp : ∀ c ∈ out, plain c = true) (idx : List Nat) (numeric : Bool) (cpus : Nat) :
    lexGo [] (command inp out idx numeric false cpus) =
      some (["tail".toList, "-n".toList, "+2".toList].map .word ++ T ++ .pipe :: ((sortWords idx numeric cpus).map .word ++
        [.append, .word out])) := by
  rw [command_eq, lit "tail" rfl (by decide), lit "-n" rfl (by decide), lit "+2" rfl (by decide), hT,
    lex_pipe, lex_blanks, lit "LC_ALL=C" rfl (by decide), lit "sort" rfl (by decide)]
  have hnum : ∀ t, lexGo [] ((if numeric then "-n".toList else []) ++ ' ' :: t) =
      (lexGo [] t).map ((if numeric then ["-n".toList] else []).map Tok.word ++ ·) := by
    intro t
    cases numeric with
    | false =>
      show lexGo [] (' ' :: t) = _
      rw [lex_blanks]
      cases lexGo [] t <;> rfl
    | true =>
      show lexGo [] ("-n".toList ++ ' ' :: t) = _
      rw [lit "-n" rfl (by decide)]
      rfl
  rw [hnum, lex_word (w := "--parallel=".toList ++ dec cpus) (by simp)
    (by
      intro c hc
      rcases List.mem_append.1 hc with h | h
      · exact lit_plain "--parallel=" (by decide) c h
      · exact dec_plain cpus c h),
    lit "--buffer-size=1G" rfl (by decide), lit "--stable" rfl (by decide), lit "--field-separator=," rfl (by decide),
    lex_words _ (by
      intro w hw
      obtain ⟨i, -, rfl⟩ := List.mem_map.1 hw
      exact ⟨keyWord_ne i, keyWord_plain i⟩),
    lex_blanks, lex_append, lex_last ho hp]
  simp [sortWords]

/-! ### Commands -/

theorem cut_none {sep : Tok} : ∀ {l : List Tok}, sep ∉ l → cut sep l = [l]
  | [], _ => rfl
  | t :: l, h => by
    rw [cut, if_neg (fun e => h (by simp [e])), cut_none (fun e => h (by simp [e]))]

theorem cut_cons {sep : Tok} : ∀ {l : List Tok}, sep ∉ l → ∀ r, cut sep (l ++ sep :: r) = l :: cut sep r
  | [], _, r => by simp [cut]
  | t :: l, h, r => by
    rw [List.cons_append, cut, if_neg (fun e => h (by simp [e])), cut_cons (fun e => h (by simp [e]))]

theorem parseCmd_words : ∀ (ws : List Text), parseCmd (ws.map .word) = some ⟨ws, []⟩
  | [] => rfl
  | w :: ws => by
    rw [List.map_cons, parseCmd, parseCmd_words ws]
    rfl

theorem parseCmd_out : ∀ (ws : List Text) (o : Text), parseCmd (ws.map .word ++ [.append, .word o]) = some ⟨ws, [o]⟩
  | [], o => rfl
  | w :: ws, o => by
    rw [List.map_cons, List.cons_append, parseCmd, parseCmd_out ws o]
    rfl

theorem words_no {p : Tok} (hp : ∀ w, p ≠ .word w) (ws : List Text) : p ∉ ws.map Tok.word := by
  intro h
  obtain ⟨w, -, rfl⟩ := List.mem_map.1 h
  exact hp w rfl

/-- The command of a path that is split into words. -/
theorem parse_words (tl ws : List Text) (o : Text) :
    parse (tl.map .word ++ .pipe :: (ws.map .word ++ [.append, .word o])) = some [[⟨tl, []⟩, ⟨ws, [o]⟩]] := by
  unfold parse
  rw [cut_none]
  · have hpipe : Tok.pipe ∉ ws.map Tok.word ++ [.append, .word o] := by
      intro h
      rcases List.mem_append.1 h with h | h
      · exact words_no (fun w => by simp) ws h
      · simp at h
    show (do let p ← (cut .pipe _).mapM parseCmd; _) = _
    rw [cut_cons (words_no (fun w => by simp) tl), cut_none hpipe]
    simp only [List.mapM_cons, List.mapM_nil, parseCmd_words, parseCmd_out]
    rfl
  · intro h
    simp only [List.mem_append, List.mem_cons] at h
    rcases h with h | h | h | h | h | h
    · exact words_no (fun w => by simp) tl h
    · simp at h
    · exact words_no (fun w => by simp) ws h
    all_goals simp at h

/-- The command of a path with a semicolon. -/
theorem parse_semi (tl cs ws : List Text) (o : Text) :
    parse (tl.map .word ++ .semi :: (cs.map .word ++ .pipe :: (ws.map .word ++ [.append, .word o]))) =
      some [[⟨tl, []⟩], [⟨cs, []⟩, ⟨ws, [o]⟩]] := by
  have := parse_words cs ws o
  unfold parse at this ⊢
  rw [cut_cons (words_no (fun w => by simp) tl), List.mapM_cons, this, cut_none (words_no (fun w => by simp) tl),
    List.mapM_cons, parseCmd_words]
  rfl

/-! ### The arguments of `sort` -/

theorem keyArg_keyWord (i : Nat) : keyArg (keyWord i) = some i := by
  have h1 : dropPrefix "--key=".toList (keyWord i) = some (dec i ++ ',' :: dec i) := by
    unfold dropPrefix keyWord
    rw [List.append_assoc, List.append_assoc, if_pos (List.take_left' rfl), List.drop_left' rfl]
    rfl
  have hc : ',' ∉ dec i := Psi.Text.dec_not_mem i ',' (by decide)
  unfold keyArg
  rw [h1]
  show (match split ',' (dec i ++ ',' :: dec i) with | [a, b] => if a = b ∧ a ≠ [] then digitsVal 0 a else none | _ => none) = _
  rw [Psi.Text.split_cons ',' _ _ hc, Psi.Text.split_no ',' _ hc]
  show (if dec i = dec i ∧ dec i ≠ [] then digitsVal 0 (dec i) else none) = _
  rw [if_pos ⟨rfl, Psi.Text.dec_ne_nil i⟩, Psi.Text.digitsVal_dec]

theorem keyWord_eq (i : Nat) : keyWord i = '-' :: '-' :: 'k' :: 'e' :: 'y' :: '=' :: (dec i ++ ',' :: dec i) := by
  unfold keyWord
  generalize dec i = x
  rw [List.append_assoc, List.append_assoc]
  rfl

theorem sortArg_key (i : Nat) (a : SortArgs) : sortArg (keyWord i) a = some { a with keys := i :: a.keys } := by
  have hk := keyArg_keyWord i
  unfold sortArg
  rw [if_neg (by rw [keyWord_eq]; simp), if_neg (by rw [keyWord_eq]; simp), if_neg (by rw [keyWord_eq]; simp),
    if_neg (by rw [keyWord_eq]; simp)]
  have : dropPrefix "--parallel=".toList (keyWord i) = none := by
    unfold dropPrefix
    rw [if_neg (by rw [keyWord_eq]; simp)]
  rw [this, hk]

theorem sortArgs_keys : ∀ (idx : List Nat), sortArgs (idx.map keyWord) = some ⟨false, false, false, 1, idx, []⟩
  | [] => rfl
  | i :: idx => by
    rw [List.map_cons, sortArgs, sortArgs_keys idx]
    exact sortArg_key i _

theorem sortArg_parallel (n : Nat) (a : SortArgs) :
    sortArg ("--parallel=".toList ++ dec n) a = some { a with parallel := n } := by
  have h1 : dropPrefix "--parallel=".toList ("--parallel=".toList ++ dec n) = some (dec n) := by
    unfold dropPrefix
    rw [if_pos (List.take_left' rfl), List.drop_left' rfl]
  unfold sortArg
  rw [if_neg (by simp), if_neg (by simp), if_neg (by simp), if_neg (by simp), h1]
  show (digitsVal 0 (dec n)).map _ = _
  rw [Psi.Text.digitsVal_dec]
  rfl

theorem sortArg_buffer (a : SortArgs) : sortArg "--buffer-size=1G".toList a = some a := by
  unfold sortArg
  rw [if_neg (by decide), if_neg (by decide), if_neg (by decide), if_pos rfl]

theorem sortArg_stable (a : SortArgs) : sortArg "--stable".toList a = some { a with stable := true } := by
  unfold sortArg
  rw [if_neg (by decide), if_pos rfl]

theorem sortArg_sep (a : SortArgs) : sortArg "--field-separator=,".toList a = some { a with sep := true } := by
  unfold sortArg
  rw [if_neg (by decide), if_neg (by decide), if_pos rfl]

theorem sortArg_n (a : SortArgs) : sortArg "-n".toList a = some { a with numeric := true } := by
  unfold sortArg
  rw [if_pos rfl]

theorem sortArgs_cons (w : Text) (ws : List Text) : sortArgs (w :: ws) = (sortArgs ws).bind (sortArg w) := rfl

/-- What `sort` is told. -/
theorem sortArgs_words (idx : List Nat) (numeric : Bool) (cpus : Nat) :
    sortArgs ((if numeric then ["-n".toList] else []) ++
      ["--parallel=".toList ++ dec cpus, "--buffer-size=1G".toList, "--stable".toList, "--field-separator=,".toList] ++
      idx.map keyWord) = some ⟨numeric, true, true, cpus, idx, []⟩ := by
  have h : sortArgs (("--parallel=".toList ++ dec cpus) :: "--buffer-size=1G".toList :: "--stable".toList ::
      "--field-separator=,".toList :: idx.map keyWord) = some ⟨false, true, true, cpus, idx, []⟩ := by
    rw [sortArgs_cons, sortArgs_cons, sortArgs_cons, sortArgs_cons, sortArgs_keys, Option.bind_some, sortArg_sep,
      Option.bind_some, sortArg_stable, Option.bind_some, sortArg_buffer, Option.bind_some, sortArg_parallel]
  cases numeric with
  | false =>
    rw [if_neg (by decide), List.nil_append, List.cons_append, List.cons_append, List.cons_append, List.cons_append,
      List.nil_append, h]
  | true =>
    rw [if_pos rfl, List.append_assoc, List.cons_append, List.nil_append, List.cons_append, List.cons_append,
      List.cons_append, List.cons_append, List.nil_append, sortArgs_cons, h, Option.bind_some, sortArg_n]

end Psi.ShellSort
