import Verif.JoinText.Model
import Verif.Join.PartyLemmas
import Verif.DkPir.TableLemmas
import Verif.Text.Lemmas

/-! Helper lemmas about lines, fields and the key file. -/

namespace Psi.JoinText

open Psi.DkPir (Str fieldsFrom join consHead Mode)
open Psi.Join

/-! ### Lines -/

theorem lines_cons_ne {x : Char} (hx : x ≠ '\n') (xs : Str) :
    Text.lines (x :: xs) = (match Text.lines xs with | [] => [[x]] | l :: ls => (x :: l) :: ls) := by
  rw [Text.lines, if_neg hx]
  cases Text.lines xs <;> rfl

theorem lines_ne_nil : ∀ {a : Str}, a ≠ [] → Text.lines a ≠ []
  | [], h => absurd rfl h
  | x :: xs, _ => by
    by_cases hx : x = '\n'
    · rw [hx, Text.lines, if_pos rfl]; simp
    · rw [lines_cons_ne hx]
      split <;> simp

theorem lines_append : ∀ (a b : Str), Text.lines (a ++ '\n' :: b) = Text.lines (a ++ ['\n']) ++ Text.lines b
  | [], b => by simp [Text.lines]
  | x :: xs, b => by
    have ih := lines_append xs b
    by_cases hx : x = '\n'
    · subst hx
      simp only [List.cons_append, Text.lines, if_true, ih]
    · rw [List.cons_append, List.cons_append, lines_cons_ne hx, lines_cons_ne hx, ih]
      have hne := lines_ne_nil (a := xs ++ ['\n']) (by simp)
      cases h : Text.lines (xs ++ ['\n']) with
      | nil => exact absurd h hne
      | cons l ls => rfl

theorem lines_end : ∀ a : Str, Text.lines (a ++ ['\n']) = Text.lines a ∨ Text.lines (a ++ ['\n']) = Text.lines a ++ [[]]
  | [] => by right; rfl
  | x :: xs => by
    by_cases hx : x = '\n'
    · subst hx
      simp only [List.cons_append, Text.lines, if_true]
      rcases lines_end xs with h | h
      · left; rw [h]
      · right; rw [h]
    · rw [List.cons_append, lines_cons_ne hx, lines_cons_ne hx]
      rcases lines_end xs with h | h
      · left; rw [h]
      · rw [h]
        cases Text.lines xs with
        | nil => left; rfl
        | cons l ls => right; rfl

theorem unlines_lines : ∀ t : Str, (Text.lines t).flatMap (· ++ ['\n']) = t ∨
    (Text.lines t).flatMap (· ++ ['\n']) = t ++ ['\n']
  | [] => by left; rfl
  | x :: xs => by
    by_cases hx : x = '\n'
    · subst hx
      rw [Text.lines, if_pos rfl, List.flatMap_cons]
      rcases unlines_lines xs with h | h
      · left; rw [h]; rfl
      · right; rw [h]; rfl
    · rw [lines_cons_ne hx]
      have ih := unlines_lines xs
      cases h : Text.lines xs with
      | nil =>
        rw [h] at ih
        have : xs = [] := by
          by_contra hne
          exact lines_ne_nil hne h
        subst this
        right; rfl
      | cons l ls =>
        rw [h] at ih
        simp only [List.flatMap_cons, List.cons_append] at ih ⊢
        rcases ih with h | h
        · left; rw [h]
        · right; rw [h]

theorem no_nl_of_lines : ∀ (t : Str), ∀ l ∈ Text.lines t, '\n' ∉ l ∧ ∀ c ∈ l, c ∈ t
  | [], l, h => by simp [Text.lines] at h
  | x :: xs, l, h => by
    by_cases hx : x = '\n'
    · subst hx
      rw [Text.lines, if_pos rfl, List.mem_cons] at h
      rcases h with rfl | h
      · simp
      · have := no_nl_of_lines xs l h
        exact ⟨this.1, fun c hc => List.mem_cons_of_mem _ (this.2 c hc)⟩
    · rw [lines_cons_ne hx] at h
      have ih := no_nl_of_lines xs
      cases hl : Text.lines xs with
      | nil =>
        rw [hl] at h
        simp only [List.mem_singleton] at h
        subst h
        simp [Ne.symm hx]
      | cons m ms =>
        rw [hl] at h ih
        simp only [List.mem_cons] at h
        rcases h with rfl | h
        · have := ih m (by simp)
          refine ⟨by simp [Ne.symm hx, this.1], fun c hc => ?_⟩
          rcases List.mem_cons.1 hc with rfl | hc
          · simp
          · exact List.mem_cons_of_mem _ (this.2 c hc)
        · have := ih l (by simp [h])
          exact ⟨this.1, fun c hc => List.mem_cons_of_mem _ (this.2 c hc)⟩

/-- The characters as Arrow sees line ends. -/
def nl (t : Str) : Str := t.map fun c => if c = '\r' then '\n' else c

theorem arrowLines_eq (t : Str) : arrowLines t = (Text.lines (nl t)).filter fun l => !l.isEmpty := rfl

theorem arrowLines_end (a : Str) : arrowLines (a ++ ['\n']) = arrowLines a := by
  have : nl (a ++ ['\n']) = nl a ++ ['\n'] := by simp [nl]
  rw [arrowLines_eq, arrowLines_eq, this]
  rcases lines_end (nl a) with h | h <;> rw [h]
  simp

theorem arrowLines_append (a b : Str) : arrowLines (a ++ '\n' :: b) = arrowLines a ++ arrowLines b := by
  have : nl (a ++ '\n' :: b) = nl a ++ '\n' :: nl b := by simp [nl]
  have h2 : nl (a ++ ['\n']) = nl a ++ ['\n'] := by simp [nl]
  rw [← arrowLines_end a, arrowLines_eq, this, lines_append, List.filter_append, arrowLines_eq, h2, arrowLines_eq]

theorem arrowLines_unlines : ∀ ls : List Str, arrowLines (ls.flatMap (· ++ ['\n'])) = ls.flatMap arrowLines
  | [] => rfl
  | l :: ls => by
    rw [List.flatMap_cons, List.append_assoc, List.singleton_append, arrowLines_append, arrowLines_unlines ls,
      List.flatMap_cons]

theorem arrowLines_lines (t : Str) : arrowLines t = (Text.lines t).flatMap arrowLines := by
  rw [← arrowLines_unlines]
  rcases unlines_lines t with h | h <;> rw [h]
  rw [arrowLines_end]

/-- A line that Arrow takes as one line. -/
theorem arrowLines_one {l : Str} (h : l ≠ []) (hn : '\n' ∉ l) (hr : '\r' ∉ l) : arrowLines l = [l] := by
  have h1 : nl l = l := by
    unfold nl
    conv_rhs => rw [← List.map_id l]
    apply List.map_congr_left
    intro c hc
    rw [if_neg (by rintro rfl; exact hr hc)]
    rfl
  have h2 := Text.lines_line l [] hn
  rw [← arrowLines_end, arrowLines_eq]
  have : nl (l ++ ['\n']) = l ++ ['\n'] := by
    rw [show nl (l ++ ['\n']) = nl l ++ ['\n'] by simp [nl], h1]
  rw [this, h2]
  cases l with
  | nil => exact absurd rfl h
  | cons a l => rfl

theorem arrowLines_mem {t l : Str} (h : l ∈ arrowLines t) : '\n' ∉ l ∧ '\r' ∉ l ∧ l ≠ [] := by
  rw [arrowLines_eq, List.mem_filter] at h
  obtain ⟨h1, h2⟩ := no_nl_of_lines _ _ h.1
  refine ⟨h1, fun hc => ?_, by rintro rfl; simp at h⟩
  have := h2 _ hc
  unfold nl at this
  obtain ⟨c, -, hc⟩ := List.mem_map.1 this
  split at hc
  · exact absurd hc (by decide)
  · next hne => exact hne hc

/-! ### Fields -/

theorem consHead_mem {c : Char} {fs : List Str} {f : Str} (h : f ∈ consHead c fs) :
    ∀ x ∈ f, x = c ∨ ∃ g ∈ fs, x ∈ g := by
  cases fs with
  | nil =>
    simp only [consHead, List.mem_singleton] at h
    subst h
    intro x hx
    left
    simpa using hx
  | cons g gs =>
    simp only [consHead, List.mem_cons] at h
    intro x hx
    rcases h with rfl | h
    · rcases List.mem_cons.1 hx with rfl | hx
      · exact .inl rfl
      · exact .inr ⟨g, by simp, hx⟩
    · exact .inr ⟨f, by simp [h], hx⟩

theorem fields_sub : ∀ (m : Mode) (l : Str) (fs : List Str), fieldsFrom m l = some fs →
    ∀ f ∈ fs, ∀ x ∈ f, x ∈ l
  | m, [], fs, h => by
    unfold fieldsFrom at h
    split at h
    · exact absurd h (by simp)
    · simp only [Option.some.injEq] at h
      subst h
      simp
  | m, c :: r, fs, h => by
    have A : ∀ m', fieldsFrom m' r = some fs → ∀ f ∈ fs, ∀ x ∈ f, x ∈ c :: r := fun m' e f hf x hx =>
      List.mem_cons_of_mem _ (fields_sub m' r fs e f hf x hx)
    have B : ∀ m', (fieldsFrom m' r).map ([] :: ·) = some fs → ∀ f ∈ fs, ∀ x ∈ f, x ∈ c :: r := by
      intro m' e f hf x hx
      obtain ⟨gs, h1, rfl⟩ := Option.map_eq_some_iff.1 e
      rcases List.mem_cons.1 hf with rfl | hf
      · simp at hx
      · exact List.mem_cons_of_mem _ (fields_sub m' r gs h1 f hf x hx)
    have C : ∀ m' (d : Char), d = c → (fieldsFrom m' r).map (consHead d) = some fs →
        ∀ f ∈ fs, ∀ x ∈ f, x ∈ c :: r := by
      intro m' d hd e f hf x hx
      obtain ⟨gs, h1, rfl⟩ := Option.map_eq_some_iff.1 e
      rcases consHead_mem hf x hx with rfl | ⟨g, hg, hx⟩
      · simp [hd]
      · exact List.mem_cons_of_mem _ (fields_sub m' r gs h1 g hg x hx)
    cases m <;> simp only [fieldsFrom] at h <;> split at h
    · exact A _ h
    · split at h
      · exact B _ h
      · exact C _ _ rfl h
    · exact B _ h
    · exact C _ _ rfl h
    · exact A _ h
    · exact C _ _ rfl h
    · next e => exact C _ _ e.symm h
    · split at h
      · exact B _ h
      · exact C _ _ rfl h

theorem fields_ne_nil : ∀ (m : Mode) (l : Str) (fs : List Str), fieldsFrom m l = some fs → fs ≠ []
  | m, [], fs, h => by
    unfold fieldsFrom at h
    split at h
    · exact absurd h (by simp)
    · simp only [Option.some.injEq] at h
      subst h
      simp
  | m, c :: r, fs, h => by
    have B : ∀ m', (fieldsFrom m' r).map ([] :: ·) = some fs → fs ≠ [] := by
      intro m' e
      obtain ⟨gs, h1, rfl⟩ := Option.map_eq_some_iff.1 e
      simp
    have C : ∀ m' (d : Char), (fieldsFrom m' r).map (consHead d) = some fs → fs ≠ [] := by
      intro m' d e
      obtain ⟨gs, h1, rfl⟩ := Option.map_eq_some_iff.1 e
      cases gs <;> simp [consHead]
    cases m <;> simp only [fieldsFrom] at h <;> split at h
    · exact fields_ne_nil _ r fs h
    · split at h
      · exact B _ h
      · exact C _ _ h
    · exact B _ h
    · exact C _ _ h
    · exact fields_ne_nil _ r fs h
    · exact C _ _ h
    · exact C _ _ h
    · split at h
      · exact B _ h
      · exact C _ _ h

/-- Inside quotes everything but a quote is taken as it is. -/
theorem fields_quoted : ∀ (s t : Str), '"' ∉ s →
    fieldsFrom .quoted (s ++ '"' :: ',' :: t) = (fieldsFrom .start t).map (s :: ·)
  | [], t, _ => by simp [fieldsFrom]
  | c :: s, t, h => by
    simp only [List.mem_cons, not_or] at h
    rw [List.cons_append, fieldsFrom]
    simp only [Ne.symm h.1, if_false, fields_quoted s t h.2, Option.map_map]
    congr 1

theorem fields_quoted_last : ∀ (s : Str), '"' ∉ s → fieldsFrom .quoted (s ++ ['"']) = some [s]
  | [], _ => by simp [fieldsFrom]
  | c :: s, h => by
    simp only [List.mem_cons, not_or] at h
    rw [List.cons_append, fieldsFrom]
    simp only [Ne.symm h.1, if_false, fields_quoted_last s h.2, Option.map_some, consHead]

theorem fields_header : ∀ cols : List Str, cols ≠ [] → (∀ c ∈ cols, '"' ∉ c) → fieldsFrom .start (quotedLine cols) = some cols
  | [], h, _ => absurd rfl h
  | [a], _, h => by
    simp only [quotedLine, List.map_cons, List.map_nil, join, List.cons_append, fieldsFrom, if_true]
    exact fields_quoted_last a (h a (by simp))
  | a :: b :: r, _, h => by
    have ih := fields_header (b :: r) (by simp) fun c hc => h c (List.mem_cons_of_mem _ hc)
    have : quotedLine (a :: b :: r) = '"' :: (a ++ '"' :: ',' :: quotedLine (b :: r)) := by
      simp [quotedLine, join]
    rw [this, fieldsFrom]
    simp only [if_true]
    rw [fields_quoted _ _ (h a (by simp)), ih]
    rfl

theorem fields_na (s : Str) (h : DkPir.Plain s) : ∀ n, 0 < n → fieldsFrom .start (naLine n s) = some (List.replicate n s)
  | 0, h0 => absurd h0 (by simp)
  | 1, _ => DkPir.fields_start_last s h
  | n + 2, _ => by
    have ih := fields_na s h (n + 1) (by omega)
    have : naLine (n + 2) s = s ++ ',' :: naLine (n + 1) s := rfl
    rw [this, DkPir.fields_start_cons _ _ h, ih]
    rfl

theorem join_mem {c : Char} : ∀ {l : List Str} {x : Char}, x ∈ join c l → x = c ∨ ∃ f ∈ l, x ∈ f
  | [], x, h => by simp [join] at h
  | [a], x, h => .inr ⟨a, by simp, h⟩
  | a :: b :: r, x, h => by
    simp only [join, List.mem_append, List.mem_cons] at h
    rcases h with h | h | h
    · exact .inr ⟨a, by simp, h⟩
    · exact .inl h
    · rcases join_mem h with h | ⟨f, hf, h⟩
      · exact .inl h
      · exact .inr ⟨f, List.mem_cons_of_mem _ hf, h⟩

/-! ### The key file -/

theorem dec_plain (n : Nat) : DkPir.Plain (Text.dec n) :=
  ⟨Text.dec_not_mem _ _ (by decide), Text.dec_not_mem _ _ (by decide), by
    intro h
    have : '"' ∈ Text.dec n := List.mem_of_mem_head? h
    exact Text.dec_not_mem n _ (by decide) this⟩

theorem cells_keyLine (r : KeyRec Str) (h : '"' ∉ r.key) :
    cellsOf 3 (keyLine r) = some [r.key, Text.dec r.start, Text.dec r.dup] := by
  have : keyLine r = '"' :: (r.key ++ '"' :: ',' :: (Text.dec r.start ++ ',' :: Text.dec r.dup)) := by
    simp [keyLine]
  rw [cellsOf, this, fieldsFrom]
  simp only [if_true]
  rw [fields_quoted _ _ h, DkPir.fields_start_cons _ _ (dec_plain _), DkPir.fields_start_last _ (dec_plain _)]
  rfl

theorem mapM_all {α β : Type} {f : α → Option β} {g : α → β} : ∀ {l : List α}, (∀ a ∈ l, f a = some (g a)) →
    l.mapM f = some (l.map g)
  | [], _ => rfl
  | a :: l, h => by
    rw [List.mapM_cons, h a (by simp), mapM_all fun x hx => h x (List.mem_cons_of_mem _ hx)]
    rfl

theorem keyRec_dec (r : KeyRec Str) : keyRec [r.key, Text.dec r.start, Text.dec r.dup] = some r := by
  simp only [keyRec, Text.dec_ne_nil, or_self, if_false, Text.digitsVal_dec]

theorem keyLine_mem {r : KeyRec Str} {c : Char} (h : c ∉ r.key) (h1 : c ≠ '"') (h2 : c ≠ ',')
    (h3 : c.toNat < 48 ∨ 57 < c.toNat) : c ∉ keyLine r := by
  simp [keyLine, h, h1, h2, Text.dec_not_mem _ _ h3]

theorem readKeyFile_keyFile (rs : List (KeyRec Str)) (h : ∀ r ∈ rs, '"' ∉ r.key ∧ '\n' ∉ r.key ∧ '\r' ∉ r.key) :
    readKeyFile (keyFile rs) = some rs := by
  have hl : arrowLines (keyFile rs) = keyHeader :: rs.map keyLine := by
    rw [keyFile, arrowLines_append, arrowLines_one (by decide) (by decide) (by decide)]
    have : (rs.flatMap fun r => keyLine r ++ ['\n']) = (rs.map keyLine).flatMap (· ++ ['\n']) := by
      rw [List.flatMap_map]
    rw [this, arrowLines_unlines, List.singleton_append]
    congr 1
    rw [List.flatMap_map, ← List.flatMap_singleton' (rs.map keyLine), List.flatMap_map]
    have : ∀ r ∈ rs, arrowLines (keyLine r) = [keyLine r] := fun r hr =>
      arrowLines_one (by simp [keyLine]) (keyLine_mem (h r hr).2.1 (by decide) (by decide) (by decide))
        (keyLine_mem (h r hr).2.2 (by decide) (by decide) (by decide))
    exact List.flatMap_congr this
  unfold readKeyFile csvTable
  rw [hl]
  have hh : fieldsFrom .start keyHeader = some ["psi_joined_key".toList, "psi_start_index".toList, "psi_dup_cnt".toList] := by
    decide
  simp only [hh, Option.bind_some, List.length_cons, List.length_nil]
  rw [List.mapM_map]
  rw [mapM_all (f := cellsOf (0 + 1 + 1 + 1) ∘ keyLine) (g := fun r : KeyRec Str => [r.key, Text.dec r.start, Text.dec r.dup]) fun r hr =>
    cells_keyLine r (h r hr).1]
  simp only [Option.map_some, Option.bind_some]
  rw [List.mapM_map, mapM_all (f := keyRec ∘ _) (g := id) fun r _ => keyRec_dec r, List.map_id]

end Psi.JoinText
