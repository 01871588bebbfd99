import Verif.Text.Model
import Mathlib.Tactic.Common
import Mathlib.Tactic.IntervalCases

namespace Psi.Text

theorem toNat_ofNat_digit (d : Nat) (h : d < 10) : (Char.ofNat (48 + d)).toNat = 48 + d := by
  interval_cases d <;> decide

theorem digit?_ofNat (d : Nat) (h : d < 10) : digit? (Char.ofNat (48 + d)) = some d := by
  rw [digit?, toNat_ofNat_digit d h]
  rw [if_pos (by omega)]
  congr 1; omega

theorem digitsVal_append (acc : Nat) (l m : List Char) :
    digitsVal acc (l ++ m) = (digitsVal acc l).bind (fun v => digitsVal v m) := by
  induction l generalizing acc with
  | nil => rfl
  | cons c l ih =>
    simp only [List.cons_append, digitsVal]
    cases digit? c with
    | none => rfl
    | some d => exact ih _

theorem digitsVal_dec (n : Nat) : digitsVal 0 (dec n) = some n := by
  induction n using Nat.strongRecOn with
  | ind n ih =>
    rw [dec]
    split
    · rename_i h
      simp [digitsVal, digit?_ofNat n h]
    · rename_i h
      rw [digitsVal_append, ih (n / 10) (by omega)]
      simp only [Option.bind_some, digitsVal, digit?_ofNat (n % 10) (by omega)]
      congr 1; omega

theorem dec_ne_nil (n : Nat) : dec n ≠ [] := by
  rw [dec]; split <;> simp

/-- All characters of a printed number are digits. -/
theorem dec_digits (n : Nat) : ∀ c ∈ dec n, 48 ≤ c.toNat ∧ c.toNat ≤ 57 := by
  induction n using Nat.strongRecOn with
  | ind n ih =>
    rw [dec]
    split
    · rename_i h
      intro c hc
      rw [List.mem_singleton.mp hc, toNat_ofNat_digit n h]; omega
    · rename_i h
      intro c hc
      rcases List.mem_append.mp hc with hc | hc
      · exact ih _ (by omega) c hc
      · rw [List.mem_singleton.mp hc, toNat_ofNat_digit _ (by omega)]; omega

theorem dec_injective {a b : Nat} (h : dec a = dec b) : a = b := by
  have := digitsVal_dec a
  rw [h, digitsVal_dec] at this
  exact (Option.some.inj this).symm

theorem dec_not_mem (n : Nat) (c : Char) (hc : c.toNat < 48 ∨ 57 < c.toNat) : c ∉ dec n := by
  intro hm
  have := dec_digits n c hm
  omega

theorem isSpace_digit (c : Char) (h : 48 ≤ c.toNat ∧ c.toNat ≤ 57) : isSpace c = false := by
  have : c ≠ ' ' := by
    rintro rfl; revert h; decide
  simp [isSpace, this]; omega

theorem dropWhile_none {α : Type} (p : α → Bool) (l : List α) (h : ∀ x ∈ l, p x = false) :
    l.dropWhile p = l := by
  cases l with
  | nil => rfl
  | cons a l => simp [List.dropWhile, h a (by simp)]

theorem simpleAtoi_dec (bound n : Nat) (h : n < bound) : simpleAtoi bound (dec n) = some n := by
  unfold simpleAtoi
  have h1 : (dec n).dropWhile isSpace = dec n :=
    dropWhile_none _ _ (fun c hc => isSpace_digit c (dec_digits n c hc))
  have h2 : (dec n).reverse.dropWhile isSpace = (dec n).reverse :=
    dropWhile_none _ _ (fun c hc => isSpace_digit c (dec_digits n c (List.mem_reverse.mp hc)))
  rw [h1, h2, List.reverse_reverse]
  have h3 : stripPlus (dec n) = dec n := by
    cases hd : dec n with
    | nil => rfl
    | cons c r =>
      have h := dec_digits n c (by rw [hd]; simp)
      have : c ≠ '+' := by
        rintro rfl
        have : ¬ (48 ≤ '+'.toNat) := by decide
        exact this h.1
      simp [stripPlus, this]
  simp only [h3, dec_ne_nil, if_false, digitsVal_dec, if_pos h]

theorem split_no (c : Char) (l : List Char) (h : c ∉ l) : split c l = [l] := by
  induction l with
  | nil => rfl
  | cons x l ih =>
    simp only [List.mem_cons, not_or] at h
    simp only [split, if_neg (Ne.symm h.1), ih h.2]

theorem split_cons (c : Char) (l r : List Char) (h : c ∉ l) :
    split c (l ++ c :: r) = l :: split c r := by
  induction l with
  | nil => simp [split]
  | cons x l ih =>
    simp only [List.mem_cons, not_or] at h
    simp only [List.cons_append, split, if_neg (Ne.symm h.1), ih h.2]

theorem lines_line (l r : List Char) (h : '\n' ∉ l) : lines (l ++ '\n' :: r) = l :: lines r := by
  induction l with
  | nil => simp [lines]
  | cons x l ih =>
    simp only [List.mem_cons, not_or] at h
    have hx : x ≠ '\n' := Ne.symm h.1
    rw [List.cons_append, lines, if_neg hx, ih h.2]

theorem lines_flatMap (ls : List (List Char)) (h : ∀ l ∈ ls, '\n' ∉ l) :
    lines (ls.flatMap fun l => l ++ ['\n']) = ls := by
  induction ls with
  | nil => rfl
  | cons l ls ih =>
    rw [List.flatMap_cons, List.append_assoc, List.singleton_append,
      lines_line l _ (h l (by simp)), ih (fun l hl => h l (by simp [hl]))]

theorem b64char_inj : ∀ i j : Fin 64, b64char i = b64char j → i = j := by decide

theorem b64char_inj' {a b : Nat} (ha : a < 64) (hb : b < 64) (h : b64char a = b64char b) : a = b := by
  have := b64char_inj ⟨a, ha⟩ ⟨b, hb⟩ h
  exact congrArg Fin.val this

theorem b64char_ne : ∀ i : Fin 64, b64char i ≠ '=' ∧ b64char i ≠ ',' ∧ b64char i ≠ '\n' := by decide

theorem b64char_ne' {a : Nat} (ha : a < 64) :
    b64char a ≠ '=' ∧ b64char a ≠ ',' ∧ b64char a ≠ '\n' := b64char_ne ⟨a, ha⟩

theorem base64_chars (d : List UInt8) : ∀ c ∈ base64 d, c ≠ ',' ∧ c ≠ '\n' := by
  have key : ∀ n, n < 64 → b64char n ≠ ',' ∧ b64char n ≠ '\n' := fun n h => (b64char_ne' h).2
  induction d using base64.induct with
  | case1 => simp [base64]
  | case2 a =>
    have ha := a.toNat_lt
    intro c hc
    simp only [base64, List.mem_cons, List.not_mem_nil, or_false] at hc
    rcases hc with rfl | rfl | rfl | rfl
    · exact key _ (by omega)
    · exact key _ (by omega)
    · decide
    · decide
  | case3 a b =>
    have ha := a.toNat_lt
    have hb := b.toNat_lt
    intro c hc
    simp only [base64, List.mem_cons, List.not_mem_nil, or_false] at hc
    rcases hc with rfl | rfl | rfl | rfl
    · exact key _ (by omega)
    · exact key _ (by omega)
    · exact key _ (by omega)
    · decide
  | case4 a b c r ih =>
    have ha := a.toNat_lt
    have hb := b.toNat_lt
    have hc' := c.toNat_lt
    intro x hx
    simp only [base64, List.mem_cons] at hx
    rcases hx with rfl | rfl | rfl | rfl | hx
    · exact key _ (by omega)
    · exact key _ (by omega)
    · exact key _ (by omega)
    · exact key _ (by omega)
    · exact ih x hx

theorem base64_injective : ∀ {x y : List UInt8}, base64 x = base64 y → x = y := by
  intro x
  induction x using base64.induct with
  | case1 =>
    intro y h
    match y, h with
    | [], _ => rfl
    | [a], h => simp [base64] at h
    | [a, b], h => simp [base64] at h
    | a :: b :: c :: r, h => simp [base64] at h
  | case2 a =>
    intro y h
    have ha := a.toNat_lt
    match y, h with
    | [], h => simp [base64] at h
    | [a'], h =>
      have ha' := a'.toNat_lt
      simp only [base64, List.cons.injEq, and_true] at h
      have h1 := b64char_inj' (by omega) (by omega) h.1
      have h2 := b64char_inj' (by omega) (by omega) h.2
      have : a = a' := UInt8.toNat_inj.mp (by omega)
      rw [this]
    | [a', b'], h =>
      have hb' := b'.toNat_lt
      simp only [base64, List.cons.injEq] at h
      exact absurd h.2.2.1.symm (b64char_ne' (by omega)).1
    | a' :: b' :: c' :: r, h =>
      have hb' := b'.toNat_lt
      have hc' := c'.toNat_lt
      simp only [base64, List.cons.injEq] at h
      exact absurd h.2.2.1.symm (b64char_ne' (by omega)).1
  | case3 a b =>
    intro y h
    have ha := a.toNat_lt
    have hb := b.toNat_lt
    match y, h with
    | [], h => simp [base64] at h
    | [a'], h =>
      simp only [base64, List.cons.injEq] at h
      exact absurd h.2.2.1 (b64char_ne' (by omega)).1
    | [a', b'], h =>
      have ha' := a'.toNat_lt
      have hb' := b'.toNat_lt
      simp only [base64, List.cons.injEq, and_true] at h
      have h1 := b64char_inj' (by omega) (by omega) h.1
      have h2 := b64char_inj' (by omega) (by omega) h.2.1
      have h3 := b64char_inj' (by omega) (by omega) h.2.2
      have e1 : a = a' := UInt8.toNat_inj.mp (by omega)
      have e2 : b = b' := UInt8.toNat_inj.mp (by omega)
      rw [e1, e2]
    | a' :: b' :: c' :: r, h =>
      have hc' := c'.toNat_lt
      simp only [base64, List.cons.injEq] at h
      exact absurd h.2.2.2.1.symm (b64char_ne' (by omega)).1
  | case4 a b c r ih =>
    intro y h
    have ha := a.toNat_lt
    have hb := b.toNat_lt
    have hc := c.toNat_lt
    match y, h with
    | [], h => simp [base64] at h
    | [a'], h =>
      simp only [base64, List.cons.injEq] at h
      exact absurd h.2.2.1 (b64char_ne' (by omega)).1
    | [a', b'], h =>
      simp only [base64, List.cons.injEq] at h
      exact absurd h.2.2.2.1 (b64char_ne' (by omega)).1
    | a' :: b' :: c' :: r', h =>
      have ha' := a'.toNat_lt
      have hb' := b'.toNat_lt
      have hc' := c'.toNat_lt
      simp only [base64, List.cons.injEq] at h
      obtain ⟨h1, h2, h3, h4, h5⟩ := h
      have h1 := b64char_inj' (by omega) (by omega) h1
      have h2 := b64char_inj' (by omega) (by omega) h2
      have h3 := b64char_inj' (by omega) (by omega) h3
      have h4 := b64char_inj' (by omega) (by omega) h4
      have e1 : a = a' := UInt8.toNat_inj.mp (by omega)
      have e2 : b = b' := UInt8.toNat_inj.mp (by omega)
      have e3 : c = c' := UInt8.toNat_inj.mp (by omega)
      rw [e1, e2, e3, ih h5]

end Psi.Text
