import Verif.IndexStore.Spec
import Verif.Text.Lemmas
import Mathlib.Data.List.Basic
import Mathlib.Data.List.Sort

/-! # Helper lemmas about index files -/

namespace Psi.IndexStore
open Psi.Text Spec

theorem header_nl : '\n' ∉ header := by decide

theorem rowText_nl (r : Row) : '\n' ∉ rowText r := by
  simp only [rowText, List.mem_append, List.mem_cons, not_or]
  exact ⟨dec_not_mem _ _ (by decide), by decide, dec_not_mem _ _ (by decide)⟩

theorem parse_rowText (r : Row) : parseRow (rowText r) = some r := by
  have h1 : split ',' (rowText r) = [dec r.1, dec r.2] := by
    rw [rowText, split_cons _ _ _ (dec_not_mem _ _ (by decide)), split_no _ _ (dec_not_mem _ _ (by decide))]
  have e1 : (dec r.1).isEmpty = false := by simpa using dec_ne_nil r.1
  have e2 : (dec r.2).isEmpty = false := by simpa using dec_ne_nil r.2
  simp [parseRow, h1, digitsVal_dec, e1, e2]

theorem lines_linesText (ls : List (List Char)) (h : ∀ l ∈ ls, '\n' ∉ l) : lines (linesText ls) = ls :=
  lines_flatMap ls h

theorem linesText_append (a b : List (List Char)) : linesText (a ++ b) = linesText a ++ linesText b := by
  simp [linesText]

theorem writeAll_ok : ∀ (is cs : List Nat) (w w' : Writer), writeAll is cs w = .ok w' →
    w'.cache = w.cache ++ is.zip cs ∧ w'.closed = w.closed ∧ w'.written = w.written + is.length := by
  intro is
  induction is with
  | nil => intro cs w w' h; simp only [writeAll, Except.ok.injEq] at h; subst h; simp
  | cons i is ih =>
    intro cs w w' h
    cases cs with
    | nil => simp [writeAll] at h
    | cons c cs =>
      simp only [writeAll] at h
      split at h
      · exact absurd h (by simp)
      · rename_i w1 h1
        have : w1 = { w with cache := w.cache ++ [(i, c)], written := w.written + 1 } := by
          unfold write at h1
          split at h1
          · simp at h1
          · simpa using h1.symm
        obtain ⟨e1, e2, e3⟩ := ih cs w1 w' h
        rw [e1, e2, e3, this]
        refine ⟨by simp, rfl, ?_⟩
        simp only [List.length_cons]; omega

theorem writeIdx_ok : ∀ (is : List Nat) (w w' : Writer), writeIdx is w = .ok w' →
    w'.cache = w.cache ++ is.map (fun i => (i, 0)) ∧ w'.closed = w.closed ∧
      w'.written = w.written + is.length := by
  intro is
  induction is with
  | nil => intro w w' h; simp only [writeIdx, Except.ok.injEq] at h; subst h; simp
  | cons i is ih =>
    intro w w' h
    simp only [writeIdx] at h
    split at h
    · exact absurd h (by simp)
    · rename_i w1 h1
      have : w1 = { w with cache := w.cache ++ [(i, 0)], written := w.written + 1 } := by
        unfold write at h1
        split at h1
        · simp at h1
        · simpa using h1.symm
      obtain ⟨e1, e2, e3⟩ := ih w1 w' h
      rw [e1, e2, e3, this]
      refine ⟨by simp, rfl, ?_⟩
      simp only [List.length_cons]; omega

/-- The text that holds the given rows. -/
def text (rows : List Row) : List Char := linesText (header :: rows.map rowText)

theorem text_append (a b : List Row) : text (a ++ b) = text a ++ linesText (b.map rowText) := by
  rw [text, text, ← linesText_append]; simp

/-- What the log says about the state. -/
structure Inv (l : Log) (s : State) : Prop where
  file : s.file = some (text l.safe) ∨ (s.file = none ∧ l = ⟨[], []⟩ ∧ s.writer = none)
  live : ∀ w, s.writer = some w → w.cache = l.fresh ∧ (w.closed = true → w.cache = [])
  gone : s.writer = none → l.fresh = []

theorem commit_ok (rows : List Row) (w w' : Writer) (f : List Char) (h : commit (text rows) w = .ok (f, w')) :
    f = text (rows ++ w.cache) ∧ w'.cache = [] ∧ w'.closed = w.closed ∧ w'.written = w.written := by
  unfold commit at h
  split at h
  · simp at h
  · split at h
    · rename_i h1
      have : w.cache = [] := by simpa using h1
      simp only [Except.ok.injEq, Prod.mk.injEq] at h
      obtain ⟨rfl, rfl⟩ := h
      simp [this]
    · simp only [Except.ok.injEq, Prod.mk.injEq] at h
      obtain ⟨rfl, rfl⟩ := h
      exact ⟨(text_append _ _).symm, rfl, rfl, rfl⟩

theorem close_ok (rows : List Row) (w w' : Writer) (f : List Char) (hc : w.closed = true → w.cache = [])
    (h : close (text rows) w = .ok (f, w')) :
    f = text (rows ++ w.cache) ∧ w'.cache = [] ∧ w'.closed = true := by
  unfold close at h
  split at h
  · rename_i h1
    simp only [Except.ok.injEq, Prod.mk.injEq] at h
    obtain ⟨rfl, rfl⟩ := h
    simp [hc h1, h1]
  · split at h
    · simp at h
    · rename_i f1 w1 h1
      obtain ⟨e1, e2, -, -⟩ := commit_ok rows w w1 f1 h1
      simp only [Except.ok.injEq, Prod.mk.injEq] at h
      obtain ⟨rfl, rfl⟩ := h
      exact ⟨e1, e2, rfl⟩

theorem map_ok {α β : Type} {x : Except Err α} {f : α → β} {b : β} (h : x.map f = .ok b) :
    ∃ a, x = .ok a ∧ f a = b := by
  cases x with
  | error e => simp [Except.map] at h
  | ok a => exact ⟨a, rfl, by simpa [Except.map] using h⟩

theorem step_inv (l : Log) (s s' : State) (o : Op) (hi : Inv l s) (h : step s o = .ok s') :
    Inv (l.step o) s' := by
  have hfile : ∀ w, s.writer = some w → s.file = some (text l.safe) := by
    intro w hw
    rcases hi.file with hf | ⟨-, -, hf⟩
    · exact hf
    · rw [hw] at hf; simp at hf
  cases o with
  | make t =>
    simp only [step] at h
    split at h
    · simp at h
    · rename_i hw
      have hfr := hi.gone hw
      simp only [Except.ok.injEq] at h
      subst h
      cases t with
      | true => exact ⟨Or.inl rfl, by intro w h; simp [make] at h; subst h; simp [Log.step], by simp [make]⟩
      | false =>
        refine ⟨Or.inl ?_, by intro w h; simp [make] at h; subst h; simp [Log.step], by simp [make]⟩
        rcases hi.file with hf | ⟨hf, hl, -⟩
        · simp [make, hf, Log.step]
        · simp [make, hf, hl, Log.step, text]
  | write r =>
    simp only [step] at h
    split at h
    · simp at h
    · rename_i w hw
      obtain ⟨w', h1, rfl⟩ := map_ok h
      unfold write at h1
      split at h1
      · simp at h1
      · rename_i hc
        simp only [Except.ok.injEq] at h1
        subst h1
        refine ⟨Or.inl (hfile w hw), ?_, by simp⟩
        intro w2 h2
        simp only [Option.some.injEq] at h2
        subst h2
        refine ⟨by simp [Log.step, (hi.live w hw).1], fun hh => absurd hh hc⟩
  | writeAll is cs =>
    simp only [step] at h
    split at h
    · simp at h
    · rename_i w hw
      split at h
      · simp at h
      · rename_i hc
        obtain ⟨w', h1, rfl⟩ := map_ok h
        obtain ⟨e1, e2, -⟩ := writeAll_ok _ _ _ _ h1
        refine ⟨Or.inl (hfile w hw), ?_, by simp⟩
        intro w2 h2
        simp only [Option.some.injEq] at h2
        subst h2
        exact ⟨by simp [Log.step, e1, (hi.live w hw).1], fun hh => absurd (e2 ▸ hh) hc⟩
  | writeIdx is =>
    simp only [step] at h
    split at h
    · simp at h
    · rename_i w hw
      split at h
      · simp at h
      · rename_i hc
        obtain ⟨w', h1, rfl⟩ := map_ok h
        obtain ⟨e1, e2, -⟩ := writeIdx_ok _ _ _ h1
        refine ⟨Or.inl (hfile w hw), ?_, by simp⟩
        intro w2 h2
        simp only [Option.some.injEq] at h2
        subst h2
        exact ⟨by simp [Log.step, e1, (hi.live w hw).1], fun hh => absurd (e2 ▸ hh) hc⟩
  | commit =>
    simp only [step] at h
    split at h
    · simp at h
    · rename_i w hw
      obtain ⟨⟨f, w'⟩, h1, rfl⟩ := map_ok h
      rw [hfile w hw] at h1
      obtain ⟨e1, e2, e3, -⟩ := commit_ok _ _ _ _ h1
      refine ⟨Or.inl (by simp [Log.step, e1, (hi.live w hw).1]), ?_, by simp⟩
      intro w2 h2
      simp only [Option.some.injEq] at h2
      subst h2
      exact ⟨by simp [Log.step, e2], fun _ => e2⟩
  | close =>
    simp only [step] at h
    split at h
    · simp at h
    · rename_i w hw
      obtain ⟨⟨f, w'⟩, h1, rfl⟩ := map_ok h
      rw [hfile w hw] at h1
      obtain ⟨e1, e2, e3⟩ := close_ok _ _ _ _ (hi.live w hw).2 h1
      refine ⟨Or.inl (by simp [Log.step, e1, (hi.live w hw).1]), ?_, by simp⟩
      intro w2 h2
      simp only [Option.some.injEq] at h2
      subst h2
      exact ⟨by simp [Log.step, e2], fun _ => e2⟩
  | destroy =>
    simp only [step] at h
    split at h
    · simp at h
    · rename_i w hw
      obtain ⟨⟨f, w'⟩, h1, rfl⟩ := map_ok h
      rw [hfile w hw] at h1
      obtain ⟨e1, e2, e3⟩ := close_ok _ _ _ _ (hi.live w hw).2 h1
      exact ⟨Or.inl (by simp [Log.step, e1, (hi.live w hw).1]), by simp, fun _ => rfl⟩
  | crash =>
    simp only [step, Except.ok.injEq] at h
    subst h
    refine ⟨?_, by simp, fun _ => rfl⟩
    rcases hi.file with hf | ⟨hf, hl, -⟩
    · exact Or.inl hf
    · exact Or.inr ⟨hf, by rw [hl]; rfl, rfl⟩

theorem run_inv (h : List Op) (l : Log) (s s' : State) (hi : Inv l s) (hr : run s h = .ok s') :
    Inv (h.foldl Log.step l) s' := by
  induction h generalizing l s with
  | nil => simp only [run, Except.ok.injEq] at hr; subst hr; exact hi
  | cons o h ih =>
    simp only [run] at hr
    split at hr
    · simp at hr
    · rename_i s1 h1
      exact ih _ s1 (step_inv l s s1 o hi h1) hr

theorem mapM_parse (bs : List (List Row)) :
    (bs.map (fun b => b.map rowText)).mapM (fun b => b.mapM parseRow) = some bs := by
  have h1 : ∀ b : List Row, (b.map rowText).mapM parseRow = some b := by
    intro b
    induction b with
    | nil => rfl
    | cons r b ih => rw [List.map_cons, List.mapM_cons, parse_rowText, ih]; rfl
  induction bs with
  | nil => rfl
  | cons b bs ih => rw [List.map_cons, List.mapM_cons, h1, ih]; rfl

/-- Blocks of encoded rows are encoded blocks of rows. -/
theorem blocks_rows (rows : List Row) (blocks : List (List (List Char)))
    (h : blocks.flatten = rows.map rowText) :
    ∃ bs : List (List Row), blocks = bs.map (fun b => b.map rowText) ∧ bs.flatten = rows := by
  induction blocks generalizing rows with
  | nil =>
    have : rows = [] := by simpa using h.symm
    exact ⟨[], rfl, this.symm⟩
  | cons b blocks ih =>
    rw [List.flatten_cons] at h
    obtain ⟨r1, r2, e1, e2, e3⟩ := List.append_eq_map_iff.mp h
    obtain ⟨bs, f1, f2⟩ := ih r2 e3.symm
    exact ⟨r1 :: bs, by rw [List.map_cons, ← f1, e2], by rw [List.flatten_cons, f2, e1]⟩

theorem drain_spec (fuel : Nat) (cur : List Row) (more : List (List Row)) (hm : ∀ b ∈ more, b ≠ [])
    (hf : (cur ++ more.flatten).length < fuel) (o : Option (List Row)) (ho : o = some cur ∨ (o = none ∧ cur = [])) :
    Reader.drain fuel ⟨o, more⟩ = cur ++ more.flatten := by
  induction fuel generalizing cur more o with
  | zero => omega
  | succ fuel ih =>
    cases cur with
    | cons x xs =>
      have : o = some (x :: xs) := by simpa using ho
      subst this
      simp only [Reader.drain, Reader.next, Reader.hasNext, if_true]
      rw [ih xs more hm (by simp at hf ⊢; omega) _ (Or.inl rfl)]
      rfl
    | nil =>
      cases more with
      | nil => rcases ho with rfl | ⟨rfl, -⟩ <;> simp [Reader.drain, Reader.next, Reader.hasNext]
      | cons b bs =>
        cases b with
        | nil => exact absurd rfl (hm [] (by simp))
        | cons y ys =>
          have hd := ih ys bs (fun c hc => hm c (by simp [hc])) (by simp at hf ⊢; omega) _ (Or.inl rfl)
          rcases ho with rfl | ⟨rfl, -⟩ <;>
            simp [Reader.drain, Reader.next, Reader.hasNext, hd]

theorem fits_iff (r : Row) : fits r = true ↔ Small r := by simp [fits, Small]

theorem readFile_text (cut : List (List Char) → List (List (List Char))) (hc : Cuts cut) (rows : List Row)
    (w : Option Writer) (hs : ∀ r ∈ rows, Small r) : readFile cut ⟨some (text rows), w⟩ = .ok rows := by
  have hl : lines (text rows) = header :: rows.map rowText := by
    apply lines_linesText
    intro l hl
    rcases List.mem_cons.mp hl with rfl | hl
    · exact header_nl
    · obtain ⟨r, -, rfl⟩ := List.mem_map.mp hl
      exact rowText_nl r
  obtain ⟨h1, h2⟩ := hc (rows.map rowText)
  obtain ⟨bs, e1, e2⟩ := blocks_rows rows _ h1
  have hb : batches (cut (rows.map rowText)) = .ok bs := by
    unfold batches
    rw [e1, mapM_parse]
    simp only
    rw [if_pos]
    rw [List.all_eq_true]
    intro b hb
    rw [List.all_eq_true]
    intro r hr
    exact (fits_iff r).mpr (hs r (by rw [← e2]; exact List.mem_flatten.mpr ⟨b, hb, hr⟩))
  have hne : ∀ b ∈ bs, b ≠ [] := by
    intro b hb hbe
    refine h2 [] ?_ rfl
    rw [e1]
    exact List.mem_map.mpr ⟨b, hb, by rw [hbe]; rfl⟩
  simp only [readFile, hl, ne_eq, not_true_eq_false, if_false, hb, Except.map]
  rw [drain_spec _ [] bs hne (by simp) none (Or.inr ⟨rfl, rfl⟩), List.nil_append, e2]

end Psi.IndexStore
