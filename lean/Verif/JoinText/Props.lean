import Verif.JoinText.Lemmas
import Verif.ShellSort.Model
import Mathlib.Data.List.Lex
import Mathlib.Data.Char

/-!
# C123: the output of a join, read as a table, is the join of the input, read as a table
-/

namespace Psi.JoinText

open Psi.DkPir (Str fieldsFrom join)
open Psi.Join Psi.Join.Spec

/-! ### Lines and rows -/

/-- The one line Arrow makes of a line. -/
def one (l : Str) : Str := (arrowLines l).headD []

theorem arrowLines_of_one {l : Str} (h : (arrowLines l).length = 1) : arrowLines l = [one l] := by
  unfold one
  match hl : arrowLines l, h with
  | [a], _ => rfl

theorem arrowLines_map {ls : List Str} (h : ∀ l ∈ ls, (arrowLines l).length = 1) :
    ls.flatMap arrowLines = ls.map one := by
  rw [List.flatMap_congr fun l hl => arrowLines_of_one (h l hl)]
  induction ls with
  | nil => rfl
  | cons a ls ih => simpa using ih fun l hl => h l (List.mem_cons_of_mem _ hl)

theorem mapM_some {α β : Type} {f : α → Option β} : ∀ {l : List α} {r : List β}, l.mapM f = some r →
    (∀ a ∈ l, (f a).isSome = true) ∧ ∀ d, r = l.map fun a => (f a).getD d
  | [], r, h => by
    simp only [List.mapM_nil, Option.pure_def, Option.some.injEq] at h
    subst h
    simp
  | a :: l, r, h => by
    rw [List.mapM_cons] at h
    cases hf : f a with
    | none => rw [hf] at h; simp at h
    | some b =>
      cases hl : l.mapM f with
      | none => rw [hf, hl] at h; simp at h
      | some s =>
        rw [hf, hl] at h
        simp only [Option.pure_def, Option.bind_eq_bind, Option.bind_some, Option.some.injEq] at h
        subst h
        obtain ⟨h1, h2⟩ := mapM_some hl
        refine ⟨?_, fun d => ?_⟩
        · intro x hx
          rcases List.mem_cons.1 hx with rfl | hx
          · rw [hf]; rfl
          · exact h1 x hx
        · rw [List.map_cons, hf, ← h2 d]
          rfl

/-- The cells of a raw line. -/
def cell (n : Nat) (l : Str) : List Str := (cellsOf n (one l)).getD []

theorem csvTable_lines {t : Str} {cols : List Str} {rows : List (List Str)} (h : csvTable t = some (cols, rows))
    (hone : ∀ l ∈ Text.lines t, (arrowLines l).length = 1) :
    ∃ hd body, Text.lines t = hd :: body ∧ fieldsFrom .start (one hd) = some cols ∧
      (∀ l ∈ body, cellsOf cols.length (one l) = some (cell cols.length l)) ∧ rows = body.map (cell cols.length) := by
  have ha := arrowLines_lines t
  rw [arrowLines_map hone] at ha
  unfold csvTable at h
  rw [ha] at h
  cases hl : Text.lines t with
  | nil => rw [hl] at h; simp at h
  | cons hd body =>
    rw [hl] at h
    simp only [List.map_cons] at h
    obtain ⟨c, hc, h⟩ := Option.bind_eq_some_iff.1 h
    obtain ⟨rs, hr, h⟩ := Option.map_eq_some_iff.1 h
    simp only [Prod.mk.injEq] at h
    obtain ⟨rfl, rfl⟩ := h
    obtain ⟨h1, h2⟩ := mapM_some hr
    refine ⟨hd, body, rfl, hc, ?_, ?_⟩
    · intro l hl
      obtain ⟨v, hv⟩ := Option.isSome_iff_exists.1 (h1 (one l) (List.mem_map_of_mem hl))
      rw [cell, hv]
      rfl
    · rw [h2 [], List.map_map]
      rfl

theorem rowKey_chars {n : Nat} {cols keys : List Str} {l : Str} {c : List Str} (h : cellsOf n (one l) = some c)
    (hl : (arrowLines l).length = 1) :
    '\n' ∉ rowKey cols keys c ∧ '\r' ∉ rowKey cols keys c := by
  have hm : one l ∈ arrowLines l := by rw [arrowLines_of_one hl]; simp
  obtain ⟨h1, h2, -⟩ := arrowLines_mem hm
  unfold cellsOf at h
  obtain ⟨fs, hf, h⟩ := Option.bind_eq_some_iff.1 h
  split at h
  · simp only [Option.some.injEq] at h
    subst h
    have key : ∀ x, x ≠ ',' → x ∉ one l → x ∉ rowKey cols keys fs := by
      intro x hx hnl hx'
      rcases join_mem hx' with h | ⟨f, hf', h⟩
      · exact hx h
      · obtain ⟨k, -, rfl⟩ := List.mem_map.1 hf'
        rw [List.getD_eq_getElem?_getD] at h
        cases hg : fs[cols.idxOf k]? with
        | none => rw [hg] at h; simp at h
        | some g =>
          rw [hg] at h
          exact hnl (fields_sub _ _ _ hf g (List.mem_of_getElem? hg) x h)
    exact ⟨key _ (by decide) h1, key _ (by decide) h2⟩
  · exact absurd h (by simp)

/-! ### C123 -/

/-- The key of a row: the cells below the names of the key columns, in the order of `keys`, with commas between them. -/
def keyOf (cols keys : List Str) (r : List Str) : Str := [','].intercalate (keys.map fun k => ((cols.zip r).lookup k).getD [])

theorem join_intercalate (c : Char) : ∀ l : List Str, join c l = [c].intercalate l
  | [] => rfl
  | [a] => by simp [join, List.intercalate]
  | a :: b :: r => by
    rw [join, join_intercalate c (b :: r)]
    simp [List.intercalate, List.intersperse]

theorem lookup_zip {k : Str} : ∀ {cols r : List Str}, k ∈ cols → ((cols.zip r).lookup k).getD [] = r.getD (cols.idxOf k) []
  | [], _, h => absurd h (by simp)
  | c :: cols, [], _ => by simp
  | c :: cols, a :: r, h => by
    by_cases hc : k = c
    · subst hc
      simp
    · rw [List.zip_cons_cons, List.lookup_cons, List.idxOf_cons_ne _ (Ne.symm hc)]
      have : (k == c) = false := by simpa using hc
      rw [this, List.getD_cons_succ]
      exact lookup_zip ((List.mem_cons.1 h).resolve_left hc)

theorem rowKey_eq {cols keys : List Str} (h : ∀ k ∈ keys, k ∈ cols) (r : List Str) : rowKey cols keys r = keyOf cols keys r := by
  unfold rowKey keyOf
  rw [join_intercalate]
  congr 1
  apply List.map_congr_left
  exact fun k hk => (lookup_zip (h k hk)).symm

/-- The table a party is to get: its rows that match, each as often as the peer has the key; null rows for the unmatched rows
of the peer and the unmatched own rows, as the kind of join asks for them, the left party's first. -/
def joinedTable (j : Job) (cols : List Str) (rows : List (List Str)) (B : List Str) : List (List Str) :=
  let key := keyOf cols j.keys
  let na := List.replicate (if j.broadcast then B.countP fun b => b ∉ rows.map key else 0) (List.replicate cols.length j.nullRep)
  (if j.type = .difference then [] else rows.flatMap fun r => List.replicate (B.count (key r)) r) ++
    (if j.isLeft = false ∧ j.type ∈ [.left, .difference, .full] then na else []) ++
    (if keepUnmatched j.type j.isLeft then rows.filter fun r => key r ∉ B else []) ++
    (if j.isLeft = true ∧ j.type ∈ [.right, .difference, .full] then na else [])

theorem cnt_count (B : List Str) (k : Str) : cnt id B k = B.count k := by
  unfold cnt
  rw [List.count_eq_countP]
  apply List.countP_congr
  simp

theorem columnNames_eq {t h1 h2 : Str} {rest : List Str} (hl : Text.lines t = h1 :: h2 :: rest) {cols : List Str}
    {c : List Str} (o1 : (arrowLines h1).length = 1) (o2 : (arrowLines h2).length = 1)
    (hc : fieldsFrom .start (one h1) = some cols) (hr : cellsOf cols.length (one h2) = some c) :
    columnNames t = some cols := by
  unfold columnNames
  rw [hl]
  simp only
  have : arrowLines (h1 ++ '\n' :: h2 ++ ['\n']) = [one h1, one h2] := by
    rw [arrowLines_end, arrowLines_append, arrowLines_of_one o1, arrowLines_of_one o2]
    rfl
  unfold csvTable
  rw [this]
  simp [hc, hr]

/-- How the output is read. -/
theorem csvTable_out {cols : List Str} {nullRep : Str} (hcols : cols ≠ []) (hcol : ∀ c ∈ cols, '"' ∉ c ∧ '\n' ∉ c ∧ '\r' ∉ c)
    {val : OutLine Str → List Str} {L : List (OutLine Str)}
    (h : ∀ o ∈ L, (arrowLines (outText cols.length nullRep o)).length = 1 ∧
      cellsOf cols.length (one (outText cols.length nullRep o)) = some (val o)) :
    csvTable (quotedLine cols ++ '\n' :: L.flatMap fun o => outText cols.length nullRep o ++ ['\n'])
      = some (cols, L.map val) := by
  have hmem : ∀ x, x ≠ ',' → x ≠ '"' → (∀ c ∈ cols, x ∉ c) → x ∉ quotedLine cols := by
    intro x h1 h2 h3 hx
    rcases join_mem hx with h | ⟨f, hf, h⟩
    · exact h1 h
    · obtain ⟨c, hc, rfl⟩ := List.mem_map.1 hf
      simp only [List.cons_append, List.mem_cons, List.mem_append, List.not_mem_nil, or_false] at h
      rcases h with h | h | h
      · exact h2 h
      · exact h3 c hc h
      · exact h2 h
  have hqne : quotedLine cols ≠ [] := by
    match cols, hcols with
    | [a], _ => simp [quotedLine, join]
    | a :: b :: r, _ => simp [quotedLine, join]
  have hl : arrowLines (quotedLine cols ++ '\n' :: L.flatMap fun o => outText cols.length nullRep o ++ ['\n'])
      = quotedLine cols :: L.map fun o => one (outText cols.length nullRep o) := by
    rw [arrowLines_append, arrowLines_one hqne (hmem _ (by decide) (by decide) fun c hc => (hcol c hc).2.1)
      (hmem _ (by decide) (by decide) fun c hc => (hcol c hc).2.2)]
    have : (L.flatMap fun o => outText cols.length nullRep o ++ ['\n'])
        = (L.map (outText cols.length nullRep)).flatMap (· ++ ['\n']) := by rw [List.flatMap_map]
    rw [this, arrowLines_unlines, arrowLines_map (by
      intro l hl
      obtain ⟨o, ho, rfl⟩ := List.mem_map.1 hl
      exact (h o ho).1), List.map_map]
    rfl
  unfold csvTable
  rw [hl]
  simp only [fields_header cols hcols fun c hc => (hcol c hc).1, Option.bind_some]
  rw [List.mapM_map, mapM_all (f := cellsOf cols.length ∘ _) (g := val) fun o ho => (h o ho).2]
  rfl

/-- **C123.**  If every line of the table is one row (no blank line), no key and no column name has a quote in it: the output file,
read as a table, has the columns of the input and exactly the joined rows.  The records the party takes part with are those of
the keys of the table. -/
theorem C123_output_table_partial {j : Job} {t : Str} {cols : List Str} {rows : List (List Str)} {B : List Str}
    (hin : csvTable t = some (cols, rows)) (hne : rows ≠ []) (hone : ∀ l ∈ Text.lines t, (arrowLines l).length = 1)
    (hk : ∀ k ∈ j.keys, k ∈ cols) (hq : j.unique = true ∨ ∀ r ∈ rows, '"' ∉ keyOf cols j.keys r)
    (hcol : ∀ c ∈ cols, '"' ∉ c)
    (hnull : j.nullRep ≠ [] ∧ ',' ∉ j.nullRep ∧ '"' ∉ j.nullRep ∧ '\n' ∉ j.nullRep ∧ '\r' ∉ j.nullRep) :
    ∃ recs, partyRecs j.unique j.keys t = some recs ∧
      (∀ k, k ∈ recs.map (·.key) ↔ k ∈ rows.map (keyOf cols j.keys)) ∧
      ∀ idx, (recs.map (·.key)).Nodup → LawfulIndex (recs.map (·.key)) id B idx →
        ∃ out, partyOut j t idx B.length = some out ∧ csvTable out = some (cols, joinedTable j cols rows B) := by
  have hke : keyOf cols j.keys = rowKey cols j.keys := funext fun r => (rowKey_eq hk r).symm
  unfold joinedTable
  rw [hke]
  rw [hke] at hq
  obtain ⟨hd, body, hl, hc, hcells, hrows⟩ := csvTable_lines hin hone
  have hone' : ∀ l ∈ body, (arrowLines l).length = 1 := fun l h => hone l (by rw [hl]; simp [h])
  have hhd : (arrowLines hd).length = 1 := hone hd (by rw [hl]; simp)
  set keyA : Str → Str := fun l => rowKey cols j.keys (cell cols.length l) with hkeyA
  have hks : rows.map (rowKey cols j.keys) = body.map keyA := by rw [hrows, List.map_map]; rfl
  have hbody : body ≠ [] := by
    rintro rfl
    exact hne hrows
  have hksne : body.map keyA ≠ [] := by simpa using hbody
  have htk : tableKeys j.keys t = some (body.map keyA) := by
    unfold tableKeys
    rw [hin]
    simp only [Option.bind_some]
    rw [if_pos (by simpa using hk), hks]
  -- the records
  obtain ⟨recs, hrec, hexp, hst⟩ : ∃ recs, partyRecs j.unique j.keys t = some recs ∧ expand recs = body.map keyA ∧
      StartsFrom 0 recs := by
    unfold partyRecs
    rw [htk]
    simp only [Option.bind_some]
    cases hu : j.unique with
    | true =>
      obtain ⟨h1, h2, -⟩ := keyInfoUnique_spec (body.map keyA) 0
      exact ⟨_, by rw [if_pos rfl], h1, h2⟩
    | false =>
      have hq' : ∀ r ∈ rows, '"' ∉ rowKey cols j.keys r := by
        rcases hq with h | h
        · rw [hu] at h; exact absurd h (by simp)
        · exact h
      obtain ⟨h1, h2, -⟩ := keyInfoMake_spec ([] : Str) [body.map keyA] (by simpa using hbody) (by simp)
      rw [List.flatten_cons, List.flatten_nil, List.append_nil] at h1
      refine ⟨keyInfoMake [] [body.map keyA], ?_, h1, h2⟩
      rw [if_neg (by simp), if_neg hksne]
      apply readKeyFile_keyFile
      intro r hr
      have : r.key ∈ body.map keyA := by
        rw [← h1, mem_expand]
        exact List.mem_map_of_mem hr
      obtain ⟨l, hlb, he⟩ := List.mem_map.1 this
      rw [← he]
      obtain ⟨n1, n2⟩ := rowKey_chars (cols := cols) (keys := j.keys) (hcells l hlb) (hone' l hlb)
      refine ⟨?_, n1, n2⟩
      apply hq'
      rw [hrows]
      exact List.mem_map_of_mem hlb
  refine ⟨recs, hrec, fun k => by rw [hks, ← hexp, mem_expand], ?_⟩
  intro idx hnd hidx
  have hrne : recs ≠ [] := by
    rintro rfl
    exact hksne hexp.symm
  have hcn : columnNames t = some cols := by
    cases hb : body with
    | nil => exact absurd hb hbody
    | cons b0 bs =>
      rw [hb] at hl hcells hone'
      exact columnNames_eq hl hhd (hone' b0 (by simp)) hc (hcells b0 (by simp))
  have hdeal := dealResult_rows j.type j.isLeft hd keyA body id B recs hexp hst [recs] (by simpa using hrne) (by simp) idx hidx
  rw [sum_cnt id B _ hnd] at hdeal
  unfold partyOut
  rw [hrec, hcn, hl]
  simp only [Option.bind_some]
  rw [if_neg hrne]
  unfold finalizeStat
  rw [hdeal]
  refine ⟨_, rfl, ?_⟩
  -- reading the output
  have hcols : cols ≠ [] := fields_ne_nil _ _ _ hc
  have hna : DkPir.Plain j.nullRep := ⟨hnull.2.1, hnull.2.2.2.1, fun h => hnull.2.2.1 (List.mem_of_mem_head? h)⟩
  have hcol' : ∀ c ∈ cols, '"' ∉ c ∧ '\n' ∉ c ∧ '\r' ∉ c := by
    have hm : one hd ∈ arrowLines hd := by rw [arrowLines_of_one hhd]; simp
    obtain ⟨n1, n2, -⟩ := arrowLines_mem hm
    exact fun c h => ⟨hcol c h, fun hx => n1 (fields_sub _ _ _ hc c h _ hx), fun hx => n2 (fields_sub _ _ _ hc c h _ hx)⟩
  have hn : 0 < cols.length := List.length_pos_iff.2 hcols
  let val : OutLine Str → List Str := fun o => match o with
    | .own l => cell cols.length l
    | .na => List.replicate cols.length j.nullRep
  have hnaL : arrowLines (naLine cols.length j.nullRep) = [naLine cols.length j.nullRep] := by
    have hmem : ∀ x, x ≠ ',' → x ∉ j.nullRep → x ∉ naLine cols.length j.nullRep := by
      intro x h1 h2 hx
      rcases join_mem hx with h | ⟨f, hf, h⟩
      · exact h1 h
      · rw [List.eq_of_mem_replicate hf] at h
        exact h2 h
    refine arrowLines_one ?_ (hmem _ (by decide) hnull.2.2.2.1) (hmem _ (by decide) hnull.2.2.2.2)
    intro h0
    have := fields_na j.nullRep hna _ hn
    rw [h0] at this
    simp only [fieldsFrom, reduceCtorEq, if_false, Option.some.injEq] at this
    have h1 : j.nullRep ∈ [[]] := by
      rw [this]
      exact List.mem_replicate.2 ⟨by omega, rfl⟩
    exact hnull.1 (by simpa using h1)
  have hread : ∀ o : OutLine Str, (∀ l, o = .own l → l ∈ body) →
      (arrowLines (outText cols.length j.nullRep o)).length = 1 ∧
        cellsOf cols.length (one (outText cols.length j.nullRep o)) = some (val o) := by
    intro o ho
    cases o with
    | own l => exact ⟨hone' l (ho l rfl), hcells l (ho l rfl)⟩
    | na =>
      refine ⟨by rw [outText, hnaL]; rfl, ?_⟩
      rw [outText, one, hnaL, List.headD_cons, cellsOf, fields_na _ hna _ hn]
      simp [val]
  have hI : (body.flatMap fun a => List.replicate (cnt id B (keyA a)) a).map (cell cols.length)
      = rows.flatMap fun r => List.replicate (B.count (rowKey cols j.keys r)) r := by
    rw [hrows, List.flatMap_map, List.map_flatMap]
    simp only [List.map_replicate, cnt_count]
    rfl
  have hE : (body.filter fun a => cnt id B (keyA a) = 0).map (cell cols.length)
      = rows.filter fun r => rowKey cols j.keys r ∉ B := by
    rw [hrows, List.filter_map]
    congr 1
    apply List.filter_congr
    intro a _
    simp [cnt_count, hkeyA, List.count_eq_zero]
  have hN : B.length - B.countP (fun b => id b ∈ recs.map (·.key)) = B.countP fun b => b ∉ rows.map (rowKey cols j.keys) := by
    have h1 : B.countP (fun b => b ∉ rows.map (rowKey cols j.keys)) = B.countP fun b => !decide (id b ∈ recs.map (·.key)) := by
      apply List.countP_congr
      intro b _
      rw [hks, ← hexp]
      simp [mem_expand]
    have h2 := List.length_eq_countP_add_countP (fun b => decide (id b ∈ recs.map (·.key))) (l := B)
    rw [h1]
    have h3 : B.countP (fun b => decide ¬ (decide (id b ∈ recs.map (·.key)) = true))
        = B.countP fun b => !decide (id b ∈ recs.map (·.key)) := by
      apply List.countP_congr
      simp
    omega
  set I := body.flatMap fun a => List.replicate (cnt id B (keyA a)) a with hIdef
  set E := body.filter fun a => cnt id B (keyA a) = 0 with hEdef
  have hIsub : ∀ l ∈ I, l ∈ body := by
    intro l h
    obtain ⟨a, ha, h⟩ := List.mem_flatMap.1 h
    rw [List.eq_of_mem_replicate h]
    exact ha
  have hEsub : ∀ l ∈ E, l ∈ body := fun l h => (List.mem_filter.1 h).1
  rw [csvTable_out hcols hcol' (val := val) fun o ho => hread o ?_]
  · congr 2
    have hmI : (I.map OutLine.own).map val = rows.flatMap fun r => List.replicate (B.count (rowKey cols j.keys r)) r := by
      rw [← hI, List.map_map]; rfl
    have hmE : (E.map OutLine.own).map val = rows.filter fun r => rowKey cols j.keys r ∉ B := by
      rw [← hE, List.map_map]; rfl
    unfold finalizeOut generateResult
    simp only
    rw [← hN, ← hmI, ← hmE]
    cases j.type <;> cases j.isLeft <;> cases j.broadcast <;>
      simp [Dumper.make, Dumper.add, interOn, exceptOn, keepUnmatched, writeOutput, writeNa, val]
  · intro l hl'
    subst hl'
    unfold finalizeOut generateResult at ho
    have hown : ∀ n, OutLine.own l ∉ writeNa (L := Str) n := by
      intro n h
      exact absurd (List.eq_of_mem_replicate h) (by simp)
    generalize j.type = ty, j.isLeft = le at ho
    cases ty <;> cases le <;>
      simp [Dumper.make, Dumper.add, interOn, exceptOn, writeOutput, hown] at ho <;>
      first
      | exact hIsub l ho
      | exact hEsub l ho
      | exact ho.elim (hIsub l) (hEsub l)

/-! A table with two key columns, a quoted cell and lines ending with `\r\n`; the peer has one of the keys twice. -/
namespace Ex

def job : Job := ⟨false, ["id".toList, "b".toList], .full, true, "NULL".toList, true⟩

def text : Str := "id,v,\"b\"\r\n1,\"x,\"\"y\",2\r\n1,z,2\r\n3,w,4".toList

def cols : List Str := ["id".toList, "v".toList, "b".toList]

def rows : List (List Str) :=
  [["1".toList, "x,\"y".toList, "2".toList], ["1".toList, "z".toList, "2".toList], ["3".toList, "w".toList, "4".toList]]

def peer : List Str := ["3,4".toList, "5,6".toList, "3,4".toList]

theorem table : csvTable text = some (cols, rows) := by decide +kernel

end Ex

example := C123_output_table_partial (j := Ex.job) (B := Ex.peer) Ex.table (by decide) (by decide +kernel) (by decide +kernel)
  (.inr (by decide +kernel)) (by decide +kernel) (by decide +kernel)

/-- The records, an index file for them, and the output. -/
example : partyRecs Ex.job.unique Ex.job.keys Ex.text = some [⟨"1,2".toList, 0, 1⟩, ⟨"3,4".toList, 2, 0⟩] ∧
    partyOut Ex.job Ex.text [(1, 1)] 3 =
      some "\"id\",\"v\",\"b\"\n3,w,4\n3,w,4\n1,\"x,\"\"y\",2\r\n1,z,2\r\nNULL,NULL,NULL\n".toList := by decide +kernel

example : LawfulIndex ["1,2".toList, "3,4".toList] id Ex.peer [(1, 1)] where
  nodup := by decide
  mem := by
    intro i c
    constructor
    · intro h
      simp only [List.mem_singleton, Prod.mk.injEq] at h
      obtain ⟨rfl, rfl⟩ := h
      exact ⟨by decide, by decide +kernel⟩
    · rintro ⟨h, hc⟩
      match i, h with
      | 0, _ =>
        have : cnt id Ex.peer ("1,2".toList) = c + 1 := hc
        rw [show cnt id Ex.peer ("1,2".toList) = 0 by decide +kernel] at this
        omega
      | 1, _ =>
        have : cnt id Ex.peer ("3,4".toList) = c + 1 := hc
        rw [show cnt id Ex.peer ("3,4".toList) = 2 by decide +kernel] at this
        simp; omega

/-- **C123 (key file).**  Keys without quotes and line ends come back from the key file as they were written. -/
theorem C123_key_file_partial (rs : List (KeyRec Str)) (h : ∀ r ∈ rs, '"' ∉ r.key ∧ '\n' ∉ r.key ∧ '\r' ∉ r.key) :
    readKeyFile (keyFile rs) = some rs := readKeyFile_keyFile rs h

example := C123_key_file_partial [⟨"a,b c".toList, 0, 1⟩, ⟨[], 2, 0⟩] (by decide +kernel)

/-- **C123 fails (blank line).**  The table has rows 1 and 2 and, at the end of the file, a blank line.  Sorting puts the blank
line first; as Arrow does not count it and `std::getline` does, the party whose key 2 is in the intersection gets row 1. -/
theorem C123_blank_line :
    let input : Str := "id,v\n1,a\n2,b\n\n".toList
    let sorted : Str := "id,v\n\n1,a\n2,b\n".toList
    let job : Job := ⟨false, ["id".toList], .inner, true, "NULL".toList, true⟩
    ShellSort.isort (ShellSort.cmpLines ⟨false, true, true, 4, [1], []⟩) ((Text.lines input).drop 1) = (Text.lines sorted).drop 1 ∧
    csvTable input = some (["id".toList, "v".toList], [["1".toList, "a".toList], ["2".toList, "b".toList]]) ∧
    partyRecs false job.keys sorted = some [⟨"1".toList, 0, 0⟩, ⟨"2".toList, 1, 0⟩] ∧
    partyOut job sorted [(1, 0)] 1 = some "\"id\",\"v\"\n1,a\n".toList := by decide +kernel

/-- **C123 fails (quotes, wrong match).**  Two tables whose only keys differ, `x"y` and `xy""`; written to the key files without
doubling the quotes and read back, they are the same, and a row is output that has no partner. -/
theorem C123_quotes_match :
    let alice : Str := "id\nx\"y\n".toList
    let bob : Str := "id\nxy\"\"\n".toList
    tableKeys ["id".toList] alice = some ["x\"y".toList] ∧ tableKeys ["id".toList] bob = some ["xy\"\"".toList] ∧
    partyRecs false ["id".toList] alice = some [⟨"xy\"".toList, 0, 0⟩] ∧
    partyRecs false ["id".toList] bob = some [⟨"xy\"".toList, 0, 0⟩] ∧
    partyOut ⟨false, ["id".toList], .inner, true, "NULL".toList, true⟩ alice [(0, 0)] 1 =
      some "\"id\"\nx\"y\n".toList := by decide +kernel

/-- **C123 fails (quotes, lost match).**  The same table at both parties, one of which declares its keys unique: they take part
with different keys. -/
theorem C123_quotes_lost :
    let t : Str := "id\nx\"y\n".toList
    partyRecs true ["id".toList] t = some [⟨"x\"y".toList, 0, 0⟩] ∧
    partyRecs false ["id".toList] t = some [⟨"xy\"".toList, 0, 0⟩] := by decide +kernel

/-- **C123 fails (quotes, column names).**  A column name with a quote comes out as another name. -/
theorem C123_column_renamed :
    let t : Str := "id,\"5\"\" tall\"\n1,yes\n".toList
    (csvTable t).map (·.1) = some ["id".toList, "5\" tall".toList] ∧
    ((partyOut ⟨true, ["id".toList], .inner, true, "NULL".toList, true⟩ t [(0, 0)] 1).bind csvTable).map (·.1) =
      some ["id".toList, "5 tall\"".toList] := by decide +kernel

/-- **C123 (no rows).**  A table without rows, a header only, gives no output but an error. -/
theorem C123_no_rows (j : Job) (hd : Str) (hn : '\n' ∉ hd) (idx : List (Nat × Nat)) (n : Nat) :
    partyOut j (hd ++ ['\n']) idx n = none := by
  have : columnNames (hd ++ ['\n']) = none := by
    unfold columnNames
    rw [Text.lines_line hd [] hn]
    rfl
  unfold partyOut
  rw [this]
  cases partyRecs j.unique j.keys (hd ++ ['\n']) <;> rfl

example := C123_no_rows Ex.job "id,v".toList (by decide) [] 3

end Psi.JoinText
