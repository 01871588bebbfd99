import Verif.Apsi.DirProps

/-! # The theorems of C95-C99 on a small table -/

namespace Psi.Apsi

open Psi.Spiral (Res mapRes)
open Psi.DkPir (Str)

/-- A file is a list of databases, a hash the length, a label is filled up with zeros. -/
def exWorld (keep : Bool) : World Stored where
  hash := List.length
  pad n l := l ++ List.replicate (n - l.length) (Char.ofNat 0)
  keepOld := keep
  save s := [s]
  load l := l.head?
  shuffle := List.reverse

theorem exSound (keep : Bool) : Sound (exWorld keep) := ⟨fun _ _ => rfl, fun l => List.reverse_perm l⟩

/-- Five buckets in two groups of three and two. -/
def exConfig : Config := ⟨5, 2, 16, "params".toList, false⟩

theorem exFine : exConfig.Fine := ⟨by decide, by decide, by decide⟩

/-- Buckets 1 (two keys), 2 and 3 (one key each); 0 and 4 are empty. -/
def exTable : Table :=
  ⟨true, [("a".toList, "x".toList), ("bb".toList, "yy,y".toList), ("c".toList, []), ("ddd".toList, "z".toList)]⟩

theorem exTableFine (keep : Bool) : Fine (exWorld keep) exConfig.buckets exTable := by
  refine ⟨by decide, by decide, by decide, ?_⟩
  cases keep <;> decide

/-- The same keys without labels. -/
def exPlain : Table := ⟨false, exTable.rows⟩

theorem exPlainFine (keep : Bool) : Fine (exWorld keep) exConfig.buckets exPlain := by
  refine ⟨by decide, by decide, by decide, ?_⟩
  cases keep <;> decide

example : perGroup 5 2 = 3 := by decide
example : (List.range 5).map (· / perGroup 5 2) = [0, 0, 0, 1, 1] := by decide
example : bucketIndexOfGroup 5 2 1 = (3, 2) := by decide

example := (group_ranges (buckets := 5) (groups := 2) (by decide) 1 4).mp (by decide)

/-- Four groups for five buckets: the last is empty. -/
example : bucketIndexOfGroup 5 4 3 = (5, 0) := by decide

example := group_of_bucket (buckets := 5) (groups := 4) (b := 4) (by decide) (by decide)

/-- The sender of the example after its start, with a different key for every bucket. -/
example := start_fresh (exSound false) exFine (exTableFine false) (fun b => b + 7) (procs := 3) (by decide)

/-- Its dispatcher, which is made from the files. -/
example := listens_fresh (exSound false) exFine (exTableFine false) (fun b => b + 7) (fun b => b) (procs := 3) (by decide)

theorem exRuns (keep : Bool) : ∃ s, Runs (exWorld keep) exConfig exTable s := by
  obtain ⟨d, s, -, -, h⟩ := start_fresh (exSound keep) exFine (exTableFine keep) (fun b => b + 7) (procs := 3) (by decide)
  exact ⟨_, h⟩

/-- Queries, among them one that is asked twice and one that is not in the table. -/
def exQueries : List Str := ["bb".toList, "a".toList, "ee".toList, "bb".toList, "ddd".toList]

example {s : Server Stored} (hs : Runs (exWorld false) exConfig exTable s) :=
  api_answers_partial (exSound false) exFine (exTableFine false) (fun b => b) 0 hs (queries := exQueries) (by decide)

/-- A key of four letters falls in a bucket without rows. -/
example {s : Server Stored} (hs : Runs (exWorld false) exConfig exTable s) :=
  api_empty_bucket (exSound false) exFine (exTableFine false) (fun b => b) 0 hs
    (queries := ["a".toList, "four".toList]) (q := "four".toList) (by decide) (by decide)

theorem exListens (keep : Bool) : ∃ x, Listens (exWorld keep) exConfig exTable x := by
  obtain ⟨d, s, x, -, -, h⟩ := listens_fresh (exSound keep) exFine (exTableFine keep) (fun b => b + 7) (fun b => b) (procs := 1)
    (by decide)
  exact ⟨x, h⟩

example {x : Dispatcher Stored} (hx : Listens (exWorld false) exConfig exTable x) :=
  cli_lines (exSound false) exFine (exTableFine false) (fun b => b) 0 hx
    (queries := ["bb".toList, "a".toList, "four".toList, "ddd".toList]) (by decide) (by decide)

example {x : Dispatcher Stored} (hx : Listens (exWorld false) exConfig exTable x) :=
  cli_header_partial (exSound false) exFine (exTableFine false) (fun b => b) 0 hx
    (queries := ["bb".toList, "a".toList, "four".toList, "ddd".toList]) (by decide) ⟨"a".toList, by decide, by decide⟩
    (by decide)

example {x : Dispatcher Stored} (hx : Listens (exWorld false) exConfig exPlain x) :=
  cli_header_partial (exSound false) exFine (exPlainFine false) (fun b => b) 0 hx
    (queries := ["c".toList, "a".toList, "four".toList, "ddd".toList]) (by decide) ⟨"a".toList, by decide, by decide⟩
    (by decide)

/-- C97, where it fails: two keys of one bucket are found and the first line has a column too many. -/
theorem header_too_long : ∃ x, Listens (exWorld false) exConfig exTable x ∧ ∃ x' rest, cliQuery (exWorld false) (fun b => b) 0 x 5 ["a".toList, "c".toList]
      = (x', .ok ("key,value,value\n".toList ++ rest, 2)) := by
  obtain ⟨x, hx⟩ := exListens false
  obtain ⟨x', found, rest, hp, e⟩ := cli_header (exSound false) exFine (exTableFine false) (fun b => b) 0 hx
    (queries := ["a".toList, "c".toList]) (by decide) (by decide)
  have hq : ["a".toList, "c".toList].filter (fun k => k ∈ exTable.rows.map Prod.fst) = ["a".toList, "c".toList] := by decide
  rw [hq] at hp
  have hlen : found.length = 2 := hp.length_eq
  refine ⟨x, hx, x', rest, ?_⟩
  have hb : exConfig.buckets = 5 := rfl
  rw [hb] at e
  rw [e, hlen]
  congr 3
  have hall : ∀ k ∈ found, k.length = 1 := by
    intro k hk
    have := hp.mem_iff.mp hk
    revert k
    intro k hk this
    rcases List.mem_cons.mp this with rfl | this
    · rfl
    · rw [List.mem_singleton] at this
      rw [this]
      rfl
  match found, hlen, hall with
  | [f, g], _, hall =>
    have h1 : (exWorld false).hash f = 1 := hall f (by simp)
    have h2 : (exWorld false).hash g = 1 := hall g (by simp)
    simp [h1, h2, exTable]

/-- Nothing found: the first line is `key` also for a table with labels. -/
example {x : Dispatcher Stored} (hx : Listens (exWorld false) exConfig exTable x) :=
  cli_header (exSound false) exFine (exTableFine false) (fun b => b) 0 hx (queries := ["ee".toList]) (by decide) (by decide)

example {x x1 x2 : Dispatcher Stored} (hx : Listens (exWorld false) exConfig exTable x)
    (h1 : dispatch (exWorld false) (fun b => b) 3 x (.oprf 1 ["c".toList, "e".toList]) = (x1, .ok (.oprf 8)))
    {r : Res (List Reply)}
    (h2 : dispatchAll (exWorld false) (fun b => b) 4 x1 [.oprf 0 [[]], .query 3 9 ["ddd".toList], .params] = (x2, r)) :=
  requests_independent (exSound false) exFine (exTableFine false) (draw2 := fun b => b) (newKey2 := 0) hx (by decide)
    (by decide) h1 h2

example {d' : Disk Stored} {s : Status} {x : Dispatcher Stored}
    (hs : start (exWorld false) (fun b => b) 2 exConfig (some exTable) Disk.fresh = (d', .ok s))
    (hx : makeDispatcher (exWorld false) (fun b => b) (Server.of s.config d') (List.range exConfig.buckets) = .ok x) :=
  params_answered_partial (exSound false) exFine (exTableFine false) (draw1 := fun b => b) (draw2 := fun b => b)
    (newKey1 := 0) (newKey2 := 0) (by decide) hs hx
    (rs := [.params, .oprf 1 ["e".toList], .query 1 7 ["e".toList]]) (by
      intro r hr b hb
      simp only [List.mem_cons, List.not_mem_nil, or_false] at hr
      rcases hr with rfl | rfl | rfl
      · cases hb
      · obtain rfl := Option.some.inj hb
        exact ⟨("a".toList, "x".toList), by decide, by decide⟩
      · obtain rfl := Option.some.inj hb
        exact ⟨("a".toList, "x".toList), by decide, by decide⟩)

example {x : Dispatcher Stored} (hx : Listens (exWorld false) exConfig exTable x) :=
  params_lost (exSound false) exFine (exTableFine false) (draw := fun b => b) (newKey := 0) hx (b := 4) (by decide) (by decide)
    ["four".toList]

example {d1 d2 : Disk Stored} {s1 : Status} {r : Res Unit}
    (h1 : divideGroup (exWorld true) ⟨dbVersion, exConfig, .empty⟩ (some exTable)
      { (Disk.fresh : Disk Stored) with status := some ⟨dbVersion, exConfig, .empty⟩ } = (d1, .ok s1))
    (h2 : child (exWorld true) (fun b => b) exConfig d1 [1] = (d2, r)) :=
  resumed_partial (exSound true) exFine (exTableFine true) (fun b => b) (fun b => b + 1) (procs := 2) (by decide) h1
    (gs := [1]) (by decide) h2

example {d : Disk Stored} {s : Status}
    (h : start (exWorld true) (fun b => b) 2 exConfig (some exTable) Disk.fresh = (d, .ok s)) :=
  restart (exSound true) exFine (exTableFine true) (fun b => b) (fun b => b + 1) (procs' := 0) (by decide) h none true

example {d : Disk Stored} {s : Status}
    (h : start (exWorld true) (fun b => b) 2 exConfig (some exTable) Disk.fresh = (d, .ok s)) :=
  reopen h

example := reopen_refuses (Disk.fresh : Disk Stored) (by intro s h; cases h)

example := reopen_refuses ({ (Disk.fresh : Disk Stored) with status := some ⟨"0".toList, exConfig, .generated⟩ })
  (by intro s h; cases h; decide)

example {d : Disk Stored} {s : Status}
    (h : start (exWorld true) (fun b => b) 2 exConfig (some exTable) Disk.fresh = (d, .ok s)) :=
  (stale_source (exSound true) exFine (t' := ⟨false, [("e".toList, [])]⟩) (exTableFine true) (fun b => b) (fun b => b + 1)
    (fun b => b) 0 (procs' := 1) (by decide) h).2 "e".toList ⟨("a".toList, "x".toList), by decide, by decide⟩

example := repeated_key (exSound true) exFine (t := ⟨false, [("a".toList, []), ("bb".toList, []), ("a".toList, [])]⟩) (by decide)
  (fun b => b) (fun b => b + 1) 0 (procs := 2) (by decide) (k := "a".toList) (by decide)

example {d : Disk Stored} {s : Status} 
    (h : start (exWorld false) (fun b => b) 2 exConfig (some exTable) Disk.fresh = (d, .ok s)) :=
  lost_databases (exSound false) rfl exFine (exTableFine false) (fun b => b) (fun b => b + 1) (fun b => b) 0 (procs' := 1)
    (by decide) h (g := 0) none 2 ["bb".toList] (b := 2) (by decide) (by decide) _ rfl

example := empty_index (exWorld false) (fun b => b) (c := exConfig)
  (d := (Disk.fresh : Disk Stored).setGroup 1 ⟨some [], some []⟩) (b := 3) (by decide) rfl

example := second_attempt (w := exWorld true) rfl exFine (exTableFine true) (fun b => b) (fun b => b + 1) (fun b => b)
  (procs := 1) (procs' := 2) (by decide)

end Psi.Apsi
