import Verif.Procs.Lemmas
import Verif.Apsi.Examples
import Mathlib.Data.List.TakeWhile

/-!
# C118: the processes that build a data base of groups

* `C118_same_partial`: in whatever order the children get on, the files at the end are those of running the children one by one;
* `C118_progress_partial`, `C118_bounded`, `C118_ends_partial`: there is always a step to make until `WaitToFinish` returns, which it does after a number of
  steps known beforehand;
* `C118_crash_hangs`: a child that dies before it has raised the semaphore keeps the parent in `semop` forever;
* `C118_too_many`: with between 32769 and 65535 children the parent may kill them all before they have written anything.
-/

namespace Psi.Procs

open Psi.Spiral (Res)
open Psi.Apsi (World Config Disk GroupFiles generate perGroup rangeOf processGroups)

variable {B : Type} {w : World B} {draw : Nat → Nat} {c : Config}

/-- Every way in which the processes can be scheduled ends with the same files. -/
theorem C118_same_partial {procs : Nat} (hp : procs ≠ 0) {d : Disk B} (hok : (processGroups w draw c procs d).2 = .ok ())
    (hl : (forks c.groups procs).length ≤ 32767) {n : Nat} {s : Sys B} (hr : Run w draw c n (start c procs d) s)
    (hd : s.parent = .done) : s.disk = (processGroups w draw c procs d).1 := by
  have hi := inv_run (forks_nodup c.groups procs) hl hr (inv_start procs d)
  obtain ⟨h1, h2, h3⟩ := process_eq hp hok
  have hw := hi.waiting
  unfold Waiting at hw
  rw [hd] at hw
  refine disk_ext (hi.status.trans h1.symm) (hi.csv.trans h2.symm) fun g => ?_
  rw [h3]
  by_cases hg : g ∈ (forks c.groups procs).flatten
  · rw [← hw.1] at hg
    obtain ⟨r, hr', hgr⟩ := List.mem_flatten.1 hg
    obtain ⟨k, hk, rfl⟩ := List.mem_map.1 hr'
    have hki := hi.kids k hk
    unfold KidInv at hki
    rw [hw.2 k hk] at hki
    by_cases hpr : g ∈ processed w draw c d k.range
    · rw [hki.1 g hpr, if_pos (List.mem_flatten.2 ⟨_, List.mem_map.2 ⟨_, hw.1 ▸ hr', rfl⟩, hpr⟩)]
    · rw [hki.2 g hgr hpr (by simp), if_neg]
      intro hm
      obtain ⟨r', hr1, hr2⟩ := List.mem_flatten.1 hm
      obtain ⟨r'', hr3, rfl⟩ := List.mem_map.1 hr1
      have hsub := (processed_sublist (w := w) (draw := draw) (c := c) d r'').subset hr2
      have hn := forks_nodup c.groups procs
      obtain ⟨i, hi'⟩ := List.mem_iff_getElem?.1 hr3
      obtain ⟨j, hj'⟩ := List.mem_iff_getElem?.1 (hw.1 ▸ hr')
      by_cases hij : i = j
      · subst hij
        rw [hi'] at hj'
        exact hpr (Option.some.inj hj' ▸ hr2)
      · exact flatten_other hn hi' hj' hij hsub hgr
  · rw [hi.rest g (by rw [hw.1]; exact hg), if_neg]
    intro hm
    obtain ⟨r', hr1, hr2⟩ := List.mem_flatten.1 hm
    obtain ⟨r'', hr3, rfl⟩ := List.mem_map.1 hr1
    exact hg (List.mem_flatten.2 ⟨_, hr3, (processed_sublist (w := w) (draw := draw) (c := c) d r'').subset hr2⟩)

/-- As long as `WaitToFinish` has not returned, somebody can go on. -/
theorem C118_progress_partial {procs : Nat} {d : Disk B} (hl : (forks c.groups procs).length ≤ 32767) {n : Nat} {s : Sys B}
    (hr : Run w draw c n (start c procs d) s) (hd : s.parent ≠ .done) : ∃ s', Step w draw c s s' :=
  progress hl (inv_run (forks_nodup c.groups procs) hl hr (inv_start procs d)) hd

/-- Any run can be led to its end. -/
theorem C118_ends_partial {procs : Nat} {d : Disk B} (hl : (forks c.groups procs).length ≤ 32767) {n : Nat} {s : Sys B}
    (hr : Run w draw c n (start c procs d) s) : ∃ m s', Run w draw c m (start c procs d) s' ∧ s'.parent = .done := by
  induction hw : weight s using Nat.strong_induction_on generalizing s n with
  | _ x ih =>
    by_cases hd : s.parent = .done
    · exact ⟨n, s, hr, hd⟩
    · obtain ⟨s', hs⟩ := C118_progress_partial hl hr hd
      exact ih _ (hw ▸ step_weight hs) (.step hr hs) rfl

/-- Two steps for a child and six for each of its groups, and two for the parent, are enough. -/
theorem C118_bounded {procs : Nat} {d : Disk B} {n : Nat} {s : Sys B} (hr : Run w draw c n (start c procs d) s) :
    n ≤ ((forks c.groups procs).map fun r => 2 + 6 * r.length).sum + 2 := by
  have := run_weight hr
  have h2 : weight (start c procs d) = ((forks c.groups procs).map fun r => 2 + 6 * r.length).sum + 2 := by
    simp [weight, start]
  omega

/-- **Finding.**  Once a child has died before raising the semaphore, whatever happens (further deaths included) the parent stays
before `kill`: it never returns, and the steps of the others come to an end. -/
theorem C118_crash_hangs {procs : Nat} {d : Disk B} (hl : (forks c.groups procs).length ≤ 32767) {n : Nat} {s : Sys B}
    (hr : RunC w draw c n (start c procs d) s) {i : Nat} {k : Kid B} (hk : s.kids[i]? = some k) (hc : k.phase = .crashed)
    {m : Nat} {s' : Sys B} (hr' : RunC w draw c m s s') :
    s'.parent ≠ .killing ∧ s'.parent ≠ .done ∧ n + m ≤ ((forks c.groups procs).map fun r => 2 + 6 * r.length).sum + 2 := by
  have hw := waiting_runC hl hr (inv_start (w := w) (draw := draw) procs d).waiting
  obtain ⟨rest, hp⟩ := dead_forking (waiting_runC hl hr' hw) (dead_runC hl hr' hw ⟨i, k, hk, hc⟩)
  have h1 := runC_weight hr
  have h2 := runC_weight hr'
  have h3 : weight (start c procs d) = ((forks c.groups procs).map fun r => 2 + 6 * r.length).sum + 2 := by
    simp [weight, start]
  rw [hp]
  exact ⟨by simp, by simp, by omega⟩

/-- **Finding.**  `sem_op` is a `short`: beyond 32768 children the parent adds to the semaphore instead of waiting for it, and may
kill all of its children before they have written a single file. -/
theorem C118_too_many {procs : Nat} (d : Disk B) (h1 : 32768 < (forks c.groups procs).length)
    (h2 : (forks c.groups procs).length < 65536) :
    ∃ n s, Run w draw c n (start c procs d) s ∧ s.parent = .done ∧ s.disk = d := by
  have hr := run_forks (w := w) (draw := draw) (c := c) (forks c.groups procs) [] (start c procs d) (by simp [start])
  generalize (forks c.groups procs) = fs at *
  have hop : semWait (semOp fs.length) 0 = some (65536 - fs.length) := by
    unfold semWait semOp
    have e : (-(fs.length : Int) + 2 ^ 15) % 2 ^ 16 - 2 ^ 15 = 65536 - fs.length := by omega
    rw [e, if_neg (by omega), if_neg (by omega), if_pos (by omega)]
    congr 1
    omega
  have s1 : stepParent ({ start c procs d with kids := fs.map (fun r => ⟨r, .next r⟩), parent := .forking [] } : Sys B) =
      some ⟨d, 65536 - fs.length, fs.map (fun r => ⟨r, .next r⟩), .killing⟩ := by
    unfold stepParent
    simp [start, hop]
  exact ⟨_, _, .step (.step hr (Or.inl s1)) (Or.inl rfl), rfl, rfl⟩

/-- A process for each group. -/
theorem forks_length {n : Nat} (hn : 0 < n) : (forks n n).length = n := by
  have h1 : (n + n - 1) / n = 1 := Nat.div_eq_of_lt_le (by omega) (by omega)
  have : forks n n = (List.range n).map (rangeOf n n) := by
    unfold forks
    congr 1
    rw [h1, List.takeWhile_eq_self_iff]
    intro i hi
    have := List.mem_range.1 hi
    simp only [decide_eq_true_eq]
    omega
  rw [this, List.length_map, List.length_range]

/-! ### Examples: two groups, three processes asked for, two of them forked -/

open Psi.Apsi (exWorld exConfig exTable exFine exTableFine exSound groupText groupRows)

/-- The directory after the table has been divided. -/
def exDisk : Disk Psi.Apsi.Stored where
  status := none
  csv g := some (groupText exTable.labeled (groupRows (exWorld false) exConfig.buckets exConfig.groups exTable.rows g))
  group _ := ⟨none, none⟩

example : forks exConfig.groups 3 = [[0], [1]] := by decide
example : forks 10 4 = [[0, 1, 2], [3, 4, 5], [6, 7, 8], [9]] := by decide
example : forks 9 4 = [[0, 1, 2], [3, 4, 5], [6, 7, 8]] := by decide

theorem exProcess : (processGroups (exWorld false) (fun b => b + 7) exConfig 3 exDisk).2 = .ok () := by
  obtain ⟨d', K', h, -⟩ := Psi.Apsi.processGroups_ok (exSound false) exFine (exTableFine false) (fun b => b + 7) (procs := 3)
    (by decide) (d := exDisk) (K := fun _ => none) (fun _ _ => rfl)
    (fun _ _ => ⟨fun _ => Or.inl rfl, fun _ h => by simp at h⟩)
  rw [h]

/-- There are runs to the end, and they write files. -/
example : ∃ n s, Run (exWorld false) (fun b => b + 7) exConfig n (start exConfig 3 exDisk) s ∧ s.parent = .done ∧
    s.disk = (processGroups (exWorld false) (fun b => b + 7) exConfig 3 exDisk).1 := by
  obtain ⟨n, s, h1, h2⟩ := C118_ends_partial (w := exWorld false) (draw := fun b => b + 7) (c := exConfig) (procs := 3) (d := exDisk)
    (by decide) (.nil _)
  exact ⟨n, s, h1, h2, C118_same_partial (by decide) exProcess (by decide) h1 h2⟩

example : ((processGroups (exWorld false) (fun b => b + 7) exConfig 3 exDisk).1.group 1).db.isSome = true := by decide +kernel

example {n : Nat} {s : Sys Psi.Apsi.Stored} (h : Run (exWorld false) (fun b => b + 7) exConfig n (start exConfig 3 exDisk) s) : n ≤ 18 :=
  C118_bounded h

/-- A child that dies at once. -/
example : ∃ n s, RunC (exWorld false) (fun b => b + 7) exConfig n (start exConfig 3 exDisk) s ∧
    s.kids[0]? = some ⟨[0], .crashed⟩ :=
  ⟨2, _, .crash (.step (.nil _) (Or.inl rfl)) ⟨0, ⟨[0], .next [0]⟩, rfl, by simp, by simp, by simp, rfl⟩, rfl⟩

/-- A child for each of 40000 groups. -/
example : 32768 < (forks 40000 40000).length ∧ (forks 40000 40000).length < 65536 := by
  rw [forks_length (by omega)]
  omega

example := C118_progress_partial (w := exWorld false) (draw := fun b => b + 7) (c := exConfig) (procs := 3) (d := exDisk)
  (by decide) (.nil _) (by simp [start])

/-- After the death of a child the parent waits for ever. -/
example {m : Nat} {s' : Sys Psi.Apsi.Stored} : ∃ s, RunC (exWorld false) (fun b => b + 7) exConfig 2 (start exConfig 3 exDisk) s ∧
    (RunC (exWorld false) (fun b => b + 7) exConfig m s s' → s'.parent ≠ .done) := by
  have hr : RunC (exWorld false) (fun b => b + 7) exConfig 2 (start exConfig 3 exDisk) _ :=
    .crash (.step (.nil _) (Or.inl rfl)) ⟨0, ⟨[0], .next [0]⟩, rfl, by simp, by simp, by simp, rfl⟩
  exact ⟨_, hr, fun h => (C118_crash_hangs (by decide) hr (i := 0) (k := ⟨[0], .crashed⟩) rfl rfl h).2.1⟩

example := C118_too_many (w := exWorld false) (draw := fun b => b + 7) (c := { exConfig with groups := 40000 }) (procs := 40000) exDisk
  (by show 32768 < (forks 40000 40000).length; rw [forks_length (by omega)]; omega)
  (by show (forks 40000 40000).length < 65536; rw [forks_length (by omega)]; omega)

end Psi.Procs
