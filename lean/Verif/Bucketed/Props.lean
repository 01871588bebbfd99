import Verif.Bucketed.Lemmas

/-!
# Bucketed protocols with recovery: properties

C17 asks that, wherever a KKRT or RR22 task is interrupted, resuming it gives the result of an
uninterrupted run.  The code does not have it: the index lines of a bucket are committed before the
bucket is counted, and a bucket is done again if either party had not counted it
(`C17_written_twice`, `C17_written_twice_by_other`).
-/

namespace Psi.Bucketed

/-- **C17, negation**: interrupted between the commit of a bucket and its count, the resumed task has the
lines of that bucket twice, for both parties. -/
theorem C17_written_twice :
    let t : Task := ⟨1, fun _ _ => [(0, 0)], fun _ => true⟩
    t.history [fun _ => 1] = ⟨fun _ => [(0, 0), (0, 0)], fun _ => 1⟩ := by
  rfl

/-- **C17, negation**: it is enough that the *other* party had not yet counted the bucket; the party that
was itself between two buckets writes the lines again. -/
theorem C17_written_twice_by_other :
    let t : Task := ⟨2, fun _ b => [(b, 0)], fun _ => true⟩
    (t.history [fun r => if r then 2 else 0]).file true = [(0, 0), (0, 0), (1, 0)] ∧
      (t.history []).file true = [(0, 0), (1, 0)] := by
  decide

/-- **C17, partial**: whatever the crashes, nothing is lost and nothing wrong appears: the index file of
the completed task contains exactly the lines of all buckets.  Missing: that it contains them once. -/
theorem C17_nothing_lost_partial (t : Task)
    (hc : ∀ r b, t.counted b = false → t.res r b = []) (crashes : List (Bool → Nat)) (r : Bool)
    (x : Nat × Nat) :
    x ∈ (t.history crashes).file r ↔ ∃ b, b < t.n ∧ x ∈ t.res r b := by
  have h := covers_runs t hc crashes Disk.new (covers_new t)
  have h' := covers_run t hc (crashes.foldl t.run Disk.new)
    (fun _ => (t.acts (min ((crashes.foldl t.run Disk.new).cnt false)
      ((crashes.foldl t.run Disk.new).cnt true))).length) h r
  constructor
  · exact h'.1.2 x
  · rintro ⟨b, hb, hx⟩
    exact h'.2 (Nat.le_refl _) b hb x hx

/-- **C17, partial**: if every interruption leaves both parties at the same point between two buckets, the
index file is the one of an uninterrupted run: the lines of all buckets in order, each once. -/
theorem C17_exact_partial (t : Task)
    (hc : ∀ r b, t.counted b = false → t.res r b = []) (crashes : List (Bool → Nat))
    (hb : ∀ p ∈ crashes, ∃ q, ∀ r, p r = 2 * q) (r : Bool) :
    (t.history crashes).file r = (List.range t.n).flatMap (t.res r) := by
  obtain ⟨c, h⟩ := at_runs t hc crashes hb Disk.new 0 ⟨Nat.zero_le _, fun _ => ⟨rfl, rfl⟩⟩
  obtain ⟨q, hq⟩ := length_even t _ (min ((crashes.foldl t.run Disk.new).cnt false)
    ((crashes.foldl t.run Disk.new).cnt true)) rfl
  obtain ⟨c', h', he⟩ := at_run t hc _ c q h
    (fun _ => (t.acts (min ((crashes.foldl t.run Disk.new).cnt false)
      ((crashes.foldl t.run Disk.new).cnt true))).length) (fun _ => hq)
  have hk : min ((crashes.foldl t.run Disk.new).cnt false)
      ((crashes.foldl t.run Disk.new).cnt true) = c := by
    rw [(h.2 false).2, (h.2 true).2, Nat.min_self]
  rw [hk] at hq
  exact (h'.2 r).1.trans (he (Nat.le_of_eq hq) r)

/-- Three buckets, the second of them empty for one party. -/
def sample : Task :=
  ⟨3, fun r b => if b = 1 then [] else [(b, if r then 1 else 0)], fun b => b != 1⟩

theorem sample_ok : ∀ r b, sample.counted b = false → sample.res r b = [] := by
  intro r b h
  have : b = 1 := by simpa [sample] using h
  simp [sample, this]

example : ∀ x, x ∈ (sample.history [fun r => if r then 3 else 1, fun r => if r then 1 else 2]).file true
    ↔ ∃ b, b < 3 ∧ x ∈ sample.res true b :=
  C17_nothing_lost_partial sample sample_ok _ true

example : (sample.history [fun _ => 2, fun _ => 0, fun _ => 2]).file true = [(0, 1), (2, 1)] :=
  C17_exact_partial sample sample_ok [fun _ => 2, fun _ => 0, fun _ => 2]
    (by
      intro p hp
      simp only [List.mem_cons, List.not_mem_nil, or_false] at hp
      rcases hp with h | h | h
      · exact ⟨1, fun r => by rw [h]⟩
      · exact ⟨0, fun r => by rw [h]⟩
      · exact ⟨1, fun r => by rw [h]⟩) true

end Psi.Bucketed
