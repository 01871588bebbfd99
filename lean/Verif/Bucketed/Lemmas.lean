import Verif.Bucketed.Model

/-! # Bucketed protocols with recovery: lemmas -/

namespace Psi.Bucketed

/-- Only counted buckets have results. -/
def Task.Ok (t : Task) : Prop := ∀ r b, t.counted b = false → t.res r b = []

/-- Everything before bucket `c` is in the file, and nothing wrong is. -/
def Task.Covers (t : Task) (r : Bool) (s : List (Nat × Nat) × Nat) : Prop :=
  (∀ b, b < s.2 → b < t.n → ∀ x ∈ t.res r b, x ∈ s.1) ∧ (∀ x ∈ s.1, ∃ b, b < t.n ∧ x ∈ t.res r b)

theorem acts_succ (t : Task) (k : Nat) (h : k < t.n) :
    t.acts k = (if t.counted k then [.write k, .count k] else []) ++ t.acts (k + 1) := by
  unfold Task.acts
  obtain ⟨m, hm⟩ : ∃ m, t.n - k = m + 1 := ⟨t.n - k - 1, by omega⟩
  have : t.n - (k + 1) = m := by omega
  rw [hm, this, List.range'_succ, List.flatMap_cons]

theorem acts_end (t : Task) (k : Nat) (h : t.n ≤ k) : t.acts k = [] := by
  unfold Task.acts
  rw [Nat.sub_eq_zero_of_le h]; rfl

/-- Buckets up to `k` in the file: invariant inside a run that started at or before the count. -/
theorem covers_take (t : Task) (ht : t.Ok) (r : Bool) (m : Nat) : ∀ k p s, t.n - k = m →
    t.Covers r s → (∀ b, b < k → b < t.n → ∀ x ∈ t.res r b, x ∈ s.1) →
    t.Covers r (((t.acts k).take p).foldl (t.act r) s) ∧
      ((t.acts k).length ≤ p → ∀ b, b < t.n → ∀ x ∈ t.res r b,
        x ∈ (((t.acts k).take p).foldl (t.act r) s).1) := by
  induction m with
  | zero =>
    intro k p s hm hs hk
    rw [acts_end t k (by omega)]
    simp only [List.take_nil, List.foldl_nil]
    exact ⟨hs, fun _ b hb x hx => hk b (by omega) hb x hx⟩
  | succ m ih =>
    intro k p s hm hs hk
    have hkn : k < t.n := by omega
    rw [acts_succ t k hkn]
    by_cases hc : t.counted k = true
    · rw [if_pos hc]
      have hw : t.Covers r (s.1 ++ t.res r k, s.2) := by
        refine ⟨fun b hb hb' x hx => List.mem_append.mpr (Or.inl (hs.1 b hb hb' x hx)), ?_⟩
        intro x hx
        rcases List.mem_append.mp hx with hx | hx
        · exact hs.2 x hx
        · exact ⟨k, hkn, hx⟩
      match p with
      | 0 =>
        simp only [List.take_zero, List.foldl_nil]
        refine ⟨hs, fun h => ?_⟩
        simp at h
      | 1 =>
        refine ⟨hw, fun h => ?_⟩
        simp at h
      | p + 2 =>
        have hk' : ∀ b, b < k + 1 → b < t.n → ∀ x ∈ t.res r b, x ∈ s.1 ++ t.res r k := by
          intro b hb hb' x hx
          rw [List.mem_append]
          by_cases hbk : b = k
          · subst hbk; exact Or.inr hx
          · exact Or.inl (hk b (by omega) hb' x hx)
        have hcnt : t.Covers r (s.1 ++ t.res r k, k + 1) := ⟨hk', hw.2⟩
        have := ih (k + 1) p (s.1 ++ t.res r k, k + 1) (by omega) hcnt hk'
        refine ⟨this.1, fun h => this.2 ?_⟩
        simpa using h
    · rw [if_neg hc, List.nil_append]
      refine ih (k + 1) p s (by omega) hs ?_
      intro b hb hb' x hx
      by_cases hbk : b = k
      · subst hbk
        rw [ht r b (by simpa using hc)] at hx
        exact absurd hx (by simp)
      · exact hk b (by omega) hb' x hx

theorem covers_run (t : Task) (ht : t.Ok) (d : Disk) (p : Bool → Nat)
    (h : ∀ r, t.Covers r (d.file r, d.cnt r)) (r : Bool) :
    t.Covers r ((t.run d p).file r, (t.run d p).cnt r) ∧
      ((t.acts (min (d.cnt false) (d.cnt true))).length ≤ p r → ∀ b, b < t.n →
        ∀ x ∈ t.res r b, x ∈ (t.run d p).file r) := by
  have hmin : min (d.cnt false) (d.cnt true) ≤ d.cnt r := by
    cases r
    · exact Nat.min_le_left _ _
    · exact Nat.min_le_right _ _
  exact covers_take t ht r _ _ (p r) (d.file r, d.cnt r) rfl (h r)
    (fun b hb hb' x hx => (h r).1 b (by simp only; omega) hb' x hx)

theorem covers_runs (t : Task) (ht : t.Ok) (ps : List (Bool → Nat)) (d : Disk)
    (h : ∀ r, t.Covers r (d.file r, d.cnt r)) :
    ∀ r, t.Covers r ((ps.foldl t.run d).file r, (ps.foldl t.run d).cnt r) := by
  induction ps generalizing d with
  | nil => exact h
  | cons p ps ih => exact ih _ (fun r => (covers_run t ht d p h r).1)

theorem covers_new (t : Task) (r : Bool) : t.Covers r (Disk.new.file r, Disk.new.cnt r) := by
  constructor
  · intro b hb; simp [Disk.new] at hb
  · intro x hx; simp [Disk.new] at hx

/-- The lines of the first `k` buckets. -/
def Task.upTo (t : Task) (r : Bool) (k : Nat) : List (Nat × Nat) := (List.range k).flatMap (t.res r)

theorem upTo_succ (t : Task) (r : Bool) (k : Nat) : t.upTo r (k + 1) = t.upTo r k ++ t.res r k := by
  simp [Task.upTo, List.range_succ]

/-- Whole buckets done in a run from `k`: the file has exactly the lines up to the new count. -/
theorem exact_take (t : Task) (ht : t.Ok) (m : Nat) : ∀ k c q, t.n - k = m → k ≤ t.n →
    (∀ r, t.upTo r c = t.upTo r k) →
    ∃ c', (∀ r, ((t.acts k).take (2 * q)).foldl (t.act r) (t.upTo r c, c) = (t.upTo r c', c')) ∧
      (c' = c ∨ c' ≤ t.n) ∧ ((t.acts k).length ≤ 2 * q → ∀ r, t.upTo r c' = t.upTo r t.n) := by
  induction m with
  | zero =>
    intro k c q hm hk hc
    have : k = t.n := by omega
    subst this
    rw [acts_end t t.n (by omega)]
    exact ⟨c, fun r => by simp, Or.inl rfl, fun _ => hc⟩
  | succ m ih =>
    intro k c q hm hk hc
    have hkn : k < t.n := by omega
    rw [acts_succ t k hkn]
    by_cases hcn : t.counted k = true
    · rw [if_pos hcn]
      match q with
      | 0 => exact ⟨c, fun r => by simp, Or.inl rfl, fun h => by simp at h⟩
      | q + 1 =>
        obtain ⟨c', e1, e2, e3⟩ := ih (k + 1) (k + 1) q (by omega) (by omega) (fun _ => rfl)
        refine ⟨c', ?_, Or.inr (by omega), ?_⟩
        · intro r
          have h22 : 2 * (q + 1) = 2 * q + 2 := by omega
          rw [h22]
          show ((t.acts (k + 1)).take (2 * q)).foldl (t.act r) (t.upTo r c ++ t.res r k, k + 1) = _
          rw [hc r, ← upTo_succ]
          exact e1 r
        · intro h
          refine e3 ?_
          simp at h
          omega
    · rw [if_neg hcn, List.nil_append]
      refine ih (k + 1) c q (by omega) (by omega) ?_
      intro r
      rw [hc r, upTo_succ, ht r k (by simpa using hcn), List.append_nil]

theorem length_even (t : Task) (m : Nat) : ∀ k, t.n - k = m → ∃ q, (t.acts k).length = 2 * q := by
  induction m with
  | zero => intro k hm; exact ⟨0, by rw [acts_end t k (by omega)]; rfl⟩
  | succ m ih =>
    intro k hm
    obtain ⟨q, hq⟩ := ih (k + 1) (by omega)
    rw [acts_succ t k (by omega)]
    by_cases hcn : t.counted k = true
    · rw [if_pos hcn]; exact ⟨q + 1, by simp [hq]; omega⟩
    · rw [if_neg hcn]; exact ⟨q, by simpa using hq⟩

/-- Both parties at the same count, each file complete up to it. -/
def Task.At (t : Task) (d : Disk) (c : Nat) : Prop :=
  c ≤ t.n ∧ ∀ r, d.file r = t.upTo r c ∧ d.cnt r = c

theorem at_run (t : Task) (ht : t.Ok) (d : Disk) (c q : Nat) (h : t.At d c) (p : Bool → Nat)
    (hp : ∀ r, p r = 2 * q) :
    ∃ c', t.At (t.run d p) c' ∧ ((t.acts c).length ≤ 2 * q → ∀ r, t.upTo r c' = t.upTo r t.n) := by
  obtain ⟨hc, h⟩ := h
  obtain ⟨c', e1, e2, e3⟩ := exact_take t ht _ c c q rfl hc (fun _ => rfl)
  have hk : min (d.cnt false) (d.cnt true) = c := by rw [(h false).2, (h true).2, Nat.min_self]
  refine ⟨c', ⟨by omega, fun r => ?_⟩, e3⟩
  simp only [Task.run, hk, hp, (h r).1, (h r).2, e1 r, and_self]

theorem at_runs (t : Task) (ht : t.Ok) (ps : List (Bool → Nat))
    (hps : ∀ p ∈ ps, ∃ q, ∀ r, p r = 2 * q) (d : Disk) (c : Nat) (h : t.At d c) :
    ∃ c', t.At (ps.foldl t.run d) c' := by
  induction ps generalizing d c with
  | nil => exact ⟨c, h⟩
  | cons p ps ih =>
    obtain ⟨q, hq⟩ := hps p (by simp)
    obtain ⟨c', h', _⟩ := at_run t ht d c q h p hq
    exact ih (fun p hp => hps p (by simp [hp])) _ c' h'

end Psi.Bucketed
