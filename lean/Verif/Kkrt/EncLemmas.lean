import Verif.Kkrt.Model
import Mathlib.Data.List.Basic

/-! # KKRT-PSI: the incremental encoder -/

namespace Psi.Kkrt
open Psi.Ecdh (Bytes)

variable (p : Params) (item perm : Nat → Nat) (n : Nat)

/-- How often a slot was encoded. -/
def calls (log : List (Nat × Nat × Nat)) (pos h : Nat) : Nat :=
  log.countP (fun x => x.1 = pos ∧ x.2.1 = h)

/-- State of slot `(pos, h)`: untouched, or encoded once. -/
def SlotOk (slot0 : Nat → Nat → Option Nat) (fill : Nat → Nat → Bytes) (s : Enc) (pos h : Nat) : Prop :=
  (s.pend (perm pos) h = slot0 (perm pos) h ∧ s.buf pos h = fill pos h ∧ calls s.log pos h = 0) ∨
  (s.pend (perm pos) h = none ∧ ∃ b, slot0 (perm pos) h = some b ∧
    s.buf pos h = p.F b (item (perm pos)) ∧ calls s.log pos h = 1)

/-- All slots, and every call came after the correction of its bin. -/
structure EncOk (slot0 : Nat → Nat → Option Nat) (fill : Nat → Nat → Bytes) (s : Enc) : Prop where
  slot : ∀ pos h, pos < n → SlotOk p item perm slot0 fill s pos h
  ready : ∀ x ∈ s.log, x.1 < n ∧ ∃ b, slot0 (perm x.1) x.2.1 = some b ∧ b < x.2.2

variable {p item perm n}

theorem encode_ok (hperm : ∀ a b, a < n → b < n → perm a = perm b → a = b)
    {slot0 : Nat → Nat → Option Nat} {fill : Nat → Nat → Bytes} {s : Enc}
    (hs : EncOk p item perm n slot0 fill s) (r pos h : Nat) (hpos : pos < n) :
    EncOk p item perm n slot0 fill (s.encode p item perm r pos h) := by
  unfold Enc.encode
  cases hp : s.pend (perm pos) h with
  | none => exact hs
  | some b =>
    simp only
    by_cases hb : b < r
    · rw [if_pos hb]
      have hslot := hs.slot pos h hpos
      rcases hslot with ⟨h1, h2, h3⟩ | ⟨h1, _⟩
      · have hsl : slot0 (perm pos) h = some b := by rw [← h1, hp]
        constructor
        · intro q k hq
          by_cases hqk : q = pos ∧ k = h
          · obtain ⟨rfl, rfl⟩ := hqk
            refine Or.inr ⟨by simp, b, hsl, by simp, ?_⟩
            simp only [calls, List.countP_append] at h3 ⊢
            rw [h3]
            simp
          · have hne : ¬ (perm q = perm pos ∧ k = h) := by
              rintro ⟨e1, e2⟩
              exact hqk ⟨hperm q pos hq hpos e1, e2⟩
            have hcalls : calls (s.log ++ [(pos, h, r)]) q k = calls s.log q k := by
              simp only [calls, List.countP_append]
              have : ¬ (pos = q ∧ h = k) := fun e => hqk ⟨e.1.symm, e.2.symm⟩
              simp [this]
            have := hs.slot q k hq
            unfold SlotOk at this ⊢
            simp only [if_neg hne, if_neg hqk, hcalls]
            exact this
        · intro x hx
          rcases List.mem_append.mp hx with hx | hx
          · exact hs.ready x hx
          · simp only [List.mem_singleton] at hx
            subst hx
            exact ⟨hpos, b, hsl, hb⟩
      · rw [h1] at hp; exact absurd hp (by simp)
    · rw [if_neg hb]; exact hs

theorem attempt_ok (hperm : ∀ a b, a < n → b < n → perm a = perm b → a = b)
    {slot0 : Nat → Nat → Option Nat} {fill : Nat → Nat → Bytes} {s : Enc}
    (hs : EncOk p item perm n slot0 fill s) (r pos : Nat) (hpos : pos < n) :
    EncOk p item perm n slot0 fill (s.attempt p item perm r pos) := by
  unfold Enc.attempt
  generalize List.range 3 = hh
  induction hh generalizing s with
  | nil => exact hs
  | cons h hh ih => exact ih (encode_ok hperm hs r pos h hpos)

theorem round_ok (hperm : ∀ a b, a < n → b < n → perm a = perm b → a = b)
    {slot0 : Nat → Nat → Option Nat} {fill : Nat → Nat → Bytes} (r k : Nat) :
    ∀ (t : Nat) (s : Enc), t < n → EncOk p item perm n slot0 fill s →
      (Enc.round p item perm n r k t s).1 < n ∧
      EncOk p item perm n slot0 fill (Enc.round p item perm n r k t s).2 := by
  induction k with
  | zero => intro t s ht hs; exact ⟨ht, hs⟩
  | succ k ih =>
    intro t s ht hs
    exact ih _ _ (Nat.mod_lt _ (by omega)) (attempt_ok hperm hs r t ht)

theorem spin_ok (hperm : ∀ a b, a < n → b < n → perm a = perm b → a = b)
    {slot0 : Nat → Nat → Option Nat} {fill : Nat → Nat → Bytes} (step : Nat) (rs : List Nat) :
    ∀ (t : Nat) (s : Enc), t < n → EncOk p item perm n slot0 fill s →
      EncOk p item perm n slot0 fill (Enc.spin p item perm n step rs t s) := by
  induction rs with
  | nil => intro t s _ hs; exact hs
  | cons r rs ih =>
    intro t s ht hs
    obtain ⟨h1, h2⟩ := round_ok hperm r step t s ht hs
    exact ih _ _ h1 h2

/-- An attempt with all corrections there leaves nothing pending at its position. -/
theorem encode_clears (r pos h : Nat) (s : Enc) :
    (∀ b, s.pend (perm pos) h = some b → b < r) →
    (s.encode p item perm r pos h).pend (perm pos) h = none := by
  intro hb
  unfold Enc.encode
  cases hp : s.pend (perm pos) h with
  | none => exact hp
  | some b => simp [hb b hp]

/-- Slots never become pending again, and bins do not change. -/
theorem encode_pend (r pos h : Nat) (s : Enc) (i k : Nat) :
    (s.encode p item perm r pos h).pend i k = s.pend i k ∨
      (s.encode p item perm r pos h).pend i k = none := by
  unfold Enc.encode
  cases s.pend (perm pos) h with
  | none => exact Or.inl rfl
  | some b =>
    simp only
    by_cases hb : b < r
    · rw [if_pos hb]
      by_cases hik : i = perm pos ∧ k = h
      · exact Or.inr (by simp [hik])
      · exact Or.inl (by simp [hik])
    · rw [if_neg hb]; exact Or.inl rfl

theorem encode_none (r pos h : Nat) (s : Enc) (i k : Nat) (hn : s.pend i k = none) :
    (s.encode p item perm r pos h).pend i k = none := by
  rcases encode_pend (p := p) (item := item) (perm := perm) r pos h s i k with e | e
  · rw [e, hn]
  · exact e

theorem attempt_none (r pos : Nat) (s : Enc) (i k : Nat) (hn : s.pend i k = none) :
    (s.attempt p item perm r pos).pend i k = none := by
  unfold Enc.attempt
  generalize List.range 3 = hh
  induction hh generalizing s with
  | nil => exact hn
  | cons h hh ih => exact ih _ (encode_none r pos h s i k hn)

theorem encode_bound (r pos h : Nat) (s : Enc) (m : Nat)
    (hs : ∀ i k b, s.pend i k = some b → b < m) :
    ∀ i k b, (s.encode p item perm r pos h).pend i k = some b → b < m := by
  intro i k b hb
  rcases encode_pend (p := p) (item := item) (perm := perm) r pos h s i k with e | e
  · rw [e] at hb; exact hs i k b hb
  · rw [e] at hb; exact absurd hb (by simp)

theorem attempt_bound (r pos : Nat) (s : Enc) (m : Nat)
    (hs : ∀ i k b, s.pend i k = some b → b < m) :
    ∀ i k b, (s.attempt p item perm r pos).pend i k = some b → b < m := by
  unfold Enc.attempt
  generalize List.range 3 = hh
  induction hh generalizing s with
  | nil => exact hs
  | cons h hh ih => exact ih _ (encode_bound r pos h s m hs)

theorem attempt_clears (r pos : Nat) (s : Enc) (hs : ∀ i k b, s.pend i k = some b → b < r)
    (h : Nat) (hh : h < 3) : (s.attempt p item perm r pos).pend (perm pos) h = none := by
  have h0 := encode_bound (p := p) (item := item) (perm := perm) r pos 0 s r hs
  have h1 := encode_bound (p := p) (item := item) (perm := perm) r pos 1 _ r h0
  show ((((s.encode p item perm r pos 0).encode p item perm r pos 1).encode p item perm r pos 2).pend
    (perm pos) h) = none
  match h, hh with
  | 0, _ => exact encode_none _ _ _ _ _ _ (encode_none _ _ _ _ _ _ (encode_clears r pos 0 s (hs _ _)))
  | 1, _ => exact encode_none _ _ _ _ _ _ (encode_clears r pos 1 _ (h0 _ _))
  | 2, _ => exact encode_clears r pos 2 _ (h1 _ _)

theorem flush_ok (hperm : ∀ a b, a < n → b < n → perm a = perm b → a = b)
    {slot0 : Nat → Nat → Option Nat} {fill : Nat → Nat → Bytes} (m : Nat) (s : Enc)
    (hs : EncOk p item perm n slot0 fill s) (hb : ∀ i k b, s.pend i k = some b → b < m) :
    EncOk p item perm n slot0 fill (Enc.flush p item perm n m s) ∧
      ∀ pos h, pos < n → h < 3 → (Enc.flush p item perm n m s).pend (perm pos) h = none := by
  unfold Enc.flush
  have key : ∀ (l : List Nat) (s : Enc), (∀ q ∈ l, q < n) → EncOk p item perm n slot0 fill s →
      (∀ i k b, s.pend i k = some b → b < m) →
      EncOk p item perm n slot0 fill (l.foldl (fun s pos => s.attempt p item perm m pos) s) ∧
      (∀ i k, s.pend i k = none →
        (l.foldl (fun s pos => s.attempt p item perm m pos) s).pend i k = none) ∧
      ∀ pos ∈ l, ∀ h, h < 3 →
        (l.foldl (fun s pos => s.attempt p item perm m pos) s).pend (perm pos) h = none := by
    intro l
    induction l with
    | nil => intro s _ hs _; exact ⟨hs, fun _ _ h => h, by simp⟩
    | cons q l ih =>
      intro s hq hs hb
      obtain ⟨i1, i2, i3⟩ := ih (s.attempt p item perm m q) (fun x hx => hq x (by simp [hx]))
        (attempt_ok hperm hs m q (hq q (by simp))) (attempt_bound m q s m hb)
      refine ⟨i1, fun i k hn => i2 i k (attempt_none m q s i k hn), ?_⟩
      intro pos hpos h hh
      rcases List.mem_cons.mp hpos with rfl | hpos
      · exact i2 _ _ (attempt_clears m pos s hb h hh)
      · exact i3 pos hpos h hh
  obtain ⟨k1, _, k3⟩ := key (List.range n) s (fun q hq => List.mem_range.mp hq) hs hb
  exact ⟨k1, fun pos h hpos hh => k3 pos (List.mem_range.mpr hpos) h hh⟩

theorem slots_bound (numBins item h b : Nat) (hn : 0 < numBins) (hs : slots numBins item h = some b) :
    b < numBins := by
  unfold slots at hs
  simp only at hs
  split at hs
  · simp only [Option.some.injEq] at hs; subst hs; exact Nat.mod_lt _ hn
  · split at hs
    · exact absurd hs (by simp)
    · simp only [Option.some.injEq] at hs; subst hs; exact Nat.mod_lt _ hn
  · split at hs
    · exact absurd hs (by simp)
    · simp only [Option.some.injEq] at hs; subst hs; exact Nat.mod_lt _ hn
  · exact absurd hs (by simp)

theorem spin_bound (m step : Nat) (rs : List Nat) : ∀ (t : Nat) (s : Enc),
    (∀ i k b, s.pend i k = some b → b < m) →
    ∀ i k b, (Enc.spin p item perm n step rs t s).pend i k = some b → b < m := by
  have hround : ∀ (r k t : Nat) (s : Enc), (∀ i k b, s.pend i k = some b → b < m) →
      ∀ i j b, (Enc.round p item perm n r k t s).2.pend i j = some b → b < m := by
    intro r k
    induction k with
    | zero => intro t s hs; exact hs
    | succ k ih => intro t s hs; exact ih _ _ (attempt_bound r t s m hs)
  induction rs with
  | nil => intro t s hs; exact hs
  | cons r rs ih => intro t s hs; exact ih _ _ (hround r step t s hs)

end Psi.Kkrt
