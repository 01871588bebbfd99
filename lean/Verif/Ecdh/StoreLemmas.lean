import Verif.Ecdh.Lemmas

/-! # ECDH-PSI: contents of the point stores at the end of a run -/

namespace Psi.Ecdh
variable {α P : Type}

/-- Masking commutes, and no two different input items have the same comparison bytes. -/
structure Crypto (c : Cfg α P) : Prop where
  comm : ∀ p, c.mask false (c.mask true p) = c.mask true (c.mask false p)
  inj : ∀ r r', ∀ x ∈ (c.input r).flatten, ∀ y ∈ (c.input r').flatten,
    cipher c (c.mask false (c.mask true (c.hash x.1)))
      = cipher c (c.mask false (c.mask true (c.hash y.1))) → x.1 = y.1

/-- Masking commutes, and no item of one party has the comparison bytes of a different item of the other. -/
structure Apart (c : Cfg α P) : Prop where
  comm : ∀ p, c.mask false (c.mask true p) = c.mask true (c.mask false p)
  inj : ∀ r, ∀ x ∈ (c.input (!r)).flatten, ∀ y ∈ (c.input r).flatten,
    cipher c (c.mask false (c.mask true (c.hash x.1)))
      = cipher c (c.mask false (c.mask true (c.hash y.1))) → x.1 = y.1

theorem Crypto.apart {c : Cfg α P} (h : Crypto c) : Apart c := ⟨h.comm, fun _ => h.inj _ _⟩

/-- Items of party `r` in provider order, with duplicate counts. -/
def Cfg.items (c : Cfg α P) (r : Bool) : List (α × Nat) := (c.input r).flatten

/-- Contents of the stores of a party whose tasks have returned. -/
theorem stores_final (c : Cfg α P) {L : Nat} (hc : c.Lawful L) (sched : List (Task × Bool))
    (s : State α) (h : exec c sched (init c) = some s) (r : Bool)
    (fin : (s.party r).finished = true) (ht : c.target.canTouch r = true) :
    (s.party r).selfStore = (c.items r).map (fun x => (dual2 c r x.1, 0)) ∧
    (s.party r).peerStore = (c.items (!r)).map (fun x => (dual2 c (!r) x.1, x.2)) := by
  obtain ⟨n, k, j, hi, -⟩ := good_reach c hc sched s h
  simp only [Party.finished, Bool.and_eq_true] at fin
  obtain ⟨⟨f1, f2⟩, f3⟩ := fin
  have h1 := (hi r).yes ht
  have h2 := hi (!r)
  have hflat : ∀ r, (allBatches c r).flatten = c.items r := by
    intro r; simp [allBatches, Cfg.items]
  constructor
  · have hj : j r = (allBatches c r).length := by
      have := h1.2.2.2.1
      simp only [view, f3] at this
      simpa using this.symm
    have := h1.2.2.2.2
    rw [hj, List.take_length, hflat] at this
    exact this
  · have hk : k (!r) = (allBatches c (!r)).length := by
      have := h2.peerDone
      simp only [view, Bool.not_not, f2] at this
      simpa using this.symm
    have := h2.peerStore
    rw [Bool.not_not, if_pos ht, hk, List.take_length, hflat] at this
    simpa [view] using this

theorem dual2_swap (c : Cfg α P) (h : ∀ p, c.mask false (c.mask true p) = c.mask true (c.mask false p)) (r : Bool) (z : α) :
    dual2 c r z = cipher c (c.mask false (c.mask true (c.hash z))) := by
  cases r
  · simp only [dual2, Bool.not_false, h]
  · rfl

theorem dual2_apart_iff (c : Cfg α P) (hx : Apart c) (r : Bool) (x y : α × Nat)
    (hxm : x ∈ c.items (!r)) (hym : y ∈ c.items r) : dual2 c (!r) x.1 = dual2 c r y.1 ↔ x.1 = y.1 := by
  rw [dual2_swap c hx.comm, dual2_swap c hx.comm]
  exact ⟨hx.inj r x hxm y hym, fun h => by rw [h]⟩

theorem dual2_eq_iff (c : Cfg α P) (hx : Crypto c) (r r' : Bool) (x y : α × Nat)
    (hxm : x ∈ c.items r) (hym : y ∈ c.items r') : dual2 c r x.1 = dual2 c r' y.1 ↔ x.1 = y.1 := by
  rw [dual2_swap c hx.comm, dual2_swap c hx.comm]
  constructor
  · exact hx.inj r r' x hxm y hym
  · rintro h; rw [h]

theorem find_dual2 [DecidableEq α] (c : Cfg α P) (hx : Apart c) (r : Bool) (x : α × Nat)
    (hxm : x ∈ c.items r) (l : List (α × Nat)) (hl : ∀ y ∈ l, y ∈ c.items (!r)) :
    (l.map (fun y => (dual2 c (!r) y.1, y.2))).find? (fun p => p.1 = dual2 c r x.1) =
      (l.find? (fun y => y.1 = x.1)).map (fun y => (dual2 c (!r) y.1, y.2)) := by
  induction l with
  | nil => rfl
  | cons y l ih =>
    have h1 := dual2_apart_iff c hx r y x (hl y (List.mem_cons_self ..)) hxm
    have ih := ih (fun z hz => hl z (List.mem_cons_of_mem _ hz))
    by_cases hy : y.1 = x.1
    · have := h1.mpr hy
      simp [hy, ← this]
    · have : ¬ dual2 c (!r) y.1 = dual2 c r x.1 := fun he => hy (h1.mp he)
      rw [List.map_cons, List.find?_cons, List.find?_cons]
      simp only [this, hy, decide_false]
      exact ih

end Psi.Ecdh
