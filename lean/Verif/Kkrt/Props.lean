import Verif.Kkrt.ResultLemmas

/-!
# KKRT-PSI: properties (C20, C21)
-/

namespace Psi.Kkrt
open Psi.Cuckoo (getHash Table insertAll)
open Psi.Ecdh (Bytes)
open Psi.Spec
open Spec

/-- **C21** The sender's encodings do not depend on when the corrections arrive.  `rs` are the correction
counts its spinning loop happened to see, `step` the number of attempts per look: whatever they are, slot
`h` of position `pos` holds the encoding of the item there in the bin of hash function `h`, computed exactly
once, if no earlier hash function leads to that bin, and the initial random bytes, never overwritten,
otherwise; and no encoding is computed before the correction of its bin has arrived. -/
theorem C21_timing_irrelevant (p : Params) (item perm : Nat → Nat) (n nb step : Nat)
    (fill : Nat → Nat → Bytes) (rs : List Nat) (hn : 0 < n) (hnb : 0 < nb)
    (hperm : ∀ a b, a < n → b < n → perm a = perm b → a = b) :
    let e := encodings p item perm n nb step fill rs
    (∀ pos h b, pos < n → h < 3 → First getHash nb (item (perm pos)) h b →
      e.buf pos h = p.F b (item (perm pos)) ∧
      e.log.countP (fun x => x.1 = pos ∧ x.2.1 = h) = 1) ∧
    (∀ pos h, pos < n → h < 3 → (¬ ∃ b, First getHash nb (item (perm pos)) h b) →
      e.buf pos h = fill pos h ∧
      e.log.countP (fun x => x.1 = pos ∧ x.2.1 = h) = 0) ∧
    ∀ pos h r, (pos, h, r) ∈ e.log → ∃ b, First getHash nb (item (perm pos)) h b ∧ b < r := by
  intro e
  have hlt : ∀ x ∈ e.log, x.2.1 < 3 := by
    intro x hx
    obtain ⟨b, hb, _⟩ := (encodings_log p item perm n nb step fill rs hn hnb hperm) x hx
    exact slots_lt _ _ _ _ hb
  refine ⟨?_, ?_, ?_⟩
  · intro pos h b hpos hh hf
    have hs := (slots_iff nb (item (perm pos)) h b hh).mpr hf
    obtain ⟨h1, h2, _⟩ := encodings_buf p item perm n nb step fill rs hnb hperm pos h hpos hh
    rw [hs] at h1 h2
    exact ⟨h1, h2⟩
  · intro pos h hpos hh hf
    have hs : slots nb (item (perm pos)) h = none := by
      cases hs : slots nb (item (perm pos)) h with
      | none => rfl
      | some b => exact absurd ⟨b, (slots_iff _ _ _ _ hh).mp hs⟩ hf
    obtain ⟨h1, h2, _⟩ := encodings_buf p item perm n nb step fill rs hnb hperm pos h hpos hh
    rw [hs] at h1 h2
    exact ⟨h1, h2⟩
  · intro pos h r hx
    obtain ⟨b, hb, hlt'⟩ := (encodings_log p item perm n nb step fill rs hn hnb hperm) _ hx
    exact ⟨b, (slots_iff _ _ _ _ (hlt _ hx)).mp hb, hlt'⟩

/-- **C20** One KKRT round: if the cuckoo table of the receiver can be built and encodings do not collide,
the receiver gets exactly the intersection, every line with the sender's row count — for any permutation,
batch size and arrival order of corrections. -/
theorem C20_kkrt_round (p : Params) (xs : List Nat) (ys : List (Nat × Nat)) (step : Nat)
    (perm : Nat → Nat) (fill : Nat → Nat → Bytes) (rs : List Nat) (t : Table)
    (hxs : xs.Nodup) (hys : (ys.map Prod.fst).Nodup) (hx : xs.length ≤ 2 ^ 56)
    (hy : ys ≠ []) (hb : 0 < p.batch) (hnb : 0 < p.numBinsOf xs.length)
    (ht : insertAll (p.options xs.length) [xs] = .ok t)
    (hperm : ((List.range ys.length).map perm).Perm (List.range ys.length))
    (hF : ∀ b x, (p.F b x).length = p.size)
    (hfill : ∀ pos h, pos < ys.length → h < 3 → (fill pos h).length = p.size)
    (hc : NoCollision p.F (p.numBinsOf xs.length) xs ys fill) :
    ∃ w, recv p xs (send p ys xs.length step perm fill rs) = some w ∧
      ExactIndex (xs.map (fun x => (x, 0))) ys w := by
  exact ⟨_, recv_send p xs ys step perm fill rs t hxs hx (List.length_pos_iff.mpr hy) hb hnb ht hperm hF hfill hc,
    lines_exact xs ys perm hxs hys hperm⟩

/-! ## Examples -/

/-- Nine bins; toy encodings of two bytes. -/
def exP : Params := ⟨fun _ => 9, 2, fun b x => [UInt8.ofNat b, UInt8.ofNat (x % 251)], 2⟩

def exXs : List Nat :=
  [294508053350743109, 413363302318850201, 796031015877463607,
   970196089301134314, 751741364423228969, 611094350337506720]

/-- Two common items, one of them with further rows, one other item. -/
def exYs : List (Nat × Nat) := [(796031015877463607, 0), (12345678901234567, 1), (751741364423228969, 4)]

def exPerm (i : Nat) : Nat := (i + 1) % 3

def exFill (pos h : Nat) : Bytes := [100, UInt8.ofNat (3 * pos + h)]

example : ∃ w, recv exP exXs (send exP exYs exXs.length 2 exPerm exFill [3, 5, 5]) = some w ∧
    ExactIndex (exXs.map (fun x => (x, 0))) exYs w := by
  have h : (insertAll (exP.options exXs.length) [exXs]).toBool = true := by decide +kernel
  obtain ⟨t, ht⟩ : ∃ t, insertAll (exP.options exXs.length) [exXs] = .ok t := by
    cases he : insertAll (exP.options exXs.length) [exXs] with
    | error e => rw [he] at h; cases h
    | ok t => exact ⟨t, rfl⟩
  refine C20_kkrt_round exP exXs exYs 2 exPerm exFill [3, 5, 5] t (by decide) (by decide) (by decide)
    (by decide) (by decide) (by decide) ht (by decide) (fun _ _ => rfl) (fun _ _ _ _ => rfl) ⟨?_, ?_⟩
  · have key : ∀ b, b < 9 → ∀ b', b' < 9 → ∀ x ∈ exXs, ∀ y ∈ exXs ++ exYs.map Prod.fst,
        exP.F b x = exP.F b' y → b = b' ∧ x = y := by decide +kernel
    exact fun b b' x y h1 h2 h3 h4 => key b h1 b' h2 x h3 y h4
  · intro pos h b x _ _ hb _ he
    have h9 : b < 9 := hb
    simp only [exFill, exP, List.cons.injEq] at he
    have := congrArg UInt8.toNat he.1
    rw [UInt8.toNat_ofNat', Nat.mod_eq_of_lt (by omega)] at this
    simp at this
    omega

example := C21_timing_irrelevant exP (fun i => exXs.getD i 0) exPerm 3 9 2 exFill [3, 5, 5] (by decide)
  (by decide) (fun a b ha hb he => by unfold exPerm at he; omega)

end Psi.Kkrt
