import Verif.Kkrt.Margin
import Verif.Kkrt.Props

/-!
# C119: KKRT-PSI reports a wrong item, or misses one, as rarely as its security parameter says

* `C119_wrong_runs`: of all values of the OPRF and the random bytes, the part for which the result is not the intersection is at
  most the number of pairs of items over the number of encodings;
* `C119_margin_partial`: with the length the code chooses this is less than `2 ^ (1 - ssp)`;
* `C119_margin_missed`: and more than `2 ^ (-ssp)` for many sizes.
-/

namespace Psi.Kkrt
open Psi.Cuckoo (Options Table insertAll)
open Psi.Ecdh (Bytes Msg)
open Psi.Spec

/-- The values for which a run does not end with exactly the common items. -/
def Wrong (nbOf : Nat → Nat) (batch : Nat) (xs : List Nat) (ys : List (Nat × Nat)) (step : Nat) (perm : Nat → Nat) (size : Nat)
    (rs : Draw (nbOf xs.length) ys.length size → List Nat) : Set (Draw (nbOf xs.length) ys.length size) :=
  {ω | ¬ ∃ w, recv (drawn nbOf batch _ _ size ω) xs
      (send (drawn nbOf batch _ _ size ω) ys xs.length step perm (fillOf ω) (rs ω)) = some w ∧
    ExactIndex (xs.map (fun x => (x, 0))) ys w}

theorem card_values (size : Nat) : Nat.card (Fin size → Fin 256) = 256 ^ size := by
  simp

theorem draw_pos (nb m size : Nat) : 0 < Nat.card (Draw nb m size) := Nat.card_pos

section
variable {nbOf : Nat → Nat} {batch : Nat} {xs : List Nat} {ys : List (Nat × Nat)} {step : Nat} {perm : Nat → Nat} {t : Table}
  (hxs : xs.Nodup) (hys : (ys.map Prod.fst).Nodup) (hx : xs.length ≤ 2 ^ 56) (hy : ys ≠ []) (hb : 0 < batch)
  (hnb : 0 < nbOf xs.length) (ht : insertAll ⟨xs.length, 0, 3, nbOf xs.length, 128⟩ [xs] = .ok t)
  (hperm : ((List.range ys.length).map perm).Perm (List.range ys.length))
  (h128 : ∀ x ∈ xs ++ ys.map Prod.fst, x < 2 ^ 128)
include hxs hys hx hy hb hnb ht hperm h128

/-- **C119** A wrong result, too many or too few lines, comes from one of the `n * m` pairs of a sender's and a receiver's item. -/
theorem C119_wrong_runs (size : Nat) (rs : Draw (nbOf xs.length) ys.length size → List Nat) :
    (Wrong nbOf batch xs ys step perm size rs).ncard * 256 ^ size ≤
      xs.length * ys.length * Nat.card (Draw (nbOf xs.length) ys.length size) := by
  classical
  obtain ⟨e, h1, -, -, h4⟩ := pairs nbOf batch xs ys step perm t hxs hys hx hy hb hnb ht hperm h128
  let I : List (Fin xs.length × Fin ys.length) := (List.finRange xs.length ×ˢ List.finRange ys.length).filter
    fun a => xs.getD a.1 0 ≠ (ys.getD (perm a.2) (0, 0)).1
  have hsub : Wrong nbOf batch xs ys step perm size rs ⊆ Meets (I.map fun a => e a.1 a.2) := by
    intro ω hω
    by_contra hno
    refine hω ((h4 size ω (rs ω)).1 fun i q hne heq => hno ?_)
    refine ⟨_, List.mem_map.2 ⟨(i, q), List.mem_filter.2 ⟨?_, by simpa using hne⟩, rfl⟩, heq⟩
    exact List.mem_product.2 ⟨List.mem_finRange _, List.mem_finRange _⟩
  have hlen : (I.map fun a => e a.1 a.2).length ≤ xs.length * ys.length := by
    rw [List.length_map]
    refine (List.length_filter_le _ _).trans ?_
    rw [List.length_product, List.length_finRange, List.length_finRange]
  have hm := meets_le (V := Fin size → Fin 256) (I.map fun a => e a.1 a.2) (by
    intro f hf
    obtain ⟨a, ha, rfl⟩ := List.mem_map.1 hf
    exact h1 a.1 a.2 (by simpa using (List.mem_filter.1 ha).2))
  rw [card_values] at hm
  calc _ ≤ (Meets (I.map fun a => e a.1 a.2)).ncard * 256 ^ size :=
        Nat.mul_le_mul_right _ (Set.ncard_le_ncard hsub (Set.toFinite _))
    _ ≤ _ := hm
    _ ≤ _ := Nat.mul_le_mul_right _ hlen

/-- And without common items nearly all of these pairs count. -/
theorem wrong_runs_ge (hdis : ∀ x ∈ xs, x ∉ ys.map Prod.fst) (size : Nat)
    (rs : Draw (nbOf xs.length) ys.length size → List Nat) :
    2 * (xs.length * ys.length) * 256 ^ size * Nat.card (Draw (nbOf xs.length) ys.length size) ≤
      2 * (Wrong nbOf batch xs ys step perm size rs).ncard * 256 ^ size * 256 ^ size +
        xs.length * ys.length * (xs.length * ys.length) * Nat.card (Draw (nbOf xs.length) ys.length size) := by
  classical
  obtain ⟨hp1, hp2, -⟩ := perm_range_facts hperm
  obtain ⟨e, -, h2, h3, h4⟩ := pairs nbOf batch xs ys step perm t hxs hys hx hy hb hnb ht hperm h128
  have hgx : ∀ i : Fin xs.length, xs.getD i 0 = xs[i] := fun i => by
    rw [List.getD_eq_getElem?_getD, List.getElem?_eq_getElem i.2]; rfl
  have hgy : ∀ q : Fin ys.length, (ys.getD (perm q) (0, 0)).1 = (ys.map Prod.fst)[perm q]'(by simpa using hp1 q q.2) := fun q => by
    rw [List.getD_eq_getElem?_getD, List.getElem?_eq_getElem (hp1 q q.2)]
    simp
  have hmem : ∀ i : Fin xs.length, xs.getD i 0 ∈ xs := fun i => by rw [hgx]; exact List.getElem_mem _
  have hmemy : ∀ q : Fin ys.length, (ys.getD (perm q) (0, 0)).1 ∈ ys.map Prod.fst := fun q => by rw [hgy]; exact List.getElem_mem _
  let L := (List.finRange xs.length ×ˢ List.finRange ys.length).map fun a => e a.1 a.2
  have hlen : L.length = xs.length * ys.length := by
    rw [List.length_map, List.length_product, List.length_finRange, List.length_finRange]
  have hnd : L.Nodup := by
    refine (((List.nodup_finRange _).product (List.nodup_finRange _))).map ?_
    rintro ⟨i, q⟩ ⟨i', q'⟩ heq
    have heq : e i q = e i' q' := heq
    obtain ⟨b, hh, e1⟩ := h2 i q
    obtain ⟨b', hh', e1'⟩ := h2 i' q'
    have e2 := congrArg Prod.snd heq
    rw [e1, e1'] at e2
    simp only [Sum.inl.injEq, Prod.mk.injEq, Fin.mk.injEq] at e2
    have hi : i = i' := by
      rw [hgx, hgx] at e2
      exact Fin.ext ((List.Nodup.getElem_inj_iff hxs).mp e2.2)
    have e3 := congrArg Prod.fst heq
    have hq : q = q' := by
      rcases h3 i q with ⟨b, hb1, e4⟩ | ⟨h, e4⟩ <;> rcases h3 i' q' with ⟨b', hb2, e5⟩ | ⟨h', e5⟩ <;> rw [e4, e5] at e3
      · simp only [Sum.inl.injEq, Prod.mk.injEq, Fin.mk.injEq] at e3
        have e6 := e3.2
        rw [hgy, hgy] at e6
        exact Fin.ext (hp2 _ _ q.2 q'.2 ((List.Nodup.getElem_inj_iff hys).mp e6))
      · cases e3
      · cases e3
      · simp only [Sum.inr.injEq, Prod.mk.injEq] at e3
        exact e3.1
    rw [hi, hq]
  let S : Point (nbOf xs.length) ys.length → Prop := fun p => ¬ ∃ b z, p = .inl (b, z) ∧ z.val ∈ xs
  have hS : ∀ f ∈ L, S f.1 ∧ ¬ S f.2 := by
    intro f hf
    obtain ⟨⟨i, q⟩, -, rfl⟩ := List.mem_map.1 hf
    refine ⟨?_, ?_⟩
    · rintro ⟨b, z, hz, hzx⟩
      rcases h3 i q with ⟨b', hb', e4⟩ | ⟨h, e4⟩
      · have hz : (e i q).1 = .inl (b, z) := hz
        rw [e4] at hz
        simp only [Sum.inl.injEq, Prod.mk.injEq] at hz
        rw [← hz.2] at hzx
        exact hdis _ hzx (hmemy q)
      · have hz : (e i q).1 = .inl (b, z) := hz
        rw [e4] at hz
        cases hz
    · intro hn
      obtain ⟨b, hh, e1⟩ := h2 i q
      exact hn ⟨b, _, e1, hmem i⟩
  have hm := meets_ge (V := Fin size → Fin 256) S L hS hnd
  rw [card_values, hlen] at hm
  have hsub : Meets L ⊆ Wrong nbOf batch xs ys step perm size rs := by
    rintro ω ⟨f, hf, heq⟩ ⟨w, hw, hex⟩
    obtain ⟨⟨i, q⟩, -, rfl⟩ := List.mem_map.1 hf
    obtain ⟨w', hw', hne⟩ := (h4 size ω (rs ω)).2 ⟨i, q, heq⟩
    rw [hw] at hw'
    obtain rfl := Option.some.inj hw'
    obtain ⟨⟨k, d⟩, hk⟩ := List.exists_mem_of_ne_nil w hne
    obtain ⟨x, e', hx', hxy⟩ := (hex.mem k d).1 hk
    have hx2 : x ∈ xs := by
      rw [List.getElem?_map, Option.map_eq_some_iff] at hx'
      obtain ⟨x', hx'', hxe⟩ := hx'
      simp only [Prod.mk.injEq] at hxe
      exact hxe.1 ▸ List.mem_of_getElem? hx''
    exact hdis x hx2 (List.mem_map.2 ⟨(x, d), hxy, rfl⟩)
  have hle := Set.ncard_le_ncard hsub (Set.toFinite _)
  refine hm.trans (Nat.add_le_add_right ?_ _)
  exact Nat.mul_le_mul_right _ (Nat.mul_le_mul_right _ (Nat.mul_le_mul_left _ hle))

/-- **C119** With the length the code takes, unless that is cut to 16 bytes, fewer than one in `2 ^ (ssp - 1)` runs is wrong.
`lg` is any logarithm that is not rounded down to less than the integer part.

Missing: one in `2 ^ ssp`, as the parameter says; see `C119_margin_missed`. -/
theorem C119_margin_partial {lg : Nat → Nat} (hlg : ∀ p, Nat.log 2 p ≤ lg p) {ssp : Nat} (hm : xs.length * ys.length < 2 ^ 128)
    (rs : Draw (nbOf xs.length) ys.length (encodeSize lg ssp xs.length ys.length) → List Nat) :
    (encodeSize lg ssp xs.length ys.length < 16 →
      (Wrong nbOf batch xs ys step perm (encodeSize lg ssp xs.length ys.length) rs).ncard * 2 ^ ssp <
        2 * Nat.card (Draw (nbOf xs.length) ys.length (encodeSize lg ssp xs.length ys.length))) ∧
    (encodeSize lg ssp xs.length ys.length = 16 →
      (Wrong nbOf batch xs ys step perm (encodeSize lg ssp xs.length ys.length) rs).ncard * 2 ^ 128 ≤
        xs.length * ys.length * Nat.card (Draw (nbOf xs.length) ys.length (encodeSize lg ssp xs.length ys.length))) := by
  have h := C119_wrong_runs hxs hys hx hy hb hnb ht hperm h128 (encodeSize lg ssp xs.length ys.length) (step := step) rs
  have hT := draw_pos (nbOf xs.length) ys.length (encodeSize lg ssp xs.length ys.length)
  revert rs
  generalize hs : encodeSize lg ssp xs.length ys.length = size at *
  intro rs h
  generalize Nat.card (Draw (nbOf xs.length) ys.length size) = T at *
  generalize (Wrong nbOf batch xs ys step perm size rs).ncard = B at *
  constructor
  · intro hlt
    unfold encodeSize at hs
    rw [Nat.mod_eq_of_lt hm] at hs
    have hsz : size = (ssp + lg (xs.length * ys.length) + 7) / 8 := by omega
    have h1 := hlg (xs.length * ys.length)
    have h2 : xs.length * ys.length < 2 ^ (Nat.log 2 (xs.length * ys.length) + 1) := Nat.lt_pow_succ_log_self (by decide) _
    generalize xs.length * ys.length = k at *
    have h3 : ssp + Nat.log 2 k ≤ 8 * size := by omega
    have h4 : 256 ^ size = 2 ^ (8 * size) := by rw [Nat.pow_mul]
    have h5 : 2 ^ ssp * k < 2 * 256 ^ size := by
      calc 2 ^ ssp * k < 2 ^ ssp * 2 ^ (Nat.log 2 k + 1) := Nat.mul_lt_mul_of_pos_left h2 (by positivity)
        _ = 2 * 2 ^ (ssp + Nat.log 2 k) := by rw [Nat.pow_succ, Nat.pow_add]; ring
        _ ≤ 2 * 2 ^ (8 * size) := Nat.mul_le_mul_left _ (Nat.pow_le_pow_right (by decide) h3)
        _ = _ := by rw [h4]
    have h6 : 0 < 256 ^ size := by positivity
    have h7 : B * 2 ^ ssp * 256 ^ size < 2 * T * 256 ^ size := by
      calc B * 2 ^ ssp * 256 ^ size = 2 ^ ssp * (B * 256 ^ size) := by ring
        _ ≤ 2 ^ ssp * (k * T) := Nat.mul_le_mul_left _ h
        _ = 2 ^ ssp * k * T := by ring
        _ < 2 * 256 ^ size * T := Nat.mul_lt_mul_of_pos_right h5 hT
        _ = _ := by ring
    exact Nat.lt_of_mul_lt_mul_right h7
  · intro h16
    subst h16
    simpa using h

/-- **Finding.**  The logarithm is rounded down with the sum (`kkrt_psi.cc:69-71`): whenever the number of pairs is a little more
than a power of 256, up to twice as many, more than one in `2 ^ 40` runs is wrong, whatever the items, as long as none is common. -/
theorem C119_margin_missed {lg : Nat → Nat} (hlg : ∀ p, 0 < p → p < 2 ^ 40 → lg p = Nat.log 2 p)
    (hdis : ∀ x ∈ xs, x ∉ ys.map Prod.fst) {k : Nat} (hk : 1 ≤ k) (hk4 : k ≤ 4) (h1 : 256 ^ k < xs.length * ys.length)
    (h2 : xs.length * ys.length < 2 * 256 ^ k)
    (rs : Draw (nbOf xs.length) ys.length (encodeSize lg 40 xs.length ys.length) → List Nat) :
    Nat.card (Draw (nbOf xs.length) ys.length (encodeSize lg 40 xs.length ys.length)) <
      (Wrong nbOf batch xs ys step perm (encodeSize lg 40 xs.length ys.length) rs).ncard * 2 ^ 40 := by
  have hge := wrong_runs_ge hxs hys hx hy hb hnb ht hperm h128 (step := step) hdis (encodeSize lg 40 xs.length ys.length) rs
  have hT := draw_pos (nbOf xs.length) ys.length (encodeSize lg 40 xs.length ys.length)
  have h256 : 256 ^ k = 2 ^ (8 * k) := by rw [Nat.pow_mul]
  have hle : 256 ^ k ≤ 256 ^ 4 := Nat.pow_le_pow_right (by decide) hk4
  have hlog : lg (xs.length * ys.length) = 8 * k := by
    rw [hlg _ (by omega) (by omega)]
    refine (Nat.log_eq_iff (Or.inr ⟨by decide, by omega⟩)).2 ⟨by omega, ?_⟩
    rw [Nat.pow_succ]
    omega
  have hsize : encodeSize lg 40 xs.length ys.length = 5 + k := by
    unfold encodeSize
    rw [Nat.mod_eq_of_lt (by omega), hlog]
    omega
  revert rs hT
  rw [hsize]
  intro rs hge hT
  generalize Nat.card (Draw (nbOf xs.length) ys.length (5 + k)) = T at *
  generalize (Wrong nbOf batch xs ys step perm (5 + k) rs).ncard = B at *
  generalize xs.length * ys.length = p at *
  have hN : 256 ^ (5 + k) = 2 ^ 40 * 256 ^ k := by
    rw [Nat.pow_add, show (256 : Nat) ^ 5 = 2 ^ 40 by decide]
  rw [hN] at hge
  generalize 256 ^ k = K at *
  have hK : K ≤ 2 ^ 32 := by omega
  by_contra hno
  have hB : B * 2 ^ 40 ≤ T := by omega
  have h3 : 2 * B * (2 ^ 40 * K) * (2 ^ 40 * K) ≤ 2 * K * (2 ^ 40 * K) * T := by
    calc _ = B * 2 ^ 40 * (2 * K * (2 ^ 40 * K)) := by ring
      _ ≤ T * (2 * K * (2 ^ 40 * K)) := Nat.mul_le_mul_right _ hB
      _ = _ := by ring
  have h4 : 2 * p * (2 ^ 40 * K) * T ≤ (2 * K * (2 ^ 40 * K) + p * p) * T := by
    rw [Nat.add_mul]
    omega
  have h5 := Nat.le_of_mul_le_mul_right h4 hT
  have h6 : 2 * K * (2 ^ 40 * K) + 2 * (2 ^ 40 * K) ≤ 2 * p * (2 ^ 40 * K) := by
    rw [← Nat.add_mul]
    exact Nat.mul_le_mul_right _ (by omega)
  have h7 : p * p ≤ 2 * K * (2 * K) := Nat.mul_le_mul (by omega) (by omega)
  have h8 : K * K ≤ 2 ^ 32 * K := Nat.mul_le_mul_right _ hK
  have h9 : 2 * K * (2 * K) = 4 * (K * K) := by ring
  have h10 : 0 < K := by omega
  generalize K * K = q at *
  omega

end

/-- **C119** Both parties, each with its own size first, take the same length, and it fits the 16 bytes of the buffers. -/
theorem C119_same_length (lg : Nat → Nat) (ssp n m : Nat) :
    encodeSize lg ssp n m = encodeSize lg ssp m n ∧ encodeSize lg ssp n m ≤ 16 := by
  unfold encodeSize
  rw [Nat.mul_comm m n]
  exact ⟨rfl, by omega⟩

/-! ### Examples -/

theorem exists_table {o : Options} {xss : List (List Nat)} (h : (insertAll o xss).toBool = true) :
    ∃ t, insertAll o xss = .ok t := by
  cases he : insertAll o xss with
  | error _ => rw [he] at h; cases h
  | ok t => exact ⟨t, rfl⟩

/-- Receiver's table of the example of C20. -/
theorem exTable : ∃ t, insertAll ⟨exXs.length, 0, 3, 9, 128⟩ [exXs] = .ok t := exists_table (by decide +kernel)

example : (Wrong (fun _ => 9) 2 exXs exYs 2 exPerm 6 (fun _ => [3, 5, 5])).ncard * 256 ^ 6 ≤
    exXs.length * 3 * Nat.card (Draw 9 3 6) := by
  obtain ⟨t, ht⟩ := exTable
  exact C119_wrong_runs (nbOf := fun _ => 9) (by decide) (by decide) (by decide) (by decide) (by decide) (by decide) ht
    (by decide) (by decide) 6 _

example : (Wrong (fun _ => 9) 2 exXs exYs 2 exPerm (encodeSize (Nat.log 2) 40 exXs.length 3) (fun _ => [3, 5, 5])).ncard * 2 ^ 40 <
    2 * Nat.card (Draw 9 3 (encodeSize (Nat.log 2) 40 exXs.length 3)) := by
  obtain ⟨t, ht⟩ := exTable
  exact (C119_margin_partial (nbOf := fun _ => 9) (ys := exYs) (by decide) (by decide) (by decide) (by decide) (by decide)
    (by decide) ht (by decide) (by decide) (lg := Nat.log 2) (fun _ => le_refl _) (by decide) _).1 (by decide)

/-- One item against 300 others: six bytes, where seven are needed. -/
def exMany : List (Nat × Nat) := (List.range 300).map fun k => (k + 7, 0)

example : encodeSize (Nat.log 2) 40 1 300 = 6 ∧ 2 ^ 40 * (1 * 300) > 256 ^ 6 := by decide

example : Nat.card (Draw 3 exMany.length 6) < (Wrong (fun _ => 3) 2 [5] exMany 2 id 6 (fun _ => [])).ncard * 2 ^ 40 := by
  obtain ⟨t, ht⟩ : ∃ t, insertAll ⟨1, 0, 3, 3, 128⟩ [[5]] = .ok t := exists_table (by decide +kernel)
  have hl : exMany.length = 300 := by simp [exMany]
  have hf : exMany.map Prod.fst = (List.range 300).map (· + 7) := by simp [exMany]
  have h := C119_margin_missed (nbOf := fun _ => 3) (batch := 2) (xs := [5]) (ys := exMany) (step := 2) (perm := id) (t := t)
    (by decide) (by rw [hf]; exact List.nodup_range.map fun _ _ h => Nat.add_right_cancel h) (by decide)
    (fun h => by rw [h] at hl; cases hl) (by decide) (by decide) ht (by rw [List.map_id])
    (by intro x hx
        rw [hf] at hx
        simp only [List.singleton_append, List.mem_cons, List.mem_map, List.mem_range] at hx
        omega) (lg := Nat.log 2) (fun _ _ _ => rfl)
    (by intro x hx hy
        rw [hf] at hy
        simp only [List.mem_cons, List.not_mem_nil, or_false, List.mem_map, List.mem_range] at hx hy
        omega) (k := 1) (by decide) (by decide) (by rw [hl]; decide) (by rw [hl]; decide) (fun _ => [])
  have hs : encodeSize (Nat.log 2) 40 [5].length exMany.length = 6 := by rw [hl]; decide
  rw [hs] at h
  exact h

example := C119_same_length (Nat.log 2) 40 1000 2000

end Psi.Kkrt
