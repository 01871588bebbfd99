import Verif.SealPir.ExpandLemmas

/-!
# SealPIR: a ciphertext as plaintexts, and back
-/

namespace Psi.SealPir

open Psi.Spiral (Rq Res w64 uintNum)

/-- The step for one word. -/
def wordStep (logt p l : Nat) (acc : Nat) (s : (Nat × Nat × Nat) × Nat) : Nat :=
  if p = s.1.1 ∧ l = s.1.2.1 then
    if s.1.2.2 = 0 then s.2 else w64 (acc + w64 (s.2 <<< (s.1.2.2 * logt)))
  else acc

theorem foldl_word (logt p l k : Nat) : ∀ (L : List ((Nat × Nat × Nat) × Plain)) (d : CtWords),
    (L.foldl (composeStep logt) d) p l k = (L.map fun x => (x.1, x.2 k)).foldl (wordStep logt p l) (d p l k)
  | [], _ => rfl
  | x :: L, d => by
    rw [List.foldl_cons, foldl_word logt p l k L, List.map_cons, List.foldl_cons]
    rfl

theorem foldl_pick {α : Type} (p : Nat) (W : α) : ∀ (n : Nat) (d : α),
    (List.range n).foldl (fun acc a => if a = p then W else acc) d = if p < n then W else d
  | 0, d => by simp
  | n + 1, d => by
    rw [List.range_succ, List.foldl_append, foldl_pick p W n, List.foldl_cons, List.foldl_nil]
    by_cases h1 : n = p
    · rw [if_pos h1, if_pos (by omega)]
    · rw [if_neg h1]
      by_cases h2 : p < n
      · rw [if_pos h2, if_pos (by omega)]
      · rw [if_neg h2, if_neg (by omega)]

theorem foldl_id {α β : Type} (l : List α) (d : β) : l.foldl (fun acc _ => acc) d = d := by
  induction l with
  | nil => rfl
  | cons x l ih => exact ih

theorem digits_word {logt x : Nat} (hx : x < 2 ^ 64) : ∀ (r : Nat) (acc : Nat), 0 < r →
    (List.range r).foldl (fun acc i => if i = 0 then (x >>> (i * logt)) &&& (2 ^ logt - 1)
      else w64 (acc + w64 (((x >>> (i * logt)) &&& (2 ^ logt - 1)) <<< (i * logt)))) acc = x % 2 ^ (r * logt)
  | 0, _, h => absurd h (by omega)
  | 1, acc, _ => by
    show (x >>> (0 * logt)) &&& (2 ^ logt - 1) = _
    rw [Nat.zero_mul, Nat.shiftRight_zero, Nat.and_two_pow_sub_one_eq_mod, Nat.one_mul]
  | r + 2, acc, _ => by
    rw [List.range_succ, List.foldl_append, digits_word hx (r + 1) acc (by omega), List.foldl_cons, List.foldl_nil,
      if_neg (by omega), Nat.and_two_pow_sub_one_eq_mod, Nat.shiftRight_eq_div_pow, Nat.shiftLeft_eq]
    have hm : x % 2 ^ ((r + 2) * logt) =
        x % 2 ^ ((r + 1) * logt) + 2 ^ ((r + 1) * logt) * (x / 2 ^ ((r + 1) * logt) % 2 ^ logt) := by
      rw [show (r + 2) * logt = (r + 1) * logt + logt by ring, Nat.pow_add]
      exact Nat.mod_mul
    have hle : x % 2 ^ ((r + 2) * logt) ≤ x := Nat.mod_le _ _
    rw [Nat.mul_comm (x / 2 ^ ((r + 1) * logt) % 2 ^ logt)]
    unfold w64
    rw [Nat.mod_eq_of_lt (a := 2 ^ ((r + 1) * logt) * _) (by omega), Nat.mod_eq_of_lt (by omega), hm]

theorem localRatio_spec {logt q : Nat} (hl : 0 < logt) (hq : 2 ≤ q) :
    0 < localRatio logt q ∧ q ≤ 2 ^ (localRatio logt q * logt) := by
  have hc : 0 < Nat.clog 2 q := Nat.clog_pos (by norm_num) hq
  obtain ⟨u1, -⟩ := Psi.Spiral.uintNum_bounds (Nat.clog 2 q) hl
  have h1 : Nat.clog 2 q ≤ localRatio logt q * logt := u1
  refine ⟨?_, (Nat.le_pow_clog (by norm_num) q).trans (Nat.pow_le_pow_right (by norm_num) h1)⟩
  rcases Nat.eq_zero_or_pos (localRatio logt q) with h0 | h0
  · rw [h0] at h1; omega
  · exact h0

theorem slots_length (logt : Nat) (qs : List Nat) (size : Nat) :
    (slots logt qs size).length = size * expansionRatio logt qs := by
  unfold slots
  have h : ∀ p : Nat, ((List.range qs.length).flatMap fun l =>
      (List.range (localRatio logt (qs.getD l 0))).map fun i => (p, l, i)).length = expansionRatio logt qs := by
    intro p
    rw [List.length_flatMap]
    simp only [List.length_map, List.length_range]
    unfold expansionRatio
    congr 1
    refine List.ext_getElem (by simp) fun i h1 h2 => ?_
    simp only [List.length_map] at h2
    simp only [List.getElem_map, List.getElem_range]
    rw [List.getD_eq_getElem _ _ h2]
  rw [List.length_flatMap]
  simp only [h]
  simp

/-- The word that comes back. -/
theorem slots_word {logt : Nat} (hl : 0 < logt) {qs : List Nat} (hq : ∀ q ∈ qs, 2 ≤ q ∧ q < 2 ^ 64) (size : Nat)
    (D : Nat → Nat → Nat) {p l : Nat} (hp : p < size) (hll : l < qs.length) (hx : D p l < qs.getD l 0) :
    ((slots logt qs size).map fun s => (s, (D s.1 s.2.1 >>> (s.2.2 * logt)) &&& (2 ^ logt - 1))).foldl
      (wordStep logt p l) 0 = D p l := by
  have hmem : qs.getD l 0 ∈ qs := by rw [List.getD_eq_getElem _ _ hll]; exact List.getElem_mem _
  obtain ⟨q1, q2⟩ := hq _ hmem
  obtain ⟨r1, r2⟩ := localRatio_spec hl q1
  rw [List.foldl_map]
  unfold slots
  rw [List.foldl_flatMap]
  have hblock : ∀ (p' l' acc : Nat), ((List.range (localRatio logt (qs.getD l' 0))).map fun i => (p', l', i)).foldl
      (fun x y => wordStep logt p l x (y, (D y.1 y.2.1 >>> (y.2.2 * logt)) &&& (2 ^ logt - 1))) acc =
      if l' = l then (if p' = p then D p l else acc) else acc := by
    intro p' l' acc
    rw [List.foldl_map]
    unfold wordStep
    by_cases h1 : l' = l
    · by_cases h2 : p' = p
      · subst h1 h2
        simp only [and_self, if_true]
        rw [digits_word (by omega) _ _ r1]
        exact Nat.mod_eq_of_lt (by omega)
      · rw [if_pos h1, if_neg h2]
        simp only [if_neg fun hh : p = p' ∧ l = l' => h2 hh.1.symm]
        exact foldl_id _ _
    · rw [if_neg h1]
      simp only [if_neg fun hh : p = p' ∧ l = l' => h1 hh.2.symm]
      exact foldl_id _ _
  have hrow : ∀ (p' acc : Nat), ((List.range qs.length).flatMap fun l' =>
      (List.range (localRatio logt (qs.getD l' 0))).map fun i => (p', l', i)).foldl
      (fun x y => wordStep logt p l x (y, (D y.1 y.2.1 >>> (y.2.2 * logt)) &&& (2 ^ logt - 1))) acc =
      if p' = p then D p l else acc := by
    intro p' acc
    rw [List.foldl_flatMap]
    simp only [hblock]
    by_cases h2 : p' = p
    · simp only [if_pos h2]
      rw [foldl_pick, if_pos hll]
    · simp only [if_neg h2, ite_self]
      exact foldl_id _ _
  simp only [hrow]
  rw [foldl_pick, if_pos hp]

section

variable {S : Seal} (H : Laws S)

include H in
theorem ratio_pos {logt : Nat} (hl : 0 < logt) : 0 < expansionRatio logt S.lastQs := by
  obtain ⟨h1, h2⟩ := H.last_primes
  obtain ⟨q, qs, hq⟩ := List.exists_cons_of_ne_nil h1
  unfold expansionRatio
  rw [hq, List.map_cons, List.sum_cons]
  have := (localRatio_spec hl (h2 q (by rw [hq]; simp)).1).1
  omega

/-- The number of plaintexts of a ciphertext. -/
def perCt (S : Seal) (logt : Nat) : Nat := 2 * expansionRatio logt S.lastQs

theorem decompose_length {a : Nat} {c : S.Ct} {m : Rq S.L S.t} (h : H.Last a c m) (logt : Nat) :
    (decompose S logt c).length = perCt S logt := by
  unfold decompose
  rw [List.length_map, slots_length, H.last_size h]
  rfl

theorem decompose_lt {logt : Nat} (c : S.Ct) : ∀ p ∈ decompose S logt c, ∀ k, p k < 2 ^ logt := by
  intro p hp k
  unfold decompose at hp
  obtain ⟨s, -, rfl⟩ := List.mem_map.1 hp
  simp only
  rw [Nat.and_two_pow_sub_one_eq_mod]
  exact Nat.mod_lt _ (Nat.pow_pos (by norm_num))

/-- Composing what was decomposed gives the ciphertext back. -/
theorem compose_ok {logt : Nat} (hl : 0 < logt) {a : Nat} {c : S.Ct} {m : Rq S.L S.t} (h : H.Last a c m)
    {pts : List Plain} (hlen : pts.length = perCt S logt)
    (hp : ∀ b (h1 : b < pts.length) (h2 : b < (decompose S logt c).length), ∀ k < S.n,
      pts[b] k = (decompose S logt c)[b] k) :
    H.Last a (compose S logt pts) m := by
  have hr := ratio_pos H hl
  have hsize : pts.length / expansionRatio logt S.lastQs = 2 := by
    rw [hlen]
    exact Nat.mul_div_cancel _ hr
  unfold compose
  simp only
  rw [hsize]
  refine H.last_copy _ h fun p hp2 l hll k hk => ?_
  rw [foldl_word]
  have hmap : (((slots logt S.lastQs 2).zip pts).map fun x => (x.1, x.2 k)) =
      (slots logt S.lastQs 2).map fun s => (s, (S.data c s.1 s.2.1 k >>> (s.2.2 * logt)) &&& (2 ^ logt - 1)) := by
    have hsl := slots_length logt S.lastQs 2
    refine List.ext_getElem ?_ fun b h1 h2 => ?_
    · rw [List.length_map, List.length_zip, List.length_map, hsl, hlen]
      unfold perCt
      omega
    · rw [List.length_map] at h2
      have hb : b < pts.length := by rw [hlen]; unfold perCt; omega
      have hb2 : b < (decompose S logt c).length := by rw [decompose_length H h]; omega
      rw [List.getElem_map, List.getElem_zip, List.getElem_map]
      simp only
      rw [hp b hb hb2 k hk]
      have hd : decompose S logt c = (slots logt S.lastQs 2).map fun s k =>
          (S.data c s.1 s.2.1 k >>> (s.2.2 * logt)) &&& (2 ^ logt - 1) := by
        unfold decompose; rw [H.last_size h]
      rw [List.getElem_of_eq hd hb2, List.getElem_map]
  rw [hmap]
  exact slots_word hl H.last_primes.2 2 (fun p l => S.data c p l k) hp2 hll (H.last_words h p hp2 l hll k hk)

end

end Psi.SealPir
