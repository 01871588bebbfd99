import Verif.Rr22.IntersectProps
import Mathlib.Data.Set.Card
import Mathlib.Data.Finite.Prod
import Mathlib.Data.Fintype.Pi
import Mathlib.SetTheory.Cardinal.Finite
import Mathlib.Data.Nat.ModEq
import Mathlib.Data.List.ProdSigma
import Mathlib.Tactic.Ring

/-!
# C120: RR22 goes wrong in a bucket as rarely as its security parameter says

All functions from items to 128-bit values are counted, as the values of the OPRF: the same at both parties by C22.
-/

namespace Psi.Rr22
open Psi.Spec

section
variable {α : Type}

/-- Functions whose value at `v` has a given remainder, which the other values may determine. -/
theorem card_rest [DecidableEq α] [Finite α] {N K : Nat} (hKN : K ∣ N) (hN : 0 < N) (v : α) (c : (α → Fin N) → Nat)
    (hc : ∀ ω x, c (Function.update ω v x) = c ω) :
    {ω : α → Fin N | (ω v).val % K = c ω % K}.ncard * K ≤ Nat.card (α → Fin N) := by
  rw [← Nat.card_coe_set_eq]
  have hK : ∀ a, a * K = a * Nat.card (Fin K) := fun a => by rw [Nat.card_fin]
  rw [hK, ← Nat.card_prod]
  refine Nat.card_le_card_of_injective (fun x => Function.update x.1.1 v ⟨((x.1.1 v).val + x.2.val) % N, Nat.mod_lt _ hN⟩) ?_
  rintro ⟨⟨ω, h⟩, k⟩ ⟨⟨ω', h'⟩, k'⟩ he
  have he : Function.update ω v _ = Function.update ω' v _ := he
  have h : (ω v).val % K = c ω % K := h
  have h' : (ω' v).val % K = c ω' % K := h'
  have hcc : c ω = c ω' := by
    rw [← hc ω, he, hc]
  have hv := congrArg Fin.val (congrFun he v)
  rw [Function.update_self, Function.update_self] at hv
  have hv : (ω v).val + k.val ≡ (ω' v).val + k'.val [MOD N] := hv
  have hrest : (ω v).val ≡ (ω' v).val [MOD K] := by
    unfold Nat.ModEq
    rw [h, h', hcc]
  have hk : k = k' := Fin.ext (Nat.ModEq.eq_of_lt_of_lt (Nat.ModEq.add_left_cancel hrest (hv.of_dvd hKN)) k.2 k'.2)
  subst hk
  have hvv : ω v = ω' v := Fin.ext (Nat.ModEq.eq_of_lt_of_lt (Nat.ModEq.add_right_cancel' _ hv) (ω v).2 (ω' v).2)
  have hω : ω = ω' := by
    funext p
    by_cases hp : p = v
    · rw [hp, hvv]
    · have := congrFun he p
      rwa [Function.update_of_ne hp, Function.update_of_ne hp] at this
  subst hω
  rfl

/-- Of several events at least one. -/
theorem card_some {ι Ω : Type} [Finite Ω] (E : ι → Set Ω) (K T : Nat) : ∀ L : List ι, (∀ i ∈ L, (E i).ncard * K ≤ T) →
    {ω | ∃ i ∈ L, ω ∈ E i}.ncard * K ≤ L.length * T
  | [], _ => by simp
  | i :: L, h => by
    have ih := card_some E K T L fun j hj => h j (List.mem_cons_of_mem _ hj)
    have h1 := h i List.mem_cons_self
    have hs : {ω | ∃ j ∈ i :: L, ω ∈ E j} = E i ∪ {ω | ∃ j ∈ L, ω ∈ E j} := by
      ext ω
      simp
    rw [hs]
    calc _ ≤ ((E i).ncard + {ω | ∃ j ∈ L, ω ∈ E j}.ncard) * K := Nat.mul_le_mul_right _ (Set.ncard_union_le _ _)
      _ ≤ (L.length + 1) * T := by
        rw [Nat.add_mul, Nat.succ_mul]
        omega

/-- The values for which the step from values to results does not give both parties exactly the common items of the bucket. -/
def Wrong (m : Nat) (xs ys : List (α × Nat)) (chunks : (α → Fin (2 ^ 128)) → List (List Nat)) : Set (α → Fin (2 ^ 128)) :=
  {ω | ¬ ∃ w, receive m ys.length (xs.map fun x => (ω x.1).val) (xs.map Prod.snd) (chunks ω)
        (sendBuf m (ys.map fun y => (ω y.1).val)) (cntMap (ys.map Prod.snd)) = some w ∧
      ExactIndex xs ys (receiverLines w) ∧ ExactIndex ys xs (senderLines true w) ∧ senderLines false w = []}

/-- **C120** A wrong result comes from one of the `n * m` pairs of items: two different ones with one truncated value, or the same
one with the truncated value zero. -/
theorem C120_wrong_values [Finite α] {m : Nat} (hm : 0 < m) (hm' : m ≤ 16) {xs ys : List (α × Nat)}
    (hx : (xs.map Prod.fst).Nodup) (hy : (ys.map Prod.fst).Nodup) (hxl : xs.length ≤ 2 ^ 32) (hyl : ys.length ≤ 2 ^ 32)
    (chunks : (α → Fin (2 ^ 128)) → List (List Nat)) (hc : ∀ ω, (chunks ω).flatten.Perm (List.range ys.length)) :
    (Wrong m xs ys chunks).ncard * 256 ^ m ≤ xs.length * ys.length * Nat.card (α → Fin (2 ^ 128)) := by
  classical
  let E : (α × Nat) × (α × Nat) → Set (α → Fin (2 ^ 128)) := fun e =>
    if e.1.1 = e.2.1 then {ω | (ω e.1.1).val % 256 ^ m = 0 % 256 ^ m} else {ω | (ω e.1.1).val % 256 ^ m = (ω e.2.1).val % 256 ^ m}
  have hd : 256 ^ m ∣ 2 ^ 128 := by
    rw [show (2 : Nat) ^ 128 = 256 ^ 16 by decide]
    exact Nat.pow_dvd_pow _ hm'
  have hE : ∀ e ∈ xs ×ˢ ys, (E e).ncard * 256 ^ m ≤ Nat.card (α → Fin (2 ^ 128)) := by
    rintro ⟨x, y⟩ -
    by_cases h : x.1 = y.1
    · have he : E (x, y) = {ω | (ω x.1).val % 256 ^ m = 0 % 256 ^ m} := if_pos h
      rw [he]
      exact card_rest hd (by decide) x.1 (fun _ => 0) fun _ _ => rfl
    · have he : E (x, y) = {ω | (ω x.1).val % 256 ^ m = (ω y.1).val % 256 ^ m} := if_neg h
      rw [he]
      exact card_rest hd (by decide) x.1 (fun ω => (ω y.1).val) fun ω v => by
        show (Function.update ω x.1 v y.1).val = (ω y.1).val
        rw [Function.update_of_ne (Ne.symm h)]
  have h := card_some E (256 ^ m) _ (xs ×ˢ ys) hE
  rw [List.length_product] at h
  refine (Nat.mul_le_mul_right _ (Set.ncard_le_ncard ?_ (Set.toFinite _))).trans h
  intro ω hω
  by_contra hno
  have key : ∀ x ∈ xs, ∀ y ∈ ys, ω ∉ E (x, y) := fun x hx y hy hin => hno ⟨(x, y), List.mem_product.2 ⟨hx, hy⟩, hin⟩
  refine hω (C24_intersection_exact_partial (α := α) hm hm' (vR := fun a => (ω a).val) (vS := fun a => (ω a).val)
    ⟨fun x _ => (ω x.1).2, fun y _ => (ω y.1).2, fun x hx y hy => ⟨fun he => ?_, fun he => by rw [he]⟩,
      fun x hx y hy he h0 => ?_⟩ hx hy hxl hyl (chunks ω) (hc ω))
  · by_contra hne
    refine key x hx y hy ?_
    show ω ∈ if x.1 = y.1 then _ else _
    rw [if_neg hne]
    exact he
  · refine key x hx y hy ?_
    show ω ∈ if x.1 = y.1 then _ else _
    rw [if_pos he]
    show (ω x.1).val % 256 ^ m = 0 % 256 ^ m
    rw [he, Nat.zero_mod]
    exact h0

/-- **C120** With the length that both parties compute, at most one in `2 ^ ssp` values is wrong; where the length is cut to 16
bytes, or nothing is cut off, at most `n * m` in `2 ^ 128`. -/
theorem C120_margin [Finite α] {ceilLog2 : Nat → Nat} (hlog : ∀ p, 0 < p → p ≤ 2 ^ 48 → ceilLog2 p = Nat.clog 2 p)
    {xs ys : List (α × Nat)} (hx : (xs.map Prod.fst).Nodup) (hy : (ys.map Prod.fst).Nodup) (hxl : xs.length ≤ 2 ^ 32)
    (hyl : ys.length ≤ 2 ^ 32) (hx0 : xs ≠ []) (hy0 : ys ≠ []) (h48 : xs.length * ys.length ≤ 2 ^ 48) {ssp : Nat} (hssp : 0 < ssp)
    (malicious compress : Bool) (chunks : (α → Fin (2 ^ 128)) → List (List Nat))
    (hc : ∀ ω, (chunks ω).flatten.Perm (List.range ys.length)) :
    ∃ m, maskSize ceilLog2 xs.length ys.length ssp malicious compress = .bytes m ∧
      maskSize ceilLog2 ys.length xs.length ssp malicious compress = .bytes m ∧
      ((Wrong m xs ys chunks).ncard * 2 ^ ssp ≤ Nat.card (α → Fin (2 ^ 128)) ∨
        m = 16 ∧ (Wrong m xs ys chunks).ncard * 2 ^ 128 ≤ xs.length * ys.length * Nat.card (α → Fin (2 ^ 128))) := by
  have hxp : 0 < xs.length := List.length_pos_iff.2 hx0
  have hyp : 0 < ys.length := List.length_pos_iff.2 hy0
  have hp : 0 < xs.length * ys.length := Nat.mul_pos hxp hyp
  obtain ⟨m, h1, h2, h3, -⟩ := C25_margin_partial ceilLog2 hlog xs.length ys.length ssp hxp hyp h48 malicious compress
  have hm : 0 < m := by
    rcases h3 with h3 | h3
    · omega
    · rcases Nat.eq_zero_or_pos m with h0 | h0
      · subst h0
        have h4 : 2 ^ 1 ≤ 2 ^ ssp := Nat.pow_le_pow_right (by decide) hssp
        have h5 : 2 ^ ssp * 1 ≤ 2 ^ ssp * (xs.length * ys.length) := Nat.mul_le_mul_left _ hp
        omega
      · exact h0
  refine ⟨m, h1, ?_, ?_⟩
  · rw [← h1]
    exact C25_same_on_both_sides ..
  have h := C120_wrong_values hm h2 hx hy hxl hyl chunks hc
  rcases h3 with h3 | h3
  · subst h3
    exact .inr ⟨rfl, by simpa using h⟩
  · left
    generalize (Wrong m xs ys chunks).ncard = B at *
    generalize Nat.card (α → Fin (2 ^ 128)) = T at *
    generalize xs.length * ys.length = p at *
    have h6 : B * 2 ^ ssp * p ≤ T * p := by
      calc B * 2 ^ ssp * p = B * (2 ^ ssp * p) := by ring
        _ ≤ B * 256 ^ m := Nat.mul_le_mul_left _ h3
        _ ≤ p * T := h
        _ = T * p := Nat.mul_comm _ _
    exact Nat.le_of_mul_le_mul_right h6 hp

/-- **C120** Several buckets, each with its own length: the parts add up. -/
theorem C120_buckets [Finite α] {ceilLog2 : Nat → Nat} (hlog : ∀ p, 0 < p → p ≤ 2 ^ 48 → ceilLog2 p = Nat.clog 2 p) {ssp : Nat}
    (hssp : 0 < ssp) (bs : List (List (α × Nat) × List (α × Nat))) (chunks : List (α × Nat) → (α → Fin (2 ^ 128)) → List (List Nat))
    (hb : ∀ b ∈ bs, (b.1.map Prod.fst).Nodup ∧ (b.2.map Prod.fst).Nodup ∧ b.1 ≠ [] ∧ b.2 ≠ [] ∧ b.1.length ≤ 2 ^ 32 ∧
      b.2.length ≤ 2 ^ 32 ∧ b.1.length * b.2.length ≤ 2 ^ 48 ∧ ∀ ω, (chunks b.2 ω).flatten.Perm (List.range b.2.length))
    (hle : ∀ b ∈ bs, b.1.length * b.2.length * 2 ^ ssp ≤ 2 ^ 128) :
    {ω | ∃ b ∈ bs, ∃ m, maskSize ceilLog2 b.1.length b.2.length ssp false true = .bytes m ∧ ω ∈ Wrong m b.1 b.2 (chunks b.2)}.ncard
        * 2 ^ ssp ≤ bs.length * Nat.card (α → Fin (2 ^ 128)) := by
  refine card_some (fun b : List (α × Nat) × List (α × Nat) => {ω | ∃ m, maskSize ceilLog2 b.1.length b.2.length ssp false true = .bytes m ∧
    ω ∈ Wrong m b.1 b.2 (chunks b.2)}) _ _ bs fun b hmem => ?_
  obtain ⟨h1, h2, h3, h4, h5, h6, h7, h8⟩ := hb b hmem
  obtain ⟨m, e1, -, e2⟩ := C120_margin hlog h1 h2 h5 h6 h3 h4 h7 hssp false true (chunks b.2) h8
  have hset : {ω | ∃ m, maskSize ceilLog2 b.1.length b.2.length ssp false true = .bytes m ∧ ω ∈ Wrong m b.1 b.2 (chunks b.2)} =
      Wrong m b.1 b.2 (chunks b.2) := by
    ext ω
    refine ⟨?_, fun h => ⟨m, e1, h⟩⟩
    rintro ⟨m', e1', h⟩
    rw [e1] at e1'
    cases e1'
    exact h
  rw [hset]
  rcases e2 with e2 | ⟨-, e2⟩
  · exact e2
  · have hl := hle b hmem
    generalize (Wrong m b.1 b.2 (chunks b.2)).ncard = B at *
    generalize Nat.card (α → Fin (2 ^ 128)) = T at *
    generalize b.1.length * b.2.length = p at *
    have h9 : B * 2 ^ ssp * 2 ^ 128 ≤ T * 2 ^ 128 := by
      calc B * 2 ^ ssp * 2 ^ 128 = 2 ^ ssp * (B * 2 ^ 128) := by ring
        _ ≤ 2 ^ ssp * (p * T) := Nat.mul_le_mul_left _ e2
        _ = T * (p * 2 ^ ssp) := by ring
        _ ≤ T * 2 ^ 128 := Nat.mul_le_mul_left _ hl
    exact Nat.le_of_mul_le_mul_right h9 (by decide)

end

/-! ### Example: the items of C24, among the numbers below 16 -/

def exXsF : List (Fin 16 × Nat) := [(5, 0), (7, 2), (9, 1)]
def exYsF : List (Fin 16 × Nat) := [(9, 4), (1, 0), (5, 3)]

example := C120_wrong_values (m := 2) (by decide) (by decide) (xs := exXsF) (ys := exYsF) (by decide) (by decide) (by decide)
  (by decide) (fun _ => [[2], [0, 1]]) (fun _ => by decide)

example := C120_margin (ceilLog2 := Nat.clog 2) (fun _ _ _ => rfl) (xs := exXsF) (ys := exYsF) (by decide) (by decide) (by decide)
  (by decide) (by decide) (by decide) (by decide) (ssp := 40) (by decide) false true (fun _ => [[2], [0, 1]]) (fun _ => by decide)

example := C120_buckets (ceilLog2 := Nat.clog 2) (fun _ _ _ => rfl) (ssp := 40) (by decide) [(exXsF, exYsF), ([(2, 0)], [(2, 1)])]
  (fun ys _ => [List.range ys.length]) (by
    intro b hb
    simp only [List.mem_cons, List.not_mem_nil, or_false] at hb
    rcases hb with rfl | rfl <;> exact ⟨by decide, by decide, by decide, by decide, by decide, by decide, by decide, fun _ => by simp⟩)
  (by
    intro b hb
    simp only [List.mem_cons, List.not_mem_nil, or_false] at hb
    rcases hb with rfl | rfl <;> decide)

end Psi.Rr22
