import Mathlib.Data.Set.Card
import Mathlib.Data.Finite.Prod
import Mathlib.Data.Fintype.Pi
import Mathlib.Data.Fintype.EquivFin
import Mathlib.SetTheory.Cardinal.Finite
import Mathlib.Algebra.Order.Chebyshev
import Mathlib.Algebra.BigOperators.Group.Finset.Sigma
import Mathlib.Tactic.Ring
import Mathlib.Tactic.Linarith

/-!
# How many functions to points have two points with one image

`g` maps points to shorter values that need not be equally frequent: at most `M` points share one.
-/

namespace Psi.Ecdh

section
variable {α P β : Type} [DecidableEq α] [Finite α] [Finite P] (g : P → β)

/-- A value determined by the others is taken for at most `M` points. -/
theorem card_fiber {M : Nat} (hM : ∀ v, {p | g p = v}.ncard ≤ M) (E : (α → P) → Prop) (v : α) (c : (α → P) → β)
    (hE : ∀ ω x, E (Function.update ω v x) ↔ E ω) (hc : ∀ ω x, c (Function.update ω v x) = c ω) :
    {ω : α → P | E ω ∧ g (ω v) = c ω}.ncard * Nat.card P ≤ M * {ω : α → P | E ω}.ncard := by
  have hι : ∀ w, ∃ ι : P → Fin M, ∀ p q, g p = w → g q = w → ι p = ι q → p = q := by
    intro w
    rcases Nat.eq_zero_or_pos M with h0 | h0
    · have he : ∀ p, g p ≠ w := fun p hp => by
        have h1 := hM w
        rw [h0, Nat.le_zero, Set.ncard_eq_zero (Set.toFinite _)] at h1
        exact Set.eq_empty_iff_forall_notMem.1 h1 p hp
      by_cases hP : Nonempty P
      · obtain ⟨p⟩ := hP
        have h1 := hM (g p)
        rw [h0, Nat.le_zero, Set.ncard_eq_zero (Set.toFinite _)] at h1
        exact absurd rfl (Set.eq_empty_iff_forall_notMem.1 h1 p)
      · exact ⟨fun p => absurd ⟨p⟩ hP, fun p => absurd ⟨p⟩ hP⟩
    · have : Fintype {p | g p = w} := Fintype.ofFinite _
      have h1 : Fintype.card {p | g p = w} ≤ Fintype.card (Fin M) := by
        rw [Fintype.card_fin, ← Nat.card_eq_fintype_card, Nat.card_coe_set_eq]
        exact hM w
      obtain ⟨f⟩ := Function.Embedding.nonempty_of_card_le h1
      classical
      refine ⟨fun p => if h : g p = w then f ⟨p, h⟩ else ⟨0, h0⟩, fun p q hp hq he => ?_⟩
      simp only [hp, hq, dif_pos] at he
      exact congrArg Subtype.val (f.injective he)
  choose ι hι using hι
  rw [Nat.mul_comm M, ← Nat.card_coe_set_eq, ← Nat.card_coe_set_eq, ← Nat.card_prod]
  have hcard : Nat.card {ω : α → P | E ω} * M = Nat.card ({ω : α → P | E ω} × Fin M) := by
    rw [Nat.card_prod, Nat.card_fin]
  rw [hcard]
  refine Nat.card_le_card_of_injective (fun x => (⟨Function.update x.1.1 v x.2, (hE _ _).2 x.1.2.1⟩, ι (c x.1.1) (x.1.1 v))) ?_
  rintro ⟨⟨ω, h1, h2⟩, p⟩ ⟨⟨ω', h1', h2'⟩, p'⟩ he
  simp only [Prod.mk.injEq, Subtype.mk.injEq] at he
  obtain ⟨he, hi⟩ := he
  have hcc : c ω = c ω' := by rw [← hc ω p, he, hc]
  have hp : p = p' := by
    have := congrFun he v
    rwa [Function.update_self, Function.update_self] at this
  have hv : ω v = ω' v := hι (c ω) _ _ h2 (hcc ▸ h2') (by rw [hi, hcc])
  have hω : ω = ω' := by
    funext q
    by_cases hq : q = v
    · rw [hq, hv]
    · have := congrFun he q
      rwa [Function.update_of_ne hq, Function.update_of_ne hq] at this
  subst hω
  subst hp
  rfl

/-- Some pair of the list has one image. -/
def Touch (L : List (α × α)) : Set (α → P) := {ω | ∃ e ∈ L, g (ω e.1) = g (ω e.2)}

omit [DecidableEq α] [Finite α] [Finite P] in
theorem touch_cons (e : α × α) (L : List (α × α)) : Touch g (e :: L) = {ω | g (ω e.1) = g (ω e.2)} ∪ Touch g L := by
  ext ω
  simp [Touch]

theorem touch_le {M : Nat} (hM : ∀ v, {p | g p = v}.ncard ≤ M) : ∀ L : List (α × α), (∀ e ∈ L, e.1 ≠ e.2) →
    (Touch g L).ncard * Nat.card P ≤ L.length * M * Nat.card (α → P)
  | [], _ => by simp [Touch]
  | e :: L, h => by
    have ih := touch_le hM L fun e he => h e (List.mem_cons_of_mem _ he)
    have h1 := card_fiber g hM (fun _ => True) e.1 (fun ω => g (ω e.2)) (by simp) (fun ω x => by
      rw [Function.update_of_ne (h e List.mem_cons_self).symm])
    simp only [true_and, Set.ofPred_true, Set.ncard_univ] at h1
    rw [touch_cons]
    calc _ ≤ ({ω : α → P | g (ω e.1) = g (ω e.2)}.ncard + (Touch g L).ncard) * Nat.card P :=
          Nat.mul_le_mul_right _ (Set.ncard_union_le _ _)
      _ ≤ (L.length + 1) * M * Nat.card (α → P) := by
        rw [Nat.add_mul, Nat.add_mul, Nat.add_mul, Nat.one_mul]
        omega

/-- Pairs of points with one image: at least what equal frequencies would give. -/
theorem card_same [Finite β] : Nat.card P ^ 2 ≤ Nat.card β * Nat.card {x : P × P // g x.1 = g x.2} := by
  classical
  have := Fintype.ofFinite P
  have := Fintype.ofFinite β
  have h := sq_sum_le_card_mul_sum_sq (s := (Finset.univ : Finset β)) (f := fun b => Fintype.card {p // g p = b})
  have h1 : ∑ b, Fintype.card {p // g p = b} = Nat.card P := by
    rw [← Fintype.card_sigma, Nat.card_eq_fintype_card]
    exact Fintype.card_congr (Equiv.sigmaFiberEquiv g)
  have h2 : ∑ b, Fintype.card {p // g p = b} ^ 2 = Nat.card {x : P × P // g x.1 = g x.2} := by
    simp only [sq, ← Fintype.card_prod]
    rw [← Fintype.card_sigma, Nat.card_eq_fintype_card]
    refine Fintype.card_congr ⟨fun x => ⟨(x.2.1.1, x.2.2.1), x.2.1.2.trans x.2.2.2.symm⟩,
      fun x => ⟨g x.1.2, ⟨x.1.1, x.2⟩, ⟨x.1.2, rfl⟩⟩, ?_, ?_⟩
    · rintro ⟨b, ⟨p, hp⟩, ⟨q, hq⟩⟩
      subst hq
      rfl
    · rintro ⟨⟨p, q⟩, h⟩
      rfl
  rw [h1, h2, Finset.card_univ, ← Nat.card_eq_fintype_card] at h
  exact_mod_cast h

omit [Finite α] in
theorem card_pair_ge [Finite β] {u v : α} (huv : u ≠ v) :
    Nat.card (α → P) ≤ Nat.card β * {ω : α → P | g (ω u) = g (ω v)}.ncard := by
  have h := card_same g
  have e : Nat.card ({ω : α → P | g (ω u) = g (ω v)} × P × P) = Nat.card ({x : P × P // g x.1 = g x.2} × (α → P)) := by
    refine Nat.card_congr ⟨fun x => (⟨(x.1.1 u, x.1.1 v), x.1.2⟩, Function.update (Function.update x.1.1 u x.2.1) v x.2.2),
      fun x => (⟨Function.update (Function.update x.2 u x.1.1.1) v x.1.1.2, by
        have hx := x.1.2
        simpa [Function.update_of_ne huv] using hx⟩, x.2 u, x.2 v), ?_, ?_⟩
    · rintro ⟨⟨ω, h⟩, p, q⟩
      simp only [Prod.mk.injEq, Subtype.mk.injEq, Function.update_self, Function.update_of_ne huv, and_true]
      funext z
      by_cases hv : z = v
      · rw [hv, Function.update_self]
      · by_cases hu : z = u
        · rw [hu, Function.update_of_ne huv, Function.update_self]
        · simp only [Function.update_of_ne hv, Function.update_of_ne hu]
    · rintro ⟨⟨⟨p, q⟩, h⟩, ω⟩
      simp only [Prod.mk.injEq, Function.update_self, Function.update_of_ne huv, true_and]
      funext z
      by_cases hv : z = v
      · rw [hv, Function.update_self]
      · by_cases hu : z = u
        · rw [hu, Function.update_of_ne huv, Function.update_self]
        · simp only [Function.update_of_ne hv, Function.update_of_ne hu]
  simp only [Nat.card_prod, Nat.card_coe_set_eq] at e
  rcases Nat.eq_zero_or_pos (Nat.card P) with h0 | h0
  · have : Nat.card (α → P) = 0 := by
      rw [Nat.card_eq_zero] at h0 ⊢
      rcases h0 with h0 | h0
      · exact .inl ⟨fun ω => h0.false (ω u)⟩
      · exact absurd h0 (by simpa using (inferInstance : Finite P))
    omega
  · generalize Nat.card (α → P) = T at *
    generalize Nat.card {x : P × P // g x.1 = g x.2} = S at *
    generalize {ω : α → P | g (ω u) = g (ω v)}.ncard = A at *
    generalize Nat.card P = N at *
    have h3 : T * (N * N) ≤ Nat.card β * A * (N * N) := by
      calc T * (N * N) = N ^ 2 * T := by ring
        _ ≤ Nat.card β * S * T := Nat.mul_le_mul_right _ h
        _ = Nat.card β * (S * T) := by ring
        _ = Nat.card β * (A * (N * N)) := by rw [e]
        _ = _ := by ring
    exact Nat.le_of_mul_le_mul_right h3 (Nat.mul_pos h0 h0)

/-- Different pairs, each with one item on either side, rarely touch at once. -/
theorem inter_le {M : Nat} (hM : ∀ v, {p | g p = v}.ncard ≤ M) (S : α → Prop) {e : α × α} (he : S e.1 ∧ ¬ S e.2) :
    ∀ L : List (α × α), (∀ f ∈ L, S f.1 ∧ ¬ S f.2) → e ∉ L →
    ({ω : α → P | g (ω e.1) = g (ω e.2)} ∩ Touch g L).ncard * Nat.card P ≤
      L.length * M * {ω : α → P | g (ω e.1) = g (ω e.2)}.ncard
  | [], _, _ => by simp [Touch]
  | f :: L, h, hne => by
    have h12 : ∀ {a b : α}, S a → ¬ S b → a ≠ b := fun ha hb h => hb (h ▸ ha)
    have ih := inter_le hM S he L (fun f hf => h f (List.mem_cons_of_mem _ hf)) fun hn => hne (List.mem_cons_of_mem _ hn)
    obtain ⟨hf1, hf2⟩ := h f List.mem_cons_self
    have key : {ω : α → P | g (ω e.1) = g (ω e.2) ∧ g (ω f.1) = g (ω f.2)}.ncard * Nat.card P ≤
        M * {ω : α → P | g (ω e.1) = g (ω e.2)}.ncard := by
      by_cases h1 : f.1 = e.1
      · have h2 : e.2 ≠ f.2 := fun h => hne (by rw [List.mem_cons]; exact .inl (Prod.ext h1.symm h))
        have hk := card_fiber g hM (fun ω => g (ω e.1) = g (ω e.2)) f.2 (fun ω => g (ω f.1)) (fun ω x => by
          rw [Function.update_of_ne (h12 he.1 hf2), Function.update_of_ne h2]) (fun ω x => by
          rw [Function.update_of_ne (h12 hf1 hf2)])
        refine le_trans (le_of_eq ?_) hk
        congr 2
        exact Set.ext fun ω => and_congr_right fun _ => eq_comm
      · exact card_fiber g hM (fun ω => g (ω e.1) = g (ω e.2)) f.1 (fun ω => g (ω f.2)) (fun ω x => by
          rw [Function.update_of_ne (fun h => h1 h.symm), Function.update_of_ne (h12 hf1 he.2).symm]) (fun ω x => by
          rw [Function.update_of_ne (h12 hf1 hf2).symm])
    rw [touch_cons, Set.inter_union_distrib_left]
    calc _ ≤ (({ω : α → P | g (ω e.1) = g (ω e.2)} ∩ {ω | g (ω f.1) = g (ω f.2)}).ncard +
            ({ω : α → P | g (ω e.1) = g (ω e.2)} ∩ Touch g L).ncard) * Nat.card P :=
          Nat.mul_le_mul_right _ (Set.ncard_union_le _ _)
      _ ≤ (L.length + 1) * M * {ω : α → P | g (ω e.1) = g (ω e.2)}.ncard := by
        rw [Nat.add_mul, Nat.add_mul, Nat.add_mul, Nat.one_mul]
        have : ({ω : α → P | g (ω e.1) = g (ω e.2)} ∩ {ω | g (ω f.1) = g (ω f.2)}) =
          {ω : α → P | g (ω e.1) = g (ω e.2) ∧ g (ω f.1) = g (ω f.2)} := rfl
        rw [this]
        omega

/-- So nearly all pairs count. -/
theorem touch_ge [Finite β] [Nonempty P] {M : Nat} (hM : ∀ v, {p | g p = v}.ncard ≤ M) (S : α → Prop) :
    ∀ L : List (α × α), (∀ f ∈ L, S f.1 ∧ ¬ S f.2) → L.Nodup → 2 * L.length * M ≤ Nat.card P →
    L.length * Nat.card (α → P) ≤ 2 * Nat.card β * (Touch g L).ncard
  | [], _, _, _ => by simp
  | e :: L, h, hnd, hlen => by
    have h12 : ∀ {a b : α}, S a → ¬ S b → a ≠ b := fun ha hb h => hb (h ▸ ha)
    rw [List.nodup_cons] at hnd
    rw [List.length_cons] at hlen
    have he := h e List.mem_cons_self
    have hlen' : 2 * L.length * M ≤ Nat.card P := by
      have : 2 * L.length * M ≤ 2 * (L.length + 1) * M := Nat.mul_le_mul_right _ (by omega)
      omega
    have ih := touch_ge hM S L (fun f hf => h f (List.mem_cons_of_mem _ hf)) hnd.2 hlen'
    have h1 := card_pair_ge g (P := P) (h12 he.1 he.2)
    have h2 := inter_le g hM S he L (fun f hf => h f (List.mem_cons_of_mem _ hf)) hnd.1 (P := P)
    have h3 := Set.ncard_union_add_ncard_inter {ω : α → P | g (ω e.1) = g (ω e.2)} (Touch g L) (Set.toFinite _) (Set.toFinite _)
    rw [touch_cons, List.length_cons]
    have hP : 0 < Nat.card P := Nat.card_pos
    generalize ({ω : α → P | g (ω e.1) = g (ω e.2)} ∪ Touch g L).ncard = U at *
    generalize ({ω : α → P | g (ω e.1) = g (ω e.2)} ∩ Touch g L).ncard = I at *
    generalize {ω : α → P | g (ω e.1) = g (ω e.2)}.ncard = A at *
    generalize (Touch g L).ncard = B at *
    generalize Nat.card (α → P) = T at *
    generalize Nat.card β = W at *
    have h4 : 2 * I ≤ A := by
      have h5 : 2 * I * Nat.card P ≤ A * Nat.card P := by
        calc 2 * I * Nat.card P = 2 * (I * Nat.card P) := by ring
          _ ≤ 2 * (L.length * M * A) := Nat.mul_le_mul_left _ h2
          _ = 2 * L.length * M * A := by ring
          _ ≤ Nat.card P * A := Nat.mul_le_mul_right _ hlen'
          _ = _ := by ring
      exact Nat.le_of_mul_le_mul_right h5 hP
    calc (L.length + 1) * T = L.length * T + T := by ring
      _ ≤ 2 * W * B + W * A := Nat.add_le_add ih h1
      _ = W * (2 * B + A) := by ring
      _ ≤ W * (2 * U) := Nat.mul_le_mul_left _ (by omega)
      _ = _ := by ring

end

end Psi.Ecdh
