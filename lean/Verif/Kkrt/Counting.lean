import Mathlib.Data.Set.Card
import Mathlib.Data.Finite.Prod
import Mathlib.Data.Fintype.Pi
import Mathlib.SetTheory.Cardinal.Finite
import Mathlib.Tactic.Ring
import Mathlib.Tactic.Linarith

/-! # How many functions take the same value at two of given pairs of points -/

namespace Psi.Kkrt

section
variable {P V : Type} [DecidableEq P]

/-- One value is fixed by another. -/
theorem card_fixed (E : (P → V) → Prop) {u v : P} (huv : u ≠ v) (hE : ∀ ω x, E (Function.update ω v x) ↔ E ω) :
    {ω : P → V | E ω ∧ ω v = ω u}.ncard * Nat.card V = {ω : P → V | E ω}.ncard := by
  rw [← Nat.card_coe_set_eq, ← Nat.card_coe_set_eq, ← Nat.card_prod]
  refine Nat.card_congr ⟨fun x => ⟨Function.update x.1.1 v x.2, (hE _ _).2 x.1.2.1⟩,
    fun ω => (⟨Function.update ω.1 v (ω.1 u), (hE _ _).2 ω.2, by simp [huv]⟩, ω.1 v), ?_, ?_⟩
  · rintro ⟨⟨ω, h1, h2⟩, x⟩
    simp only [Prod.mk.injEq, Subtype.mk.injEq, Function.update_self, and_true]
    rw [Function.update_of_ne huv, Function.update_idem, ← h2, Function.update_eq_self]
  · rintro ⟨ω, h⟩
    simp

theorem card_pair {u v : P} (huv : u ≠ v) : {ω : P → V | ω u = ω v}.ncard * Nat.card V = Nat.card (P → V) := by
  have := card_fixed (V := V) (fun _ => True) (u := v) (v := u) huv.symm (by simp)
  simpa using this

/-- Some pair of the list takes one value. -/
def Meets (L : List (P × P)) : Set (P → V) := {ω | ∃ e ∈ L, ω e.1 = ω e.2}

omit [DecidableEq P] in
theorem meets_cons (e : P × P) (L : List (P × P)) : (Meets (e :: L) : Set (P → V)) = {ω | ω e.1 = ω e.2} ∪ Meets L := by
  ext ω
  simp [Meets]

theorem meets_le : ∀ L : List (P × P), (∀ e ∈ L, e.1 ≠ e.2) →
    (Meets L : Set (P → V)).ncard * Nat.card V ≤ L.length * Nat.card (P → V)
  | [], _ => by simp [Meets]
  | e :: L, h => by
    have ih := meets_le L fun e he => h e (List.mem_cons_of_mem _ he)
    have h1 := card_pair (V := V) (h e List.mem_cons_self)
    rw [meets_cons]
    calc _ ≤ ({ω : P → V | ω e.1 = ω e.2}.ncard + (Meets L : Set (P → V)).ncard) * Nat.card V :=
          Nat.mul_le_mul_right _ (Set.ncard_union_le _ _)
      _ ≤ (L.length + 1) * Nat.card (P → V) := by
        rw [Nat.add_mul, h1, Nat.succ_mul]
        omega

/-- Two different pairs, each with one point on either side, meet independently. -/
theorem card_two (S : P → Prop) {e f : P × P} (he : S e.1 ∧ ¬ S e.2) (hf : S f.1 ∧ ¬ S f.2) (hne : e ≠ f) :
    {ω : P → V | ω e.1 = ω e.2 ∧ ω f.1 = ω f.2}.ncard * Nat.card V * Nat.card V = Nat.card (P → V) := by
  have h12 : ∀ {a b : P}, S a → ¬ S b → a ≠ b := fun ha hb h => hb (h ▸ ha)
  rw [← card_pair (V := V) (h12 he.1 he.2)]
  congr 1
  by_cases h1 : f.1 = e.1
  · have h2 : f.2 ≠ e.2 := fun h => hne (Prod.ext h1 h).symm
    have := card_fixed (V := V) (fun ω => ω e.1 = ω e.2) (u := f.1) (v := f.2) (h12 hf.1 hf.2) (fun ω x => by
      rw [Function.update_of_ne (h12 he.1 hf.2), Function.update_of_ne h2.symm])
    rw [← this]
    congr 2
    exact Set.ext fun ω => and_congr_right fun _ => eq_comm
  · exact card_fixed (V := V) (fun ω => ω e.1 = ω e.2) (u := f.2) (v := f.1) (h12 hf.1 hf.2).symm (fun ω x => by
      rw [Function.update_of_ne (fun h => h1 h.symm), Function.update_of_ne (h12 hf.1 he.2).symm])

theorem inter_le [Finite P] [Finite V] (S : P → Prop) {e : P × P} (he : S e.1 ∧ ¬ S e.2) : ∀ L : List (P × P), (∀ f ∈ L, S f.1 ∧ ¬ S f.2) →
    e ∉ L → ({ω : P → V | ω e.1 = ω e.2} ∩ Meets L).ncard * Nat.card V * Nat.card V ≤ L.length * Nat.card (P → V)
  | [], _, _ => by simp [Meets]
  | f :: L, h, hn => by
    have ih := inter_le S he L (fun f hf => h f (List.mem_cons_of_mem _ hf)) fun hm => hn (List.mem_cons_of_mem _ hm)
    have h1 := card_two (V := V) S he (h f List.mem_cons_self) fun heq => hn (heq ▸ List.mem_cons_self)
    rw [meets_cons, Set.inter_union_distrib_left]
    calc _ ≤ (({ω : P → V | ω e.1 = ω e.2} ∩ {ω | ω f.1 = ω f.2}).ncard +
            ({ω : P → V | ω e.1 = ω e.2} ∩ Meets L).ncard) * Nat.card V * Nat.card V :=
          Nat.mul_le_mul_right _ (Nat.mul_le_mul_right _ (Set.ncard_union_le _ _))
      _ = {ω : P → V | ω e.1 = ω e.2 ∧ ω f.1 = ω f.2}.ncard * Nat.card V * Nat.card V +
            ({ω : P → V | ω e.1 = ω e.2} ∩ Meets L).ncard * Nat.card V * Nat.card V := by
          rw [Nat.add_mul, Nat.add_mul]
          rfl
      _ ≤ (L.length + 1) * Nat.card (P → V) := by
        rw [h1, Nat.succ_mul]
        omega

theorem meets_ge [Finite P] [Finite V] (S : P → Prop) : ∀ L : List (P × P), (∀ f ∈ L, S f.1 ∧ ¬ S f.2) → L.Nodup →
    2 * L.length * Nat.card V * Nat.card (P → V) ≤
      2 * (Meets L : Set (P → V)).ncard * Nat.card V * Nat.card V + L.length * L.length * Nat.card (P → V)
  | [], _, _ => by simp [Meets]
  | e :: L, h, hn => by
    have ih := meets_ge S L (fun f hf => h f (List.mem_cons_of_mem _ hf)) (List.nodup_cons.1 hn).2
    have he := h e List.mem_cons_self
    have h1 := inter_le (V := V) S he L (fun f hf => h f (List.mem_cons_of_mem _ hf)) (List.nodup_cons.1 hn).1
    have h2 := card_pair (V := V) (u := e.1) (v := e.2) (fun hh => he.2 (hh ▸ he.1))
    have h3 := Set.ncard_union_add_ncard_inter {ω : P → V | ω e.1 = ω e.2} (Meets L) (Set.toFinite _) (Set.toFinite _)
    rw [meets_cons, List.length_cons]
    generalize ({ω : P → V | ω e.1 = ω e.2} ∩ Meets L).ncard = i at *
    generalize ({ω : P → V | ω e.1 = ω e.2} ∪ Meets L).ncard = u at *
    generalize {ω : P → V | ω e.1 = ω e.2}.ncard = a at *
    generalize (Meets L : Set (P → V)).ncard = b at *
    generalize Nat.card V = N at *
    generalize Nat.card (P → V) = T at *
    generalize L.length = k at *
    subst h2
    have h4 : u * N * N + i * N * N = a * N * N + b * N * N := by rw [← Nat.add_mul, ← Nat.add_mul, h3]; ring
    nlinarith

end

end Psi.Kkrt
