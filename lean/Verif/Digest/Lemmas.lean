import Verif.Digest.Model
import Verif.Common.Spec
import Mathlib.Data.List.Induction
import Mathlib.Logic.Function.Iterate

/-! # The equal-input shortcut: lemmas -/

namespace Psi.Digest
open Psi.Spec

/-- Words of a prefix-free set can be read off their concatenation. -/
theorem flatten_inj (S : List Char → Prop) (hS : ∀ x y, S x → S y → x <+: y → x = y) (hne : ¬ S []) :
    ∀ a b : List Key, (∀ x ∈ a, S x) → (∀ x ∈ b, S x) → a.flatten = b.flatten → a = b := by
  intro a
  induction a with
  | nil =>
    intro b _ hb h
    cases b with
    | nil => rfl
    | cons y b =>
      have hy := hb y (by simp)
      simp only [List.flatten_nil, List.flatten_cons] at h
      have : y = [] := (List.append_eq_nil_iff.mp h.symm).1
      exact absurd (this ▸ hy) hne
  | cons x a ih =>
    intro b ha hb h
    cases b with
    | nil =>
      have hx := ha x (by simp)
      simp only [List.flatten_nil, List.flatten_cons] at h
      exact absurd ((List.append_eq_nil_iff.mp h).1 ▸ hx) hne
    | cons y b =>
      simp only [List.flatten_cons] at h
      have hx := ha x (by simp)
      have hy := hb y (by simp)
      have hxy : x = y := by
        have h1 : x <+: y ++ b.flatten := ⟨a.flatten, h⟩
        have h2 : y <+: y ++ b.flatten := ⟨b.flatten, rfl⟩
        rcases List.prefix_or_prefix_of_prefix h1 h2 with hp | hp
        · exact hS x y hx hy hp
        · exact (hS y x hy hx hp).symm
      subst hxy
      have := List.append_cancel_left h
      rw [ih b (fun z hz => ha z (by simp [hz])) (fun z hz => hb z (by simp [hz])) this]

theorem shortcutIndex_exact (a : List (Key × Nat)) (h : ∀ x ∈ a, x.2 = 0) : ExactIndex a a (shortcutIndex a) where
  nodup := by
    simp only [shortcutIndex, List.map_map]
    have : (Prod.fst ∘ fun i : Nat => (i, 0)) = (id : Nat → Nat) := rfl
    rw [this, List.map_id]
    exact List.nodup_range
  mem := by
    intro i d
    simp only [shortcutIndex, List.mem_map, List.mem_range, Prod.mk.injEq]
    constructor
    · rintro ⟨j, hj, rfl, rfl⟩
      have hm : a[j] ∈ a := List.getElem_mem hj
      have h0 := h _ hm
      refine ⟨a[j].1, a[j].2, by simp [hj], ?_⟩
      rw [← h0]
      exact hm
    · rintro ⟨x, e, hi, hm⟩
      obtain ⟨hj, _⟩ := List.getElem?_eq_some_iff.mp hi
      exact ⟨i, hj, rfl, (h _ hm).symm⟩

theorem runs_snoc {C D : Type} (H : List Char → D) (hist : List (C × Table C)) (x : C × Table C) :
    runs H (hist ++ [x]) = some (summary H (runs H hist) x.1 x.2) := by
  simp [runs]

/-- What is stored was computed from the file of some earlier run. -/
theorem runs_source {C D : Type} (H : List Char → D) (hist : List (C × Table C)) (m : Summary D) :
    runs H hist = some m → ∃ x ∈ hist, m = fresh H x.1 x.2 := by
  induction hist using List.reverseRecOn generalizing m with
  | nil => intro h; exact absurd h (by simp [runs])
  | append_singleton hist x ih =>
    intro h
    rw [runs_snoc, Option.some.injEq] at h
    subst h
    unfold summary
    cases hs : runs H hist with
    | none => exact ⟨x, by simp, rfl⟩
    | some m' =>
      obtain ⟨y, hy, he⟩ := ih m' hs
      by_cases hsz : m'.size = x.2.size
      · exact ⟨y, by simp [hy], by simpa [hsz] using he⟩
      · exact ⟨x, by simp, by simp [hsz]⟩

end Psi.Digest
