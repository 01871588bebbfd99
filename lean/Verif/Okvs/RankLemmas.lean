import Verif.Okvs.CombLemmas
import Verif.Okvs.GaussLemmas
import Mathlib.Data.List.GetD
import Mathlib.LinearAlgebra.Matrix.Rank
import Mathlib.LinearAlgebra.Matrix.NonsingularInverse

/-! # Independent rows have an invertible set of columns -/

namespace Psi.Okvs

theorem exists_comb {K : Type} [Field K] [DecidableEq K] {g D : Nat} (A : Nat → Nat → K)
    (hli : ∀ y : Fin g → K, (∀ k < D, ∑ i : Fin g, y i * A i k = 0) → y = 0) :
    ∃ cs, IsComb D g cs ∧ ∃ B : Matrix (Fin g) (Fin g) K, B * toMat g (fun i j => A i (cs.getD j 0)) = 1 := by
  let M : Matrix (Fin g) (Fin D) K := fun i k => A i k
  have hrow : LinearIndependent K M.row := by
    rw [Fintype.linearIndependent_iff]
    intro y hy i
    have := hli y (fun k hk => by
      have := congrFun hy ⟨k, hk⟩
      simpa [Finset.sum_apply, M, Matrix.row] using this)
    rw [this]; rfl
  have hrank : M.rank = g := by
    have := hrow.rank_matrix
    simpa using this
  obtain ⟨κ, a, hinj, hspan, hcol⟩ := exists_linearIndependent' K M.col
  have : Finite κ := Finite.of_injective a hinj
  have : Fintype κ := Fintype.ofFinite κ
  have hcard : Fintype.card κ = g := by
    rw [← hrank, Matrix.rank_eq_finrank_span_cols, ← hspan, finrank_span_eq_card hcol]
  let s : Finset Nat := Finset.univ.image (fun k => (a k : Nat))
  have hs : s.card = g := by
    rw [Finset.card_image_of_injective _ (fun x y h => hinj (Fin.ext h)), Finset.card_univ, hcard]
  let cs := s.sort (· ≤ ·)
  have hlen : cs.length = g := by simp [cs, hs]
  have hmem : ∀ c, c ∈ cs ↔ c ∈ s := fun c => Finset.mem_sort _
  have hlt : ∀ c ∈ cs, c < D := by
    intro c hc
    obtain ⟨k, _, rfl⟩ := Finset.mem_image.mp ((hmem c).mp hc)
    exact (a k).2
  have hsort : cs.Pairwise (· < ·) := Finset.sortedLT_sort s |>.pairwise
  refine ⟨cs, ⟨hlen, hsort, hlt⟩, ?_⟩
  have hex : ∀ j : Fin g, ∃ k, (a k : Nat) = cs.getD j 0 := by
    intro j
    rw [List.getD_eq_getElem _ _ (by rw [hlen]; exact j.2)]
    obtain ⟨k, _, hk⟩ := Finset.mem_image.mp ((hmem _).mp (List.getElem_mem (l := cs) (n := j) (by rw [hlen]; exact j.2)))
    exact ⟨k, hk⟩
  choose e he using hex
  have heinj : Function.Injective e := by
    intro i j hij
    have h1 := he i
    have h2 := he j
    rw [hij, h2] at h1
    rw [List.getD_eq_getElem _ _ (by rw [hlen]; exact j.2), List.getD_eq_getElem _ _ (by rw [hlen]; exact i.2)] at h1
    have hnd : cs.Nodup := hsort.imp (fun h => Nat.ne_of_lt h)
    exact Fin.ext ((List.Nodup.getElem_inj_iff hnd).mp h1).symm
  have hcols : LinearIndependent K (toMat g (fun i j => A i (cs.getD j 0))).col := by
    have := hcol.comp e heinj
    have heq : (toMat g (fun i j => A i (cs.getD j 0))).col = (M.col ∘ a) ∘ e := by
      funext j i
      show A i (cs.getD j 0) = A i (a (e j))
      rw [he j]
    rw [heq]; exact this
  obtain ⟨u, hu⟩ := Matrix.linearIndependent_cols_iff_isUnit.mp hcols
  exact ⟨↑u⁻¹, by rw [← hu]; exact u.inv_mul⟩

end Psi.Okvs
