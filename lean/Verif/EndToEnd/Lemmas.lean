import Verif.Join.Props
import Verif.Common.Spec

/-! # From the protocol result to the join step -/

namespace Psi.EndToEnd
open Psi.Join Psi.Join.Spec Psi.Spec

variable {RA RB K : Type} [LinearOrder K]

/-- The items a party feeds into the protocol: the distinct keys of its table with the number of further
rows carrying them, as the key-info file lists them. -/
def records (e : K) (kbs : List (List K)) : List (K × Nat) :=
  (keyInfoMake e kbs).map (fun r => (r.key, r.dup))

theorem records_fst (e : K) (kbs : List (List K)) :
    (records e kbs).map Prod.fst = protocolKeys e kbs := by
  simp [records, protocolKeys]

theorem mem_records {e : K} {keyB : RB → K} {B : List RB} {kbs rbs} (h : Input e keyB B kbs rbs)
    (x : K) (d : Nat) : (x, d) ∈ records e kbs ↔ cnt keyB B x = d + 1 := by
  constructor
  · intro hm
    obtain ⟨r, hr, he⟩ := List.mem_map.mp hm
    simp only [Prod.mk.injEq] at he
    obtain ⟨rfl, rfl⟩ := he
    exact (recs_dup h r hr).symm
  · intro hc
    have hx : x ∈ protocolKeys e kbs := by
      rw [h.mem_keys]
      by_contra hn
      rw [(cnt_eq_zero keyB B x).mpr hn] at hc
      omega
    obtain ⟨r, hr, rfl⟩ := List.mem_map.mp hx
    have := recs_dup h r hr
    have hd : r.dup = d := by
      have : cnt keyB B r.key = r.dup + 1 := this.symm
      omega
    rw [← hd]
    exact List.mem_map_of_mem (f := fun r : KeyRec K => (r.key, r.dup)) hr

theorem lawful_of_exact {eA eB : K} {keyA : RA → K} {A : List RA} {kbsA rbsA}
    (_hA : Input eA keyA A kbsA rbsA) {keyB : RB → K} {B : List RB} {kbsB rbsB}
    (hB : Input eB keyB B kbsB rbsB) (w : List (Nat × Nat))
    (hw : ExactIndex (records eA kbsA) (records eB kbsB) w) :
    LawfulIndex (protocolKeys eA kbsA) keyB B w where
  nodup := hw.nodup
  mem := by
    intro i c
    rw [hw.mem]
    have hlen : (protocolKeys eA kbsA).length = (records eA kbsA).length := by
      rw [← records_fst, List.length_map]
    constructor
    · rintro ⟨x, d, hg, hm⟩
      obtain ⟨hi, he⟩ := List.getElem?_eq_some_iff.mp hg
      refine ⟨by omega, ?_⟩
      have : (protocolKeys eA kbsA)[i]'(by omega) = x := by
        simp only [protocolKeys, List.getElem_map]
        simp only [records, List.getElem_map, Prod.mk.injEq] at he
        exact he.1
      rw [this]
      exact (mem_records hB x c).mp hm
    · rintro ⟨hi, hc⟩
      have hi' : i < (records eA kbsA).length := by omega
      refine ⟨(records eA kbsA)[i].1, (records eA kbsA)[i].2, by simp [hi'], ?_⟩
      rw [mem_records hB]
      rw [← hc]
      congr 1
      simp [records, protocolKeys]

theorem records_bounds' {e : K} {keyB : RB → K} {B : List RB} {kbs rbs} (h : Input e keyB B kbs rbs)
    (hB : B.length ≤ 2 ^ 32) :
    (records e kbs).length ≤ 2 ^ 32 ∧ ∀ x ∈ records e kbs, x.2 < 2 ^ 32 := by
  constructor
  · have h1 : (records e kbs).length = (protocolKeys e kbs).length := by
      rw [← records_fst, List.length_map]
    have h2 : (protocolKeys e kbs).length ≤ (B.map keyB).length := by
      apply (h.nodup_keys.subperm ?_).length_le
      intro x hx
      exact (h.mem_keys x).mp hx
    rw [List.length_map] at h2
    omega
  · rintro ⟨x, d⟩ hx
    have := (mem_records h x d).mp hx
    have h2 : cnt keyB B x ≤ B.length := List.countP_le_length
    simp only
    omega

theorem records_bounds {e : K} {keyB : RB → K} {B : List RB} {kbs rbs} (h : Input e keyB B kbs rbs)
    (hB : B.length ≤ 2 ^ 32) :
    (records e kbs).length ≤ 2 ^ 64 ∧ ∀ x ∈ records e kbs, x.2 < 2 ^ 32 := by
  have h1 := records_bounds' h hB
  have : (2 : Nat) ^ 32 ≤ 2 ^ 64 := Nat.pow_le_pow_right (by decide) (by decide)
  exact ⟨h1.1.trans this, h1.2⟩

end Psi.EndToEnd
