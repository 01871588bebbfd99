import Verif.Launch.Model
import Mathlib.Data.List.Nodup
import Mathlib.Data.List.Sort

/-! # Maps in the order of their keys, and ranks -/

namespace Psi.Launch

variable {V : Type}

/-- Keys strictly increasing. -/
def Ordered (m : List (String × V)) : Prop := (m.map Prod.fst).Pairwise (· < ·)

theorem mem_mapSet_keys (k : String) (v : V) (m : List (String × V)) (x : String) :
    x ∈ (mapSet k v m).map Prod.fst ↔ x = k ∨ x ∈ m.map Prod.fst := by
  induction m with
  | nil => simp [mapSet]
  | cons a l ih =>
    unfold mapSet
    split
    · simp
    · split
      · rename_i h; simp [h]
      · simp only [List.map_cons, List.mem_cons, ih]
        tauto

theorem ordered_mapSet (k : String) (v : V) (m : List (String × V)) (h : Ordered m) : Ordered (mapSet k v m) := by
  induction m with
  | nil => simp [mapSet, Ordered]
  | cons a l ih =>
    unfold Ordered at h ih ⊢
    rw [List.map_cons, List.pairwise_cons] at h
    unfold mapSet
    split
    · rename_i hk
      simp only [List.map_cons, List.pairwise_cons, List.mem_cons]
      refine ⟨?_, h.1, h.2⟩
      rintro x (rfl | hx)
      · exact hk
      · exact lt_trans hk (h.1 x hx)
    · split
      · rename_i hk
        simp only [List.map_cons, List.pairwise_cons]
        exact ⟨fun x hx => hk ▸ h.1 x hx, h.2⟩
      · rename_i h1 h2
        simp only [List.map_cons, List.pairwise_cons]
        refine ⟨?_, ih h.2⟩
        intro x hx
        rcases (mem_mapSet_keys _ _ _ _).mp hx with rfl | hx
        · exact lt_of_le_of_ne (not_lt.mp h1) (Ne.symm h2)
        · exact h.1 x hx

theorem mem_mapSet (k : String) (v : V) (m : List (String × V)) (hk : k ∉ m.map Prod.fst) (x : String × V) :
    x ∈ mapSet k v m ↔ x = (k, v) ∨ x ∈ m := by
  induction m with
  | nil => simp [mapSet]
  | cons a l ih =>
    rw [List.map_cons, List.mem_cons, not_or] at hk
    unfold mapSet
    split
    · simp
    · rw [if_neg hk.1]
      simp only [List.mem_cons, ih hk.2]
      tauto

/-- What the loop over the parties leaves in the map. -/
theorem hostMap_spec (self port : Nat) (ps : List Party) : ∀ (i : Nat) (m : List (String × String)), Ordered m →
    (ps.map Party.name).Nodup → (∀ p ∈ ps, p.name ∉ m.map Prod.fst) →
    Ordered (hostMap self port i ps m) ∧
    (∀ x, x ∈ hostMap self port i ps m ↔ x ∈ m ∨ ∃ j p, ps[j]? = some p ∧ x = (p.name, hostOf self (i + j) port p)) := by
  induction ps with
  | nil => intro i m hm _ _; exact ⟨hm, fun x => by simp [hostMap]⟩
  | cons p ps ih =>
    intro i m hm hn hd
    rw [List.map_cons, List.nodup_cons] at hn
    have hp := hd p (List.mem_cons_self)
    obtain ⟨h1, h2⟩ := ih (i + 1) (mapSet p.name (hostOf self i port p) m) (ordered_mapSet _ _ _ hm) hn.2 (by
      intro q hq hmem
      rcases (mem_mapSet_keys _ _ _ _).mp hmem with h | h
      · exact hn.1 (List.mem_map.mpr ⟨q, hq, h⟩)
      · exact hd q (List.mem_cons_of_mem _ hq) h)
    refine ⟨h1, ?_⟩
    intro x
    rw [hostMap, h2, mem_mapSet _ _ _ hp]
    constructor
    · rintro ((rfl | h) | ⟨j, q, hj, rfl⟩)
      · exact .inr ⟨0, p, rfl, rfl⟩
      · exact .inl h
      · exact .inr ⟨j + 1, q, hj, by rw [Nat.add_right_comm, Nat.add_assoc]⟩
    · rintro (h | ⟨j, q, hj, rfl⟩)
      · exact .inl (.inr h)
      · cases j with
        | zero => cases hj; exact .inl (.inl rfl)
        | succ j => exact .inr ⟨j, q, hj, by rw [Nat.add_right_comm, Nat.add_assoc]⟩

theorem rankLoop_none (name : String) (l : List (String × String)) : ∀ (i : Nat) (r : Option Nat),
    name ∉ l.map Prod.fst → rankLoop name i l r = r := by
  induction l with
  | nil => intros; rfl
  | cons a l ih =>
    intro i r h
    rw [List.map_cons, List.mem_cons, not_or] at h
    rw [rankLoop, if_neg (Ne.symm h.1), ih _ _ h.2]

/-- The rank is the position of the name. -/
theorem rankLoop_eq (name host : String) (l : List (String × String)) : ∀ (i k : Nat) (r : Option Nat),
    (l.map Prod.fst).Nodup → l[k]? = some (name, host) → rankLoop name i l r = some (i + k) := by
  induction l with
  | nil => intro i k r _ h; simp at h
  | cons a l ih =>
    intro i k r hn h
    rw [List.map_cons, List.nodup_cons] at hn
    cases k with
    | zero =>
      cases h
      rw [rankLoop, if_pos rfl, rankLoop_none _ _ _ _ hn.1]
      rfl
    | succ k =>
      rw [rankLoop, ih (i + 1) k _ hn.2 h]
      congr 1
      omega

theorem Ordered.nodup {m : List (String × V)} (h : Ordered m) : (m.map Prod.fst).Nodup :=
  h.imp (fun h => ne_of_lt h)

/-- Two such maps with the same keys have them at the same positions. -/
theorem Ordered.keys_eq {V' : Type} {m : List (String × V)} {m' : List (String × V')} (h : Ordered m) (h' : Ordered m')
    (hk : ∀ x, x ∈ m.map Prod.fst ↔ x ∈ m'.map Prod.fst) : m.map Prod.fst = m'.map Prod.fst := by
  have hp : (m.map Prod.fst).Perm (m'.map Prod.fst) :=
    (List.perm_ext_iff_of_nodup h.nodup h'.nodup).mpr hk
  exact hp.eq_of_pairwise (fun a b _ _ hab hba => absurd (lt_trans hab hba) (lt_irrefl _)) h h'

end Psi.Launch
