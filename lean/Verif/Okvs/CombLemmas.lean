import Verif.Okvs.Comb
import Mathlib.Data.Nat.Choose.Basic
import Mathlib.Data.Finset.Powerset
import Mathlib.Data.Finset.Sort
import Mathlib.Data.List.Sort
import Mathlib.Tactic.Ring
import Mathlib.Tactic.LinearCombination

/-! # The combinations are enumerated completely and without repetition -/

namespace Psi.Okvs

theorem w64_of_lt {x : Nat} (h : x < 2 ^ 64) : w64 x = x := Nat.mod_eq_of_lt h

/-- No product overflows. -/
def NoOverflow (D k : Nat) : Prop := ∀ i ≤ k, D * D.choose i < 2 ^ 64

theorem nCkLoop_eq {n k : Nat} (hk : k ≤ n) (ho : NoOverflow n k) : nCkLoop n k = n.choose k := by
  unfold nCkLoop
  induction k with
  | zero => simp
  | succ k ih =>
    rw [List.range_succ, List.foldl_append, ih (by omega) (fun i hi => ho i (by omega))]
    simp only [List.foldl_cons, List.foldl_nil]
    have h1 := Nat.choose_succ_right_eq n k
    rw [w64_of_lt, ← h1, Nat.mul_div_cancel _ (by omega)]
    calc n.choose k * (n - k) ≤ n.choose k * n := Nat.mul_le_mul_left _ (by omega)
      _ = n * n.choose k := Nat.mul_comm _ _
      _ < 2 ^ 64 := ho k (by omega)

theorem choose_pred_le {n k : Nat} (hk : 1 ≤ k) (hn : k ≤ n) : (n - 1).choose (k - 1) ≤ n.choose k := by
  obtain ⟨k, rfl⟩ : ∃ m, k = m + 1 := ⟨k - 1, by omega⟩
  obtain ⟨n, rfl⟩ : ∃ m, n = m + 1 := ⟨n - 1, by omega⟩
  simp only [Nat.add_sub_cancel]
  rw [Nat.choose_succ_succ]; omega

theorem chooseRec_eq_aux (D T : Nat) (hT : D * T < 2 ^ 64) : ∀ k n, k ≤ n → n ≤ D → n.choose k ≤ T → chooseRec n k = n.choose k := by
  intro k
  induction k with
  | zero => intros; simp [chooseRec]
  | succ k ih =>
    intro n hk hn hle
    obtain ⟨n, rfl⟩ : ∃ m, n = m + 1 := ⟨n - 1, by omega⟩
    have h1 := choose_pred_le (n := n + 1) (k := k + 1) (by omega) hk
    simp only [Nat.add_sub_cancel] at h1
    rw [chooseRec, Nat.add_sub_cancel, ih n (by omega) (by omega) (by omega)]
    rw [w64_of_lt, Nat.add_one_mul_choose_eq, Nat.mul_div_cancel _ (by omega)]
    calc (n + 1) * n.choose k ≤ D * T := Nat.mul_le_mul hn (by omega)
      _ < 2 ^ 64 := hT

theorem chooseRec_eq {n k : Nat} (hk : k ≤ n) (ho : NoOverflow n k) : chooseRec n k = n.choose k :=
  chooseRec_eq_aux n (n.choose k) (ho k (Nat.le_refl k)) k n hk (Nat.le_refl n) (Nat.le_refl _)

/-- The position of a set in the enumeration. -/
def rank (l : List Nat) : Nat := (l.zipIdx.map (fun x => x.1.choose (x.2 + 1))).sum

theorem rank_append (l : List Nat) (c : Nat) : rank (l ++ [c]) = rank l + c.choose (l.length + 1) := by
  unfold rank
  rw [List.zipIdx_append]
  simp

theorem combSkip_spec {D T index kk base : Nat} (hT : D * T < 2 ^ 64) (hkk : 1 ≤ kk) :
    ∀ (fuel n : Nat), n - kk ≤ fuel → kk ≤ n → n ≤ D → base + n.choose kk ≤ T → base ≤ index → index < base + n.choose kk →
    ∃ n', combSkip index kk fuel (n, (n - 1).choose (kk - 1), base + n.choose kk) =
        (n', (n' - 1).choose (kk - 1), base + n'.choose kk) ∧ kk ≤ n' ∧ n' ≤ n ∧
      base + (n' - 1).choose kk ≤ index ∧ index < base + n'.choose kk := by
  intro fuel
  have pas : ∀ n, kk ≤ n → n.choose kk = (n - 1).choose (kk - 1) + (n - 1).choose kk := by
    intro n hn
    obtain ⟨k, rfl⟩ : ∃ m, kk = m + 1 := ⟨kk - 1, by omega⟩
    obtain ⟨m, rfl⟩ : ∃ m, n = m + 1 := ⟨n - 1, by omega⟩
    simp only [Nat.add_sub_cancel]
    exact Nat.choose_succ_succ m k
  induction fuel with
  | zero =>
    intro n hf hk hn hTle hb hlt
    have hnk : n = kk := by omega
    refine ⟨n, rfl, hk, Nat.le_refl _, ?_, hlt⟩
    rw [Nat.choose_eq_zero_of_lt (by omega : n - 1 < kk)]
    omega
  | succ fuel ih =>
    intro n hf hk hn hTle hb hlt
    have hp := pas n hk
    have hD : 1 ≤ D := by omega
    have hT64 : T < 2 ^ 64 := Nat.lt_of_le_of_lt (Nat.le_mul_of_pos_left T hD) hT
    have hw : w64 (base + n.choose kk + 2 ^ 64 - (n - 1).choose (kk - 1)) = base + (n - 1).choose kk := by
      unfold w64
      rw [show base + n.choose kk + 2 ^ 64 - (n - 1).choose (kk - 1) = base + (n - 1).choose kk + 2 ^ 64 by omega,
        Nat.add_mod_right, Nat.mod_eq_of_lt (by omega)]
    unfold combSkip
    rw [hw]
    by_cases hc : base + (n - 1).choose kk > index
    · rw [if_pos hc]
      simp only
      have hpos : 0 < (n - 1).choose kk := by omega
      have hkn : kk ≤ n - 1 := by
        apply Nat.le_of_not_lt
        intro hlt
        rw [Nat.choose_eq_zero_of_lt hlt] at hpos
        omega
      have hmul : (n - 1).choose (kk - 1) * (n - kk) = (n - 1).choose kk * kk := by
        have := Nat.choose_succ_right_eq (n - 1) (kk - 1)
        rw [show kk - 1 + 1 = kk by omega, show n - 1 - (kk - 1) = n - kk by omega] at this
        exact this.symm
      have hw2 : w64 ((n - 1).choose (kk - 1) * (n - kk)) = (n - 1).choose kk * kk := by
        rw [hmul]
        apply w64_of_lt
        calc (n - 1).choose kk * kk ≤ T * D := Nat.mul_le_mul (by omega) (by omega)
          _ = D * T := Nat.mul_comm _ _
          _ < 2 ^ 64 := hT
      rw [hw2, Nat.mul_mod_left, Nat.sub_zero]
      have hdiv : (n - 1).choose kk * kk / (n - 1) = (n - 1 - 1).choose (kk - 1) := by
        have := Nat.add_one_mul_choose_eq (n - 1 - 1) (kk - 1)
        rw [show n - 1 - 1 + 1 = n - 1 by omega, show kk - 1 + 1 = kk by omega] at this
        rw [← this, Nat.mul_div_cancel_left _ (by omega)]
      rw [hdiv, show base + n.choose kk - (n - 1).choose (kk - 1) = base + (n - 1).choose kk by omega]
      obtain ⟨n', h1, h2, h3, h4, h5⟩ := ih (n - 1) (by omega) hkn (by omega) (by omega) hb hc
      exact ⟨n', h1, h2, by omega, h4, h5⟩
    · rw [if_neg hc]
      exact ⟨n, rfl, hk, Nat.le_refl _, by omega, hlt⟩

theorem combLoop_spec {D T index : Nat} (hT : D * T < 2 ^ 64) :
    ∀ (kk n base : Nat) (set : List Nat), kk ≤ n → n ≤ D → base + n.choose kk ≤ T → base ≤ index → index < base + n.choose kk →
    ∃ l, combLoop index kk (n, n.choose kk, base + n.choose kk) set = l ++ set ∧ l.length = kk ∧
      l.Pairwise (· < ·) ∧ (∀ c ∈ l, c < n) ∧ base + rank l = index := by
  intro kk
  induction kk with
  | zero =>
    intro n base set _ _ _ hb hlt
    refine ⟨[], rfl, rfl, List.Pairwise.nil, by simp, ?_⟩
    rw [Nat.choose_zero_right] at hlt
    show base + 0 = index
    omega
  | succ kk ih =>
    intro n base set hk hn hTle hb hlt
    have hdiv : w64 (n.choose (kk + 1) * (kk + 1)) / n = (n - 1).choose (kk + 1 - 1) := by
      have := Nat.add_one_mul_choose_eq (n - 1) kk
      rw [show n - 1 + 1 = n by omega] at this
      rw [w64_of_lt, ← this, Nat.mul_div_cancel_left _ (by omega)]
      · rfl
      · calc n.choose (kk + 1) * (kk + 1) ≤ T * D := Nat.mul_le_mul (by omega) (by omega)
          _ = D * T := Nat.mul_comm _ _
          _ < 2 ^ 64 := hT
    obtain ⟨n', h1, h2, h3, h4, h5⟩ := combSkip_spec (kk := kk + 1) hT (by omega) n n (by omega) hk hn hTle hb hlt
    unfold combLoop
    rw [hdiv, h1]
    simp only [Nat.add_sub_cancel]
    have hp : n'.choose (kk + 1) = (n' - 1).choose kk + (n' - 1).choose (kk + 1) := by
      obtain ⟨m, rfl⟩ : ∃ m, n' = m + 1 := ⟨n' - 1, by omega⟩
      exact Nat.choose_succ_succ m kk
    have hmono : n'.choose (kk + 1) ≤ n.choose (kk + 1) := Nat.choose_le_choose _ h3
    obtain ⟨l, i1, i2, i3, i4, i5⟩ := ih (n' - 1) (base + (n' - 1).choose (kk + 1)) ((n' - 1) :: set)
      (by omega) (by omega) (by omega) h4 (by omega)
    rw [show base + n'.choose (kk + 1) = base + (n' - 1).choose (kk + 1) + (n' - 1).choose kk by omega, i1]
    refine ⟨l ++ [n' - 1], by simp, by simp [i2], ?_, ?_, ?_⟩
    · rw [List.pairwise_append]
      refine ⟨i3, List.pairwise_singleton _ _, ?_⟩
      intro a ha b hb
      rw [List.mem_singleton.mp hb]
      exact i4 a ha
    · intro c hc
      rcases List.mem_append.mp hc with hc | hc
      · have := i4 c hc; omega
      · rw [List.mem_singleton.mp hc]; omega
    · rw [rank_append, i2]
      omega

/-- A strictly increasing list of `g` columns. -/
def IsComb (D g : Nat) (l : List Nat) : Prop := l.length = g ∧ l.Pairwise (· < ·) ∧ ∀ c ∈ l, c < D

theorem ith_spec {D g : Nat} (hg : g ≤ D) (ho : NoOverflow D g) {index : Nat} (hi : index < D.choose g) :
    IsComb D g (ithCombination index D g) ∧ rank (ithCombination index D g) = index := by
  unfold ithCombination
  rw [nCkLoop_eq hg ho]
  obtain ⟨l, h1, h2, h3, h4, h5⟩ := combLoop_spec (ho g (Nat.le_refl g)) g D 0 [] hg (Nat.le_refl D) (by omega)
    (Nat.zero_le index) (by omega)
  rw [Nat.zero_add] at h1
  rw [h1, List.append_nil]
  exact ⟨⟨h2, h3, h4⟩, by omega⟩

theorem combs_eq {D g : Nat} (hg : g ≤ D) (ho : NoOverflow D g) :
    combs D g = (List.range (D.choose g)).map (fun ci => ithCombination ci D g) := by
  unfold combs
  rw [chooseRec_eq hg ho]

theorem mem_combs {D g : Nat} (hg : g ≤ D) (ho : NoOverflow D g) {cs : List Nat} (h : cs ∈ combs D g) : IsComb D g cs := by
  rw [combs_eq hg ho] at h
  obtain ⟨i, hi, rfl⟩ := List.mem_map.mp h
  exact (ith_spec hg ho (List.mem_range.mp hi)).1

theorem combs_nodup {D g : Nat} (hg : g ≤ D) (ho : NoOverflow D g) : (combs D g).Nodup := by
  rw [combs_eq hg ho]
  apply List.Nodup.map_on _ List.nodup_range
  intro a ha b hb hab
  have h1 := (ith_spec hg ho (List.mem_range.mp ha)).2
  have h2 := (ith_spec hg ho (List.mem_range.mp hb)).2
  rw [← h1, hab, h2]

theorem isComb_ext {D g : Nat} {l l' : List Nat} (h : IsComb D g l) (h' : IsComb D g l') (he : l.toFinset = l'.toFinset) : l = l' := by
  have hn : l.Nodup := h.2.1.imp (fun hlt => Nat.ne_of_lt hlt)
  have hn' : l'.Nodup := h'.2.1.imp (fun hlt => Nat.ne_of_lt hlt)
  have hp : l.Perm l' := List.perm_of_nodup_nodup_toFinset_eq hn hn' he
  exact hp.eq_of_pairwise (fun a b _ _ h1 h2 => by omega) h.2.1 h'.2.1

theorem combs_complete {D g : Nat} (hg : g ≤ D) (ho : NoOverflow D g) {cs : List Nat} (h : IsComb D g cs) : cs ∈ combs D g := by
  have hmem : ∀ l, IsComb D g l → l.toFinset ∈ Finset.powersetCard g (Finset.range D) := by
    intro l hl
    rw [Finset.mem_powersetCard]
    constructor
    · intro c hc
      exact Finset.mem_range.mpr (hl.2.2 c (List.mem_toFinset.mp hc))
    · rw [List.toFinset_card_of_nodup (hl.2.1.imp (fun hlt => Nat.ne_of_lt hlt)), hl.1]
  obtain ⟨i, hi, he⟩ := Finset.surj_on_of_inj_on_of_card_le (s := Finset.range (D.choose g))
    (t := Finset.powersetCard g (Finset.range D)) (fun i _ => (ithCombination i D g).toFinset)
    (fun i hi => hmem _ (ith_spec hg ho (Finset.mem_range.mp hi)).1)
    (fun i j hi hj hij => by
      have h1 := ith_spec hg ho (Finset.mem_range.mp hi)
      have h2 := ith_spec hg ho (Finset.mem_range.mp hj)
      rw [← h1.2, isComb_ext h1.1 h2.1 hij, h2.2])
    (by simp) cs.toFinset (hmem cs h)
  rw [combs_eq hg ho, List.mem_map]
  refine ⟨i, List.mem_range.mpr (Finset.mem_range.mp hi), ?_⟩
  exact (isComb_ext h (ith_spec hg ho (Finset.mem_range.mp hi)).1 he).symm

end Psi.Okvs
