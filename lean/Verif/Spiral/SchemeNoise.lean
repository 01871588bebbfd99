import Verif.Spiral.SchemeServe

/-!
# Bounds on the noise of Spiral PIR
-/

namespace Psi.Spiral

open Finset

variable {P : Par} {D : Scheme}

/-- All coefficients are at most `b` in absolute value. -/
def Small {L : Nat} (x : A L) (b : Nat) : Prop := ∀ k, k < 2 ^ L → |coeff x k| ≤ b

namespace Small

variable {L : Nat} {x y : A L} {a b : Nat}

theorem mono (h : Small x a) (hab : a ≤ b) : Small x b := fun k hk => (h k hk).trans (by exact_mod_cast hab)

theorem zero : Small (0 : A L) 0 := fun k _ => by rw [coeff_zero]; simp

theorem add (hx : Small x a) (hy : Small y b) : Small (x + y) (a + b) := fun k hk => by
  rw [coeff_add]
  have h1 := hx k hk
  have h2 := hy k hk
  have := abs_add_le (coeff x k) (coeff y k)
  push_cast
  omega

theorem sub (hx : Small x a) (hy : Small y b) : Small (x - y) (a + b) := fun k hk => by
  rw [coeff_sub]
  have h1 := hx k hk
  have h2 := hy k hk
  have := abs_sub (coeff x k) (coeff y k)
  push_cast
  omega

theorem sum {m : Nat} {f : Nat → A L} (h : ∀ i, i < m → Small (f i) a) : Small (∑ i ∈ range m, f i) (m * a) := by
  induction m with
  | zero => simpa using Small.zero
  | succ m ih =>
    rw [sum_range_succ, Nat.succ_mul]
    exact (ih fun i hi => h i (by omega)).add (h m (by omega))

theorem weight {W : ℤ} (hx : ∑ i ∈ range (2 ^ L), |coeff x i| ≤ W) (hy : Small y b) {k : Nat} (hk : k < 2 ^ L) :
    |coeff (x * y) k| ≤ W * b := coeff_mul_le x y hx (by positivity) hy hk

theorem mulW {W : Nat} (hx : ∑ i ∈ range (2 ^ L), |coeff x i| ≤ W) (hy : Small y b) : Small (x * y) (W * b) :=
  fun k hk => by
    push_cast
    exact weight hx hy hk

theorem mul (hx : Small x a) (hy : Small y b) : Small (x * y) (2 ^ L * a * b) := by
  refine mulW ?_ hy
  calc ∑ i ∈ range (2 ^ L), |coeff x i| ≤ ∑ _i ∈ range (2 ^ L), (a : ℤ) := sum_le_sum fun i hi => hx i (mem_range.1 hi)
    _ = ((2 ^ L * a : Nat) : ℤ) := by simp

theorem toA {f : Nat → ℤ} (h : ∀ k, k < 2 ^ L → |f k| ≤ b) : Small (toA L f) b := fun k hk => by
  rw [coeff_toA _ hk]
  exact h k hk

theorem yy (i : Nat) (hy : Small y b) : Small (yy L i * y) b := by
  have hlt : 2 ^ L - 2 ^ i < 2 ^ L := by
    have h1 : 0 < 2 ^ L := by positivity
    have h2 : 0 < 2 ^ i := by positivity
    omega
  have e : Spiral.yy L i = Spiral.toA L fun k => if k = 2 ^ L - 2 ^ i then -1 else 0 := by
    rw [toA_single L (-1) hlt]
    unfold Spiral.yy
    push_cast
    ring
  have h := mulW (x := Spiral.yy L i) (W := 1) (y := y) (b := b) ?_ hy
  · rwa [Nat.one_mul] at h
  · rw [e, sum_congr rfl fun k hk => by rw [coeff_toA _ (mem_range.1 hk)]]
    rw [sum_eq_single (2 ^ L - 2 ^ i)]
    · simp
    · intro k _ hne
      rw [if_neg hne, abs_zero]
    · intro h
      exact absurd (mem_range.2 hlt) h

theorem tau {t : Nat} (ht : t % 2 = 1) (hx : Small x b) : Small (tau L t ht x) b := fun k hk => by
  rw [← toA_coeff x, tau_toA, coeff_toA _ hk]
  unfold substitute
  set n := 2 ^ L with hn
  have hn0 : 0 < n := by rw [hn]; positivity
  have hcop : Nat.Coprime n t := by
    rw [hn]
    exact Nat.Coprime.pow_left _ ((Nat.coprime_two_left).2 (Nat.odd_iff.2 ht))
  have hmod : ∀ i, (i * t % (2 * n) = k ∨ i * t % (2 * n) = k + n) → i * t % n = k := by
    intro i h
    have e : i * t % n = i * t % (2 * n) % n := (Nat.mod_mod_of_dvd _ (Dvd.intro_left 2 rfl)).symm
    rw [e]
    rcases h with h | h
    · rw [h, Nat.mod_eq_of_lt hk]
    · rw [h, Nat.add_mod_right, Nat.mod_eq_of_lt hk]
  have hinj : ∀ i j, i < n → j < n → i * t % n = k → j * t % n = k → i = j := by
    intro i j hi hj h1 h2
    have h3 : i * t ≡ j * t [MOD n] := h1.trans h2.symm
    have h4 := Nat.ModEq.cancel_right_of_coprime (by rw [hcop]) h3
    have h5 : i % n = j % n := h4
    rwa [Nat.mod_eq_of_lt hi, Nat.mod_eq_of_lt hj] at h5
  by_cases hex : ∃ i, i < n ∧ i * t % n = k
  · obtain ⟨i, hi, h1⟩ := hex
    rw [sum_eq_single i]
    · have := hx i hi
      split_ifs
      · exact this
      · rw [abs_neg]; exact this
      · rw [abs_zero]; positivity
    · intro j hj hne
      rw [mem_range] at hj
      rw [if_neg fun h => hne (hinj j i hj hi (hmod j (Or.inl h)) h1), if_neg fun h => hne (hinj j i hj hi (hmod j (Or.inr h)) h1)]
    · intro h
      exact absurd (mem_range.2 hi) h
  · rw [sum_eq_zero]
    · rw [abs_zero]; positivity
    · intro j hj
      rw [mem_range] at hj
      rw [if_neg fun h => hex ⟨j, hj, hmod j (Or.inl h)⟩, if_neg fun h => hex ⟨j, hj, hmod j (Or.inr h)⟩]

theorem tauAt (t : Nat) (hx : Small x b) : Small (tauAt L t x) b := by
  unfold Spiral.tauAt
  split_ifs with h
  · exact hx.tau h
  · exact hx

end Small

theorem gdigit_small (t k : Nat) (a : Words) : Small (gdigit P t k a) (2 ^ bitsPer P t) := fun z hz => by
  obtain ⟨h1, h2⟩ := gdigit_bound (P := P) t k a hz
  rw [abs_of_nonneg h1]
  push_cast
  exact h2.le

/-! ### The bounds -/

/-- A bound for a product with `t` digits. -/
def switchBound (P : Par) (t b : Nat) : Nat := t * (P.n * b * 2 ^ bitsPer P t)

/-- A bound for the expansion. -/
def expandBound (P : Par) (D : Scheme) (b : Nat) : Nat → Nat
  | 0 => b
  | i + 1 => 2 * expandBound P D b i + max (switchBound P D.tLeft b) (switchBound P D.tRight b)

/-- A bound for the selection ciphertexts. -/
def gswBound (P : Par) (D : Scheme) (W b : Nat) : Nat :=
  max (expandBound P D b D.dims.g) (W * expandBound P D b D.dims.g + 2 * switchBound P D.tConv b)

/-- A bound for the first dimension. -/
def firstBound (P : Par) (D : Scheme) (b : Nat) : Nat := 2 ^ D.dims.v1 * (P.n * expandBound P D b D.dims.g * (D.p / 2))

/-- A bound for the answer: `b` bounds the errors, `W` the weight of the secret polynomial. -/
def respBound (P : Par) (D : Scheme) (W b : Nat) : Nat :=
  firstBound P D b + D.dims.v2 * (2 * (2 * switchBound P D.dims.tgsw (gswBound P D W b))) + D.n * switchBound P D.tConv b

/-- The errors of a sample are at most `b`. -/
def Sample.Le (s : Sample) (b : Nat) : Prop := ∀ r c z, |s.e r c z| ≤ b

theorem Sample.Le.small {s : Sample} {b : Nat} (h : s.Le b) (r c : Nat) : Small (s.err P r c) b :=
  Small.toA fun k _ => h r c k

/-- The errors of all keys are at most `b`. -/
structure KeyCoins.Le (C : KeyCoins) (b : Nat) : Prop where
  pack : ∀ i, (C.pack i).Le b
  left : ∀ i k, (C.left i k).Le b
  right : ∀ i k, (C.right i k).Le b
  conv : ∀ k, (C.conv k).Le b

theorem switchNoise_small {t b : Nat} {ε : Nat → A P.L} (h : ∀ k, Small (ε k) b) (w : Words) :
    Small (switchNoise P t ε w) (switchBound P t b) :=
  Small.sum fun k _ => (h k).mul (gdigit_small t k w)

theorem convertNoise_small {t b : Nat} {ε : Nat → A P.L} (h : ∀ k, Small (ε k) b) (x : Mat) :
    Small (convertNoise P t ε x) (2 * switchBound P t b) := by
  unfold convertNoise
  rw [sum_add_distrib, Nat.two_mul]
  exact (Small.sum fun k _ => (h _).mul (gdigit_small t k _)).add (Small.sum fun k _ => (h _).mul (gdigit_small t k _))

theorem selectNoise_small {t b : Nat} {ε : Nat → A P.L} (h : ∀ k, Small (ε k) b) (x : Mat) :
    Small (selectNoise P t ε x) (2 * switchBound P t b) := convertNoise_small h x

variable {C : KeyCoins} {b : Nat}

theorem stepNoise_small (hC : C.Le b) (i j : Nat) (f : Mat) {N : A P.L} {e : Nat} (hN : Small N e) :
    Small (stepNoise P D C i j f N) (2 * e + max (switchBound P D.tLeft b) (switchBound P D.tRight b)) := by
  unfold stepNoise
  split_ifs
  · exact hN.mono (by omega)
  · refine ((hN.add (hN.tauAt _)).add (switchNoise_small (fun k => (hC.left i k).small 0 0) _)).mono ?_
    have := le_max_left (switchBound P D.tLeft b) (switchBound P D.tRight b)
    omega
  · refine ((hN.add (hN.tauAt _)).add (switchNoise_small (fun k => (hC.right i k).small 0 0) _)).mono ?_
    have := le_max_right (switchBound P D.tLeft b) (switchBound P D.tRight b)
    omega

theorem expandNoise_small (hC : C.Le b) (v : Nat → Nat → Mat) {e : A P.L} (he : Small e b) (i k : Nat) :
    Small (expandNoise P D C v e i k) (expandBound P D b i) := by
  induction i generalizing k with
  | zero =>
    unfold expandNoise
    split_ifs
    · exact he
    · exact Small.zero.mono (by omega)
  | succ i ih =>
    unfold expandNoise expandBound
    split_ifs
    · exact stepNoise_small hC i k _ (ih k)
    · exact stepNoise_small hC i _ _ ((ih _).yy i)
    · exact (ih k).mono (by omega)

theorem queryNoise_small (hC : C.Le b) {s : Nat → Sample} (hs : (s 0).Le b) (K : PublicKeys) (query : Mat) (k : Nat) :
    Small (queryNoise P D K C s query k) (expandBound P D b D.dims.g) :=
  expandNoise_small hC _ (hs.small 0 0) _ k

theorem gswNoise_small (hC : C.Le b) {s : Nat → Sample} (hs : (s 0).Le b) (K : PublicKeys) (query : Mat) {S : A P.L} {W : Nat}
    (hS : ∑ i ∈ range (2 ^ P.L), |coeff S i| ≤ W) (i c : Nat) :
    Small (gswNoise P D K C s S query i c) (gswBound P D W b) := by
  unfold gswNoise gswBound
  simp only
  split_ifs
  · refine Small.mono (Small.add (Small.mulW hS (queryNoise_small hC hs K query _)) ?_) (le_max_right _ _)
    exact convertNoise_small (fun k => (hC.conv k).small 0 0) _
  · exact (queryNoise_small hC hs K query _).mono (le_max_left _ _)

theorem foldNoise_small {bit : Nat → A P.L} (hbit : ∀ i, bit i = 0 ∨ bit i = 1) {M : Nat → Nat → A P.L} {G : Nat}
    (hM : ∀ i c, Small (M i c) G) (v : Nat → Nat → Mat) {N : Nat → A P.L} {F : Nat} (hN : ∀ i, Small (N i) F) (k i : Nat) :
    Small (foldNoise P D bit M v N k i) (F + k * (2 * (2 * switchBound P D.dims.tgsw G))) := by
  induction k generalizing i with
  | zero =>
    rw [Nat.zero_mul, Nat.add_zero]
    exact hN i
  | succ k ih =>
    unfold foldNoise
    simp only
    have hsel := fun f x y => (selectNoise_small (t := D.dims.tgsw) (hM f) x).sub (selectNoise_small (t := D.dims.tgsw) (hM f) y)
    split_ifs
    · rcases hbit (D.dims.v2 - 1 - k) with hb | hb
      · rw [hb, sub_zero, one_mul, zero_mul, add_zero]
        refine ((ih _).add (hsel _ _ _)).mono ?_
        rw [Nat.add_one_mul k]
        omega
      · rw [hb, sub_self, zero_mul, one_mul, zero_add]
        refine ((ih _).add (hsel _ _ _)).mono ?_
        rw [Nat.add_one_mul k]
        omega
    · refine (ih i).mono ?_
      rw [Nat.add_one_mul k]
      omega

theorem selBit_bit (L : Nat) (D : Scheme) (idx i : Nat) : selBit L D idx i = 0 ∨ selBit L D idx i = 1 := by
  unfold selBit
  split_ifs
  · exact Or.inr rfl
  · exact Or.inl rfl

theorem ptPoly_small {p : Nat} (hp : 0 < p) {coeffs : List Nat} (h : ∀ x ∈ coeffs, x < p) (trial : Nat) :
    Small (ptPoly P p coeffs trial) (p / 2) := by
  refine Small.toA fun k _ => ?_
  have hlt : coeffs.getD (trial * P.n + k) 0 < p := by
    by_cases hx : trial * P.n + k < coeffs.length
    · rw [List.getD_eq_getElem _ _ hx]
      exact h _ (List.getElem_mem _)
    · rw [List.getD_eq_default _ _ (by omega)]
      exact hp
  have := (ptCentre_bounds hlt).2
  push_cast
  omega

/-- The noise of the answer is below the bound, whatever the keys, the query and the database. -/
theorem respNoise_small {R : Run P} (hp : 0 < D.p) (hparts : ∀ db ∈ R.parts, ∀ c ∈ db, ∀ x ∈ c, x < D.p)
    (hC : R.coins.Le b) (hs : (R.sample 0).Le b) {W : Nat} (hS : ∑ i ∈ range (2 ^ P.L), |coeff R.secret i| ≤ W)
    (part r c : Nat) : Small (respNoise P D R part r c) (respBound P D W b) := by
  unfold respNoise respBound
  refine Small.add ?_ ?_
  · refine foldNoise_small (selBit_bit _ _ _) (gswNoise_small hC hs _ _ hS) _ (fun i => ?_) _ _
    refine Small.sum fun j _ => ?_
    refine (queryNoise_small hC hs _ _ _).mul (ptPoly_small hp (fun x hx => ?_) _)
    have hm1 : R.parts.getD part [] = [] ∨ R.parts.getD part [] ∈ R.parts := by
      by_cases h : part < R.parts.length
      · rw [List.getD_eq_getElem _ _ h]
        exact Or.inr (List.getElem_mem _)
      · rw [List.getD_eq_default _ _ (by omega)]
        exact Or.inl rfl
    rcases hm1 with h1 | h1
    · rw [h1] at hx
      simp at hx
    · by_cases h : j * 2 ^ D.dims.v2 + i < (R.parts.getD part []).length
      · rw [List.getD_eq_getElem (R.parts.getD part []) _ h] at hx
        exact hparts _ h1 _ (List.getElem_mem _) x hx
      · rw [List.getD_eq_default (R.parts.getD part []) _ (by omega)] at hx
        cases hx
  · exact Small.sum fun i _ => switchNoise_small (fun k => (hC.pack i).small r k) _

end Psi.Spiral
