import Verif.Spiral.NttLemmas

/-!
# The butterflies of the number theoretic transform
-/

namespace Psi.Spiral

/-- A modulus the transform can be used with. -/
structure SmallMod (m : Nat) : Prop where
  two : 2 ≤ m
  small : 4 * m < 2 ^ 32

theorem w32_of_lt {x : Nat} (h : x < 2 ^ 32) : w32 x = x := Nat.mod_eq_of_lt h

theorem scalePower_eq {m w : Nat} (hm : SmallMod m) (hw : w < m) :
    scalePower m w = w * 2 ^ 32 / m ∧ w * 2 ^ 32 / m < 2 ^ 32 := by
  have h1 := hm.two
  have h2 := hm.small
  have h3 : w * 2 ^ 32 / m < 2 ^ 32 := by
    rw [Nat.div_lt_iff_lt_mul (by omega), Nat.mul_comm]
    exact Nat.mul_lt_mul_of_pos_left hw (by norm_num)
  refine ⟨?_, h3⟩
  unfold scalePower
  rw [w32_of_lt (x := m) (by omega), w64_of_lt (x := w * 2 ^ 32) (by omega), w32_of_lt h3]

/-- Shoup's multiplication: the remainder is found up to one multiple of the modulus. -/
theorem shoup {m w y : Nat} (hm : 0 < m) (hy : y < 2 ^ 32) :
    y * (w * 2 ^ 32 / m) / 2 ^ 32 * m ≤ w * y ∧
      w * y < y * (w * 2 ^ 32 / m) / 2 ^ 32 * m + 2 * m := by
  have h1 := Nat.div_add_mod (w * 2 ^ 32) m
  have h2 := Nat.mod_lt (w * 2 ^ 32) hm
  generalize w * 2 ^ 32 / m = u at *
  generalize w * 2 ^ 32 % m = r at *
  have h3 := Nat.div_add_mod (y * u) (2 ^ 32)
  have h4 := Nat.mod_lt (y * u) (show 0 < 2 ^ 32 by norm_num)
  generalize y * u / 2 ^ 32 = q at *
  generalize y * u % 2 ^ 32 = s at *
  have e1 : y * (m * u + r) = 2 ^ 32 * (w * y) := by rw [h1]; ring
  have e2 : y * (m * u + r) = m * (y * u) + y * r := by ring
  have e3 : m * (y * u) = 2 ^ 32 * (q * m) + m * s := by rw [← h3]; ring
  have b1 : y * r ≤ 2 ^ 32 * m := Nat.mul_le_mul (by omega) (by omega)
  have b2 : m * s < m * 2 ^ 32 := Nat.mul_lt_mul_of_pos_left h4 hm
  constructor <;> omega

/-- What both forward butterflies compute. -/
structure FwdOut (m w x y : Nat) (r : Nat × Nat) (curr q Q : Nat) : Prop where
  currLe : curr ≤ 2 * m
  currEq : curr = x ∨ curr + 2 * m = x
  qLt : q < 2 * m
  qEq : q + Q * m = w * y
  fst : r.1 = curr + q
  snd : r.2 + q = curr + 2 * m

theorem cmpgt_of_lt {x y : Nat} (hx : x < 2 ^ 63) (hy : y < 2 ^ 63) : cmpgt x y = decide (x > y) := by
  unfold cmpgt
  rw [toI64_of_lt hx, toI64_of_lt hy]
  simp

theorem fwdScalar_out {m w x y : Nat} (hm : SmallMod m) (hw : w < m) (hx : x ≤ 4 * m) (hy : y ≤ 4 * m) :
    ∃ curr q Q, FwdOut m w x y (fwdScalar m w (scalePower m w) x y) curr q Q ∧ (x < 4 * m → curr < 2 * m) := by
  have h1 := hm.two
  have h2 := hm.small
  obtain ⟨e, hwp⟩ := scalePower_eq hm hw
  obtain ⟨s1, s2⟩ := shoup (w := w) (y := y) (m := m) (by omega) (by omega)
  have hwy : w * y < 2 ^ 62 := by
    calc w * y ≤ 2 ^ 30 * y := Nat.mul_le_mul_right _ (by omega)
      _ < 2 ^ 30 * 2 ^ 32 := Nat.mul_lt_mul_of_pos_left (by omega) (by norm_num)
      _ = 2 ^ 62 := by norm_num
  have hyw : y * (w * 2 ^ 32 / m) < 2 ^ 64 := by
    calc y * (w * 2 ^ 32 / m) ≤ y * 2 ^ 32 := Nat.mul_le_mul_left _ (by omega)
      _ < 2 ^ 32 * 2 ^ 32 := Nat.mul_lt_mul_of_pos_right (by omega) (by norm_num)
      _ = 2 ^ 64 := by norm_num
  unfold fwdScalar
  rw [e]
  simp only
  rw [w32_of_lt (x := x) (by omega), w32_of_lt (x := y) (by omega), w32_of_lt (x := m) (by omega),
    w32_of_lt (x := 2 * m) (by omega), w64_of_lt hyw, w64_of_lt (x := w * y) (by omega)]
  generalize y * (w * 2 ^ 32 / m) / 2 ^ 32 = Q at *
  rw [w64_of_lt (x := Q * m) (by omega), sub64_of_le (x := w * y) (by omega) s1,
    sub64_of_le (x := 2 * m) (by omega) (by omega)]
  by_cases hc : x ≥ 2 * m
  · rw [if_pos hc, Nat.mul_one, w32_of_lt (x := 2 * m) (by omega)]
    have ec : w32 (x + 2 ^ 32 - 2 * m) = x - 2 * m := by unfold w32; omega
    rw [ec, w64_of_lt (by omega), w64_of_lt (by omega)]
    exact ⟨x - 2 * m, w * y - Q * m, Q, ⟨by omega, by omega, by omega, by omega, rfl, by simp only; omega⟩, by omega⟩
  · rw [if_neg hc, Nat.mul_zero]
    have ec : w32 (x + 2 ^ 32 - w32 0) = x := by unfold w32; omega
    rw [ec, w64_of_lt (by omega), w64_of_lt (by omega)]
    exact ⟨x, w * y - Q * m, Q, ⟨by omega, by omega, by omega, by omega, rfl, by simp only; omega⟩, by omega⟩

theorem fwdAvx_out {m w x y : Nat} (hm : SmallMod m) (hw : w < m) (hx : x ≤ 4 * m) (hy : y ≤ 4 * m) :
    ∃ curr q Q, FwdOut m w x y (fwdAvx m w (scalePower m w) x y) curr q Q := by
  have h1 := hm.two
  have h2 := hm.small
  obtain ⟨e, hwp⟩ := scalePower_eq hm hw
  obtain ⟨s1, s2⟩ := shoup (w := w) (y := y) (m := m) (by omega) (by omega)
  have hwy : w * y < 2 ^ 62 := by
    calc w * y ≤ 2 ^ 30 * y := Nat.mul_le_mul_right _ (by omega)
      _ < 2 ^ 30 * 2 ^ 32 := Nat.mul_lt_mul_of_pos_left (by omega) (by norm_num)
      _ = 2 ^ 62 := by norm_num
  have hyw : y * (w * 2 ^ 32 / m) / 2 ^ 32 < 2 ^ 32 := by
    rw [Nat.div_lt_iff_lt_mul (by norm_num)]
    calc y * (w * 2 ^ 32 / m) ≤ y * 2 ^ 32 := Nat.mul_le_mul_left _ (by omega)
      _ < 2 ^ 32 * 2 ^ 32 := Nat.mul_lt_mul_of_pos_right (by omega) (by norm_num)
  unfold fwdAvx
  rw [e]
  simp only
  rw [w32_of_lt (x := y) (by omega), w32_of_lt (x := m) (by omega), w32_of_lt (x := w) (by omega),
    w32_of_lt (x := 2 * m) (by omega), w32_of_lt hwp, w32_of_lt hyw, w32_of_lt (x := m) (by omega),
    Nat.mul_comm y w]
  generalize y * (w * 2 ^ 32 / m) / 2 ^ 32 = Q at *
  rw [sub64_of_le (x := w * y) (by omega) s1, sub64_of_le (x := 2 * m) (by omega) (by omega),
    cmpgt_of_lt (by omega) (by omega)]
  by_cases hc : x > 2 * m
  · rw [if_pos (by simpa using hc), sub64_of_le (x := x) (by omega) (by omega), w64_of_lt (by omega),
      w64_of_lt (by omega)]
    exact ⟨x - 2 * m, w * y - Q * m, Q, ⟨by omega, by omega, by omega, by omega, rfl, by simp only; omega⟩⟩
  · rw [if_neg (by simpa using hc), sub64_of_le (x := x) (by omega) (by omega), Nat.sub_zero,
      w64_of_lt (by omega), w64_of_lt (by omega)]
    exact ⟨x, w * y - Q * m, Q, ⟨by omega, by omega, by omega, by omega, rfl, by simp only; omega⟩⟩

theorem FwdOut.le {m w x y : Nat} {r : Nat × Nat} {c q Q : Nat} (h : FwdOut m w x y r c q Q) :
    r.1 ≤ 4 * m ∧ r.2 ≤ 4 * m := by
  obtain ⟨h1, -, h3, -, h5, h6⟩ := h
  omega

theorem FwdOut.lt {m w x y : Nat} {r : Nat × Nat} {c q Q : Nat} (h : FwdOut m w x y r c q Q) (hc : c < 2 * m) :
    r.1 < 4 * m ∧ r.2 < 4 * m := by
  obtain ⟨h1, -, h3, -, h5, h6⟩ := h
  omega

theorem FwdOut.cast {m w x y : Nat} {r : Nat × Nat} {c q Q : Nat} (h : FwdOut m w x y r c q Q) :
    ((r.1 : Nat) : ZMod m) = x + w * y ∧ ((r.2 : Nat) : ZMod m) = x - w * y := by
  obtain ⟨-, h2, -, h4, h5, h6⟩ := h
  have hm : ((m : Nat) : ZMod m) = 0 := ZMod.natCast_self m
  have hx : ((c : Nat) : ZMod m) = x := by
    rcases h2 with h | h
    · rw [h]
    · rw [← h]; push_cast; rw [hm]; ring
  have hq : ((q : Nat) : ZMod m) = w * y := by
    have := congrArg (Nat.cast : Nat → ZMod m) h4
    push_cast at this
    rw [hm] at this
    linear_combination this
  have h5' := congrArg (Nat.cast : Nat → ZMod m) h5
  have h6' := congrArg (Nat.cast : Nat → ZMod m) h6
  push_cast at h5' h6'
  rw [hm] at h6'
  constructor
  · rw [h5', hx, hq]
  · linear_combination h6' - hq + hx

/-! ### Reductions -/

theorem reduceScalar_eq {m x : Nat} (hm : SmallMod m) (hx : x < 4 * m) :
    reduceScalar m x = x % m := by
  have h1 := hm.two
  have h2 := hm.small
  unfold reduceScalar
  simp only
  rw [w32_of_lt (x := m) (by omega), w32_of_lt (x := 2 * m) (by omega)]
  have e : sub64 x (w64 ((if x ≥ 2 * m then 1 else 0) * (2 * m))) = if x ≥ 2 * m then x - 2 * m else x := by
    split_ifs with h
    · rw [Nat.one_mul, w64_of_lt (by omega), sub64_of_le (by omega) (by omega)]
    · rw [Nat.zero_mul, w64_of_lt (by omega), sub64_of_le (by omega) (by omega), Nat.sub_zero]
  rw [e]
  generalize hz : (if x ≥ 2 * m then x - 2 * m else x) = z
  have hz1 : z < 2 * m ∧ x % m = z % m := by
    rw [← hz]
    split_ifs with h
    · refine ⟨by omega, ?_⟩
      have e : x = (x - 2 * m) + m * 2 := by omega
      conv_lhs => rw [e]
      rw [Nat.add_mul_mod_self_left]
    · exact ⟨by omega, rfl⟩
  rw [hz1.2]
  split_ifs with h
  · rw [Nat.one_mul, w64_of_lt (by omega), sub64_of_le (by omega) (by omega), Nat.mod_eq_sub_mod h,
      Nat.mod_eq_of_lt (by omega)]
  · rw [Nat.zero_mul, w64_of_lt (by omega), sub64_of_le (by omega) (by omega), Nat.sub_zero,
      Nat.mod_eq_of_lt (by omega)]

theorem reduceAvx_spec {m x : Nat} (hm : SmallMod m) (hx : x ≤ 4 * m) :
    reduceAvx m x ≤ m ∧ reduceAvx m x % m = x % m := by
  have h1 := hm.two
  have h2 := hm.small
  unfold reduceAvx
  simp only
  rw [w32_of_lt (x := m) (by omega), w32_of_lt (x := 2 * m) (by omega), cmpgt_of_lt (by omega) (by omega)]
  have e : sub64 x (if decide (x > 2 * m) = true then 2 * m else 0) = if x > 2 * m then x - 2 * m else x := by
    simp only [decide_eq_true_eq]
    split_ifs with h
    · rw [sub64_of_le (by omega) (by omega)]
    · rw [sub64_of_le (by omega) (by omega), Nat.sub_zero]
  rw [e]
  generalize hz : (if x > 2 * m then x - 2 * m else x) = z
  have hz1 : z ≤ 2 * m ∧ x % m = z % m := by
    rw [← hz]
    split_ifs with h
    · refine ⟨by omega, ?_⟩
      have e : x = (x - 2 * m) + m * 2 := by omega
      conv_lhs => rw [e]
      rw [Nat.add_mul_mod_self_left]
    · exact ⟨by omega, rfl⟩
  rw [hz1.2, cmpgt_of_lt (by omega) (by omega)]
  simp only [decide_eq_true_eq]
  split_ifs with h
  · rw [sub64_of_le (by omega) (by omega)]
    exact ⟨by omega, (Nat.mod_eq_sub_mod (by omega)).symm⟩
  · rw [sub64_of_le (by omega) (by omega), Nat.sub_zero]
    exact ⟨by omega, rfl⟩

theorem reduceInv_eq {m x : Nat} (hm : SmallMod m) (hx : x ≤ 2 * m) : reduceInv m x = x % m := by
  have h1 := hm.two
  have h2 := hm.small
  have e : reduceInv m x = reduceScalar m x := by
    unfold reduceInv reduceScalar
    simp only
    rw [w32_of_lt (x := m) (by omega), w32_of_lt (x := 2 * m) (by omega), w64_of_lt (x := 2 * m) (by omega)]
  rw [e]
  exact reduceScalar_eq hm (by omega)

/-! ### Inverse butterflies -/

/-- What both inverse butterflies compute. -/
structure InvOut (m w x y : Nat) (r : Nat × Nat) (Q : Nat) : Prop where
  fstLe : r.1 ≤ 2 * m
  sndLe : r.2 ≤ 2 * m
  fst : ∃ a b, 2 * r.1 + a * m = x + y + b * m
  snd : r.2 + Q * m = w * (2 * m + x - y)

theorem inv_half {m x y c : Nat} (hodd : m % 2 = 1) (hc : c ≤ 2 * m)
    (h : c = x + y ∨ c + 2 * m = x + y) (hy : y ≤ 2 * m) :
    (c + m * ((2 * m - y + x) % 2)) / 2 ≤ 2 * m ∧
      ∃ a b, 2 * ((c + m * ((2 * m - y + x) % 2)) / 2) + a * m = x + y + b * m := by
  rcases Nat.mod_two_eq_zero_or_one (2 * m - y + x) with hp | hp
  · rw [hp, Nat.mul_zero, Nat.add_zero]
    refine ⟨by omega, ?_⟩
    rcases h with h | h
    · exact ⟨0, 0, by omega⟩
    · exact ⟨2, 0, by omega⟩
  · rw [hp, Nat.mul_one]
    refine ⟨by omega, ?_⟩
    rcases h with h | h
    · exact ⟨0, 1, by omega⟩
    · exact ⟨1, 0, by omega⟩

theorem invScalar_out {m w x y : Nat} (hm : SmallMod m) (hodd : m % 2 = 1) (hw : w < m) (hx : x ≤ 2 * m)
    (hy : y ≤ 2 * m) : ∃ Q, InvOut m w x y (invScalar m w (scalePower m w) x y) Q := by
  have h1 := hm.two
  have h2 := hm.small
  obtain ⟨e, hwp⟩ := scalePower_eq hm hw
  have ht : 2 * m - y + x < 2 ^ 32 := by omega
  obtain ⟨s1, s2⟩ := shoup (w := w) (y := 2 * m - y + x) (m := m) (by omega) ht
  have hwy : w * (2 * m - y + x) < 2 ^ 62 := by
    calc w * (2 * m - y + x) ≤ 2 ^ 30 * (2 * m - y + x) := Nat.mul_le_mul_right _ (by omega)
      _ < 2 ^ 30 * 2 ^ 32 := Nat.mul_lt_mul_of_pos_left (by omega) (by norm_num)
      _ = 2 ^ 62 := by norm_num
  have hyw : (2 * m - y + x) * (w * 2 ^ 32 / m) < 2 ^ 64 := by
    calc (2 * m - y + x) * (w * 2 ^ 32 / m) ≤ (2 * m - y + x) * 2 ^ 32 := Nat.mul_le_mul_left _ (by omega)
      _ < 2 ^ 32 * 2 ^ 32 := Nat.mul_lt_mul_of_pos_right (by omega) (by norm_num)
      _ = 2 ^ 64 := by norm_num
  unfold invScalar
  rw [e]
  simp only
  rw [w64_of_lt (x := 2 * m) (by omega), sub64_of_le (x := 2 * m) (by omega) hy,
    w64_of_lt (x := 2 * m - y + x) (by omega), w64_of_lt (x := x + y) (by omega),
    w64_of_lt (x := x * 2) (by omega), w64_of_lt hyw, w64_of_lt (x := w * (2 * m - y + x)) (by omega)]
  have hcur : ∃ c, sub64 (x + y) (w64 (2 * m * if x * 2 ≥ 2 * m - y + x then 1 else 0)) = c ∧ c ≤ 2 * m ∧
      (c = x + y ∨ c + 2 * m = x + y) := by
    split_ifs with hc
    · rw [Nat.mul_one, w64_of_lt (by omega), sub64_of_le (by omega) (by omega)]
      exact ⟨_, rfl, by omega, by omega⟩
    · rw [Nat.mul_zero, w64_of_lt (by omega), sub64_of_le (by omega) (by omega)]
      exact ⟨_, rfl, by omega, by omega⟩
  obtain ⟨c, hc1, hc2, hc3⟩ := hcur
  rw [hc1]
  have hp : m * ((2 * m - y + x) % 2) ≤ m := by
    rcases Nat.mod_two_eq_zero_or_one (2 * m - y + x) with hp | hp <;> rw [hp] <;> omega
  obtain ⟨k1, k2⟩ := inv_half hodd hc2 hc3 hy
  rw [w64_of_lt (x := m * ((2 * m - y + x) % 2)) (by omega), w64_of_lt (x := c + _) (by omega)]
  generalize (2 * m - y + x) * (w * 2 ^ 32 / m) / 2 ^ 32 = Q at *
  rw [w64_of_lt (x := Q * m) (by omega), sub64_of_le (by omega) s1]
  refine ⟨Q, k1, by simp only; omega, k2, ?_⟩
  simp only
  rw [show 2 * m + x - y = 2 * m - y + x by omega]
  omega

theorem invAvx_out {m w x y : Nat} (hm : SmallMod m) (hodd : m % 2 = 1) (hw : w < m) (hx : x ≤ 2 * m)
    (hy : y ≤ 2 * m) : ∃ Q, InvOut m w x y (invAvx m w (scalePower m w) x y) Q := by
  have h1 := hm.two
  have h2 := hm.small
  obtain ⟨e, hwp⟩ := scalePower_eq hm hw
  have ht : 2 * m - y + x < 2 ^ 32 := by omega
  obtain ⟨s1, s2⟩ := shoup (w := w) (y := 2 * m - y + x) (m := m) (by omega) ht
  have hwy : w * (2 * m - y + x) < 2 ^ 62 := by
    calc w * (2 * m - y + x) ≤ 2 ^ 30 * (2 * m - y + x) := Nat.mul_le_mul_right _ (by omega)
      _ < 2 ^ 30 * 2 ^ 32 := Nat.mul_lt_mul_of_pos_left (by omega) (by norm_num)
      _ = 2 ^ 62 := by norm_num
  have hyw : (2 * m - y + x) * (w * 2 ^ 32 / m) / 2 ^ 32 < 2 ^ 32 := by
    rw [Nat.div_lt_iff_lt_mul (by norm_num)]
    calc (2 * m - y + x) * (w * 2 ^ 32 / m) ≤ (2 * m - y + x) * 2 ^ 32 := Nat.mul_le_mul_left _ (by omega)
      _ < 2 ^ 32 * 2 ^ 32 := Nat.mul_lt_mul_of_pos_right (by omega) (by norm_num)
  unfold invAvx
  rw [e]
  simp only
  rw [w64_of_lt (x := 2 * m) (by omega), sub64_of_le (x := 2 * m) (by omega) hy,
    w64_of_lt (x := 2 * m - y + x) (by omega), w64_of_lt (x := x + y) (by omega),
    w64_of_lt (x := x * 2) (by omega), w32_of_lt ht, w32_of_lt hwp, w32_of_lt hyw,
    w32_of_lt (x := w) (by omega), w32_of_lt (x := m) (by omega), cmpgt_of_lt (by omega) (by omega)]
  have hcur : ∃ c, sub64 (x + y) (if decide (x * 2 > 2 * m - y + x) = true then 2 * m else 0) = c ∧ c ≤ 2 * m ∧
      (c = x + y ∨ c + 2 * m = x + y) := by
    simp only [decide_eq_true_eq]
    split_ifs with hc
    · rw [sub64_of_le (by omega) (by omega)]
      exact ⟨_, rfl, by omega, by omega⟩
    · rw [sub64_of_le (by omega) (by omega)]
      exact ⟨_, rfl, by omega, by omega⟩
  obtain ⟨c, hc1, hc2, hc3⟩ := hcur
  rw [hc1]
  have hp : (if (2 * m - y + x) % 2 = 1 then m else 0) = m * ((2 * m - y + x) % 2) := by
    rcases Nat.mod_two_eq_zero_or_one (2 * m - y + x) with hp | hp <;> rw [hp] <;> simp
  have hp2 : m * ((2 * m - y + x) % 2) ≤ m := by
    rcases Nat.mod_two_eq_zero_or_one (2 * m - y + x) with hp | hp <;> rw [hp] <;> omega
  obtain ⟨k1, k2⟩ := inv_half hodd hc2 hc3 hy
  rw [hp, w64_of_lt (x := c + _) (by omega), Nat.mul_comm (2 * m - y + x) w]
  generalize (2 * m - y + x) * (w * 2 ^ 32 / m) / 2 ^ 32 = Q at *
  rw [sub64_of_le (by omega) s1]
  refine ⟨Q, k1, by simp only; omega, k2, ?_⟩
  simp only
  rw [show 2 * m + x - y = 2 * m - y + x by omega]
  omega

theorem InvOut.cast {m w x y : Nat} {r : Nat × Nat} {Q : Nat} (h : InvOut m w x y r Q) (hy : y ≤ 2 * m) :
    2 * ((r.1 : Nat) : ZMod m) = x + y ∧ ((r.2 : Nat) : ZMod m) = w * (x - y) := by
  obtain ⟨-, -, ⟨a, b, h3⟩, h4⟩ := h
  have hm : ((m : Nat) : ZMod m) = 0 := ZMod.natCast_self m
  have h3' := congrArg (Nat.cast : Nat → ZMod m) h3
  have h4' := congrArg (Nat.cast : Nat → ZMod m) h4
  rw [Nat.cast_mul w, Nat.cast_sub (by omega)] at h4'
  push_cast at h3' h4'
  rw [hm] at h3' h4'
  constructor
  · linear_combination h3'
  · linear_combination h4'

end Psi.Spiral
